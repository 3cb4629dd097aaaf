import Verif.Model.Beacon
import Verif.Model.Sarnet
/-! # Model of the peer list of `beacon/beacon.go` -/
namespace Saratoga

/-- `Peer` (beacon/beacon.go:328-337). -/
structure Peer where
  addr : String
  freespace : BitVec 64
  eid : List Byte
  maxdesc : String
  canrx : String
  cantx : String
  created : Timestamp
  updated : Timestamp
deriving DecidableEq, Repr

/-- `x != GetStr(h, field)`, skipped when an earlier `||` operand was true (beacon/beacon.go:356-358). -/
def orDiffers (T : Tables) (before : Bool) (h : BitVec 32) (field x : String) : Out Bool :=
  if before then .ret true else do
    let s ← getStr T h field
    pure (decide (x ≠ s))

/-- Has anything changed since the last beacon for this peer (beacon/beacon.go:354-358). -/
def Peer.differs (T : Tables) (p : Peer) (b : Beacon) : Out Bool := do
  let d := decide (p.freespace ≠ b.freespace) || decide (p.eid ≠ b.eid)
  let d ← orDiffers T d b.header "descriptor" p.maxdesc
  let d ← orDiffers T d b.header "rxwilling" p.canrx
  orDiffers T d b.header "txwilling" p.cantx

/-- The assignments of lines 359-364 (beacon/beacon.go); the error of `Now` is dropped. -/
def Peer.refresh (T : Tables) (clock : GoTime) (p : Peer) (b : Beacon) : Out Peer := do
  let md ← getStr T b.header "descriptor"
  let rx ← getStr T b.header "rxwilling"
  let tx ← getStr T b.header "txwilling"
  let (u, _) ← p.updated.now T "posix32_32" clock
  pure { p with freespace := b.freespace, eid := b.eid, maxdesc := md, canrx := rx, cantx := tx,
                updated := u }

/-- A new entry (beacon/beacon.go:372-380). -/
def Peer.fresh (T : Tables) (clock : GoTime) (addr : String) (b : Beacon) : Out Peer := do
  let md ← getStr T b.header "descriptor"
  let rx ← getStr T b.header "rxwilling"
  let tx ← getStr T b.header "txwilling"
  let (c, _) ← Timestamp.zero.now T "posix32_32" clock
  pure { addr := addr, freespace := b.freespace, eid := b.eid, maxdesc := md, canrx := rx, cantx := tx,
         created := c, updated := c }

/-- The scan for the address (beacon/beacon.go:349-350), from index `i` on. -/
def findPeer (addr : String) : List Peer → Nat → Option Nat
  | [], _ => none
  | p :: ps, i => if p.addr = addr then some i else findPeer addr ps (i + 1)

/-- The part of `NewPeer` that follows a successful scan at index `i` (beacon/beacon.go:351-369), run
under the lock. -/
def updatePeer (T : Tables) (clock : GoTime) (peers : List Peer) (b : Beacon) (i : Nat) :
    Out (List Peer × Bool) :=
  match peers[i]? with
  | none => .panic
  | some p => do
    let d ← p.differs T b
    if d then do
      let p' ← p.refresh T clock b
      pure (peers.set i p', true)
    else pure (peers, false)

/-- The part that follows a failed scan (beacon/beacon.go:372-384); only the append is under the lock. -/
def appendPeer (T : Tables) (clock : GoTime) (peers : List Peer) (addr : String) (b : Beacon) :
    Out (List Peer × Bool) := do
  let p ← Peer.fresh T clock addr b
  pure (peers ++ [p], true)

/-- `NewPeer` (beacon/beacon.go:344-385) run without interference. `ipText` is `net.IP.String`, `clock`
the reading of the clock. -/
def newPeer (T : Tables) (ipText : List Byte → String) (clock : GoTime) (peers : List Peer) (b : Beacon)
    (from_ : Option UDPAddr) : Out (List Peer × Bool) :=
  match from_ with
  | none => .ret (peers, false)
  | some a =>
    match findPeer (ipText a.ip) peers 0 with
    | some i => updatePeer T clock peers b i
    | none => appendPeer T clock peers (ipText a.ip) b

/-! ## Several calls at the same time -/

/-- Where a call of `NewPeer` stands: before the scan, between the scan and taking the lock, or done
(beacon/beacon.go:344-385). -/
inductive CallState where
  | start
  | scanned (found : Option Nat)
  | done (result : Bool)
deriving DecidableEq, Repr

/-- One call: its arguments and where it stands (beacon/beacon.go:344-385). -/
structure PeerCall where
  beacon : Beacon
  addr : String
  clock : GoTime
  at_ : CallState
deriving DecidableEq, Repr

/-- One step of call number `k`: the scan, or everything from taking the lock to the return. (The scan
of the code is itself not atomic and reads without the lock; the coarser steps already show the
problem, and a finer scan only adds behaviours.) (beacon/beacon.go:344-385) -/
def peerStep (T : Tables) (s : List Peer × List PeerCall) (k : Nat) : Out (List Peer × List PeerCall) :=
  match s.2[k]? with
  | none => .ret s
  | some c =>
    match c.at_ with
    | .start => .ret (s.1, s.2.set k { c with at_ := .scanned (findPeer c.addr s.1 0) })
    | .scanned (some i) => do
      let (ps, r) ← updatePeer T c.clock s.1 c.beacon i
      pure (ps, s.2.set k { c with at_ := .done r })
    | .scanned none => do
      let (ps, r) ← appendPeer T c.clock s.1 c.addr c.beacon
      pure (ps, s.2.set k { c with at_ := .done r })
    | .done _ => .ret s

/-- A schedule: which call makes the next step (beacon/beacon.go:344-385). -/
def peerRun (T : Tables) (s : List Peer × List PeerCall) : List Nat → Out (List Peer × List PeerCall)
  | [] => .ret s
  | k :: ks => do
    let s ← peerStep T s k
    peerRun T s ks

end Saratoga
