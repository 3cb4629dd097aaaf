import Verif.Model.Cliflags
import Verif.Model.Files
import Verif.Model.Holes
import Verif.Model.Metadata
import Verif.Model.Request
import Verif.Model.Sarnet
/-!
# Model of the transfer table of `sarwin/sarwin.go` (lines 861-1086, 1190-1229, 2078-2105)

The messages of `NewInitiator` are in `Model/TranSays.lean`, those of `NewResponder` are left out. What the operating system and the network library answer
enters as a parameter (`TranEnv`). The tables functions `Lookup` and `Match` return pointers: `Match` into
the table, `Lookup` to the loop variable, a copy of the entry. No code writes through them while the
program runs (the handlers in saratoga/saratoga.go:29-164 are commented out), so a pointer is a value here;
`changeVia` below says what a write through `Lookup` does.
-/
namespace Saratoga

/-- `Transfer` (sarwin/sarwin.go:861-892). A connection is the text of its remote address
(`Conn.RemoteAddr().String()`). Left out: `Tstamp`, `Dcount`, `Framecount`, which nothing reads. -/
structure Transfer where
  direction : Bool
  session : BitVec 32
  conn : Option String
  peer : UDPAddr
  ttype : String
  tstamptype : String
  filename : List Byte
  fp : Option Handle
  filemeta : Option FileInfo
  version : String
  fileordir : String
  udplite : String
  descriptor : String
  stream : String
  csumtype : String
  havemeta : Bool
  checksum : List Byte
  dir : Option DirEnt
  data : List Byte
  progress : BitVec 64
  inrespto : BitVec 64
  curfills : List Hole
  cliflags : Option Cliflags
deriving DecidableEq, Repr

/-- `new(Transfer)` (sarwin/sarwin.go:862-891). -/
def Transfer.zero : Transfer where
  direction := false
  session := 0
  conn := none
  peer := ⟨[], 0, ""⟩
  ttype := ""
  tstamptype := ""
  filename := []
  fp := none
  filemeta := none
  version := ""
  fileordir := ""
  udplite := ""
  descriptor := ""
  stream := ""
  csumtype := ""
  havemeta := false
  checksum := []
  dir := none
  data := []
  progress := 0
  inrespto := 0
  curfills := []
  cliflags := none

/-- `Initiator`, `Responder` (sarwin/sarwin.go:853-854). -/
def initiator : Bool := true

/-- `Responder` (sarwin/sarwin.go:854). -/
def responder : Bool := false

/-- The outside world: `str` is `net.UDPAddr.String`, `resolve` is `net.ResolveUDPAddr("udp", ·)`, `dial`
is `net.DialUDP("udp", nil, ·)` with the remote address text of the connection, `file` is the file part (asked at
sarwin/sarwin.go:921-1086). -/
structure TranEnv where
  str : UDPAddr → String
  resolve : String → Except Err UDPAddr
  dial : UDPAddr → Except Err String
  sardir : List Byte
  pid : BitVec 32
  file : FileEnv

/-- `Transfers`, `sessionid` (sarwin/sarwin.go:859, 896) and the file system. -/
structure TranWorld where
  transfers : List Transfer
  sessionid : BitVec 32
  fs : FS

/-- `Lookup` (sarwin/sarwin.go:899-909). -/
def lookup (str : UDPAddr → String) (ts : List Transfer) (direction : Bool) (session : BitVec 32)
    (peer : String) : Option Transfer :=
  ts.find? fun t => direction = t.direction ∧ session = t.session ∧ str t.peer = peer

/-- The loop of `Match` (sarwin/sarwin.go:913-917) from index `n - 1` down; the result is the index. A
transfer without connection panics. -/
def matchLoop (ts : List Transfer) (addr : String) (session : BitVec 32) : Nat → Out (Option Nat)
  | 0 => .ret none
  | n + 1 =>
    match ts[n]? with
    | none => .panic
    | some t =>
      match t.conn with
      | none => .panic
      | some a => if addr = a ∧ session = t.session then .ret (some n) else matchLoop ts addr session n

/-- `Match` (sarwin/sarwin.go:912-919). -/
def matchTran (ts : List Transfer) (addr : String) (session : BitVec 32) : Out (Option Nat) :=
  matchLoop ts addr session ts.length

/-- The loop of `Remove` (sarwin/sarwin.go:1220-1225) from index `n - 1` down. -/
def removeTranLoop (str : UDPAddr → String) (t : Transfer) (ts : List Transfer) :
    Nat → List Transfer × Option Err
  | 0 => (ts, some "Cannot remove Transfer")
  | n + 1 =>
    if (lookup str ts t.direction t.session (str t.peer)).isSome then (ts.take n ++ ts.drop (n + 1), none)
    else removeTranLoop str t ts n

/-- `Transfer.Remove` (sarwin/sarwin.go:1216-1229). -/
def Transfer.remove (str : UDPAddr → String) (t : Transfer) (ts : List Transfer) :
    List Transfer × Option Err :=
  removeTranLoop str t ts ts.length

/-- How the first loop of `NewInitiator` ends (sarwin/sarwin.go:921-986). -/
inductive Scan where
  | clear
  | noConnection (i : Transfer)
  | fileExists
  | inProgress
deriving DecidableEq, Repr

/-- The loop of `NewInitiator` over the table (sarwin/sarwin.go:924-950). -/
def scanTransfers (env : TranEnv) (fs : FS) (ttype : String) (peer : UDPAddr) (fname : List Byte) :
    List Transfer → Scan
  | [] => .clear
  | i :: rest =>
    if i.conn = none then .noConnection i
    else if fileExists env.sardir fs fname ∧ (ttype = "get" ∨ ttype = "getdelete" ∨ ttype = "getdir") then
      .fileExists
    else if fname = i.filename ∧ env.str peer = env.str i.peer then .inProgress
    else scanTransfers env fs ttype peer fname rest

/-- `newsession` called by one goroutine alone (sarwin/sarwin.go:736-746); calls at the same time are in
`Model/Session.lean`. -/
def newSession (pid id : BitVec 32) : BitVec 32 := if id = 0 then pid + 1 else id + 1

/-- The part of `NewInitiator` under the lock (sarwin/sarwin.go:954-985). Failures to dial and to open the
file are only printed. -/
def addInitiator (env : TranEnv) (c : Cliflags) (w : TranWorld) (ttype : String) (peer : UDPAddr)
    (fname : List Byte) : Out (TranWorld × Transfer) := do
  let id := newSession env.pid w.sessionid
  let conn := match env.dial peer with
    | .ok a => some a
    | .error _ => none
  let (fs, opened) := fileOpen env.sardir w.fs fname ttype
  let fp := match opened with
    | .ok h => h
    | .error _ => none
  let fm ← env.file.fileMeta fname
  let filemeta := match fm with
    | .ok i => some i
    | .error _ => none
  match c.copy with
  | .error _ => .panic
  | .ok flags =>
    let t := { Transfer.zero with
      direction := initiator, ttype := ttype, tstamptype := c.timestamp, session := id, peer := peer
      conn := conn, filename := fname, fp := fp, filemeta := filemeta, cliflags := some flags }
    .ret ({ transfers := w.transfers ++ [t], sessionid := id, fs := fs }, t)

/-- `NewInitiator` (sarwin/sarwin.go:922-986). -/
def newInitiator (env : TranEnv) (c : Cliflags) (w : TranWorld) (ttype : String) (peer : UDPAddr)
    (fname : List Byte) : Out (TranWorld × Except Err Transfer) :=
  match scanTransfers env w.fs ttype peer fname w.transfers with
  | .noConnection i =>
    .ret ({ w with transfers := (i.remove env.str w.transfers).1 }, .error "No connection exists to peer")
  | .fileExists => .ret (w, .error "File already exists, cannot overwrite")
  | .inProgress => .ret (w, .error "Initiator currently in progress")
  | .clear => do
    let (w, t) ← addInitiator env c w ttype peer fname
    .ret (w, .ok t)

/-- The property and reliability of a file (sarwin/sarwin.go:1047-1056). -/
def responderKind : Mode → String × String
  | .directory => ("normaldirectory", "yes")
  | .symlink true => ("normaldirectory", "yes")
  | .regular => ("normalfile", "yes")
  | _ => ("specialfile", "no")

/-- The flags for the directory entry in `NewResponder` (sarwin/sarwin.go:1037-1066) with the metadata of
the file. -/
def responderFlags (T : Tables) (env : TranEnv) (ttype descriptor : String) (fname : List Byte) :
    Out (Except Err (String × Option FileInfo)) :=
  if ttype = "get" ∨ ttype = "getrm" ∨ ttype = "rm" then do
    let fm ← env.file.fileMeta fname
    match fm with
    | .error e => .ret (.error e)
    | .ok i => do
      let flags ← addFlag T "" "property" (responderKind i.mode).1
      let flags ← addFlag T flags "reliability" (responderKind i.mode).2
      let flags ← addFlag T flags "descriptor" descriptor
      .ret (.ok (flags, some i))
  else if ttype = "put" ∨ ttype = "putrm" then do
    let flags ← addFlag T "" "reliability" "yes"
    .ret (.ok (flags, none))
  else if ttype = "putblind" then do
    let flags ← addFlag T "" "reliability" "no"
    .ret (.ok (flags, none))
  else .ret (.ok ("", none))

/-- `NewResponder` (sarwin/sarwin.go:990-1086); no code calls it. -/
def newResponder (T : Tables) (env : TranEnv) (c : Cliflags) (ts : List Transfer) (r : Request)
    (peer : String) : Out (List Transfer × Option Err) := do
  if (lookup env.str ts responder r.session peer).isSome then .ret (ts, some "Transfer is currently in progress")
  else match env.resolve peer with
    | .error e => .ret (ts, some e)
    | .ok udpaddr =>
      match env.dial udpaddr with
      | .error e => .ret (ts, some e)
      | .ok tc => do
        let version ← getStr T r.header "version"
        let ttype ← getStr T r.header "reqtype"
        let fileordir ← getStr T r.header "fileordir"
        let udplite ← getStr T r.header "udplite"
        let stream ← getStr T r.header "stream"
        let descriptor ← getStr T r.header "descriptor"
        let fl ← responderFlags T env ttype descriptor r.fname
        match fl with
        | .error e => .ret (ts, some e)
        | .ok (flags, filemeta) => do
          let (d, e) ← DirEnt.new T env.file DirEnt.zero flags r.fname
          match e with
          | some e => .ret (ts, some e)
          | none =>
            match c.copy with
            | .error _ => .ret (ts, some "cannot copy CLI flags for transfer")
            | .ok cf =>
              let t := { Transfer.zero with
                conn := some tc, peer := udpaddr, direction := responder, session := r.session
                version := version, ttype := ttype, fileordir := fileordir, udplite := udplite
                stream := stream, descriptor := descriptor, filename := r.fname, filemeta := filemeta
                dir := some d, cliflags := some cf }
              .ret (ts ++ [t], none)

/-- Making the file buffer, only once (sarwin/sarwin.go:1202-1204). `room` is the largest buffer Go can
make. -/
def Transfer.makeBuffer (room : Nat) (t : Transfer) (size : BitVec 64) : Out Transfer :=
  if t.data.length = 0 then
    if size.toNat ≤ room then .ret { t with data := mkBytes size.toNat } else .panic
  else .ret t

/-- `Transfer.Change` (sarwin/sarwin.go:1191-1213). -/
def Transfer.change (T : Tables) (room : Nat) (t : Transfer) (m : MetaData) : Out (Transfer × Option Err) := do
  let ct ← getStr T m.header "csumtype"
  let t ← Transfer.makeBuffer room { t with csumtype := ct, checksum := m.checksum, dir := some m.dir } m.dir.size
  if (t.data.length : Int) ≠ m.dir.size.toInt then .ret (t, some "Size of File Differs")
  else .ret ({ t with havemeta := true }, none)

/-- `Lookup(...).Change(g, m)` as in saratoga/saratoga.go:73-74 (commented out): `Lookup` returns the
address of its loop variable, so the copy is changed and the table is not. -/
def changeVia (T : Tables) (room : Nat) (str : UDPAddr → String) (ts : List Transfer) (direction : Bool)
    (session : BitVec 32) (peer : String) (m : MetaData) : Out (List Transfer × String) :=
  match lookup str ts direction session peer with
  | none => .ret (ts, "badpacket")
  | some t => do
    let (_, e) ← t.change T room m
    match e with
    | some _ => .ret (ts, "unspecified")
    | none => .ret (ts, "success")

/-- `cmdRmtran` (sarwin/sarwin.go:2078-2105) on the words of a command line; the second result says whether
the usage text is shown. -/
def cmdRmtran (str : UDPAddr → String) (ts : List Transfer) (args : List String) :
    Out (List Transfer × Bool) :=
  match args with
  | [_] => .ret (ts, true)
  | [_, _] => .ret (ts, true)
  | [_, _, addr, s] =>
    match parseUint32 s with
    | none => .ret (ts, true)
    | some session => do
      let m ← matchTran ts addr session
      match m with
      | none => .ret (ts, true)
      | some i =>
        match ts[i]? with
        | none => .panic
        | some t => .ret ((t.remove str ts).1, false)
  | _ => .ret (ts, true)

/-! ## What happens to the table -/

/-- One thing a user of the table does. Removing is done with a transfer the caller holds; it need not be in
the table any more (sarwin/sarwin.go:898-1229, 2078-2106). -/
inductive TranOp where
  | initiate (c : Cliflags) (ttype : String) (peer : UDPAddr) (fname : List Byte)
  | respond (c : Cliflags) (r : Request) (peer : String)
  | remove (t : Transfer)
  | rmtran (args : List String)

/-- One use of the table (sarwin/sarwin.go:898-1229, 2078-2106). -/
def TranWorld.step (T : Tables) (env : TranEnv) (w : TranWorld) : TranOp → Out TranWorld
  | .initiate c ttype peer fname => do
    let (w, _) ← newInitiator env c w ttype peer fname
    .ret w
  | .respond c r peer => do
    let (ts, _) ← newResponder T env c w.transfers r peer
    .ret { w with transfers := ts }
  | .remove t => .ret { w with transfers := (t.remove env.str w.transfers).1 }
  | .rmtran args => do
    let (ts, _) ← cmdRmtran env.str w.transfers args
    .ret { w with transfers := ts }

/-- Uses of the table one after another, each in its own outside world (sarwin/sarwin.go:898-1229, 2078-2106). -/
def TranWorld.run (T : Tables) (w : TranWorld) : List (TranEnv × TranOp) → Out TranWorld
  | [] => .ret w
  | (env, op) :: ops => do
    let w ← w.step T env op
    w.run T ops

/-! ## Two commands at the same time -/

/-- Where a running `NewInitiator` is: before the scan, before the lock, finished (sarwin/sarwin.go:921-986). -/
inductive InitPc where
  | scanning
  | passed
  | finished (r : Except Err Transfer)

/-- A running call (sarwin/sarwin.go:921-986). -/
structure InitCall where
  ttype : String
  peer : UDPAddr
  fname : List Byte
  pc : InitPc

/-- The next step of call `k`: the scan of the table is done without the lock, the rest with it
(sarwin/sarwin.go:921-986). -/
def initStep (env : TranEnv) (c : Cliflags) (s : TranWorld × List InitCall) (k : Nat) :
    Out (TranWorld × List InitCall) :=
  match s.2[k]? with
  | none => .ret s
  | some call =>
    match call.pc with
    | .finished _ => .ret s
    | .scanning =>
      match scanTransfers env s.1.fs call.ttype call.peer call.fname s.1.transfers with
      | .clear => .ret (s.1, s.2.set k { call with pc := .passed })
      | .noConnection i =>
        .ret ({ s.1 with transfers := (i.remove env.str s.1.transfers).1 },
          s.2.set k { call with pc := .finished (.error "No connection exists to peer") })
      | .fileExists => .ret (s.1, s.2.set k { call with pc := .finished (.error "File already exists") })
      | .inProgress => .ret (s.1, s.2.set k { call with pc := .finished (.error "currently in progress") })
    | .passed => do
      let (w, t) ← addInitiator env c s.1 call.ttype call.peer call.fname
      .ret (w, s.2.set k { call with pc := .finished (.ok t) })

/-- A schedule: which call makes the next step (sarwin/sarwin.go:921-986). -/
def initRun (env : TranEnv) (c : Cliflags) (s : TranWorld × List InitCall) :
    List Nat → Out (TranWorld × List InitCall)
  | [] => .ret s
  | k :: ks => do
    let s ← initStep env c s k
    initRun env c s ks

end Saratoga
