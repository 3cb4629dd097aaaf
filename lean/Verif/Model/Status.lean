import Verif.Model.Frame
import Verif.Model.Holes
/-! # Model of `status/status.go` -/
namespace Saratoga

/-- `Status` (status/status.go:19-26). -/
structure Status where
  header : BitVec 32
  session : BitVec 32
  tstamp : Timestamp
  progress : BitVec 64
  inrespto : BitVec 64
  holes : List Hole
deriving DecidableEq, Repr

/-- The zero value (status/status.go:19-26). -/
def Status.zero : Status := ⟨0, 0, Timestamp.zero, 0, 0, []⟩

/-- `Sinfo` (status/status.go:28-33). -/
structure Sinfo where
  session : BitVec 32
  progress : BitVec 64
  inrespto : BitVec 64
  holes : List Hole
deriving DecidableEq, Repr

/-- Flag names handled by a plain `Set` (status/status.go:78). -/
def statusNames : List String :=
  ["descriptor", "stream", "metadatarecvd", "allholes", "reqholes", "errcode"]

/-- Bare timestamp type names (status/status.go:94). -/
def statusTsNames : List String := ["localinterp", "posix32", "posix64", "posix32_32", "posix64_32"]

/-- Body of the flag loop of `Status.New` (status/status.go:75-103). -/
def Status.newStep (T : Tables) (clock : GoTime) (s : Status) (f : List String) :
    Out (Status × Option Err) :=
  let n := first f
  if n ∈ statusNames then do
    let v ← second f
    let h ← set T s.header n v
    pure ({ s with header := h }, none)
  else if n = "reqtstamp" then do
    let v ← second f
    let h ← set T s.header n v
    if v = "yes" then do
      let (ts, e) ← s.tstamp.now T "posix32" clock
      pure ({ s with header := h, tstamp := ts }, e)
    else pure ({ s with header := h }, none)
  else if n ∈ statusTsNames then do
    let (ts, e) ← s.tstamp.now T n clock
    match e with
    | some e => pure ({ s with tstamp := ts }, some e)
    | none => do
      let h ← set T s.header "reqtstamp" "yes"
      pure ({ s with header := h, tstamp := ts }, none)
  else pure (s, some "Invalid Flag for Status Frame")

/-- `Status.New` (status/status.go:59-117). The holes of `info` are appended. -/
def Status.new (T : Tables) (clock : GoTime) (s : Status) (flags : String) (info : Sinfo) :
    Out (Status × Option Err) := do
  let h ← set T s.header "version" "v1"
  let h ← set T h "frametype" "status"
  let (s, e) ← flagLoop (Status.newStep T clock) { s with header := h }
    (strSplit (stripSpaces flags) ',')
  match e with
  | some e => pure (s, some e)
  | none => pure ({ s with session := info.session, progress := info.progress,
                           inrespto := info.inrespto, holes := s.holes ++ info.holes }, none)

/-- `Status.Make` (status/status.go:121-145). -/
def Status.make (T : Tables) (s : Status) (header : BitVec 32) (info : Sinfo) :
    Out (Status × Option Err) := do
  let h ← set T header "version" "v1"
  let h ← set T h "frametype" "status"
  pure ({ s with header := h, session := info.session, progress := info.progress,
                 inrespto := info.inrespto, holes := s.holes ++ info.holes }, none)

/-- The hole loop of `Status.Encode` (status/status.go:195-200, 206-211, 217-222). `uintN(int)`
truncates. -/
def Status.putHoles (n : Nat) : List Byte → Nat → List Hole → Out (List Byte)
  | frame, _, [] => .ret frame
  | frame, pos, h :: hs => do
    let frame ← putAt frame pos (pos + n) (numBytes n (BitVec.ofInt 64 h.start))
    let frame ← putAt frame (pos + n) (pos + n + n) (numBytes n (BitVec.ofInt 64 h.stop))
    Status.putHoles n frame (pos + n + n) hs

/-- `Status.Encode` (status/status.go:148-235). `havetstamp` is never set, so the 16 bytes reserved
for a timestamp stay unused at the end of the frame. -/
def Status.encode (T : Tables) (s : Status) : Out (Except Err (List Byte)) := do
  let rt ← getStr T s.header "reqtstamp"
  let extra := if rt = "yes" then 16 else 0
  let desc ← getStr T s.header "descriptor"
  match descSize desc with
  | none => pure (.error "invalid descriptor in status")
  | some n => do
    let framelen := 4 + 4 + extra + (n * 2 + n * s.holes.length * 2)
    let frame := mkBytes framelen
    let frame ← putAt frame 0 4 (be32 s.header)
    let frame ← putAt frame 4 8 (be32 s.session)
    let frame ← putAt frame 8 (8 + n) (numBytes n s.progress)
    let frame ← putAt frame (8 + n) (8 + n + n) (numBytes n s.inrespto)
    let frame ← Status.putHoles n frame (8 + n + n) s.holes
    pure (.ok frame)

/-- The hole loop of `Status.Decode` (status/status.go:266-272, 281-287, 296-302), `k` rounds. -/
def Status.getHoles (frame : List Byte) (n : Nat) : Nat → Nat → List Hole → Out (List Hole)
  | 0, _, acc => .ret acc
  | k + 1, pos, acc => do
    let a ← readNum frame pos n
    let b ← readNum frame (pos + n) n
    Status.getHoles frame n k (pos + n + n) (acc ++ [⟨a.toInt, b.toInt⟩])

/-- `Status.Decode` (status/status.go:238-322). `int(uint64)` keeps the bits. -/
def Status.decode (T : Tables) (s : Status) (frame : List Byte) : Out (Status × Option Err) :=
  if frame.length < 12 then pure (s, some "status frame too short")
  else do
    let header ← readWord frame 0
    let session ← readWord frame 4
    let s := { s with header := header, session := session }
    let rt ← getStr T s.header "reqtstamp"
    let (s, e, pos) ← (if rt = "yes" then do
        let tb ← slice frame 8 24
        let (ts, e) ← s.tstamp.get T tb
        pure ({ s with tstamp := ts }, e, 24)
      else pure (s, none, 8) : Out (Status × Option Err × Nat))
    match e with
    | some e => pure (s, some e)
    | none => do
      let desc ← getStr T s.header "descriptor"
      match descSize desc with
      | none => pure (s, some "invalid descriptor in status")
      | some n => do
        let p ← readNum frame pos n
        let i ← readNum frame (pos + n) n
        let pos := pos + n + n
        let rest ← sliceFrom frame pos
        let hs ← Status.getHoles frame n (rest.length / 2 / n) pos s.holes
        pure ({ s with progress := p, inrespto := i, holes := hs }, none)

/-- `Status.ShortPrint` (status/status.go:346-357), reduced to whether it returns. -/
def Status.shortPrint (T : Tables) (s : Status) : Out Unit := do
  let rt ← getStr T s.header "reqtstamp"
  if rt = "yes" then s.tstamp.print T else pure ()
  let _ ← getStr T s.header "errcode"
  pure ()

/-- `Status.Print` (status/status.go:325-343), reduced to whether it returns. -/
def Status.print (T : Tables) (s : Status) : Out Unit := do
  (values T "status").forM fun f => do let _ ← getStr T s.header f; pure ()
  let rt ← getStr T s.header "reqtstamp"
  if rt = "yes" then s.tstamp.print T else pure ()

end Saratoga
