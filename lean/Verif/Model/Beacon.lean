import Verif.Model.Frame
/-! # Model of the frame part of `beacon/beacon.go` -/
namespace Saratoga

/-- `Beacon` (beacon/beacon.go:21-25). -/
structure Beacon where
  header : BitVec 32
  freespace : BitVec 64
  eid : List Byte
deriving DecidableEq, Repr

/-- The zero value (beacon/beacon.go:21-25). -/
def Beacon.zero : Beacon := ⟨0, 0, []⟩

/-- `Binfo` (beacon/beacon.go:26-29). -/
structure Binfo where
  freespace : BitVec 64
  eid : List Byte
deriving DecidableEq, Repr

/-- What the operating system answers to `os.Getwd` and `syscall.Statfs`. `statfs` is
`(Bsize, Bavail)` (asked at beacon/beacon.go:89-133). -/
structure DiskEnv where
  getwd : Option Err
  statfs : Except Err (BitVec 64 × BitVec 64)
deriving Repr

/-- Flag names handled by a plain `Set` (beacon/beacon.go:64). -/
def beaconNames : List String :=
  ["descriptor", "stream", "txwilling", "rxwilling", "udplite", "freespace"]

/-- Body of the flag loop of `Beacon.New` (beacon/beacon.go:60-88). -/
def Beacon.newStep (T : Tables) (b : Beacon) (f : List String) : Out (Beacon × Option Err) :=
  let n := first f
  if n ∈ beaconNames then do
    let v ← second f
    let h ← set T b.header n v
    pure ({ b with header := h }, none)
  else if n = "freespaced" then do
    let h ← set T b.header "freespace" "yes"
    let v ← second f
    if v = "d16" ∨ v = "d32" ∨ v = "d64" then do
      let h ← set T h n v
      pure ({ b with header := h }, none)
    else pure ({ b with header := h }, some "Beacon.New: Invalid freespaced")
  else do
    let _ ← second f
    pure (b, some "Beacon.New: Invalid Flag")

/-- The common tail of `Beacon.New` and `Beacon.Make` (beacon/beacon.go:89-133, 151-196). -/
def Beacon.finish (T : Tables) (env : DiskEnv) (b : Beacon) (info : Binfo) :
    Out (Beacon × Option Err) := do
  let b := { b with eid := info.eid }
  let fsp ← getStr T b.header "freespace"
  if fsp = "yes" then
    let b := { b with freespace := info.freespace }
    match env.getwd with
    | some e => do
      let h ← set T b.header "freespace" "no"
      pure ({ b with header := h, freespace := 0 }, some e)
    | none =>
      -- the kilobytes to advertise, or none when Statfs fails
      let fs : Option (BitVec 64) :=
        if b.freespace = 0#64 then
          match env.statfs with
          | .error _ => none
          | .ok (bsize, bavail) => some ((bsize * bavail) / 1024#64)
        else some b.freespace
      match fs with
      | none => do
        let h ← set T b.header "freespace" "no"
        pure ({ b with header := h, freespace := 0 }, none)
      | some v =>
        let b := { b with freespace := v }
        if v < 0xFFFF#64 then do
          let h ← set T b.header "freespaced" "d16"
          pure ({ b with header := h }, none)
        else if v < 0xFFFFFFFF#64 then do
          let h ← set T b.header "freespaced" "d32"
          pure ({ b with header := h }, none)
        else if v < 0xFFFFFFFFFFFFFFFF#64 then do
          let h ← set T b.header "freespaced" "d64"
          pure ({ b with header := h }, none)
        else pure (b, some "beacon.New: d128 not supported invalid beacon frame")
  else do
    let fsp ← getStr T b.header "freespace"
    if fsp = "no" then pure ({ b with freespace := 0 }, none) else pure (b, none)

/-- `Beacon.New` (beacon/beacon.go:43-134). -/
def Beacon.new (T : Tables) (env : DiskEnv) (b : Beacon) (flags : String) (info : Binfo) :
    Out (Beacon × Option Err) := do
  let h ← set T b.header "version" "v1"
  let h ← set T h "frametype" "beacon"
  let (b, e) ← flagLoop (Beacon.newStep T) { b with header := h } (strSplit (stripSpaces flags) ',')
  match e with
  | some e => pure (b, some e)
  | none => Beacon.finish T env b info

/-- `Beacon.Make` (beacon/beacon.go:138-197). -/
def Beacon.make (T : Tables) (env : DiskEnv) (b : Beacon) (header : BitVec 32) (info : Binfo) :
    Out (Beacon × Option Err) := do
  let h ← set T header "version" "v1"
  let h ← set T h "frametype" "beacon"
  Beacon.finish T env { b with header := h } info

/-- `Beacon.Encode` (beacon/beacon.go:200-245). -/
def Beacon.encode (T : Tables) (b : Beacon) : Out (Except Err (List Byte)) := do
  let fsp ← getStr T b.header "freespace"
  if fsp = "yes" then do
    let fsd ← getStr T b.header "freespaced"
    match descSize fsd with
    | none => pure (.error "invalid beacon frame")
    | some n => do
      let frame := mkBytes (4 + b.eid.length + n)
      let frame ← putAt frame 0 4 (be32 b.header)
      let frame ← putAt frame 4 (4 + n) (numBytes n b.freespace)
      let frame ← copyAt frame (4 + n) frame.length b.eid
      pure (.ok frame)
  else do
    let frame := mkBytes (4 + b.eid.length)
    let frame ← putAt frame 0 4 (be32 b.header)
    let frame ← copyAt frame 4 frame.length b.eid
    pure (.ok frame)

/-- `Beacon.Decode` (beacon/beacon.go:248-277). `d128` and unnamed sizes are both errors; only the
latter (which `GetStr` never returns for) resets the other fields. -/
def Beacon.decode (T : Tables) (b : Beacon) (frame : List Byte) : Out (Beacon × Option Err) := do
  let header ← readWord frame 0
  let b := { b with header := header }
  let fsp ← getStr T b.header "freespace"
  if fsp = "yes" then do
    let fsd ← getStr T b.header "freespaced"
    match descSize fsd with
    | some n => do
      let v ← readNum frame 4 n
      let e ← sliceFrom frame (4 + n)
      pure ({ b with freespace := v, eid := e }, none)
    | none =>
      if fsd = "d128" then pure (b, some "d128 not supported invalid beacon frame")
      else do
        let e ← sliceFrom frame 4
        pure ({ b with freespace := 0, eid := e }, some "invalid beacon frame")
  else do
    let e ← sliceFrom frame 4
    pure ({ b with freespace := 0, eid := e }, none)

/-- `Beacon.ShortPrint` (beacon/beacon.go:295-302), reduced to whether it returns. -/
def Beacon.shortPrint (T : Tables) (b : Beacon) : Out Unit := do
  let _ ← getStr T b.header "freespace"
  pure ()

/-- `Beacon.Print` (beacon/beacon.go:280-292), reduced to whether it returns. -/
def Beacon.print (T : Tables) (b : Beacon) : Out Unit := do
  (values T "beacon").forM fun f => do let _ ← getStr T b.header f; pure ()
  let _ ← getStr T b.header "freespace"
  pure ()

end Saratoga
