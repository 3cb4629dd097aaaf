import Verif.Model.Frame
/-! # Model of `data/data.go` -/
namespace Saratoga

/-- `Data` (data/data.go:18-24). -/
structure Data where
  header : BitVec 32
  session : BitVec 32
  tstamp : Timestamp
  offset : BitVec 64
  payload : List Byte
deriving DecidableEq, Repr

/-- The zero value (data/data.go:18-24). -/
def Data.zero : Data := ⟨0, 0, Timestamp.zero, 0, []⟩

/-- `Dinfo` (data/data.go:27-31). -/
structure Dinfo where
  session : BitVec 32
  offset : BitVec 64
  payload : List Byte
deriving DecidableEq, Repr

/-- Timestamp type names accepted as `reqtstamp` value (data/data.go:80, 127). -/
def dataTsNames : List String :=
  ["localinterp", "posix32", "posix64", "posix32_32", "posix64_32", "epoch2000_32"]

/-- Body of the flag loop of `Data.New` (data/data.go:65-96). -/
def Data.newStep (T : Tables) (clock : GoTime) (d : Data) (f : List String) :
    Out (Data × Option Err) :=
  let n := first f
  if n = "version" ∨ n = "descriptor" ∨ n = "reqstatus" ∨ n = "eod" then do
    let v ← second f
    let h ← set T d.header n v
    pure ({ d with header := h }, none)
  else if n = "transfer" then do
    let v ← second f
    if v = "bundle" then pure (d, some "bundle transfers not supported") else pure (d, none)
  else if n = "reqtstamp" then do
    let v ← second f
    if v = "no" then do
      let h ← set T d.header n v
      pure ({ d with header := h }, none)
    else if v ∈ dataTsNames then do
      let h ← set T d.header n "yes"
      let (ts, e) ← d.tstamp.now T v clock
      pure ({ d with header := h, tstamp := ts }, e)
    else if v = "yes" then do
      let h ← set T d.header n "yes"
      let (ts, e) ← d.tstamp.now T "posix32" clock
      pure ({ d with header := h, tstamp := ts }, e)
    else pure (d, some "invalid timestamp type in data")
  else pure (d, some "invalid flag in data")

/-- `Data.New` (data/data.go:49-108). -/
def Data.new (T : Tables) (clock : GoTime) (d : Data) (flags : String) (info : Dinfo) :
    Out (Data × Option Err) := do
  let h ← set T d.header "version" "v1"
  let h ← set T h "frametype" "data"
  let (d, e) ← flagLoop (Data.newStep T clock) { d with header := h } (strSplit (stripSpaces flags) ',')
  match e with
  | some e => pure (d, some e)
  | none => pure ({ d with session := info.session, offset := info.offset, payload := info.payload }, none)

/-- `Data.Make` (data/data.go:112-149). -/
def Data.make (T : Tables) (clock : GoTime) (d : Data) (header : BitVec 32) (info : Dinfo) :
    Out (Data × Option Err) := do
  let h ← set T header "version" "v1"
  let h ← set T h "frametype" "data"
  let d := { d with header := h }
  let tstamp ← getStr T d.header "reqtstamp"
  let fin (d : Data) : Data :=
    { d with session := info.session, offset := info.offset, payload := info.payload }
  if tstamp = "no" then pure (fin d, none)
  else if tstamp ∈ dataTsNames then do
    let (ts, e) ← d.tstamp.now T tstamp clock
    match e with
    | some e => pure ({ d with tstamp := ts }, some e)
    | none => pure (fin { d with tstamp := ts }, none)
  else if tstamp = "yes" then do
    let (ts, e) ← d.tstamp.now T "posix32" clock
    match e with
    | some e => pure ({ d with tstamp := ts }, some e)
    | none => pure (fin { d with tstamp := ts }, none)
  else do
    let _ ← getStr T d.header "reqtstamp"
    pure (d, some "invalid timestamp type")

/-- `Data.Decode` (data/data.go:152-211). -/
def Data.decode (T : Tables) (d : Data) (frame : List Byte) : Out (Data × Option Err) :=
  if frame.length < 10 then pure (d, some "data frame too short")
  else do
    let header ← readWord frame 0
    let session ← readWord frame 4
    let d := { d with header := header, session := session }
    let rt ← getStr T d.header "reqtstamp"
    if rt = "yes" then do
      let tb ← slice frame 8 24
      let (ts, e) ← d.tstamp.get T tb
      let d := { d with tstamp := ts }
      match e with
      | some e => pure (d, some e)
      | none => do
        let desc ← getStr T d.header "descriptor"
        match descSize desc with
        | none => pure (d, some "invalid descriptor in data")
        | some n => do
          let off ← readNum frame 24 n
          let pay ← sliceFrom frame (24 + n)
          let d := { d with offset := off, payload := pay }
          if n = 2 ∧ pay.length = 0 then pure (d, some "length of data payload is 0")
          else pure (d, none)
    else do
      let desc ← getStr T d.header "descriptor"
      match descSize desc with
      | none => pure (d, some "invalid descriptor in data")
      | some n => do
        let off ← readNum frame 8 n
        let pay ← sliceFrom frame (8 + n)
        pure ({ d with offset := off, payload := pay }, none)

/-- `Data.Encode` (data/data.go:214-267). The second switch on the descriptor repeats the first one. -/
def Data.encode (T : Tables) (d : Data) : Out (Except Err (List Byte)) := do
  let rt ← getStr T d.header "reqtstamp"
  let havetstamp := decide (rt = "yes")
  let desc ← getStr T d.header "descriptor"
  match descSize desc with
  | none => pure (.error "invalid descriptor in data")
  | some n => do
    let framelen := 4 + 4 + (if havetstamp then 16 else 0) + n + d.payload.length
    let frame := mkBytes framelen
    let frame ← putAt frame 0 4 (be32 d.header)
    let frame ← putAt frame 4 8 (be32 d.session)
    let pos := if havetstamp then 24 else 8
    let frame ← (if havetstamp then do
      let ts ← d.tstamp.put T
      copyAt frame 8 24 ts
    else pure frame)
    let frame ← putAt frame pos (pos + n) (numBytes n d.offset)
    let frame ← copyAt frame (pos + n) frame.length d.payload
    pure (.ok frame)

/-- `Data.ShortPrint` (data/data.go:287-296), reduced to whether it returns. -/
def Data.shortPrint (T : Tables) (d : Data) : Out Unit := do
  let rt ← getStr T d.header "reqtstamp"
  if rt = "yes" then d.tstamp.print T else pure ()

/-- `Data.Print` (data/data.go:270-284), reduced to whether it returns. -/
def Data.print (T : Tables) (d : Data) : Out Unit := do
  (values T "data").forM fun f => do let _ ← getStr T d.header f; pure ()
  let rt ← getStr T d.header "reqtstamp"
  if rt = "yes" then d.tstamp.print T else pure ()

end Saratoga
