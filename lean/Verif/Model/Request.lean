import Verif.Model.Frame
/-! # Model of `request/request.go` -/
namespace Saratoga

/-- `Request` (request/request.go:17-22). `Auth == nil` and an empty `Auth` behave the same in all
modelled functions and are both `[]`. -/
structure Request where
  header : BitVec 32
  session : BitVec 32
  fname : List Byte
  auth : List Byte
deriving DecidableEq, Repr

/-- The zero value (request/request.go:17-22). -/
def Request.zero : Request := ⟨0, 0, [], []⟩

/-- `Rinfo` (request/request.go:23-27). -/
structure Rinfo where
  session : BitVec 32
  fname : List Byte
  auth : List Byte
deriving DecidableEq, Repr

/-- Flag names `Request.New` accepts (request/request.go:61-62). -/
def requestNames : List String :=
  ["frametype", "version", "descriptor", "stream", "txwilling", "rxwilling", "fileordir", "reqtype",
   "udplite"]

/-- Body of the flag loop of `Request.New` (request/request.go:58-69). The error text uses `f[1]`. -/
def Request.newStep (T : Tables) (r : Request) (f : List String) : Out (Request × Option Err) :=
  let n := first f
  if n ∈ requestNames then do
    let v ← second f
    let h ← set T r.header n v
    pure ({ r with header := h }, none)
  else do
    let _ ← second f
    pure (r, some "Request.New: Invalid Flag")

/-- `copy(dst, src)` of whole slices (meaning of Go, used at request/request.go:81-145). -/
def copyInto (dst src : List Byte) : List Byte := src.take dst.length ++ dst.drop src.length

/-- `Request.New` (request/request.go:42-77). -/
def Request.new (T : Tables) (r : Request) (flags : String) (info : Rinfo) :
    Out (Request × Option Err) := do
  let h ← set T r.header "version" "v1"
  let h ← set T h "frametype" "request"
  let (r, e) ← flagLoop (Request.newStep T) { r with header := h }
    (strSplit (trimCommas (stripSpaces flags)) ',')
  match e with
  | some e => pure (r, some e)
  | none => pure ({ r with session := info.session, fname := info.fname,
                           auth := copyInto r.auth info.auth }, none)

/-- `Request.Make` (request/request.go:81-101): `e.Elem()` on a struct value panics. -/
def Request.make (T : Tables) (_r : Request) (header : BitVec 32) (_info : Rinfo) :
    Out (Request × Option Err) := do
  let h ← set T header "version" "v1"
  let _ ← set T h "frametype" "request"
  .panic

/-- `Request.Encode` (request/request.go:104-119); the error is always nil. -/
def Request.encode (r : Request) : Out (List Byte) := do
  let framelen := 4 + 4 + r.fname.length + 1 + r.auth.length
  let frame := mkBytes framelen
  let frame ← putAt frame 0 4 (be32 r.header)
  let frame ← putAt frame 4 8 (be32 r.session)
  let pos := 8 + r.fname.length
  let frame ← copyAt frame 8 pos r.fname
  let frame ← copyAt frame pos frame.length [0#8]
  copyAt frame (pos + 1) frame.length r.auth

/-- The file name loop of `Request.Decode` (request/request.go:130-135) and the path loop of
`DirEnt.Decode` (dirent/dirent.go:241-246): `name += string(b)` up to the first NUL. -/
def nameLoop (acc : List Byte) : List Byte → List Byte
  | [] => acc
  | b :: bs => if b = 0#8 then acc else nameLoop (acc ++ runeOfByte b) bs

/-- `Request.Decode` (request/request.go:122-145). -/
def Request.decode (r : Request) (frame : List Byte) : Out (Request × Option Err) :=
  if frame.length < 9 then pure (r, some "request frame too short")
  else do
    let header ← readWord frame 0
    let session ← readWord frame 4
    let rest ← sliceFrom frame 8
    let fname := nameLoop r.fname rest
    let r := { r with header := header, session := session, fname := fname }
    let pos := 8 + 1 + fname.length
    if pos = frame.length then pure ({ r with auth := [] }, none)
    else do
      let a ← sliceFrom frame pos
      pure ({ r with auth := a }, none)

/-- `Request.Print` (request/request.go:148-159), reduced to whether it returns. -/
def Request.print (T : Tables) (r : Request) : Out Unit :=
  (values T "request").forM fun f => do let _ ← getStr T r.header f; pure ()

end Saratoga
