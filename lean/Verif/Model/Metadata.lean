import Verif.Model.Dirent
/-! # Model of `metadata/metadata.go` and `fileio/checksum.go` -/
namespace Saratoga

/-- `MetaData` (metadata/metadata.go:19-24). -/
structure MetaData where
  header : BitVec 32
  session : BitVec 32
  checksum : List Byte
  dir : DirEnt
deriving DecidableEq, Repr

/-- The zero value (metadata/metadata.go:20-25). -/
def MetaData.zero : MetaData := ⟨0, 0, [], DirEnt.zero⟩

/-- `Minfo` (metadata/metadata.go:26-29). -/
structure Minfo where
  session : BitVec 32
  fname : List Byte
deriving DecidableEq, Repr

/-- `fileio.Checksum` (fileio/checksum.go:36-84); reading the file is assumed not to fail once it is
open. -/
def fileChecksum (T : Tables) (env : FileEnv) (csumtype : String) (fname : List Byte) :
    Except Err (List Byte) :=
  match env.openRead fname with
  | .error e => .error e
  | .ok content =>
    if csumtype = "none" then .ok []
    else
      let sum : Option (List Byte) :=
        if csumtype = "crc32" then some (env.crc32 content)
        else if csumtype = "md5" then some (env.md5 content)
        else if csumtype = "sha1" then some (env.sha1 content)
        else none
      match sum with
      | none => .error "Checksum not supported"
      | some csum =>
        let bsize := value T "csumlen" csumtype
        if bsize < 0 then .error "Checksum Length not supported"
        else if bsize * 4 ≠ csum.length then .error "Checksum Length mismatch"
        else .ok csum

/-- The directory entry property chosen for a kind of file (metadata/metadata.go:57-70). -/
def kindName : Mode → Option String
  | .regular => some "normalfile"
  | .directory => some "normaldirectory"
  | .pipe => some "specialfile"
  | _ => none

/-- The descriptor chosen for a file size (metadata/metadata.go:73-82). -/
def pickDesc (size : BitVec 64) : String :=
  if size < 0xFFFF#64 then "d16"
  else if size < 0xFFFFFFFF#64 then "d32"
  else if size < 0xFFFFFFFFFFFFFFFF#64 then "d64"
  else "d128"

/-- `statfile` (metadata/metadata.go:47-107). -/
def metaStatfile (T : Tables) (env : FileEnv) (fname : List Byte) (header : BitVec 32) :
    Out (String × Option Err) :=
  match env.lstat fname with
  | .error e => pure ("", some e)
  | .ok fi => do
    match kindName fi.mode with
    | none => pure ("", some "Unsupported file, directory or stream type")
    | some p => do
      let fl ← addFlagD T "" "property" p
      let fl ← addFlagD T fl "descriptor" (pickDesc fi.size)
      let tr ← getStr T header "transfer"
      if tr = "stream" then
        if fi.mode ≠ .pipe then pure (fl, some "not a named pipe")
        else do
          let cs ← getStr T header "csumtype"
          if cs ≠ "none" then pure (fl, some "cannot have checksum with stream transfers")
          else pure (fl, none)
      else if tr = "bundle" then pure (fl, some "bundle transfers not supported")
      else if tr = "file" then
        if fi.mode ≠ .regular then pure (fl, some "not a file") else pure (fl, none)
      else if tr = "directory" then
        if fi.mode ≠ .directory then pure (fl, some "not a directory") else pure (fl, none)
      else pure (fl, some "invalid transfer type")

/-- Flag names handled by a plain `Set` (metadata/metadata.go:130). -/
def metadataNames : List String := ["descriptor", "progress", "transfer", "reliability"]

/-- Body of the flag loop of `MetaData.New` (metadata/metadata.go:127-147); the state includes the
local variable `csumtype`. -/
def MetaData.newStep (T : Tables) (s : MetaData × String) (f : List String) :
    Out ((MetaData × String) × Option Err) :=
  let n := first f
  if n ∈ metadataNames then do
    let v ← second f
    let h ← set T s.1.header n v
    pure (({ s.1 with header := h }, s.2), none)
  else if n = "csumtype" then do
    let v ← second f
    let h ← set T s.1.header n v
    let h ← set T h "csumlen" v
    pure (({ s.1 with header := h }, v), none)
  else pure (s, some "invalid flag for MetaData Frame")

/-- The common tail of `MetaData.New` and `MetaData.Make` (metadata/metadata.go:152-186, 206-238):
`csumtype` is the text to hand to `Checksum`. The modification time is set from the creation time. -/
def MetaData.finish (T : Tables) (env : FileEnv) (m : MetaData) (csumtype : Out String)
    (fname : List Byte) : Out (MetaData × Option Err) := do
  let (fl, e) ← metaStatfile T env fname m.header
  match e with
  | some e => pure (m, some e)
  | none => do
    let (d, e) ← DirEnt.zero.new T env fl fname
    match e with
    | some e => pure (m, some e)
    | none => do
      let m := { m with dir := { header := d.header, size := d.size, ctime := d.ctime,
                                 mtime := d.ctime, path := d.path } }
      let tr ← getStr T m.header "transfer"
      if tr ≠ "stream" then do
        let cs ← csumtype
        match fileChecksum T env cs fname with
        | .error e => pure (m, some e)
        | .ok c => if c.length > 0 then pure ({ m with checksum := c }, none) else pure (m, none)
      else pure ({ m with checksum := [] }, none)

/-- `MetaData.New` (metadata/metadata.go:112-187). -/
def MetaData.new (T : Tables) (env : FileEnv) (m : MetaData) (flags : String) (info : Minfo) :
    Out (MetaData × Option Err) := do
  let h ← set T m.header "version" "v1"
  let h ← set T h "frametype" "metadata"
  let ((m, cs), e) ← flagLoop (MetaData.newStep T) ({ m with header := h }, "")
    (strSplit (stripSpaces flags) ',')
  match e with
  | some e => pure (m, some e)
  | none => MetaData.finish T env { m with session := info.session } (.ret cs) info.fname

/-- `reflect.Value.String` of a non string value: `<uint32 Value>` (library, used at metadata/metadata.go:191-239). -/
def uint32ValueText : List Byte :=
  [60#8, 117#8, 105#8, 110#8, 116#8, 51#8, 50#8, 32#8, 86#8, 97#8, 108#8, 117#8, 101#8, 62#8]

/-- `MetaData.Make` (metadata/metadata.go:191-239). The file name is taken from the field `Session`,
so it is the text `<uint32 Value>` whatever `info` says. -/
def MetaData.make (T : Tables) (env : FileEnv) (m : MetaData) (header : BitVec 32) (info : Minfo) :
    Out (MetaData × Option Err) := do
  let h ← set T header "version" "v1"
  let h ← set T h "frametype" "metadata"
  let m := { m with header := h, session := info.session }
  MetaData.finish T env m (getStr T m.header "csumtype") uint32ValueText

/-- The bytes Go gets from `bytes, _ := f()` when `f` returns nil bytes with its error. -/
def bytesOrNil : Except Err (List Byte) → List Byte
  | .ok b => b
  | .error _ => []

/-- `MetaData.Encode` (metadata/metadata.go:242-266). The error of the directory entry is dropped and
its bytes are then empty; the own error is always nil. -/
def MetaData.encode (T : Tables) (m : MetaData) : Out (List Byte) := do
  let r ← m.dir.encode T
  let de := bytesOrNil r
  let frame := mkBytes (4 + 4 + m.checksum.length + de.length)
  let frame ← putAt frame 0 4 (be32 m.header)
  let frame ← putAt frame 4 8 (be32 m.session)
  let frame ← (if m.checksum.length > 0 then copyAt frame 8 (8 + m.checksum.length) m.checksum
    else pure frame)
  copyAt frame (8 + m.checksum.length) frame.length de

/-- `MetaData.Decode` (metadata/metadata.go:269-288). -/
def MetaData.decode (T : Tables) (m : MetaData) (frame : List Byte) : Out (MetaData × Option Err) :=
  if frame.length < 8 then pure (m, some "MetaDataGet - Frame too short")
  else do
    let header ← readWord frame 0
    let session ← readWord frame 4
    let csuml := (get T header "csumlen").toNat * 4
    let c ← slice frame 8 (8 + csuml)
    let m := { m with header := header, session := session, checksum := c }
    let rest ← sliceFrom frame (8 + csuml)
    let (d, e) ← m.dir.decode T rest
    pure ({ m with dir := d }, e)

/-- `MetaData.ShortPrint` (metadata/metadata.go:308-316), reduced to whether it returns. -/
def MetaData.shortPrint (T : Tables) (m : MetaData) : Out Unit := do
  let _ ← getStr T m.header "csumtype"
  m.dir.shortPrint T

/-- `MetaData.Print` (metadata/metadata.go:291-305), reduced to whether it returns. -/
def MetaData.print (T : Tables) (m : MetaData) : Out Unit := do
  (values T "metadata").forM fun f => do let _ ← getStr T m.header f; pure ()
  let _ ← getStr T m.header "csumtype"
  m.dir.print T

end Saratoga
