import Verif.Model.Request
/-! # Model of `dirent/dirent.go` -/
namespace Saratoga

/-- `DirEnt` (dirent/dirent.go:18-24). -/
structure DirEnt where
  header : BitVec 16
  size : BitVec 64
  mtime : Timestamp
  ctime : Timestamp
  path : List Byte
deriving DecidableEq, Repr

/-- The zero value (dirent/dirent.go:18-24). -/
def DirEnt.zero : DirEnt := ⟨0, 0, Timestamp.zero, Timestamp.zero, []⟩

/-- `os.FileMode` reduced to the kinds the code distinguishes; a symbolic link with `IsDir` of
`fileio.FileMetaData` (fileio/fileio.go:191-193), which only `NewResponder` reads. -/
inductive Mode where
  | regular | directory | pipe | symlink (toDir : Bool) | other
deriving DecidableEq, Repr

/-- What `fileio.FileMeta` and `sarsys.FileTime` tell about a file (fileio/fileio.go:157-208,
sarsys/sys_linux.go:54-72). -/
structure FileInfo where
  mode : Mode
  size : BitVec 64
  mtime : GoTime
  ctime : GoTime
deriving DecidableEq, Repr

/-- The outside world as seen by the directory entry and metadata code: `lstat` is `os.Lstat` on the
name as given (relative to the working directory), `fileMeta` is `fileio.FileMeta` (relative to the
Saratoga directory), `openRead` is `fileio.FileOpen(name, "put")` and yields the content; the hash
functions are parameters (asked at dirent/dirent.go:43-126, metadata/metadata.go:47-107). -/
structure FileEnv where
  lstat : List Byte → Except Err FileInfo
  fileMeta : List Byte → Out (Except Err FileInfo)
  openRead : List Byte → Except Err (List Byte)
  crc32 : List Byte → List Byte
  md5 : List Byte → List Byte
  sha1 : List Byte → List Byte
  clock : GoTime

/-- `DirEnt.Statfile` (dirent/dirent.go:43-68). -/
def DirEnt.statfile (T : Tables) (env : FileEnv) (d : DirEnt) (name : List Byte) :
    Out (DirEnt × Option Err) := do
  let r ← env.fileMeta name
  match r with
  | .error e => pure (d, some e)
  | .ok fi => do
    let d := { d with size := fi.size }
    let (mt, e) ← d.mtime.new T "epoch2000_32" fi.mtime
    let d := { d with mtime := mt }
    match e with
    | some e => pure (d, some e)
    | none => do
      let (ct, e) ← d.ctime.new T "epoch2000_32" fi.ctime
      pure ({ d with ctime := ct }, e)

/-- Body of the flag loop of `DirEnt.New` (dirent/dirent.go:88-98). -/
def DirEnt.newStep (T : Tables) (d : DirEnt) (f : List String) : Out (DirEnt × Option Err) :=
  let n := first f
  if n = "descriptor" ∨ n = "property" then do
    let v ← second f
    let h ← setD T d.header n v
    pure ({ d with header := h }, none)
  else pure (d, some "Invalid Flag for Directory Entry")

/-- `DirEnt.New` (dirent/dirent.go:75-126). -/
def DirEnt.new (T : Tables) (env : FileEnv) (d : DirEnt) (flags : String) (path : List Byte) :
    Out (DirEnt × Option Err) := do
  let h ← setD T d.header "sod" "sod"
  let (d, e) ← flagLoop (DirEnt.newStep T) { d with header := h } (strSplit (stripSpaces flags) ',')
  match e with
  | some e => pure (d, some e)
  | none =>
    if path.length > 1024 then pure (d, some "path name exceeds 1024 bytes")
    else do
      let prop ← getDStr T d.header "property"
      if prop = "normalfile" ∨ prop = "normaldirectory" then do
        let (d, e) ← d.statfile T env path
        match e with
        | some e => pure (d, some e)
        | none => pure ({ d with path := path }, none)
      else if prop = "specialfile" ∨ prop = "specialdirectory" then do
        let (mt, e) ← d.mtime.now T "epoch2000_32" env.clock
        let d := { d with size := 0, mtime := mt }
        match e with
        | some e => pure (d, some e)
        | none => pure ({ d with ctime := d.mtime, path := path }, none)
      else pure (d, some "Invalid Property")

/-- The size limits of the descriptor switch in `DirEnt.Encode` (dirent/dirent.go:163-186): d64 is
checked against the 32 bit maximum too. -/
def direntLimit (n : Nat) : BitVec 64 := if n = 2 then 0xFFFF#64 else maxUint32

/-- `DirEnt.Encode` (dirent/dirent.go:129-194). A `d128` entry passes the first switch and is refused
by the second one; a too long path is refused in between. -/
def DirEnt.encode (T : Tables) (d : DirEnt) : Out (Except Err (List Byte)) := do
  let desc ← getDStr T d.header "descriptor"
  if desc = "d128" then
    if d.path.length > 1024 then pure (.error "path name exceeds 1024 bytes")
    else pure (.error "Malformed Directory Entry Invalid descriptor size")
  else match descSize desc with
  | none => pure (.error "invalid descriptor in MetaData frame")
  | some n =>
    if d.path.length > 1024 then pure (.error "path name exceeds 1024 bytes")
    else if d.size > direntLimit n then pure (.error "Descriptor too small for file size")
    else do
      let frame := mkBytes (2 + 4 + 4 + n + (d.path.length + 1))
      let frame ← putAt frame 0 2 (be16 d.header)
      let frame ← putAt frame 2 (2 + n) (numBytes n d.size)
      let pos := 2 + n
      let frame ← putAt frame pos (pos + 4) (be32 (d.mtime.secs.setWidth 32))
      let frame ← putAt frame (pos + 4) (pos + 8) (be32 (d.ctime.secs.setWidth 32))
      let pos := pos + 8
      let frame ← copyAt frame pos (pos + d.path.length) d.path
      let frame ← copyAt frame (pos + d.path.length) frame.length [0#8]
      pure (.ok frame)

/-- `DirEnt.Decode` (dirent/dirent.go:197-249). -/
def DirEnt.decode (T : Tables) (d : DirEnt) (frame : List Byte) : Out (DirEnt × Option Err) :=
  if frame.length < 12 then pure (d, some "DirEntGet - Entry too short")
  else do
    let hb ← slice frame 0 2
    let header ← rd16 hb
    let d := { d with header := header }
    let desc ← getDStr T d.header "descriptor"
    match descSize desc with
    | none => pure (d, some "invalid MetaData Frame")
    | some n => do
      let size ← readNum frame 2 n
      let d := { d with size := size }
      let pos := 2 + n
      let th ← setT T 0 "epoch2000_32"
      let mb ← slice frame pos (pos + 4)
      let (mt, e) ← d.mtime.get T (th :: mb)
      let d := { d with mtime := mt }
      match e with
      | some _ => pure (d, some "invalid Mtime")
      | none => do
        let cb ← slice frame (pos + 4) (pos + 8)
        let (ct, e) ← d.ctime.get T (th :: cb)
        let d := { d with ctime := ct }
        match e with
        | some _ => pure (d, some "invalid Ctime")
        | none => do
          let rest ← sliceFrom frame (pos + 8)
          pure ({ d with path := nameLoop [] rest }, none)

/-- `DirEnt.ShortPrint` (dirent/dirent.go:267-274), reduced to whether it returns. -/
def DirEnt.shortPrint (T : Tables) (d : DirEnt) : Out Unit := do
  d.mtime.print T
  d.ctime.print T

/-- `DirEnt.Print` (dirent/dirent.go:252-265), reduced to whether it returns. `FlagD()` lists the
keys of the table. -/
def DirEnt.print (T : Tables) (d : DirEnt) : Out Unit := do
  (T.dirent.map (·.1)).forM fun f => do let _ ← getDStr T d.header f; pure ()
  d.mtime.print T
  d.ctime.print T

end Saratoga
