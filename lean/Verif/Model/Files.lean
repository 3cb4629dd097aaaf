import Verif.Model.Go
/-!
# Model of `fileio/fileio.go` and of the file system under it

The file system is a tree of directories, files and other objects (pipes, devices) without symbolic
links. The operating system may refuse any operation (permissions, quotas, bad names). `FileMeta`
(fileio/fileio.go:173-208) is part of the model of directory entries, see `Model/Dirent.lean`.
-/
namespace Saratoga

/-- A name in a directory, as bytes (operating system under fileio/fileio.go). -/
abbrev Name := List Byte
/-- A place in the tree: the names from the root down (operating system under fileio/fileio.go). -/
abbrev Loc := List Name

/-- What can be at a place: a directory, a file with its bytes, or something else (operating system under
fileio/fileio.go). -/
inductive Node where
  | dir
  | file (content : List Byte)
  | other
deriving DecidableEq, Repr

/-- The operations the system may refuse (operating system under fileio/fileio.go:30-154). -/
inductive FileOp where
  | stat | create | openRead | mkdir | chdir | remove
deriving DecidableEq, Repr

/-- The file system: what is where, the working directory, and which operations are refused (operating system under
fileio/fileio.go). -/
structure FS where
  nodes : List (Loc × Node)
  cwd : Loc
  refuses : FileOp → Loc → Bool

/-- What is at a place (operating system under fileio/fileio.go). -/
def FS.node (fs : FS) (l : Loc) : Option Node := (fs.nodes.find? fun e => e.1 = l).map (·.2)

/-- The same tree with `n` at `l` (operating system under fileio/fileio.go). -/
def FS.put (fs : FS) (l : Loc) (n : Node) : FS :=
  { fs with nodes := (l, n) :: fs.nodes.filter fun e => e.1 ≠ l }

/-- The same tree with nothing at `l` (operating system under fileio/fileio.go). -/
def FS.del (fs : FS) (l : Loc) : FS := { fs with nodes := fs.nodes.filter fun e => e.1 ≠ l }

/-- A directory with something in it (operating system under fileio/fileio.go). -/
def FS.hasChild (fs : FS) (l : Loc) : Bool := fs.nodes.any fun e => e.1 ≠ [] && e.1.dropLast = l

/-- The byte between the names of a path (fileio/fileio.go:21, 33, 141). -/
def slash : Byte := 0x2F#8

/-- The byte `.` (operating system under fileio/fileio.go). -/
def dot : Byte := 0x2E#8

/-- The parts of a path text between slashes (operating system under fileio/fileio.go). -/
def splitSlash : List Byte → List Name
  | [] => [[]]
  | b :: bs =>
    if b = slash then [] :: splitSlash bs
    else match splitSlash bs with
      | [] => [[b]]
      | p :: ps => (b :: p) :: ps

/-- Following names from a place; every place left behind must be a directory (operating system under
fileio/fileio.go). -/
def FS.walk (fs : FS) : Loc → List Name → Option Loc
  | cur, [] => some cur
  | cur, c :: cs =>
    if fs.node cur = some .dir then
      fs.walk (if c = [] ∨ c = [dot] then cur else if c = [dot, dot] then cur.dropLast else cur ++ [c]) cs
    else none

/-- The place a path text names: from the root if it starts with a slash, else from the working
directory (operating system under fileio/fileio.go). -/
def FS.locate (fs : FS) (path : List Byte) : Option Loc :=
  match path with
  | [] => none
  | b :: rest => if b = slash then fs.walk [] (splitSlash rest) else fs.walk fs.cwd (splitSlash path)

/-- `os.Stat` (operating system, asked at fileio/fileio.go:20-27). -/
def FS.stat (fs : FS) (path : List Byte) : Option Node :=
  match fs.locate path with
  | none => none
  | some l => if fs.refuses .stat l then none else fs.node l

/-- An open file: `fp.Name()`, its place and whether it may be written (operating system, fileio/fileio.go:30-154). -/
structure Handle where
  name : List Byte
  loc : Loc
  writable : Bool
deriving DecidableEq, Repr

/-- `os.Create`: a new empty file, or an existing file cut to nothing (operating system, asked at
fileio/fileio.go:30-74). -/
def FS.create (fs : FS) (path : List Byte) : FS × Except Err Handle :=
  match fs.locate path with
  | none => (fs, .error "no such file or directory")
  | some l =>
    if fs.refuses .create l then (fs, .error "refused")
    else match fs.node l with
      | some .dir => (fs, .error "is a directory")
      | some .other => (fs, .ok ⟨path, l, true⟩)
      | _ => (fs.put l (.file []), .ok ⟨path, l, true⟩)

/-- `os.Open` (operating system, asked at fileio/fileio.go:30-74). -/
def FS.openRead (fs : FS) (path : List Byte) : Except Err Handle :=
  match fs.locate path with
  | none => .error "no such file or directory"
  | some l =>
    if fs.refuses .openRead l then .error "refused"
    else match fs.node l with
      | none => .error "no such file or directory"
      | some _ => .ok ⟨path, l, false⟩

/-- `os.Mkdir` (operating system, asked at fileio/fileio.go:30-74). -/
def FS.mkdir (fs : FS) (path : List Byte) : FS × Option Err :=
  match fs.locate path with
  | none => (fs, some "no such file or directory")
  | some l =>
    if fs.refuses .mkdir l then (fs, some "refused")
    else match fs.node l with
      | some _ => (fs, some "file exists")
      | none => (fs.put l .dir, none)

/-- `os.Chdir` (operating system, asked at fileio/fileio.go:55, saratoga/saratoga.go:470). -/
def FS.chdir (fs : FS) (path : List Byte) : FS × Option Err :=
  match fs.locate path with
  | none => (fs, some "no such file or directory")
  | some l =>
    if fs.refuses .chdir l then (fs, some "refused")
    else if fs.node l = some .dir then ({ fs with cwd := l }, none)
    else (fs, some "not a directory")

/-- `os.Remove`: a file or an empty directory (operating system, asked at fileio/fileio.go:140-154). -/
def FS.remove (fs : FS) (path : List Byte) : FS × Option Err :=
  match fs.locate path with
  | none => (fs, some "no such file or directory")
  | some l =>
    if fs.refuses .remove l then (fs, some "refused")
    else match fs.node l with
      | none => (fs, some "no such file or directory")
      | some .dir => if fs.hasChild l ∨ l = [] then (fs, some "directory not empty") else (fs.del l, none)
      | some _ => (fs.del l, none)

/-! ## fileio.go -/

/-- `Sardir() + "/" + fname` (fileio/fileio.go:21, 33, 141). -/
def fullName (sardir fname : List Byte) : List Byte := sardir ++ [slash] ++ fname

/-- `FileExists` (fileio/fileio.go:20-27). -/
def fileExists (sardir : List Byte) (fs : FS) (fname : List Byte) : Bool :=
  match fs.stat (fullName sardir fname) with
  | some .dir => true
  | some (.file _) => true
  | _ => false

/-- `FileOpen` (fileio/fileio.go:30-74). `FileExists` is called with the full name, which it prefixes
again. A nil file with a nil error is `.ok none`. -/
def fileOpen (sardir : List Byte) (fs : FS) (fname : List Byte) (ttype : String) :
    FS × Except Err (Option Handle) :=
  let fullname := fullName sardir fname
  if ttype = "get" ∨ ttype = "take" then
    if fileExists sardir fs fullname then (fs, .error "file already exists")
    else match fs.create fullname with
      | (fs, .ok h) => (fs, .ok (some h))
      | (fs, .error e) => (fs, .error e)
  else if ttype = "getdir" then
    if fileExists sardir fs fullname then (fs, .error "directory already exists")
    else match fs.mkdir fullname with
      | (fs, none) =>
        match fs.chdir fullname with
        | (fs, some e) => (fs, .error e)
        | (fs, none) => (fs, .ok none)
      | (fs, some e) => (fs, .error e)
  else if ttype = "put" ∨ ttype = "give" then
    if !fileExists sardir fs fullname then (fs, .error "file does not exist")
    else match fs.openRead fullname with
      | .ok h => (fs, .ok (some h))
      | .error e => (fs, .error e)
  else if ttype = "delete" then (fs, .ok none)
  else (fs, .error "invalid transfer type")

/-- `FileSeek` (fileio/fileio.go:77-95); seeking in a regular file succeeds for every position that is
not negative as an `int64`. -/
def fileSeek (fp : Option Handle) (pos : BitVec 64) : Option Err :=
  match fp with
  | none => some "fileSeek: file not open"
  | some _ => if pos.toInt < 0 then some "fileWrite: pos is > MaxInt64" else none

/-- `fp.Read(buf)` for a file with this content at position `pos` and a buffer of `n` bytes (operating system, asked at
fileio/fileio.go:97-115). -/
def readAt (content : List Byte) (pos n : Nat) : Except Err (List Byte) :=
  let got := (content.drop pos).take n
  if got = [] ∧ n ≠ 0 then .error "EOF" else .ok got

/-- `FileRead` (fileio/fileio.go:97-115); `make` panics on a negative length. -/
def fileRead (fs : FS) (fp : Option Handle) (pos : BitVec 64) (blen : Int) : Out (Except Err (List Byte)) :=
  if blen < 0 then .panic
  else match fp with
    | none => .ret (.error "fileRead: file is closed")
    | some h =>
      match fileSeek (some h) pos with
      | some e => .ret (.error e)
      | none =>
        match fs.node h.loc with
        | some (.file content) =>
          match readAt content pos.toNat blen.toNat with
          | .ok b => .ret (.ok b)
          | .error _ => .ret (.error "fileread: only read")
        | _ => .ret (.error "fileread: only read")

/-- `fp.Write(buf)` at position `pos` for a file with this content: a gap is filled with zeros, and
writing nothing changes nothing (operating system, asked at fileio/fileio.go:118-132). -/
def writeAt (content : List Byte) (pos : Nat) (buf : List Byte) : List Byte :=
  if buf = [] then content
  else (content ++ mkBytes (pos - content.length)).take pos ++ buf ++ content.drop (pos + buf.length)

/-- `FileWrite` (fileio/fileio.go:118-132). `short` is how the operating system fails, if it does: after
so many bytes. -/
def fileWrite (fs : FS) (fp : Option Handle) (pos : BitVec 64) (buf : List Byte) (short : Option Nat) :
    FS × Nat × Option Err :=
  match fileSeek fp pos with
  | some e => (fs, 0, some e)
  | none =>
    match fp with
    | none => (fs, 0, some "fileSeek: file not open")
    | some h =>
      if h.writable then
        match fs.node h.loc with
        | some (.file content) =>
          match short with
          | none => (fs.put h.loc (.file (writeAt content pos.toNat buf)), buf.length, none)
          | some n => (fs.put h.loc (.file (writeAt content pos.toNat (buf.take n))),
              (buf.take n).length, some "write")
        | _ => (fs, 0, some "write")
      else (fs, 0, some "bad file descriptor")

/-- `FileRm` (fileio/fileio.go:140-143). -/
def fileRm (sardir : List Byte) (fs : FS) (fname : List Byte) : FS × Option Err :=
  fs.remove (fullName sardir fname)

/-- `FileDelete` (fileio/fileio.go:146-154): the name of an opened file already has the directory in
front. -/
def fileDelete (sardir : List Byte) (fs : FS) (fp : Option Handle) : FS × Option Err :=
  match fp with
  | some h => fileRm sardir fs h.name
  | none => (fs, some "no existing open file to delete")

end Saratoga
