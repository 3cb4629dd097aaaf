import Verif.Model.Dirent
import Verif.Model.Files
/-!
# Model of `FileMeta` (`fileio/fileio.go:156-208`) and of a file system with symbolic links

`Model/Files.lean` has the operations that change files, on a tree without links. Here nothing changes, and there are
links. Owner, group and permission bits of a file are left out; the system may refuse to look at any place.
-/
namespace Saratoga

/-- What is at a place. A link has a target text (as told by `os.Lstat` and `os.Stat`, fileio/fileio.go:173-208). -/
inductive FileKind where
  | dir | file | pipe | device
  | link (target : List Byte)
deriving DecidableEq, Repr

/-- Size and times of what is at a place (fileio/fileio.go:157-170). -/
structure Facts where
  size : BitVec 64
  mtime : GoTime
  ctime : GoTime
deriving DecidableEq, Repr

/-- A tree, the working directory of the process, and the number of links the system follows for one name (40 on
Linux) (the world of fileio/fileio.go:173-208). -/
structure Tree where
  nodes : List (Loc × FileKind)
  facts : Loc → Facts
  cwd : Loc
  refuses : Loc → Bool
  links : Nat

/-- Why a name leads nowhere. Of these, `os.IsNotExist` holds for the first only (operating system, asked at
fileio/fileio.go:173-208). -/
inductive NoFile where
  | notExist | notDir | tooManyLinks | refused
deriving DecidableEq, Repr

/-- What is at a place (the world of fileio/fileio.go:173-208). -/
def Tree.kind (t : Tree) (l : Loc) : Option FileKind := (t.nodes.find? fun e => e.1 = l).map (·.2)

/-- Where a path text starts: at the root if it begins with a slash, else at `here` (operating system, asked at
fileio/fileio.go:173-208). -/
def startOf (here : Loc) : List Byte → Loc
  | [] => here
  | b :: _ => if b = slash then [] else here

/-- The place named `c` in the directory `cur` (operating system, asked at fileio/fileio.go:173-208). -/
def child (cur : Loc) (c : Name) : Loc :=
  if c = [] ∨ c = [dot] then cur else if c = [dot, dot] then cur.dropLast else cur ++ [c]

/-- Following names from `cur`. A link that is not the last name is followed: its own names come before the rest
(`again`). The last name is not followed (`lstat`) (operating system, asked at fileio/fileio.go:173-208). -/
def Tree.walkWith (t : Tree) (again : Loc → List Name → Except NoFile Loc) : Loc → List Name → Except NoFile Loc
  | cur, [] => .ok cur
  | cur, c :: cs =>
    match t.kind cur with
    | none => .error .notExist
    | some .dir =>
      if t.refuses cur then .error .refused
      else match t.kind (child cur c), cs with
        | some (.link target), c' :: cs' => again (startOf cur target) (splitSlash target ++ (c' :: cs'))
        | _, _ => t.walkWith again (child cur c) cs
    | some _ => .error .notDir

/-- With at most `n` links (operating system, asked at fileio/fileio.go:173-208). -/
def Tree.walk (t : Tree) : Nat → Loc → List Name → Except NoFile Loc
  | 0 => t.walkWith fun _ _ => .error .tooManyLinks
  | n + 1 => t.walkWith (t.walk n)

/-- The place a path text names, seen from the directory `here` (operating system, asked at fileio/fileio.go:173-208).
-/
def Tree.find (t : Tree) (here : Loc) (path : List Byte) : Except NoFile Loc :=
  if path = [] then .error .notExist else t.walk t.links (startOf here path) (splitSlash path)

/-- What is at the place a path text names, seen from the directory `here` (operating system, asked at
fileio/fileio.go:173-208). -/
def Tree.look (t : Tree) (here : Loc) (path : List Byte) : Except NoFile (Loc × FileKind) :=
  match t.find here path with
  | .error e => .error e
  | .ok l =>
    match t.kind l with
    | none => .error .notExist
    | some k => .ok (l, k)

/-- `os.Lstat`: a path text that does not begin with a slash is seen from the working directory (operating system,
asked at fileio/fileio.go:173-208). -/
def Tree.lstat (t : Tree) (path : List Byte) : Except NoFile (Loc × FileKind) := t.look t.cwd path

/-- `FileMetaData` (fileio/fileio.go:157-170) without `Path`, owner and group, which nothing
reads; `Mode` is the kind. -/
structure Meta where
  origin : List Byte
  kind : FileKind
  facts : Facts
  isDir : Bool
  isRegular : Bool
  isNamedPipe : Bool
  isSymLink : Bool
deriving DecidableEq, Repr

/-- `FileMeta` (fileio/fileio.go:173-208). Only the error `IsNotExist` is looked at; with any other `info` is nil and
using it panics. The same holds for `origstat`. `os.Readlink` of a link just seen succeeds. -/
def fileMeta (sardir : List Byte) (t : Tree) (filePath : List Byte) : Out (Except NoFile Meta) :=
  match t.lstat (fullName sardir filePath) with
  | .error .notExist => .ret (.error .notExist)
  | .error _ => .panic
  | .ok (l, .link target) =>
    match t.lstat target with
    | .error _ => .panic
    | .ok (_, k) => .ret (.ok ⟨target, .link target, t.facts l, decide (k = .dir), false, false, true⟩)
  | .ok (l, k) => .ret (.ok ⟨[], k, t.facts l, decide (k = .dir), decide (k = .file), decide (k = .pipe), false⟩)

/-- What the models of directory entries and transfers keep of it (fileio/fileio.go:157-170, as used at
dirent/dirent.go:75-126). -/
def Meta.info (m : Meta) : FileInfo :=
  ⟨match m.kind with
    | .dir => .directory
    | .file => .regular
    | .pipe => .pipe
    | .link _ => .symlink m.isDir
    | .device => .other, m.facts.size, m.facts.mtime, m.facts.ctime⟩

/-- `FileMeta` as the other models ask for it (fileio/fileio.go:173-208). -/
def Tree.fileMeta (t : Tree) (sardir name : List Byte) : Out (Except Err FileInfo) := do
  let r ← Saratoga.fileMeta sardir t name
  match r with
  | .error _ => .ret (.error "no such file")
  | .ok m => .ret (.ok m.info)

end Saratoga
