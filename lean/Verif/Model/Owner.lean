import Verif.Model.FileMeta
/-!
# Model of owner, group and name in `FileMeta`

`Model/FileMeta.lean` leaves these fields out, as nothing reads them. Here they are added.
-/
namespace Saratoga

/-- Owner and group of what is at a place, as the system has them (`Uid` and `Gid` of `syscall.Stat_t`, read at
sarsys/sys_linux.go:74-80). -/
structure Owner where
  uid : BitVec 32
  gid : BitVec 32
deriving DecidableEq, Repr

/-- The systems there is code for (sarsys/sys_linux.go:1, sarsys/sys_darwin.go:1, sarsys/sys_windows.go:1). -/
inductive Platform where
  | linux | darwin | windows
deriving DecidableEq, Repr

/-- `GetOwnerAndGroup` (sarsys/sys_linux.go:74-80, sarsys/sys_darwin.go:75-81, sarsys/sys_windows.go:83-85). `int` has 64 bits.
What `os.Lstat` answers on linux and darwin always holds a `Stat_t` that is not nil. -/
def ownerAndGroup : Platform → Owner → Int × Int
  | .windows, _ => (0, 0)
  | .linux, o => ((o.uid.toNat : Int), (o.gid.toNat : Int))
  | .darwin, o => ((o.uid.toNat : Int), (o.gid.toNat : Int))

/-- The name `os.Lstat` gives to what it is asked of: the path text without slashes at its end and without what comes before its
last name (library, used at fileio/fileio.go:202). -/
def baseName (path : List Byte) : List Byte :=
  match path.reverse.dropWhile (· == slash) with
  | [] => path.take 1
  | r => (r.takeWhile (· != slash)).reverse

/-- `FileMetaData` with the fields left out of `Meta` (fileio/fileio.go:157-170). -/
structure FullMeta where
  data : Meta
  path : List Byte
  uid : Int
  gid : Int
deriving DecidableEq, Repr

/-- `FileMeta` (fileio/fileio.go:173-208) with all fields: `info` is what `os.Lstat` said of the name. -/
def fullMeta (sys : Platform) (owners : Loc → Owner) (sardir : List Byte) (t : Tree) (filePath : List Byte) :
    Out (Except NoFile FullMeta) :=
  match fileMeta sardir t filePath, t.lstat (fullName sardir filePath) with
  | .ret (.ok m), .ok (l, _) =>
    .ret (.ok ⟨m, baseName (fullName sardir filePath), (ownerAndGroup sys (owners l)).1, (ownerAndGroup sys (owners l)).2⟩)
  | .ret (.error e), _ => .ret (.error e)
  | .fatal, _ => .fatal
  | _, _ => .panic

end Saratoga
