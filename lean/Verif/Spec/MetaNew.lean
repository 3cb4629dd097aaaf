import Verif.Model.Metadata
/-! # Specification vocabulary for metadata of a file -/
namespace Saratoga

/-- Bits an offset has under a descriptor. -/
def descBits (desc : String) : Nat :=
  if desc = "d16" then 16 else if desc = "d32" then 32 else if desc = "d64" then 64
  else if desc = "d128" then 128 else 0

/-- A file system and hash functions that do what metadata of a regular file needs: both ways of asking
about the file agree, its times are after 2000 and before 2136, it can be read, and the hash functions
give as many bytes as they should. -/
structure ReadableFile (env : FileEnv) (fname : List Byte) (fi : FileInfo) (content : List Byte) :
    Prop where
  lstat : env.lstat fname = .ok fi
  fileMeta : env.fileMeta fname = .ret (.ok fi)
  regular : fi.mode = .regular
  mtime : 946684800 ≤ fi.mtime.sec ∧ fi.mtime.sec < 946684800 + 2 ^ 32 ∧ fi.mtime.nsec < 1000000000
  ctime : 946684800 ≤ fi.ctime.sec ∧ fi.ctime.sec < 946684800 + 2 ^ 32 ∧ fi.ctime.nsec < 1000000000
  openRead : env.openRead fname = .ok content
  short : fname.length ≤ 1024
  crc32 : (env.crc32 content).length = 4
  md5 : (env.md5 content).length = 16
  sha1 : (env.sha1 content).length = 20

end Saratoga
