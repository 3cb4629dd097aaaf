import Verif.Model.Go
/-! # Model of the `crc32` of `fileio/checksum.go`

`Checksum` hands the file to `crc32.New(crc32.MakeTable(IEEE))` in pieces (`io.Copy`). What these calls compute is in
Go's library `hash/crc32`; the generic version of it is modelled here (the versions for particular processors compute the
same). -/
namespace Saratoga

/-- `IEEE` (fileio/checksum.go:21). -/
def ieee : BitVec 32 := 0xedb88320#32

/-- One of the eight rounds for an entry of the table (`simplePopulateTable`, `hash/crc32`) (library, used at
fileio/checksum.go:36-84). -/
def crcRound (crc : BitVec 32) : BitVec 32 := if crc.getLsbD 0 then (crc >>> 1) ^^^ ieee else crc >>> 1

/-- `crc32.MakeTable(IEEE)` (fileio/checksum.go:58): the entry of a byte. -/
def crcTable (i : Byte) : BitVec 32 :=
  crcRound (crcRound (crcRound (crcRound (crcRound (crcRound (crcRound (crcRound (i.setWidth 32))))))))

/-- One byte of `simpleUpdate` (`hash/crc32`): `tab[byte(crc)^v] ^ (crc >> 8)` (library, used at
fileio/checksum.go:36-84). -/
def crcByte (crc : BitVec 32) (v : Byte) : BitVec 32 := crcTable (crc.setWidth 8 ^^^ v) ^^^ (crc >>> 8)

/-- `Write` of the hash on one piece (`simpleUpdate`): the number is complemented before and after (library, used at
fileio/checksum.go:36-84). -/
def crcWrite (crc : BitVec 32) (piece : List Byte) : BitVec 32 := ~~~ (piece.foldl crcByte (~~~ crc))

/-- `hash.Sum(nil)` after `io.Copy` (fileio/checksum.go:72-75): a new hash, all the pieces, four bytes with the highest
first. -/
def crcSum (pieces : List (List Byte)) : List Byte :=
  let crc := pieces.foldl crcWrite 0
  [(crc >>> 24).setWidth 8, (crc >>> 16).setWidth 8, (crc >>> 8).setWidth 8, crc.setWidth 8]

end Saratoga
