import Verif.Model.Beacon
import Verif.Model.Data
import Verif.Model.Request
import Verif.Model.Status
import Verif.Model.Metadata
import Verif.Model.Calendar
/-!
# Model of the text of printed frames

The models of the frames have `Print` and `ShortPrint` reduced to whether they return; here they have their text. A Go
string is its bytes.
-/
namespace Saratoga

/-- The byte of an ASCII character (texts of the `Print`s, as data/data.go:270-296). -/
def asciiByte (c : Char) : Byte := BitVec.ofNat 8 c.toNat

/-- `%d` of an unsigned number (library, used for instance at data/data.go:270-296). -/
def decimal (n : Nat) : List Byte := (Nat.toDigits 10 n).map asciiByte

/-- `%d` of a signed number (library, used for instance at status/status.go:325-356). -/
def signedDec : Int → List Byte
  | .ofNat n => decimal n
  | .negSucc n => asciiByte '-' :: decimal (n + 1)

/-- `%x` of an unsigned number (library, used for instance at data/data.go:270-296). -/
def hexadecimal (n : Nat) : List Byte := (Nat.toDigits 16 n).map asciiByte

/-- `%x` of bytes: two digits each (library, used for instance at metadata/metadata.go:291-316). -/
def hexBytes : List Byte → List Byte
  | [] => []
  | b :: rest => asciiByte (Nat.digitChar (b.toNat / 16)) :: asciiByte (Nat.digitChar (b.toNat % 16)) :: hexBytes rest

/-- The loop over the flags: a line for each with the name of its number; `pad` is the text before
(data/data.go:270-284 and the other `Print`s). -/
def flagLines (pad : String) (name : String → Out String) : List String → Out (List Byte)
  | [] => .ret []
  | f :: rest => do
    let n ← name f
    let more ← flagLines pad name rest
    pure (utf8 pad ++ utf8 f ++ utf8 ":" ++ utf8 n ++ utf8 "\n" ++ more)

/-- The line of the free space, if the frame has it (beacon/beacon.go:287-289, 297-299). -/
def freeLine (b : Beacon) (name : String) : List Byte :=
  if name = "yes" then utf8 "  free:" ++ decimal b.freespace.toNat ++ utf8 "kB\n" else []

/-- `Beacon.Print` (beacon/beacon.go:280-292). -/
def Beacon.printText (T : Tables) (b : Beacon) : Out (List Byte) := do
  let flags ← flagLines "  " (getStr T b.header) (values T "beacon")
  let fs ← getStr T b.header "freespace"
  pure (utf8 "Beacon: 0x" ++ hexadecimal b.header.toNat ++ utf8 "\n" ++ flags ++ freeLine b fs ++
    utf8 "  EID:" ++ b.eid)

/-- `Beacon.ShortPrint` (beacon/beacon.go:295-302). -/
def Beacon.shortText (T : Tables) (b : Beacon) : Out (List Byte) := do
  let fs ← getStr T b.header "freespace"
  pure (utf8 "Beacon: 0x" ++ hexadecimal b.header.toNat ++ utf8 "\n" ++ freeLine b fs ++ utf8 "  EID:" ++ b.eid)

/-- The line of the time stamp, if the frame has one (data/data.go:270-284, status/status.go:325-342). -/
def stampLine (T : Tables) (label : String) (h : BitVec 32) (t : Timestamp) : Out (List Byte) := do
  let rt ← getStr T h "reqtstamp"
  if rt = "yes" then do
    let text ← t.printText T
    pure (utf8 label ++ text ++ utf8 "\n")
  else pure []

/-- `Data.Print` (data/data.go:270-284). -/
def Data.printText (T : Tables) (d : Data) : Out (List Byte) := do
  let flags ← flagLines "  " (getStr T d.header) (values T "data")
  let stamp ← stampLine T "  tstamp:" d.header d.tstamp
  pure (utf8 "Data: 0x" ++ hexadecimal d.header.toNat ++ utf8 "\n" ++ flags ++ stamp ++
    utf8 "  session:" ++ decimal d.session.toNat ++ utf8 "  offset:" ++ decimal d.offset.toNat ++
    utf8 "  paylen : " ++ decimal d.payload.length)

/-- `Data.ShortPrint` (data/data.go:287-296). -/
def Data.shortText (T : Tables) (d : Data) : Out (List Byte) := do
  let stamp ← stampLine T "  tstamp:" d.header d.tstamp
  pure (utf8 "Data: 0x" ++ hexadecimal d.header.toNat ++ utf8 "\n" ++ stamp ++
    utf8 "  session:" ++ decimal d.session.toNat ++ utf8 ",  offset:" ++ decimal d.offset.toNat ++
    utf8 ",  paylen:" ++ decimal d.payload.length)

/-- `Request.Print` (request/request.go:148-159). -/
def Request.printText (T : Tables) (r : Request) : Out (List Byte) := do
  let flags ← flagLines "  " (getStr T r.header) (values T "request")
  pure (utf8 "Request: 0x" ++ hexadecimal r.header.toNat ++ utf8 "\n" ++ flags ++
    utf8 "  session:" ++ decimal r.session.toNat ++ utf8 "\n  filename:" ++ r.fname ++ utf8 "\n  auth:" ++ r.auth)

/-- `Request.ShortPrint` (request/request.go:162-168). -/
def Request.shortText (r : Request) : List Byte :=
  utf8 "Request: 0x" ++ hexadecimal r.header.toNat ++ utf8 "\n  session:" ++ decimal r.session.toNat ++
    utf8 "\n  filename:" ++ r.fname ++ utf8 "\n  auth:" ++ r.auth

/-- The loop over the holes (status/status.go:338-340), from number `i` on. -/
def holeLines : Nat → List Hole → List Byte
  | _, [] => []
  | i, h :: rest => utf8 "  Hole[" ++ decimal i ++ utf8 "]: Start:" ++ signedDec h.start ++ utf8 " End:" ++
      signedDec h.stop ++ utf8 "\n" ++ holeLines (i + 1) rest

/-- `Status.Print` (status/status.go:325-342). -/
def Status.printText (T : Tables) (s : Status) : Out (List Byte) := do
  let flags ← flagLines "  " (getStr T s.header) (values T "status")
  let stamp ← stampLine T "  timestamp:" s.header s.tstamp
  pure (utf8 "Status: 0x" ++ hexadecimal s.header.toNat ++ utf8 "\n" ++ flags ++
    utf8 "  session:" ++ decimal s.session.toNat ++ utf8 "\n" ++ stamp ++
    utf8 "  progress:" ++ decimal s.progress.toNat ++ utf8 "  inresponseto:" ++ decimal s.inrespto.toNat ++ utf8 "\n" ++
    holeLines 0 s.holes)

/-- `Status.ShortPrint` (status/status.go:345-356). -/
def Status.shortText (T : Tables) (s : Status) : Out (List Byte) := do
  let stamp ← stampLine T "  timestamp:" s.header s.tstamp
  let code ← getStr T s.header "errcode"
  pure (utf8 "Status: 0x" ++ hexadecimal s.header.toNat ++ utf8 "\n" ++
    utf8 "  session:" ++ decimal s.session.toNat ++ utf8 "\n" ++ stamp ++
    utf8 "  errcode:" ++ utf8 code ++ utf8 "\n  progress:" ++ decimal s.progress.toNat ++
    utf8 "\n  inrespto:" ++ decimal s.inrespto.toNat ++ utf8 "\n  numb holes:" ++ decimal s.holes.length)

/-- The last lines of a directory entry (dirent/dirent.go:260-263, 269-272). -/
def DirEnt.bodyText (T : Tables) (d : DirEnt) : Out (List Byte) := do
  let m ← d.mtime.printText T
  let c ← d.ctime.printText T
  pure (utf8 "    Path:" ++ d.path ++ utf8 "\n    Size:" ++ decimal d.size.toNat ++ utf8 "\n    Mtime:" ++ m ++
    utf8 "\n    Ctime:" ++ c)

/-- `DirEnt.Print` (dirent/dirent.go:252-265). `FlagD()` (sarflags/sarflags.go:852-858) lists the keys of a Go map, in
any order: `order`. -/
def DirEnt.printText (T : Tables) (order : List String) (d : DirEnt) : Out (List Byte) := do
  let flags ← flagLines "    " (getDStr T d.header) order
  let body ← d.bodyText T
  pure (utf8 "  Directory Entry: 0x" ++ hexadecimal d.header.toNat ++ utf8 "\n" ++ flags ++ body)

/-- `DirEnt.ShortPrint` (dirent/dirent.go:267-274). -/
def DirEnt.shortText (T : Tables) (d : DirEnt) : Out (List Byte) := do
  let body ← d.bodyText T
  pure (utf8 "  Dir Entry: 0x" ++ hexadecimal d.header.toNat ++ utf8 "\n" ++ body)

/-- The line of the checksum, if there is one (metadata/metadata.go:300-302, 311-313). -/
def checksumLine (label : String) (m : MetaData) (cs : String) : List Byte :=
  if cs = "none" then [] else utf8 label ++ utf8 cs ++ utf8 "]:" ++ hexBytes m.checksum ++ utf8 "\n"

/-- `MetaData.Print` (metadata/metadata.go:291-305). -/
def MetaData.printText (T : Tables) (order : List String) (m : MetaData) : Out (List Byte) := do
  let flags ← flagLines "  " (getStr T m.header) (values T "metadata")
  let cs ← getStr T m.header "csumtype"
  let dir ← m.dir.printText T order
  pure (utf8 "Metadata: 0x" ++ hexadecimal m.header.toNat ++ utf8 "\n" ++ flags ++
    utf8 "  session:" ++ decimal m.session.toNat ++ utf8 "\n" ++ checksumLine "  Checksum [" m cs ++ dir)

/-- `MetaData.ShortPrint` (metadata/metadata.go:308-316). -/
def MetaData.shortText (T : Tables) (m : MetaData) : Out (List Byte) := do
  let cs ← getStr T m.header "csumtype"
  let dir ← m.dir.shortText T
  pure (utf8 "Metadata: 0x" ++ hexadecimal m.header.toNat ++ utf8 "\n" ++
    utf8 "  session:" ++ decimal m.session.toNat ++ utf8 "\n" ++ checksumLine "  checksum [" m cs ++ dir)

end Saratoga
