import Verif.Model.Data
import Verif.Model.Request
import Verif.Model.Status
import Verif.Model.Metadata
import Verif.Model.Files
/-!
# Model of the project's own test programs (`*_test.go`)

A test is its run after `ReadConfig` has read the shipped configuration, so with the shipped tables. Its
answer is whether it passes: `t.Fatal` is `.ret false`, `log.Fatal` inside the code and panics end the test
program. `t.Log` and `fmt.Println` are left out apart from the `Print` they call.
-/
namespace Saratoga

/-- `TestTimestamp` (timestamp/timestamp_test.go:9-24). -/
def testTimestamp (T : Tables) (clock : GoTime) : Out Bool := do
  let (t, e) ← Timestamp.zero.now T "posix32_32" clock
  match e with
  | some _ => pure false
  | none => do
    t.print T
    pure true

/-- The flags of `TestData` (data/data_test.go:38). -/
def testDataFlags : String := "descriptor=d32,reqstatus=yes,eod=no,reqtstamp=yes"

/-- `TestData` (data/data_test.go:9-52): build, encode, print, decode into the same variable, print. -/
def testData (T : Tables) (clock : GoTime) (info : Dinfo) : Out Bool := do
  let (d, e) ← Data.zero.new T clock testDataFlags info
  match e with
  | some _ => pure false
  | none => do
    match ← d.encode T with
    | .error _ => pure false
    | .ok buff => do
      d.print T
      let (d, e) ← d.decode T buff
      match e with
      | some _ => pure false
      | none => do
        d.print T
        pure true

/-- What `TestData` puts in its frame (data/data_test.go:22-28): the payload is the bytes 0 to 254. -/
def testDataInfo : Dinfo := ⟨1234, 56789, (List.range 255).map (BitVec.ofNat 8)⟩

/-- The flags of `TestStatus` (status/status_test.go:33). -/
def testStatusFlags : String :=
  "descriptor=d32,stream=no,reqtstamp=yes,metadatarecvd=no,allholes=no,reqholes=requested,errcode=success,posix64_32"

/-- `TestStatus` (status/status_test.go:10-39). -/
def testStatus (T : Tables) (clock : GoTime) (info : Sinfo) : Out Bool := do
  let (s, e) ← Status.zero.new T clock testStatusFlags info
  match e with
  | some _ => pure false
  | none => do
    s.print T
    pure true

/-- The flags of `TestRequest` (request/request_test.go:27). -/
def testRequestFlags : String := "descriptor=d32,udplite=no,fileordir=file,reqtype=put,stream=no"

/-- `TestRequest` (request/request_test.go:9-33). -/
def testRequest (T : Tables) (info : Rinfo) : Out Bool := do
  let (r, e) ← Request.zero.new T testRequestFlags info
  match e with
  | some _ => pure false
  | none => do
    r.print T
    pure true

/-- The flags of `TestMetadata` (metadata/metadata_test.go:38). -/
def testMetadataFlags : String :=
  "descriptor=d32,transfer=file,progress=inprogress,csumtype=md5,reliability=udponly"

/-- `TestMetadata` (metadata/metadata_test.go:10-44). -/
def testMetadata (T : Tables) (env : FileEnv) (info : Minfo) : Out Bool := do
  let (m, e) ← MetaData.zero.new T env testMetadataFlags info
  match e with
  | some _ => pure false
  | none => do
    m.print T
    pure true

/-! ## The working directory

`fileio.Sardir` reads it from the settings the global `sarflags.Cliflag` points to. Only `main` sets the
pointer (saratoga/saratoga.go:451); in a test program it is nil. -/

/-- `fileio.Sardir` (fileio/fileio.go:14-16, sarflags/sarflags.go:289): following a nil pointer panics. -/
def sardirOf : Option (List Byte) → Out (List Byte)
  | some dir => .ret dir
  | none => .panic

/-- `FileExists`, with the global pointer (fileio/fileio.go:20-27). -/
def fileExistsG (cliflag : Option (List Byte)) (fs : FS) (fname : List Byte) : Out Bool := do
  let dir ← sardirOf cliflag
  pure (fileExists dir fs fname)

/-- `FileOpen`, with the global pointer (fileio/fileio.go:30-74). -/
def fileOpenG (cliflag : Option (List Byte)) (fs : FS) (fname : List Byte) (ttype : String) :
    Out (FS × Except Err (Option Handle)) := do
  let dir ← sardirOf cliflag
  pure (fileOpen dir fs fname ttype)

/-- `FileRm`, with the global pointer (fileio/fileio.go:140-143). -/
def fileRmG (cliflag : Option (List Byte)) (fs : FS) (fname : List Byte) : Out (FS × Option Err) := do
  let dir ← sardirOf cliflag
  pure (fileRm dir fs fname)

/-- `FileDelete`, with the global pointer (fileio/fileio.go:146-154): without an open file the name is not
needed. -/
def fileDeleteG (cliflag : Option (List Byte)) (fs : FS) (fp : Option Handle) : Out (FS × Option Err) :=
  match fp with
  | some h => fileRmG cliflag fs h.name
  | none => pure (fs, some "no existing open file to delete")

/-- `TestFileio` as far as its second step (fileio/fileio_test.go:12-35): remove the file, its error only
being noted, then create it. `conf` is the directory in the configuration; `rest` is the remainder of the
test. -/
def testFileio (cliflag : Option (List Byte)) (fs : FS) (conf : List Byte)
    (rest : FS → Handle → Out Bool) : Out Bool := do
  let fname := conf ++ utf8 "/testfile.temp"
  let (fs, _) ← fileRmG cliflag fs fname
  match ← fileOpenG cliflag fs fname "get" with
  | (fs, .ok (some fp)) => rest fs fp
  | _ => pure false

end Saratoga
