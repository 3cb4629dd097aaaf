import Verif.Model.Flags
/-! # Model of `timestamp/timestamp.go` -/
namespace Saratoga

/-- `time.Time` reduced to what the code asks for: whole seconds since 1970 (rounded down) and the
nanoseconds within the second. Both are machine words in Go; see `unix` and `unixNano` (library, used at
timestamp/timestamp.go:25-87). -/
structure GoTime where
  sec : Int
  nsec : Nat
deriving DecidableEq, Repr

/-- `t.Unix()`, an `int64` (library, used at timestamp/timestamp.go:25-87). -/
def GoTime.unix (t : GoTime) : BitVec 64 := BitVec.ofInt 64 t.sec

/-- `t.UnixNano()`, an `int64` computed as seconds * 1e9 + nanoseconds with wrap-around (library, used at
timestamp/timestamp.go:25-87). -/
def GoTime.unixNano (t : GoTime) : BitVec 64 := BitVec.ofInt 64 (t.sec * 1000000000 + t.nsec)

/-- `Timestamp` (timestamp/timestamp.go:15-21). -/
structure Timestamp where
  header : BitVec 8
  secs : BitVec 64
  nsecs : BitVec 64
  loc : List Byte
  ttype : String
deriving DecidableEq, Repr

/-- The zero value (timestamp/timestamp.go:15-21). -/
def Timestamp.zero : Timestamp := ⟨0, 0, 0, [], ""⟩

/-- `sarflags.MaxUint32` as used in 64 bit comparisons (sarflags/sarflags.go:164-171). -/
def maxUint32 : BitVec 64 := 0xFFFFFFFF#64

/-- `Timestamp.New` (timestamp/timestamp.go:25-87). `x / 1e9` and `x % 1e9` on `int64` truncate
towards zero (`sdiv`, `srem`); 946684800 is the Unix time of 2000-01-01T00:00:00Z. -/
def Timestamp.new (T : Tables) (t : Timestamp) (flag : String) (ts : GoTime) :
    Out (Timestamp × Option Err) := do
  let flag := stripSpaces flag
  let header ← setT T 0 flag
  let t := { t with header := header }
  if flag = "posix32" then
    let t := { t with secs := ts.unix, ttype := flag }
    if t.secs > maxUint32 then pure (t, some "posix32:Seconds exceed 32 bits")
    else pure ({ t with nsecs := 0, loc := [] }, none)
  else if flag = "posix64" then
    pure ({ t with secs := ts.unix, ttype := flag, nsecs := 0, loc := [] }, none)
  else if flag = "posix32_32" then
    let n := ts.unixNano
    let t := { t with secs := n.sdiv 1000000000#64, ttype := flag, nsecs := n.srem 1000000000#64 }
    if t.secs > maxUint32 then pure (t, some "posix32_32:Seconds exceed 32 bits")
    else pure ({ t with loc := [] }, none)
  else if flag = "posix64_32" then
    let n := ts.unixNano
    let t := { t with secs := n.sdiv 1000000000#64, ttype := flag, nsecs := n.srem 1000000000#64 }
    if t.nsecs > maxUint32 then pure (t, some "posix64_32:Remainder exceed 32 bits")
    else pure ({ t with loc := [] }, none)
  else if flag = "epoch2000_32" then
    let t := { t with ttype := flag, secs := ts.unix - 946684800#64 }
    if t.secs > maxUint32 then pure (t, some "epoch2000_32:Seconds out of bounds")
    else pure ({ t with nsecs := 0, loc := [] }, none)
  else
    pure ({ t with loc := utf8 flag, ttype := flag }, none)

/-- `Timestamp.Put` (timestamp/timestamp.go:90-117). `copy(tstamp[k:], "")` copies nothing. -/
def Timestamp.put (T : Tables) (t : Timestamp) : Out (List Byte) := do
  let b ← putAt (mkBytes 16) 0 1 [t.header]
  let nm ← nameT T t.header
  if nm = "posix32" then
    putAt b 1 5 (be32 (t.secs.setWidth 32))
  else if nm = "posix64" then
    putAt b 1 9 (be64 t.secs)
  else if nm = "posix32_32" then do
    let b ← putAt b 1 5 (be32 (t.secs.setWidth 32))
    putAt b 5 9 (be32 (t.nsecs.setWidth 32))
  else if nm = "posix64_32" then do
    let b ← putAt b 1 9 (be64 t.secs)
    putAt b 9 13 (be32 (t.nsecs.setWidth 32))
  else if nm = "epoch2000_32" then
    putAt b 1 5 (be32 (t.secs.setWidth 32))
  else
    copyAt b 1 15 t.loc

/-- `Timestamp.Now` (timestamp/timestamp.go:120-127); the clock reading is a parameter. -/
def Timestamp.now (T : Tables) (t : Timestamp) (flag : String) (clock : GoTime) :
    Out (Timestamp × Option Err) := do
  let (t, e) ← t.new T flag clock
  pure (t, e.map fun _ => "TimeStampNow invalid flag")

/-- `tstamp[0]`: index expression (timestamp/timestamp.go:130-169). -/
def byteAt (f : List Byte) (i : Nat) : Out Byte :=
  match f[i]? with
  | some b => .ret b
  | none => .panic

/-- `Timestamp.Get` (timestamp/timestamp.go:130-169). -/
def Timestamp.get (T : Tables) (_t : Timestamp) (b : List Byte) : Out (Timestamp × Option Err) := do
  let header ← byteAt b 0
  let tt ← getTStr T header
  if tt = "posix32" then do
    let s ← slice b 1 5
    let v ← rd32 s
    pure (⟨header, v.setWidth 64, 0, [], tt⟩, none)
  else if tt = "posix64" then do
    let s ← slice b 1 9
    let v ← rd64 s
    pure (⟨header, v, 0, [], tt⟩, none)
  else if tt = "posix32_32" then do
    let s ← slice b 1 5
    let v ← rd32 s
    let s' ← slice b 5 9
    let n ← rd32 s'
    pure (⟨header, v.setWidth 64, n.setWidth 64, [], tt⟩, none)
  else if tt = "posix64_32" then do
    let s ← slice b 1 9
    let v ← rd64 s
    let s' ← slice b 9 13
    let n ← rd32 s'
    pure (⟨header, v, n.setWidth 64, [], tt⟩, none)
  else if tt = "epoch2000_32" then do
    let s ← slice b 1 5
    let v ← rd32 s
    pure (⟨header, v.setWidth 64, 0, [], tt⟩, none)
  else do
    let s ← slice b 1 15
    pure (⟨header, 0, 0, s, tt⟩, some "timestamp.Get: Invalid Timestamp type")

/-- `Timestamp.Print` (timestamp/timestamp.go:177-197), reduced to whether it returns. -/
def Timestamp.print (T : Tables) (t : Timestamp) : Out Unit := do
  let _ ← getTStr T t.header
  pure ()

end Saratoga
