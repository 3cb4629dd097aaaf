import Verif.Model.Timestamp
/-!
# Model of how a time stamp is printed (`timestamp/timestamp.go` lines 177-197)

`Model/Timestamp.lean` has `Print` reduced to whether it returns, here it has its text. `time.Unix`, `UTC` and `Format`
are of the Go library: the date is computed as there, in cycles of 400, 100, 4 and 1 years from the year 1 on. Moments
before the year 1 are not modelled (their day is cut to the first), nor is the overflow of seconds near 2^63.
-/
namespace Saratoga

/-- `time.Unix(sec, nsec)` of `int64` numbers; more than a second of nanoseconds, or fewer than none, count as seconds
(library, used at timestamp/timestamp.go:177-197). -/
def GoTime.ofUnix (sec nsec : BitVec 64) : GoTime :=
  ⟨sec.toInt + nsec.toInt / 1000000000, (nsec.toInt % 1000000000).toNat⟩

/-- The seconds from the start of the year 1 to 1970 (library, used at timestamp/timestamp.go:177-197). -/
def yearOneSeconds : Int := 62135596800

/-- The year and the day in the year, from the number of days since the start of the year 1 (Go: `absDate`) (library,
used at timestamp/timestamp.go:177-197). -/
def yearOf (d : Nat) : Nat × Nat :=
  let n400 := d / 146097
  let d := d - 146097 * n400
  let n100 := d / 36524 - d / 36524 / 4
  let d := d - 36524 * n100
  let n4 := d / 1461
  let d := d - 1461 * n4
  let n1 := d / 365 - d / 365 / 4
  (400 * n400 + 100 * n100 + 4 * n4 + n1 + 1, d - 365 * n1)

/-- Go: `isLeap` (library, used at timestamp/timestamp.go:177-197). -/
def goLeap (y : Nat) : Bool := y % 4 = 0 ∧ (y % 100 ≠ 0 ∨ y % 400 = 0)

/-- Go: `daysBefore` (library, used at timestamp/timestamp.go:177-197). -/
def daysBefore : List Nat := [0, 31, 59, 90, 120, 151, 181, 212, 243, 273, 304, 334, 365]

/-- The month from 1 and the day in it from 1 (Go: `absDate`, second half) (library, used at
timestamp/timestamp.go:177-197). -/
def monthDay (leap : Bool) (yday : Nat) : Nat × Nat :=
  if leap ∧ yday = 59 then (2, 29)
  else
    let day := if leap ∧ yday > 59 then yday - 1 else yday
    let month := day / 31
    let stop := daysBefore.getD (month + 1) 0
    if day ≥ stop then (month + 2, day - stop + 1) else (month + 1, day - daysBefore.getD month 0 + 1)

/-- A number filled up on the left to this many characters (Go: `appendInt` with `0`, and `_2` with a blank) (library,
used at timestamp/timestamp.go:177-197). -/
def filled (c : Char) (width n : Nat) : String :=
  String.ofList (List.replicate (width - (toString n).length) c) ++ toString n

/-- Go: `shortDayNames` (library, used at timestamp/timestamp.go:177-197). -/
def shortDays : List String := ["Sun", "Mon", "Tue", "Wed", "Thu", "Fri", "Sat"]

/-- Go: `shortMonthNames` (library, used at timestamp/timestamp.go:177-197). -/
def shortMonths : List String :=
  ["Jan", "Feb", "Mar", "Apr", "May", "Jun", "Jul", "Aug", "Sep", "Oct", "Nov", "Dec"]

/-- `t.UTC().Format("Mon Jan _2 15:04:05 2006 UTC")`, and with `millis` `".000"` behind the seconds (library, used at
timestamp/timestamp.go:177-197). -/
def GoTime.format (t : GoTime) (millis : Bool) : String :=
  let secs := (t.sec + yearOneSeconds).toNat
  let days := secs / 86400
  let rest := secs % 86400
  let (year, yday) := yearOf days
  let (month, day) := monthDay (goLeap year) yday
  shortDays.getD ((days + 1) % 7) "" ++ " " ++ shortMonths.getD (month - 1) "" ++ " " ++ filled ' ' 2 day ++ " " ++
    filled '0' 2 (rest / 3600) ++ ":" ++ filled '0' 2 (rest % 3600 / 60) ++ ":" ++ filled '0' 2 (rest % 60) ++
    (if millis then "." ++ filled '0' 3 (t.nsec / 1000000) else "") ++ " " ++ filled '0' 4 year ++ " UTC"

/-- `Timestamp.Print` (timestamp/timestamp.go:177-197). -/
def Timestamp.printText (T : Tables) (t : Timestamp) : Out (List Byte) := do
  let k ← getTStr T t.header
  if k = "posix32" ∨ k = "posix64" then pure (utf8 ((GoTime.ofUnix t.secs t.nsecs).format false))
  else if k = "posix32_32" ∨ k = "posix64_32" then pure (utf8 ((GoTime.ofUnix t.secs t.nsecs).format true))
  else if k = "epoch2000_32" then
    pure (utf8 ((GoTime.ofUnix (946684800#64 + t.secs) t.nsecs).format false))
  else pure t.loc

end Saratoga
