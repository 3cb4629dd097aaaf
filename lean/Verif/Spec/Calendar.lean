import Verif.Model.Timestamp
/-! # The calendar -/
namespace Saratoga

/-- Years of 366 days. -/
def LeapYear (y : Nat) : Prop := y % 400 = 0 ∨ (y % 4 = 0 ∧ y % 100 ≠ 0)

instance (y : Nat) : Decidable (LeapYear y) := by unfold LeapYear; infer_instance

def yearLength (y : Nat) : Nat := if LeapYear y then 366 else 365

def monthLength (y m : Nat) : Nat :=
  if m = 2 then (if LeapYear y then 29 else 28) else if m = 4 ∨ m = 6 ∨ m = 9 ∨ m = 11 then 30 else 31

/-- The days of the first `n` years, from the year 1 on. -/
def yearsDays : Nat → Nat
  | 0 => 0
  | n + 1 => yearsDays n + yearLength (n + 1)

/-- The days of the first `n` months of a year. -/
def monthsDays (y : Nat) : Nat → Nat
  | 0 => 0
  | n + 1 => monthsDays y n + monthLength y (n + 1)

/-- A date of the calendar. -/
def IsDate (y m d : Nat) : Prop := 1 ≤ y ∧ 1 ≤ m ∧ m ≤ 12 ∧ 1 ≤ d ∧ d ≤ monthLength y m

/-- The number of days from 1 January of the year 1, a Monday, to a date. -/
def dayNumber (y m d : Nat) : Nat := yearsDays (y - 1) + monthsDays y (m - 1) + (d - 1)

/-- A number with blanks or zeros before it. -/
def padded (c : Char) (width n : Nat) : String := String.ofList (List.leftpad width c (toString n).toList)

/-- Weekday, month, day, time of day, year. -/
def dateText (y m d hour minute second : Nat) (fraction : String) : String :=
  ["Mon", "Tue", "Wed", "Thu", "Fri", "Sat", "Sun"].getD (dayNumber y m d % 7) "" ++ " " ++
  ["Jan", "Feb", "Mar", "Apr", "May", "Jun", "Jul", "Aug", "Sep", "Oct", "Nov", "Dec"].getD (m - 1) "" ++ " " ++
  padded ' ' 2 d ++ " " ++ padded '0' 2 hour ++ ":" ++ padded '0' 2 minute ++ ":" ++ padded '0' 2 second ++
  fraction ++ " " ++ padded '0' 4 y ++ " UTC"

/-- The text is the date and time of the moment `sec` seconds after 1970 began (62135596800 after the year 1 did). -/
def ShowsMoment (text : String) (sec : Int) (fraction : String) : Prop :=
  ∃ y m d hour minute second, IsDate y m d ∧ hour < 24 ∧ minute < 60 ∧ second < 60 ∧
    ((dayNumber y m d * 86400 + hour * 3600 + minute * 60 + second : Nat) : Int) = sec + 62135596800 ∧
    text = dateText y m d hour minute second fraction

end Saratoga
