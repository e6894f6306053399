/-!
# Specification of the proleptic Gregorian calendar

The calendar is specified by its successor function: day 0 is 1970-01-01 and each day is followed by
`nextDay`. The closed formula `dayNumber` is proved to agree with it (`Props/Timestamp.lean`).
-/

namespace Osmio.Spec

/-- Gregorian leap years. -/
def isLeap (y : Int) : Prop := y % 4 = 0 ∧ (y % 100 ≠ 0 ∨ y % 400 = 0)

instance (y : Int) : Decidable (isLeap y) := by unfold isLeap; infer_instance

/-- Number of days of a month (1 to 12). -/
def daysInMonth (y : Int) (m : Nat) : Nat :=
  if m = 2 then (if isLeap y then 29 else 28)
  else if m = 4 ∨ m = 6 ∨ m = 9 ∨ m = 11 then 30 else 31

/-- A civil date. -/
structure Date where
  year : Int
  month : Nat
  day : Nat
  deriving DecidableEq, Repr

/-- The date exists in the calendar. -/
def Date.Valid (d : Date) : Prop :=
  1 ≤ d.month ∧ d.month ≤ 12 ∧ 1 ≤ d.day ∧ d.day ≤ daysInMonth d.year d.month

/-- The following day. -/
def nextDay (d : Date) : Date :=
  if d.day < daysInMonth d.year d.month then ⟨d.year, d.month, d.day + 1⟩
  else if d.month < 12 then ⟨d.year, d.month + 1, 1⟩
  else ⟨d.year + 1, 1, 1⟩

/-- Days of the year before month `m`. -/
def daysBeforeMonth (y : Int) : Nat → Nat
  | 0 => 0
  | m + 1 => if m = 0 then 0 else daysBeforeMonth y m + daysInMonth y m

/-- Days before 1 January of year `y`, counted from 1 January of year 1. -/
def daysBeforeYear (y : Int) : Int := 365 * (y - 1) + (y - 1) / 4 - (y - 1) / 100 + (y - 1) / 400

/-- Number of the day, with 1970-01-01 being day 0. -/
def dayNumber (d : Date) : Int :=
  daysBeforeYear d.year + daysBeforeMonth d.year d.month + d.day - 1 - 719162

/-- A civil date and time of day. -/
structure DateTime where
  date : Date
  hour : Nat
  minute : Nat
  second : Nat
  deriving DecidableEq, Repr

def DateTime.Valid (t : DateTime) : Prop :=
  t.date.Valid ∧ t.hour ≤ 23 ∧ t.minute ≤ 59 ∧ t.second ≤ 59

/-- Seconds since 1970-01-01T00:00:00Z of a UTC date and time. -/
def epochSeconds (t : DateTime) : Int :=
  dayNumber t.date * 86400 + t.hour * 3600 + t.minute * 60 + t.second

end Osmio.Spec
