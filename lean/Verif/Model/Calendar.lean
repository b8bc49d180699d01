import Mathlib.Algebra.Order.Field.Rat

/-!
# Civil calendar

The parts of `jiff::civil` that the code relies on: the proleptic Gregorian calendar without time zones.
`jiff` is a dependency, so this file follows its documented behaviour, not a file in `/repo`. The limits of its range
(years -9999 to 9999) are not modelled.
-/

namespace Verif.Calendar

/-- Gregorian leap year rule (`Date::in_leap_year`). -/
def isLeap (y : Int) : Bool := y % 4 == 0 && (!(y % 100 == 0) || y % 400 == 0)

/-- Number of days in a month (`Date::days_in_month`); zero for a month number that does not exist. -/
def daysInMonth (y : Int) (m : Nat) : Nat :=
  match m with
  | 1 => 31
  | 2 => if isLeap y then 29 else 28
  | 3 => 31
  | 4 => 30
  | 5 => 31
  | 6 => 30
  | 7 => 31
  | 8 => 31
  | 9 => 30
  | 10 => 31
  | 11 => 30
  | 12 => 31
  | _ => 0

/-- A civil date. -/
structure Date where
  year : Int
  month : Nat
  day : Nat
  deriving DecidableEq, Repr

/-- The dates that exist. `jiff` cannot represent any other. -/
def Date.Valid (d : Date) : Prop :=
  1 ≤ d.month ∧ d.month ≤ 12 ∧ 1 ≤ d.day ∧ d.day ≤ daysInMonth d.year d.month

instance (d : Date) : Decidable d.Valid := by unfold Date.Valid; infer_instance

/-- Sum of the lengths of the months before `m`. -/
def daysBeforeMonth (y : Int) : Nat → Nat
  | 0 => 0
  | m + 1 => daysBeforeMonth y m + daysInMonth y m

/-- `Date::day_of_year`, one-based. -/
def Date.dayOfYear (d : Date) : Nat := daysBeforeMonth d.year d.month + d.day

/-- Number of days in a year. -/
def daysInYear (y : Int) : Nat := if isLeap y then 366 else 365

/-- Number of days before 1 January of year `y`, counted from 1 January of year 1. -/
def daysBeforeYear (y : Int) : Int := 365 * (y - 1) + (y - 1) / 4 - (y - 1) / 100 + (y - 1) / 400

/-- Serial number of a date. -/
def Date.dayNumber (d : Date) : Int := daysBeforeYear d.year + d.dayOfYear

/-- The following day (`Date::tomorrow`). -/
def Date.succ (d : Date) : Date :=
  if d.day < daysInMonth d.year d.month then { d with day := d.day + 1 }
  else if d.month < 12 then { d with month := d.month + 1, day := 1 }
  else { year := d.year + 1, month := 1, day := 1 }

/-- `Date + Span` for a non-negative number of days. -/
def Date.addDays (d : Date) : Nat → Date
  | 0 => d
  | n + 1 => (d.addDays n).succ

/-- `Date + Span` for a number of months: the day is clipped to the length of the new month. -/
def Date.addMonths (d : Date) (n : Nat) : Date :=
  let k := d.month - 1 + n
  let y := d.year + (k / 12 : Nat)
  let m := k % 12 + 1
  { year := y, month := m, day := min d.day (daysInMonth y m) }

/-- Nanoseconds in a day. -/
def nsPerDay : Nat := 86400 * 1000000000

/-- A civil date and time; `ns` is the time since midnight. -/
structure DateTime where
  date : Date
  ns : Nat
  deriving DecidableEq, Repr

/-- The date-times that exist. -/
def DateTime.Valid (t : DateTime) : Prop := t.date.Valid ∧ t.ns < nsPerDay

instance (t : DateTime) : Decidable t.Valid := by unfold DateTime.Valid; infer_instance

/-- Position on the (time zone free) time line in nanoseconds. `jiff` compares date-times by year, month, day and time;
`Verif.Lemmas.Calendar.le_iff_instant` shows that this is the same order. -/
def DateTime.instant (t : DateTime) : Int := t.date.dayNumber * nsPerDay + t.ns

/-- `DateTime + SignedDuration` for a non-negative duration in nanoseconds. -/
def DateTime.add (t : DateTime) (d : Nat) : DateTime :=
  { date := t.date.addDays ((t.ns + d) / nsPerDay), ns := (t.ns + d) % nsPerDay }

/-- Lexicographic order of dates, as derived for `jiff::civil::Date`. -/
def Date.lt (a b : Date) : Prop :=
  a.year < b.year ∨ (a.year = b.year ∧ (a.month < b.month ∨ (a.month = b.month ∧ a.day < b.day)))

instance (a b : Date) : Decidable (a.lt b) := by unfold Date.lt; infer_instance

/-- Lexicographic order of date-times. -/
def DateTime.le (a b : DateTime) : Prop :=
  a.date.lt b.date ∨ (a.date = b.date ∧ a.ns ≤ b.ns)

instance (a b : DateTime) : Decidable (a.le b) := by unfold DateTime.le; infer_instance

/-- `DateTime::duration_since` in nanoseconds. -/
def DateTime.since (a b : DateTime) : Int := a.instant - b.instant

/-- A `jiff::Span` as far as the code uses it; all parts are non-negative. -/
structure Span where
  months : Nat
  weeks : Nat
  days : Nat
  ns : Nat
  deriving DecidableEq, Repr

/-- `Span * i64`. -/
def Span.mul (s : Span) (k : Nat) : Span :=
  { months := s.months * k, weeks := s.weeks * k, days := s.days * k, ns := s.ns * k }

/-- `DateTime + Span`: months first (with clipping), then weeks and days, then the time part. -/
def DateTime.addSpan (t : DateTime) (s : Span) : DateTime :=
  DateTime.add { t with date := (t.date.addMonths s.months).addDays (7 * s.weeks + s.days) } s.ns

end Verif.Calendar
