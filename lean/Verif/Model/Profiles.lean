import Verif.Model.Timestep
import Mathlib.Data.Rat.Floor

/-!
# Profiles

Transcribed from `/repo/pywr-core/src/parameters/profiles/*.rs` and, where said, `/repo/pywr-schema/src/parameters/profiles.rs`.

Reading outside an array is a panic: `none`. Numbers of type `f64` are rational.
-/

namespace Verif.Profiles

open Verif.Calendar Verif.Time

/-! ## Monthly -/

/-- `MonthlyInterpDay`, `monthly.rs:10-14`, and the same for weeks, `weekly.rs:10-14`. -/
inductive InterpDay
  | first
  | last
  deriving DecidableEq, Repr

/-- `date.first_of_month().start_of_day()`. -/
def startOfMonth (d : Date) : DateTime := ⟨⟨d.year, d.month, 1⟩, 0⟩

/-- `date.last_of_month().start_of_day()`. -/
def lastOfMonth (d : Date) : DateTime := ⟨⟨d.year, d.month, daysInMonth d.year d.month⟩, 0⟩

/-- `date - 1 month`, the day is clipped to the length of the month. -/
def previousMonth (d : Date) : Date :=
  if d.month = 1 then ⟨d.year - 1, 12, min d.day (daysInMonth (d.year - 1) 12)⟩
  else ⟨d.year, d.month - 1, min d.day (daysInMonth d.year (d.month - 1))⟩

/-- `interpolate_first`, `monthly.rs:24-37`. -/
def interpolateFirst (t : DateTime) (firstValue lastValue : ℚ) : ℚ :=
  let start := startOfMonth t.date
  let next := startOfMonth (t.date.addMonths 1)
  let fraction : ℚ := (t.since start : ℚ) / (next.since start : ℚ)
  firstValue + (lastValue - firstValue) * fraction

/-- `interpolate_last`, `monthly.rs:41-53`. -/
def interpolateLast (t : DateTime) (firstValue lastValue : ℚ) : ℚ :=
  let endOfLast := lastOfMonth (previousMonth t.date)
  let endOfMonth := lastOfMonth t.date
  let fraction : ℚ := (t.since endOfLast : ℚ) / (endOfMonth.since endOfLast : ℚ)
  firstValue + (lastValue - firstValue) * fraction

/-- `MonthlyProfileParameter::compute`, `monthly.rs:61-88`. `values` has type `[f64; 12]` in the code. -/
def monthly (values : List ℚ) (interp : Option InterpDay) (t : DateTime) : Option ℚ :=
  match interp with
  | none => values[t.date.month - 1]?
  | some .first =>
    match values[t.date.month - 1]?, values[t.date.month % 12]? with
    | some a, some b => some (interpolateFirst t a b)
    | _, _ => none
  | some .last =>
    let lastMonth := if t.date.month = 1 then 12 else t.date.month - 1
    match values[lastMonth - 1]?, values[t.date.month - 1]? with
    | some a, some b => some (interpolateLast t a b)
    | _, _ => none

/-! ## Weekly -/

/-- `TryFrom<&[f64]> for WeeklyProfileValues`, `weekly.rs:147-157`: only the length is checked. -/
def weeklyAccepts (values : List ℚ) : Bool := values.length == 52 || values.length == 53

/-- `current_index`, `weekly.rs:36-47`: the cast to `usize` of the day index over seven rounds down. -/
def weekIndex (values : List ℚ) (t : DateTime) : Nat := min (dayOfYearIndex t.date / 7) (values.length - 1)

/-- `current`, `weekly.rs:50-60`. -/
def weekCurrent (values : List ℚ) (t : DateTime) : Option ℚ := values[weekIndex values t]?

/-- `next`, `weekly.rs:65-84`. -/
def weekNext (values : List ℚ) (t : DateTime) : Option ℚ :=
  if weekIndex values t ≥ values.length - 1 then values[0]? else values[weekIndex values t + 1]?

/-- `prev`, `weekly.rs:88-107`. -/
def weekPrev (values : List ℚ) (t : DateTime) : Option ℚ :=
  if weekIndex values t = 0 then values[values.length - 1]? else values[weekIndex values t - 1]?

/-- `interpolate`, `weekly.rs:111-115`, with `current_week_index`, `weekly.rs:26-33`. -/
def weekInterpolate (t : DateTime) (firstValue lastValue : ℚ) : ℚ :=
  let pos : ℚ := fractionalDayOfYear t / 7
  firstValue + (lastValue - firstValue) * (pos - (⌊pos⌋ : ℚ))

/-- `value`, `weekly.rs:121-137`. -/
def weekly (values : List ℚ) (interp : Option InterpDay) (t : DateTime) : Option ℚ :=
  match interp with
  | none => weekCurrent values t
  | some .first =>
    match weekCurrent values t, weekNext values t with
    | some a, some b => some (weekInterpolate t a b)
    | _, _ => none
  | some .last =>
    match weekPrev values t, weekCurrent values t with
    | some a, some b => some (weekInterpolate t a b)
    | _, _ => none

/-! ## Uniform drawdown -/

/-- `reset_doy` from the builder, `uniform_drawdown.rs:107-117`: day of the year in 2016, or an error for a date that does not
exist in that year. -/
def resetDoy (month day : Nat) : Option Nat :=
  if (⟨2016, month, day⟩ : Date).Valid then some (Date.dayOfYear ⟨2016, month, day⟩) else none

/-- Days into the period and number of days in the period, `uniform_drawdown.rs:31-58`. -/
def drawdownDays (resetDoy : Nat) (d : Date) : Int × Nat :=
  let currentDoy := dayOfYearIndex d + 1
  let into : Int := (currentDoy : Int) - resetDoy
  let year := if into < 0 then d.year - 1 else d.year
  let year := if resetDoy > 60 then year + 1 else year
  let total := if isLeap year then 366 else 365
  let into := if into < 0 then
      (if !isLeap d.year && decide (currentDoy > 60) then into + 366 - 1 else into + 366)
    else into
  (into, total)

/-- `UniformDrawdownProfileParameter::compute`, `uniform_drawdown.rs:25-64`. -/
def drawdown (residualDays resetDoy : Nat) (d : Date) : ℚ :=
  let days := drawdownDays resetDoy d
  let residual : ℚ := (residualDays : ℚ) / (days.2 : ℚ)
  let slope := (residual - 1) / (days.2 : ℚ)
  1 + slope * (days.1 : ℚ)

/-- Casts made by `pywr-schema/src/parameters/profiles.rs:189-200`: `as u8` keeps the lowest eight bits; `as i8` likewise, read
as a signed number. -/
def castU8 (n : Nat) : Nat := n % 256

/-- `as i8`; see `castU8`. -/
def castI8 (n : Nat) : Int := if n % 256 < 128 then (n % 256 : Nat) else (n % 256 : Nat) - 256

/-! ## Daily and diurnal -/

/-- `DailyProfileParameter::add_to_network`, `pywr-schema/src/parameters/profiles.rs:34-65`: values accepted and completed. -/
def dailyValues (values : List ℚ) : Option (List ℚ) :=
  if values.length = 366 then some values
  else if values.length = 365 then
    match values[58]? with
    | some v => some (values.take 59 ++ v :: values.drop 59)
    | none => none
  else none

/-- `DailyProfileParameter::compute`, `daily.rs:21-27`. -/
def daily (values : List ℚ) (t : DateTime) : Option ℚ := values[dayOfYearIndex t.date]?

/-- `DiurnalProfileParameter::compute`, `diurnal.rs`: the value of the hour. -/
def diurnal (values : List ℚ) (t : DateTime) : Option ℚ := values[t.ns / (3600 * 1000000000)]?

/-! ## Radial basis functions -/

/-- Weighted sum of distances, `rbf.rs:339-349`. `φ` stands for `RadialBasisFunction::compute`. -/
def rbfValue (φ : ℚ → ℚ) (points : List (ℚ × ℚ)) (weights : List ℚ) (x : ℚ) : ℚ :=
  ((points.zip weights).map (fun p => φ |x - p.1.1| * p.2)).sum

/-- The weights solve the system set up in `rbf.rs:321-333`: row `r` has entries `φ |x_c - x_r|` and right-hand side `y_r`. The
linear solver itself is not modelled; it returns weights that solve the system or the code panics. -/
def RbfSolved (φ : ℚ → ℚ) (points : List (ℚ × ℚ)) (weights : List ℚ) : Prop :=
  weights.length = points.length ∧
  ∀ r ∈ points, ((points.zip weights).map (fun c => φ |c.1.1 - r.1| * c.2)).sum = r.2

/-- The points repeated a year before and after, `rbf.rs:358-363`. -/
def rbfPoints (points : List (Nat × ℚ)) : List (ℚ × ℚ) :=
  points.map (fun p => ((p.1 : ℚ) - 365, p.2)) ++ points.map (fun p => ((p.1 : ℚ), p.2))
    ++ points.map (fun p => ((p.1 : ℚ) + 365, p.2))

/-- `interpolate_rbf_profile`, `rbf.rs:356-376`. -/
def rbfProfile (φ : ℚ → ℚ) (points : List (Nat × ℚ)) (weights : List ℚ) : List ℚ :=
  let short := (List.range 365).map (fun (i : Nat) => rbfValue φ (rbfPoints points) weights (i : ℚ))
  short.take 58 ++ (short.drop 58).take 1 ++ short.drop 58

/-- `RbfProfileParameter::compute`, `rbf.rs:136-145`. -/
def rbf (φ : ℚ → ℚ) (points : List (Nat × ℚ)) (weights : List ℚ) (t : DateTime) : Option ℚ :=
  (rbfProfile φ points weights)[dayOfYearIndex t.date]?

/-- Points in use after setting variables, `update_profile`, `rbf.rs:87-101`. -/
def rbfCurrent (points : List (Nat × ℚ)) (xs : Option (List Nat)) (ys : Option (List ℚ)) : List (Nat × ℚ) :=
  match xs, ys with
  | some x, some y => x.zip y
  | some x, none => x.zip (points.map (·.2))
  | none, some y => (points.zip y).map (fun p => (p.1.1, p.2))
  | none, none => points

/-- Bounds on the day of a point, `rbf.rs:247-283`. -/
def rbfDayBounds (range day : Nat) : Nat × Nat :=
  (max (if range ≤ day then day - range else 1) 1, min (day + range) 365)

end Verif.Profiles
