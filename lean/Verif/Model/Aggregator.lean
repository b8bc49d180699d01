import Verif.Model.AggFuncs

/-!
# Periodic aggregation

Model of `pywr-core/src/recorders/aggregator/mod.rs` and of the part of `pywr-core/src/recorders/metric_set.rs` that
feeds it. The number of days of a period is a natural number here; the code accepts a negative one, for which the loop
that splits a value only ends when the date overflows. A panic is `none`.
-/

namespace Verif.Agg

open Verif.Calendar Verif.Time

/-- `AggregationFrequency`, lines 7-12. -/
inductive Frequency
  | monthly
  | annual
  | days (n : Nat)
  deriving DecidableEq, Repr

/-- `AggregationFrequency::is_date_in_period`, lines 15-26. -/
def inPeriod (f : Frequency) (periodStart date : DateTime) : Bool :=
  match f with
  | .monthly => decide (periodStart.date.year = date.date.year) && decide (periodStart.date.month = date.date.month)
  | .annual => decide (periodStart.date.year = date.date.year)
  | .days n =>
    let periodEnd : DateTime := ⟨periodStart.date.addDays n, periodStart.ns⟩
    decide (periodStart.le date) && !decide (periodEnd.le date)

/-- `AggregationFrequency::start_of_next_period`, lines 28-46. -/
def nextPeriod (f : Frequency) (t : DateTime) : DateTime :=
  match f with
  | .monthly =>
    let d := t.date.addMonths 1
    ⟨⟨d.year, d.month, 1⟩, 0⟩
  | .annual =>
    let d := t.date.addMonths 12
    ⟨⟨d.year, 1, 1⟩, 0⟩
  | .days n => ⟨t.date.addDays n, t.ns⟩

/-- The loop of `split_value_into_periods`, lines 56-72; `none` stands for a loop that has not ended (see
`C41_split`). -/
def splitLoop (f : Frequency) (value : ℚ) (stop : DateTime) : Nat → DateTime → Option (List PeriodValue)
  | 0, _ => none
  | fuel + 1, current =>
    if stop.le current then some []
    else
      let next := nextPeriod f current
      let duration := if next.le stop then next.since current else stop.since current
      (splitLoop f value stop fuel next).map ({ start := current, duration := duration, value := value } :: ·)

/-- `AggregationFrequency::split_value_into_periods`, lines 50-75. -/
def split (f : Frequency) (v : PeriodValue) : Option (List PeriodValue) :=
  splitLoop f v.value (v.start.add v.duration.toNat) (v.duration.toNat + 1) v.start

/-- `PeriodicAggregatorState::process_value`, lines 84-127. The state is the list of values of the current period;
`None` is the empty list, which the code never stores otherwise. -/
def processPiece (f : Frequency) (func : AggFunc) (state : List PeriodValue) (v : PeriodValue) :
    List PeriodValue × Option PeriodValue :=
  match state with
  | [] => ([v], none)
  | first :: _ =>
    if inPeriod f first.start v.start then (state ++ [v], none)
    else
      ([v],
        match calcPeriod func state with
        | some a => some { start := first.start, duration := v.start.since first.start, value := a }
        | none => none)

/-- `PeriodicAggregatorState::calc_aggregation`, lines 137-162. -/
def calcAggregation (func : AggFunc) (state : List PeriodValue) : Option PeriodValue :=
  match state with
  | [] => none
  | first :: rest =>
    match calcPeriod func state with
    | some a => some { start := first.start, duration := ((first :: rest).getLast (by simp)).start.since first.start, value := a }
    | none => none

/-- The loop of `PeriodicAggregator::process_value`, lines 239-251. -/
def processPieces (f : Frequency) (func : AggFunc) : List PeriodValue → Option PeriodValue → List PeriodValue →
    Option (List PeriodValue × Option PeriodValue)
  | state, agg, [] => some (state, agg)
  | state, agg, v :: vs =>
    match processPiece f func state v with
    | (state, none) => processPieces f func state agg vs
    | (state, some av) =>
      match agg with
      | some _ => none
      | none => processPieces f func state (some av) vs

/-- One aggregator without its child: `PeriodicAggregator`, lines 165-169. -/
structure Level where
  frequency : Option Frequency
  function : AggFunc

/-- `PeriodicAggregator::process_value`, lines 232-256. -/
def processValue (l : Level) (state : List PeriodValue) (v : PeriodValue) : Option (List PeriodValue × Option PeriodValue) :=
  match l.frequency with
  | some f =>
    match split f v with
    | none => none
    | some pieces => processPieces f l.function state none pieces
  | none => some (state ++ [v], none)

/-- `Aggregator::append_value`, lines 294-307. An aggregator with its chain of children is a list, outermost first. -/
def append : List Level → List (List PeriodValue) → PeriodValue → Option (List (List PeriodValue) × Option PeriodValue)
  | [], [], v => some ([], some v)
  | l :: child, s :: childState, v =>
    match append child childState v with
    | none => none
    | some (childState, none) => some (s :: childState, none)
    | some (childState, some a) =>
      match processValue l s a with
      | none => none
      | some (s, o) => some (s :: childState, o)
  | _, _, _ => none

/-- `Aggregator::finalise`, lines 313-328. -/
def finalise : List Level → List (List PeriodValue) → Option (List (List PeriodValue) × Option PeriodValue)
  | [], [] => some ([], none)
  | l :: child, s :: childState =>
    match finalise child childState with
    | none => none
    | some (childState, none) => some (s :: childState, calcAggregation l.function s)
    | some (childState, some a) =>
      match processValue l s a with
      | none => none
      | some (s, _) => some (s :: childState, calcAggregation l.function s)
  | _, _ => none

/-- `Aggregator::setup`, lines 285-291. -/
def setup (levels : List Level) : List (List PeriodValue) := levels.map fun _ => []

/-- The values recorded over a run, before it is finalised: `MetricSet::save`, `metric_set.rs:127-182`, once for every
timestep, for one metric. -/
def appendAll (levels : List Level) : List (List PeriodValue) → List PeriodValue →
    Option (List (List PeriodValue) × List PeriodValue)
  | state, [] => some (state, [])
  | state, v :: vs =>
    match append levels state v with
    | none => none
    | some (state, o) =>
      match appendAll levels state vs with
      | none => none
      | some (state, out) => some (state, o.toList ++ out)

/-- All records of a run: those of the steps and the one of `MetricSet::finalise`, `metric_set.rs:184-200`. -/
def run (levels : List Level) (values : List PeriodValue) : Option (List PeriodValue) :=
  match appendAll levels (setup levels) values with
  | none => none
  | some (state, out) =>
    match finalise levels state with
    | none => none
    | some (_, o) => some (out ++ o.toList)

end Verif.Agg
