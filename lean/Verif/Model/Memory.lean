import Verif.Model.Aggregator

/-!
# Memory recorder

Model of the aggregation of `pywr-core/src/recorders/memory.rs`.
-/

namespace Verif.Agg

open Verif.Calendar Verif.Time

/-- `PeriodValue<Vec<f64>>`: the values of all metrics over one period. -/
structure Row where
  start : DateTime
  duration : Int
  values : List ℚ
  deriving DecidableEq, Repr

/-- `Aggregation`, lines 30-35. -/
structure Aggregation where
  scenario : Option AggFunc
  time : Option AggFunc
  metric : Option AggFunc

/-- `AggregationError`, lines 20-28; `panic` stands for the panics on missing data. -/
inductive MemoryError
  | notDefined
  | failed
  | panic
  deriving DecidableEq, Repr

/-- `AggregationOrder`, lines 284-289. -/
inductive Order
  | metricTimeScenario
  | timeMetricScenario
  deriving DecidableEq, Repr

/-- `From<&[PeriodValue<T>]> for PeriodValue<Vec<T>>`, `recorders/aggregator/mod.rs:209-221`: the row that is saved for the
values of the metrics. `none` is the panic for an empty list. -/
def rowOf (values : List PeriodValue) : Option Row :=
  match values.head?, values.getLast? with
  | some first, some last => some { start := first.start, duration := last.duration, values := values.map (·.value) }
  | _, _ => none

/-- `apply_metric_func_f64` and `apply_scenario_func`, lines 69-83 and 89-103: a single value is passed on. -/
def applyPlain (fmax : ℚ) (f : Option AggFunc) (values : List ℚ) : Except MemoryError ℚ :=
  match values with
  | [x] => .ok x
  | _ =>
    match f with
    | none => .error .notDefined
    | some f => .ok (calcIter fmax f values)

/-- `apply_metric_func_period_value`, lines 45-63. -/
def applyRow (fmax : ℚ) (agg : Aggregation) (row : Row) : Except MemoryError PeriodValue :=
  match applyPlain fmax agg.metric row.values with
  | .error e => .error e
  | .ok x => .ok { start := row.start, duration := row.duration, value := x }

/-- `apply_time_func`, lines 109-124: again a single value is passed on. -/
def applyTime (agg : Aggregation) (values : List PeriodValue) : Except MemoryError ℚ :=
  match values with
  | [v] => .ok v.value
  | _ =>
    match agg.time with
    | none => .error .notDefined
    | some f =>
      match calcPeriod f values with
      | none => .error .failed
      | some x => .ok x

/-- `Iterator::collect::<Result<Vec<_>, _>>` of a map. -/
def collect {α β : Type} (f : α → Except MemoryError β) : List α → Except MemoryError (List β)
  | [] => .ok []
  | x :: xs =>
    match f x with
    | .error e => .error e
    | .ok y =>
      match collect f xs with
      | .error e => .error e
      | .ok ys => .ok (y :: ys)

/-- One scenario of `aggregate_metric_time_scenario`, lines 183-193. -/
def metricThenTime (fmax : ℚ) (agg : Aggregation) (rows : List Row) : Except MemoryError ℚ :=
  match collect (applyRow fmax agg) rows with
  | .error e => .error e
  | .ok ts => applyTime agg ts

/-- `PeriodValue<Vec<T>>::index` for one metric over time, `recorders/aggregator/mod.rs:190-199`; an index out of range
panics. -/
def column (rows : List Row) (i : Nat) : Except MemoryError (List PeriodValue) :=
  collect (fun r =>
    match r.values[i]? with
    | none => .error .panic
    | some x => .ok { start := r.start, duration := r.duration, value := x }) rows

/-- The value of one metric over time, lines 209-216. -/
def metricOverTime (agg : Aggregation) (rows : List Row) (i : Nat) : Except MemoryError ℚ :=
  match column rows i with
  | .error e => .error e
  | .ok ts => applyTime agg ts

/-- One scenario of `aggregate_time_metric_scenario`, lines 205-219. -/
def timeThenMetric (fmax : ℚ) (agg : Aggregation) (rows : List Row) : Except MemoryError ℚ :=
  match rows with
  | [] => .error .panic
  | first :: _ =>
    match collect (metricOverTime agg rows) (List.range first.values.length) with
    | .error e => .error e
    | .ok metrics => applyPlain fmax agg.metric metrics

/-- `aggregate_metric_time_scenario` and `aggregate_time_metric_scenario`, lines 178-224. -/
def aggregate (fmax : ℚ) (agg : Aggregation) (order : Order) (data : List (List Row)) : Except MemoryError ℚ :=
  match collect (match order with
    | .metricTimeScenario => metricThenTime fmax agg
    | .timeMetricScenario => timeThenMetric fmax agg) data with
  | .error e => .error e
  | .ok values => applyPlain fmax agg.scenario values

end Verif.Agg
