import Verif.Model.Timestep

/-!
# Aggregation functions

Model of `pywr-core/src/agg_funcs/mod.rs` and of `PeriodValue` from `pywr-core/src/recorders/aggregator/mod.rs`.
Numbers are rationals, so `NaN` (for which the minimum and maximum over periods panic) does not occur. The Python
function of the `pyo3` feature is left out. An iterator is a list; every caller passes a slice, a vector or a deque,
whose `size_hint().0` is the length.
-/

namespace Verif.Agg

open Verif.Calendar Verif.Time

/-- `PeriodValue<f64>`, `recorders/aggregator/mod.rs:171-176`. The duration is a signed number of nanoseconds. -/
structure PeriodValue where
  start : DateTime
  duration : Int
  value : ℚ
  deriving DecidableEq, Repr

/-- `AggFuncF64`, `agg_funcs/mod.rs:24-39`. -/
inductive AggFunc
  | sum
  | mean
  | product
  | min
  | max
  | countNonZero
  | countFunc (func : ℚ → Bool)
  | anyNonZero (tolerance : ℚ)

/-- `Iterator::min_by` with the order of the numbers: the first of the least elements. -/
def minBy : List ℚ → Option ℚ
  | [] => none
  | v :: vs => some (vs.foldl (fun m x => if x < m then x else m) v)

/-- `Iterator::max_by` with the order of the numbers: the last of the greatest elements. -/
def maxBy : List ℚ → Option ℚ
  | [] => none
  | v :: vs => some (vs.foldl (fun m x => if x < m then m else x) v)

/-- `bool as u8 as f64`. -/
def asNumber (b : Bool) : ℚ := if b then 1 else 0

/-- `AggFuncF64::calc_period_values`, `agg_funcs/mod.rs:43-86`. -/
def calcPeriod (f : AggFunc) (values : List PeriodValue) : Option ℚ :=
  match f with
  | .sum => some (values.map (·.value)).sum
  | .mean =>
    let ndays := (values.map (fun v => fractionalDays v.duration)).sum
    if ndays = 0 then none
    else some ((values.map (fun v => v.value * fractionalDays v.duration)).sum / ndays)
  | .product => some (values.map (·.value)).prod
  | .min => minBy (values.map (·.value))
  | .max => maxBy (values.map (·.value))
  | .countNonZero => some (values.filter (fun v => v.value != 0)).length
  | .countFunc func => some (values.filter (fun v => func v.value)).length
  | .anyNonZero tolerance => some (asNumber (values.any (fun v => decide (tolerance < |v.value|))))

/-- `AggFuncF64::calc_iter_f64`, `agg_funcs/mod.rs:89-140`; `fmax` is `f64::MAX`. -/
def calcIter (fmax : ℚ) (f : AggFunc) (values : List ℚ) : ℚ :=
  match f with
  | .sum => values.sum
  | .mean => if values.length = 0 then 0 else values.sum / values.length
  | .max => values.foldl (fun total v => Max.max total v) (-fmax)
  | .min => values.foldl (fun total v => Min.min total v) fmax
  | .product => values.prod
  | .countNonZero => (values.filter (fun v => v != 0)).length
  | .countFunc func => (values.filter func).length
  | .anyNonZero tolerance => asNumber (values.any (fun v => decide (tolerance < |v|)))

/-- `AggFuncU64`, `agg_funcs/mod.rs:143-160`. -/
inductive AggFuncU64
  | sum
  | product
  | min
  | max
  | any
  | all
  deriving DecidableEq, Repr

/-- `u64::MAX`. -/
def u64Max : Nat := 18446744073709551615

/-- `AggFuncU64::calc_iter_u64`, `agg_funcs/mod.rs:164-183`. `none` stands for the overflow of a sum or product, which
panics in a debug build and wraps in a release build. -/
def calcIterU64 (f : AggFuncU64) (values : List Nat) : Option Nat :=
  match f with
  | .sum => values.foldl (fun t v => t.bind fun t => if t + v ≤ u64Max then some (t + v) else none) (some 0)
  | .product => values.foldl (fun t v => t.bind fun t => if t * v ≤ u64Max then some (t * v) else none) (some 1)
  | .max =>
    match values with
    | [] => some 0
    | v :: vs => some (vs.foldl Max.max v)
  | .min =>
    match values with
    | [] => some u64Max
    | v :: vs => some (vs.foldl Min.min v)
  | .any => some (if values.any (· != 0) then 1 else 0)
  | .all => some (if values.all (· != 0) then 1 else 0)

end Verif.Agg
