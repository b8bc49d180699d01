import Mathlib.Algebra.Order.Field.Rat
import Mathlib.Algebra.Order.Group.Unbundled.Abs

/-!
# Interpolation, control curves, apportioning and Muskingum routing

Transcribed from `/repo/pywr-core/src/parameters/`: `interpolate.rs`, `control_curves/*.rs`, `muskingum.rs`.

Values of metrics that may fail to be retrieved are `Option ℚ`. The order in which metrics are read is kept, since a failing
metric that is not reached does no harm.
-/

namespace Verif.Curves

/-- `FLOAT_EQ_TOLERANCE`, `lib.rs:28`. -/
def tolerance : ℚ := 1 / 1000000

/-- `interpolate`, `interpolate.rs:5-15`. -/
def interpolate (value lowerBound upperBound lowerValue upperValue : ℚ) : ℚ :=
  if value ≤ lowerBound then lowerValue
  else if value ≥ upperBound then upperValue
  else if |lowerBound - upperBound| < tolerance then lowerValue
  else lowerValue + (upperValue - lowerValue) * (value - lowerBound) / (upperBound - lowerBound)

/-- `InterpolationError`, `interpolate.rs:17-29`. -/
inductive InterpErr
  | insufficientPoints
  | belowLowerBounds
  | aboveUpperBounds
  | notStrictlyMonotonic
  deriving DecidableEq, Repr

/-- The loop over `points.windows(2)` and what follows it, `interpolate.rs:50-69`. -/
def scan (value : ℚ) (errorOnBounds : Bool) : List (ℚ × ℚ) → Except InterpErr ℚ
  | [] => .error .insufficientPoints
  | [p] => if errorOnBounds then .error .aboveUpperBounds else .ok p.2
  | lp :: up :: rest =>
    if lp.1 ≥ up.1 then .error .notStrictlyMonotonic
    else if value ≤ up.1 then .ok (interpolate value lp.1 up.1 lp.2 up.2)
    else scan value errorOnBounds (up :: rest)

/-- `linear_interpolation`, `interpolate.rs:31-70`. -/
def linearInterpolation (value : ℚ) (points : List (ℚ × ℚ)) (errorOnBounds : Bool) : Except InterpErr ℚ :=
  match points with
  | p :: q :: rest =>
    if value < p.1 then
      if errorOnBounds then .error .belowLowerBounds else .ok p.2
    else scan value errorOnBounds (p :: q :: rest)
  | _ => .error .insufficientPoints

/-! ## Control curves -/

/-- Errors of parameters: a metric that cannot be retrieved, a list that is too short, or a panic. -/
inductive Err
  | metric
  | outOfBounds (index length : Nat)
  | panic
  deriving DecidableEq, Repr

/-- The loop of `ControlCurveIndexParameter`, `index.rs:42-48`, from position `idx`. -/
def indexFrom (x : ℚ) : List (Option ℚ) → Nat → Except Err Nat
  | [], idx => .ok idx
  | none :: _, _ => .error .metric
  | some c :: cs, idx => if x ≥ c then .ok idx else indexFrom x cs (idx + 1)

/-- `ControlCurveIndexParameter::before`, `index.rs:34-50`. -/
def controlCurveIndex (x : Option ℚ) (curves : List (Option ℚ)) : Except Err Nat :=
  match x with
  | none => .error .metric
  | some x => indexFrom x curves 0

/-- Retrieve a value. -/
def retrieve (m : Option ℚ) : Except Err ℚ :=
  match m with
  | none => .error .metric
  | some v => .ok v

/-- The loop of `ControlCurveParameter`, `simple.rs:43-69`. -/
def curveFrom (x : ℚ) (values : List (Option ℚ)) : List (Option ℚ) → Nat → Except Err ℚ
  | [], _ =>
    match values.getLast? with
    | none => .error (.outOfBounds 0 0)
    | some v => retrieve v
  | none :: _, _ => .error .metric
  | some c :: cs, idx =>
    if x ≥ c then
      match values[idx]? with
      | none => .error (.outOfBounds idx values.length)
      | some v => retrieve v
    else curveFrom x values cs (idx + 1)

/-- `ControlCurveParameter::before`, `simple.rs:35-70`. -/
def controlCurve (x : Option ℚ) (curves values : List (Option ℚ)) : Except Err ℚ :=
  match x with
  | none => .error .metric
  | some x => curveFrom x values curves 0

/-- Index into a list; panics when out of range. -/
def indexValue (values : List (Option ℚ)) (i : Nat) : Except Err ℚ :=
  match values[i]? with
  | none => .error .panic
  | some v => retrieve v

/-- Interpolation between two values read in the order lower, upper. -/
def interpolateValues (x lowerBound upperBound : ℚ) (values : List (Option ℚ)) (lower upper : Nat) : Except Err ℚ :=
  match indexValue values lower with
  | .error e => .error e
  | .ok lv =>
    match indexValue values upper with
    | .error e => .error e
    | .ok uv => .ok (interpolate x lowerBound upperBound lv uv)

/-- The loop of `ControlCurveInterpolatedParameter`, `interpolated.rs:44-65`. `n - 1` and `n - 2` underflow (panic) for fewer
than two values. -/
def interpolatedFrom (x : ℚ) (values : List (Option ℚ)) : List (Option ℚ) → Nat → ℚ → Except Err ℚ
  | [], _, prev =>
    if values.length < 2 then .error .panic
    else interpolateValues x 0 prev values (values.length - 1) (values.length - 2)
  | none :: _, _, _ => .error .metric
  | some c :: cs, idx, prev =>
    if x ≥ c then interpolateValues x c prev values (idx + 1) idx
    else interpolatedFrom x values cs (idx + 1) c

/-- `ControlCurveInterpolatedParameter::before`, `interpolated.rs:35-66`. -/
def controlCurveInterpolated (x : Option ℚ) (curves values : List (Option ℚ)) : Except Err ℚ :=
  match x with
  | none => .error .metric
  | some x => interpolatedFrom x values curves 0 1

/-- The loop of `PiecewiseInterpolatedParameter`, `piecewise.rs:46-70`. A pair holds the upper and the lower value of a band. -/
def piecewiseFrom (x minimum : ℚ) (values : List (ℚ × ℚ)) : List (Option ℚ) → Nat → ℚ → Except Err ℚ
  | [], _, prev =>
    match values.getLast? with
    | none => .error (.outOfBounds 0 0)
    | some v => .ok (interpolate x minimum prev v.2 v.1)
  | none :: _, _, _ => .error .metric
  | some c :: cs, idx, prev =>
    if x ≥ c then
      match values[idx]? with
      | none => .error (.outOfBounds idx values.length)
      | some v => .ok (interpolate x c prev v.2 v.1)
    else piecewiseFrom x minimum values cs (idx + 1) c

/-- `PiecewiseInterpolatedParameter::before`, `piecewise.rs:37-71`. -/
def piecewise (x : Option ℚ) (curves : List (Option ℚ)) (values : List (ℚ × ℚ)) (maximum minimum : ℚ) : Except Err ℚ :=
  match x with
  | none => .error .metric
  | some x => piecewiseFrom x minimum values curves 0 maximum

/-- `f64::clamp(0.0, 1.0)`. -/
def clamp01 (c : ℚ) : ℚ := if c < 0 then 0 else if c > 1 then 1 else c

/-- `ApportionParameter::before`, `apportion.rs:44-63`: upper and lower. -/
def apportion (x curve : ℚ) : ℚ × ℚ := ((1 - clamp01 curve) * x, clamp01 curve * x)

/-- `VolumeBetweenControlCurvesParameter::compute`, `volume_between.rs:30-47`. -/
def volumeBetween (total : ℚ) (lower upper : Option ℚ) : ℚ := total * (upper.getD 1 - lower.getD 0)

/-! ## Muskingum routing -/

/-- `MuskingumInitialCondition`, `muskingum.rs:12-16`. -/
inductive Initial
  | steadyState
  | specified (inflow outflow : ℚ)
  deriving DecidableEq, Repr

/-- The denominator of all coefficients. -/
def denominator (weight travelTime : ℚ) : ℚ := 2 * travelTime * (1 - weight) + 1

/-- `inflow_factor`, `muskingum.rs:102-104`. -/
def inflowFactor (weight travelTime : ℚ) : ℚ := (1 - 2 * weight * travelTime) / denominator weight travelTime

/-- `rhs`, `muskingum.rs:107-113`. -/
def rhs (inflow outflow weight travelTime : ℚ) : ℚ :=
  inflow * (1 + 2 * weight * travelTime) / denominator weight travelTime
    + outflow * (2 * travelTime * (1 - weight) - 1) / denominator weight travelTime

/-- `steady_state_inflow_factor`, `muskingum.rs:116-118`. -/
def steadyInflowFactor (weight travelTime : ℚ) : ℚ := 2 / denominator weight travelTime

/-- `steady_state_outflow_factor`, `muskingum.rs:121-123`. -/
def steadyOutflowFactor (weight travelTime : ℚ) : ℚ :=
  1 - (2 * travelTime * (1 - weight) - 1) / denominator weight travelTime

/-- `MuskingumParameter::before`, `muskingum.rs:63-98`: the inflow factor and the right-hand side. `previous` is the inflow and
outflow of the previous step. -/
def muskingum (first : Bool) (init : Initial) (weight travelTime : ℚ) (previous : ℚ × ℚ) : ℚ × ℚ :=
  if first then
    match init with
    | .steadyState => (-steadyInflowFactor weight travelTime / steadyOutflowFactor weight travelTime, 0)
    | .specified i o => (-inflowFactor weight travelTime, rhs i o weight travelTime)
  else (-inflowFactor weight travelTime, rhs previous.1 previous.2 weight travelTime)

/-- The relation a river node with this routing puts on its outflow and inflow (`pywr-schema/src/nodes/river.rs:391-407`):
coefficients `1` for the outflow and the inflow factor for the inflow, with the right-hand side; see
`Verif.Solver.C22_coefficients` for coefficients. -/
def muskingumHolds (first : Bool) (init : Initial) (weight travelTime : ℚ) (previous : ℚ × ℚ) (inflow outflow : ℚ) : Prop :=
  1 * outflow + (muskingum first init weight travelTime previous).1 * inflow
    = (muskingum first init weight travelTime previous).2

end Verif.Curves
