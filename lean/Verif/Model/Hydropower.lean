import Mathlib.Algebra.Order.Field.Rat

/-!
# Hydropower

Model of `pywr-core/src/utils.rs` and of `HydropowerTargetParameter` in `pywr-core/src/parameters/hydropower.rs`. The
metrics are replaced by the values they have in the step. A division by zero gives zero here and an infinity or `NaN`
in the code; every theorem about the target flow rules it out or says so.
-/

namespace Verif.Hydropower

/-- `HydropowerTargetParameter`, lines 27-41, with the values of its metrics. -/
structure Turbine where
  actualFlow : Option ℚ
  target : Option ℚ
  maxFlow : Option ℚ
  minFlow : Option ℚ
  minHead : ℚ
  elevation : ℚ
  efficiency : ℚ
  waterElevation : Option ℚ
  density : ℚ
  flowConversion : ℚ
  energyConversion : ℚ
  deriving DecidableEq, Repr

/-- `inverse_hydropower_calculation`, `utils.rs:2-11`. -/
def inverseCalculation (power head efficiency flowConversion energyConversion density : ℚ) : ℚ :=
  power / (energyConversion * density * 9.81 * head * efficiency * flowConversion)

/-- `hydropower_calculation`, `utils.rs:14-23`. -/
def calculation (flow head efficiency flowConversion energyConversion density : ℚ) : ℚ :=
  flow * (energyConversion * density * 9.81 * head * efficiency * flowConversion)

/-- `HydropowerTargetParameter::head`, lines 44-51. -/
def head (t : Turbine) : ℚ :=
  max (match t.waterElevation with
    | some w => w - t.elevation
    | none => t.elevation) 0

/-- The errors of the two phases. -/
inductive Error
  | phaseNotEnabled
  | negativeFlow
  deriving DecidableEq, Repr

/-- `GeneralBeforeParameter::before`, lines 69-114. -/
def before (t : Turbine) : Except Error ℚ :=
  match t.target with
  | none => .error .phaseNotEnabled
  | some power =>
    if head t ≤ t.minHead then .ok 0
    else
      let q := inverseCalculation power (head t) t.efficiency t.flowConversion t.energyConversion t.density
      let q := match t.maxFlow with
        | some m => min q m
        | none => q
      let q := match t.minFlow with
        | some m => max q m
        | none => q
      if q < 0 then .error .negativeFlow else .ok q

/-- `GeneralAfterParameter::after`, lines 116-147. -/
def after (t : Turbine) : Except Error ℚ :=
  match t.actualFlow with
  | none => .error .phaseNotEnabled
  | some flow =>
    if head t ≤ t.minHead then .ok 0
    else .ok (calculation flow (head t) t.efficiency t.flowConversion t.energyConversion t.density)

/-- The phases in which a parameter is computed. -/
inductive Phase
  | before
  | after
  | both
  deriving DecidableEq, Repr

/-- Errors of the builder. -/
inductive BuildError
  | noCalculationPhase
  | unusedMinFlow
  | unusedMaxFlow
  deriving DecidableEq, Repr

/-- `HydropowerTargetParameterBuilder::build`, lines 190-296, as far as it depends on which metrics are given. -/
def buildPhase (t : Turbine) : Except BuildError Phase :=
  match t.target.isSome, t.actualFlow.isSome with
  | true, true => .ok .both
  | true, false => .ok .before
  | false, true =>
    if t.minFlow.isSome then .error .unusedMinFlow
    else if t.maxFlow.isSome then .error .unusedMaxFlow
    else .ok .after
  | false, false => .error .noCalculationPhase

end Verif.Hydropower
