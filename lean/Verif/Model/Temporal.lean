import Mathlib.Algebra.Order.Field.Rat
import Verif.Model.Run

/-!
# Parameters with memory

Delay, rolling window, asymmetric switch, threshold and multi-threshold parameters.
Metric evaluation is abstracted: the inputs of a step are the values the metrics return in that timestep.
-/

namespace Verif.Temporal

/-- Error of an empty delay queue, `/repo/pywr-core/src/parameters/delay.rs:98-101`. -/
inductive Err
  | emptyQueue
  deriving DecidableEq, Repr

/-! ## Delay, `/repo/pywr-core/src/parameters/delay.rs` -/

/-- `DelayParameter::setup`, lines 67-75: `delay` copies of the initial value. -/
def delaySetup {α : Type} (delay : Nat) (initial : α) : List α :=
  (List.range delay).map (fun _ => initial)

/-- `GeneralBeforeParameter::before`, lines 87-105: pop the front or fail. -/
def delayBefore {α : Type} : List α → Except Err (α × List α)
  | [] => .error .emptyQueue
  | v :: rest => .ok (v, rest)

/-- `GeneralAfterParameterHook::after`, lines 106-121: push today's value at the back. -/
def delayAfter {α : Type} (memory : List α) (today : α) : List α := memory ++ [today]

/-- One timestep of the general variant: before, then (after the solve) after. -/
def delayGeneralStep {α : Type} (memory : List α) (today : α) : Except Err (α × List α) :=
  match delayBefore memory with
  | .error e => .error e
  | .ok (v, m) => .ok (v, delayAfter m today)

/-- `SimpleParameter::compute`, lines 123-144: push today's value, then pop the front. -/
def delaySimpleStep {α : Type} (memory : List α) (today : α) : Except Err (α × List α) :=
  delayBefore (memory ++ [today])

/-! ## Rolling window, `/repo/pywr-core/src/parameters/rolling.rs` -/

/-- Static data of `RollingParameter`, lines 29-37. The aggregation function is a parameter. -/
structure Rolling (α : Type) where
  windowSize : Nat
  initialValue : α
  minValues : Nat
  agg : List α → α

/-- `before`, lines 118-134. -/
def Rolling.before {α : Type} (p : Rolling α) (memory : List α) : α :=
  if memory.length < p.minValues then p.initialValue else p.agg memory

/-- `after`, lines 135-154: push back and drop the oldest if the window is exceeded. -/
def Rolling.after {α : Type} (p : Rolling α) (memory : List α) (today : α) : List α :=
  let m := memory ++ [today]
  if m.length > p.windowSize then m.tail else m

/-- One timestep; the simple variant (lines 157-183) evaluates the same two parts in the same order. -/
def Rolling.step {α : Type} (p : Rolling α) (memory : List α) (today : α) : Except Err (α × List α) :=
  .ok (p.before memory, p.after memory today)

/-! ## Asymmetric switch, `/repo/pywr-core/src/parameters/asymmetric.rs` -/

/-- `before`, lines 41-67. The input is the pair (on value, off value). -/
def asymStep (state : Nat) (input : Nat × Nat) : Except Err (Nat × Nat) :=
  let (on, off) := input
  let s' :=
    if state > 0 then
      if on > 0 then state
      else if off = 0 then 0 else state
    else if on > 0 then 1 else state
  .ok (s', s')

/-! ## Threshold predicates, `/repo/pywr-core/src/parameters/threshold.rs` -/

/-- `FLOAT_EQ_TOLERANCE`, `/repo/pywr-core/src/lib.rs`. -/
def floatEqTolerance : ℚ := 1 / 1000000

/-- `Predicate`, lines 14-21. -/
inductive Predicate
  | lessThan
  | greaterThan
  | equalTo
  | lessThanOrEqualTo
  | greaterThanOrEqualTo
  deriving DecidableEq, Repr

/-- `Predicate::apply`, lines 29-37. -/
def Predicate.apply (p : Predicate) (value threshold : ℚ) : Bool :=
  match p with
  | .lessThan => decide (value < threshold)
  | .greaterThan => decide (value > threshold)
  | .equalTo => decide (|value - threshold| ≤ floatEqTolerance)
  | .lessThanOrEqualTo => decide (value ≤ threshold)
  | .greaterThanOrEqualTo => decide (value ≥ threshold)

/-- `ThresholdParameter`, lines 40-47, without its metrics. -/
structure Threshold where
  predicate : Predicate
  ratchet : Bool

/-- `before`, lines 74-100. The input is (value, threshold); the state is `previously_activated`. -/
def Threshold.step (p : Threshold) (prev : Bool) (input : ℚ × ℚ) : Except Err (Nat × Bool) :=
  if p.ratchet && prev then .ok (1, prev)
  else if p.predicate.apply input.1 input.2 then .ok (1, true)
  else .ok (0, prev)

/-! ## Multi-threshold, `/repo/pywr-core/src/parameters/multi_threshold.rs` -/

/-- `MultiThresholdParameter`, lines 13-20, without its metrics. -/
structure MultiThreshold where
  predicate : Predicate
  ratchet : Bool

/-- The loop of lines 58-68: `position` counts thresholds until the first active one. -/
def multiPosition (p : Predicate) (value : ℚ) : Nat → List ℚ → Nat
  | position, [] => position
  | position, t :: ts => if p.apply value t then position else multiPosition p value (position + 1) ts

/-- `before`, lines 47-80. The input is (value, thresholds); the state is `previous_max`. -/
def MultiThreshold.step (p : MultiThreshold) (prev : Nat) (input : ℚ × List ℚ) : Except Err (Nat × Nat) :=
  let position := multiPosition p.predicate input.1 0 input.2
  if p.ratchet then
    if position > prev then .ok (position, position)
    else .ok (prev, prev)
  else .ok (position, prev)

end Verif.Temporal
