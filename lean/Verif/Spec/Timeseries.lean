import Verif.Model.Timeseries

/-!
# Specification of time series
-/

namespace Verif.Timeseries

open Verif.Time

/-- Steps of equal length `d` (in milliseconds) from `start` on. -/
structure Even (steps : List Timestep) (start d : Int) : Prop where
  pos : 0 < d
  some_step : steps ≠ []
  times : ∀ (k : Nat) t, steps[k]? = some t → stepTime t.date = start + k * d
  length : ∀ t, steps[0]? = some t → milliseconds t.duration = d

/-- The rows with times from `a` up to but not including `b`. -/
def between (rows : List Row) (a b : Int) : List Row := rows.filter fun r => decide (a ≤ r.time ∧ r.time < b)

/-- The rows with times from `a` on. -/
def since (rows : List Row) (a : Int) : List Row := rows.filter fun r => decide (a ≤ r.time)

/-- From `start` on the series has `m` rows, at the times `first`, `first + g`, and so on, in any order. -/
def Regular (rows : List Row) (start first g : Int) (m : Nat) : Prop :=
  0 ≤ g ∧ ((since rows start).map (·.time)).Perm ((List.range m).map fun (i : Nat) => first + i * g)

/-- The average of numbers, if there are any. -/
def Average (l : List ℚ) (v : Option ℚ) : Prop := (l = [] ∧ v = none) ∨ (l ≠ [] ∧ ∃ x, v = some x ∧ x * l.length = l.sum)

/-- The latest number with a time from `a` to `b`. -/
def Latest (rows : List Row) (a b : Int) (v : Option ℚ) : Prop :=
  match v with
  | none => ∀ r ∈ rows, a ≤ r.time → r.time ≤ b → r.value = none
  | some x => ∃ r ∈ rows, a ≤ r.time ∧ r.time ≤ b ∧ r.value = some x ∧ ∀ y ∈ rows, r.time < y.time → y.time ≤ b → y.value = none

end Verif.Timeseries
