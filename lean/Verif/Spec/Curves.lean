import Verif.Model.Curves

/-!
# Specifications of tables, bands and routing
-/

namespace Verif.Curves

/-- The points of a table are strictly increasing. -/
def Increasing (pts : List (ℚ × ℚ)) : Prop := pts.Pairwise (fun p q => p.1 < q.1)

instance (pts : List (ℚ × ℚ)) : Decidable (Increasing pts) := by unfold Increasing; infer_instance

/-- `p` and `q` are neighbours in a list, in this order. -/
def Neighbours {α : Type} (l : List α) (p q : α) : Prop := ∃ pre post, l = pre ++ p :: q :: post

/-- The straight line through two points. -/
def line (p q : ℚ × ℚ) (v : ℚ) : ℚ := p.2 + (q.2 - p.2) * (v - p.1) / (q.1 - p.1)

/-- `r` lies between `a` and `b`. -/
def Between (a b r : ℚ) : Prop := min a b ≤ r ∧ r ≤ max a b

/-- Neighbouring points of a table are at least the tolerance apart. -/
def Spaced (pts : List (ℚ × ℚ)) : Prop := ∀ p q, Neighbours pts p q → tolerance ≤ q.1 - p.1

/-- Position `i` is the band of level `x`: all curves before it are above the level, the curve at it (if any) is not. -/
def InBand (x : ℚ) (curves : List (Option ℚ)) (i : Nat) : Prop :=
  i ≤ curves.length ∧ (∀ j < i, ∃ c, curves[j]? = some (some c) ∧ x < c) ∧
  ∀ c, curves[i]? = some c → ∃ v, c = some v ∧ v ≤ x

/-- The table described by an interpolated control curve: the first value at 1, a value on each curve, the last value at 0. -/
def table (first : ℚ) (curves : List (ℚ × ℚ)) (last : ℚ) : List (ℚ × ℚ) := (1, first) :: curves ++ [(0, last)]

/-- The bands cut out of [0, 1] by curves given from the lowest, as pairs of bounds; `none` is the end of the range. -/
def bandsAbove (lower : Option ℚ) : List ℚ → List (Option ℚ × Option ℚ)
  | [] => [(lower, none)]
  | c :: cs => (lower, some c) :: bandsAbove (some c) cs

/-- Storage in a reach with travel time `k` and weight `w` for an inflow and an outflow. -/
def reachStorage (k w : ℚ) (flow : ℚ × ℚ) : ℚ := k * (w * flow.1 + (1 - w) * flow.2)

/-- Sum of flows with the first and the last counted half (trapezium rule). -/
def halfEnds (first : ℚ) (later : List ℚ) : ℚ := (first :: later).sum - first / 2 - ((first :: later).getLast (by simp)) / 2

/-- Flows of a reach over steps: each pair (inflow, outflow) satisfies the relation built from the pair before. -/
def Routed (init : Initial) (w k : ℚ) : List (ℚ × ℚ) → Prop
  | [] => True
  | f :: fs => muskingumHolds true init w k (0, 0) f.1 f.2 ∧ Follows f fs
where
  /-- Later steps. -/
  Follows (previous : ℚ × ℚ) : List (ℚ × ℚ) → Prop
    | [] => True
    | f :: fs => muskingumHolds false init w k previous f.1 f.2 ∧ Follows f fs

end Verif.Curves
