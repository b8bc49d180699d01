import Verif.Spec.Solver

/-!
# Specification of mutual exclusivity
-/

namespace Verif.Solver

open Verif.Topology (Network)

/-- A group of nodes carries flow. -/
def Active (net : Network) (f : Nat → ℚ) (s : List Nat) : Prop := ∃ i ∈ s, flowAt net f i ≠ 0

instance (net : Network) (f : Nat → ℚ) (s : List Nat) : Decidable (Active net f s) := by unfold Active; infer_instance

/-- Number of groups of an aggregated node that carry flow. -/
def activeCount (net : Network) (f : Nat → ℚ) (a : AggNode) : Nat := (a.nodes.filter (fun s => decide (Active net f s))).length

/-- The bounds on the flow of a node are the constants `lo` and `hi`. -/
def ConstantBounds (M : Model) (i : Nat) (lo hi : ℚ) : Prop :=
  ∃ n, M.net.nodes[i]? = some n ∧ n.kind ≠ .storage ∧
    ((M.data i).minFlow = some (.const lo) ∨ (M.data i).minFlow = none ∧ lo = 0) ∧
    ((M.data i).maxFlow = some (.const hi) ∨ (M.data i).maxFlow = none ∧ hi = f64MAX)

/-- Every member of an aggregated node has constant bounds. -/
def AllConstant (M : Model) (a : AggNode) : Prop := ∀ s ∈ a.nodes, ∀ i ∈ s, ∃ lo hi, ConstantBounds M i lo hi

/-- Every group has a member with a minimum flow other than zero. -/
def AllForced (M : Model) (a : AggNode) : Prop := ∀ s ∈ a.nodes, ∃ i ∈ s, ∃ lo hi, ConstantBounds M i lo hi ∧ lo ≠ 0

end Verif.Solver
