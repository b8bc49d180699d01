import Verif.Spec.Merit
import Verif.Spec.Schema

/-!
# Merit order of the parts of a node

What it means that the flow through a node of several lanes fills them one after the other.
-/

namespace Verif.Schema

open Verif.Topology (TNode)

/-- The costs of the nodes with edges. -/
def Priced (M : Solver.Model) (st : Solver.StepState) (cost : TNode → ℚ) : Prop :=
  ∀ n ∈ M.net.nodes, n.incoming ≠ [] ∨ n.outgoing ≠ [] → Solver.CostIs M st.metric n (cost n)

/-- No virtual storage with a list of factors refers to the node. -/
def Net.Unweighted (N : Net) (x : String) : Prop :=
  ∀ v ∈ N.virtualNodes, ∀ refs fs c, v.body = .virtualStorage refs (some fs) c → ∀ r ∈ refs, r.name ≠ x

/-- An amount poured into vessels of given sizes, filling one after the other. -/
def fill : List ℚ → ℚ → List ℚ
  | [], _ => []
  | u :: us, q => min u q :: fill us (q - min u q)

end Verif.Schema
