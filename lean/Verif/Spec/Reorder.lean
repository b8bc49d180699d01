import Verif.Spec.Solver
import Verif.Spec.Topology

/-!
# The order of nodes and edges: what is claimed

Nodes are known by name and edges by their ends, whatever their position.
-/

namespace Verif.Reorder

open Verif.Solver Verif.Topology

/-- The same nodes and edges in another order; the node at a position is found at another one. -/
structure Reordered (ρ : Nat → Nat) (b b' : Builder) : Prop where
  nodes : b'.nodes.Perm b.nodes
  edges : b'.edges.Perm b.edges
  storages : b'.vs = b.vs
  moved : ∀ i, b'.nodes[ρ i]? = b.nodes[i]?

/-- Limits, costs, groups and licences of the same nodes. -/
structure SameModel (ρ : Nat → Nat) (M M' : Model) : Prop where
  data : ∀ i, M'.data (ρ i) = M.data i
  aggs : M'.aggs = M.aggs.map fun a => { a with nodes := a.nodes.map (·.map ρ) }
  vs : M'.vs = M.vs.map fun v => { v with members := v.members.map fun p => (ρ p.1, p.2) }

/-- The same volumes, licences and values of metrics at the start of a step. -/
structure SameState (ρ : Nat → Nat) (st st' : StepState) : Prop where
  metric : st'.metric = st.metric
  volume : ∀ i, st'.volume (ρ i) = st.volume i
  vsActive : st'.vsActive = st.vsActive
  vsBounds : st'.vsBounds = st.vsBounds
  days : st'.days = st.days

/-- Flows along edges, given by their ends, as flows by position. -/
def along (b : Builder) (φ : EdgeDecl → ℚ) (k : Nat) : ℚ := ((b.edges[k]?).map φ).getD 0

/-- Values of the columns of a program mean these flows along the edges. -/
def Means (s : Built) (b : Builder) (x : Nat → ℚ) (φ : EdgeDecl → ℚ) : Prop := ∀ k e, b.edges[k]? = some e → s.flow x k = φ e

/-- Flows that a program allows. -/
def Allows (s : Built) (b : Builder) (φ : EdgeDecl → ℚ) : Prop := ∃ x, s.lp.Feasible x ∧ Means s b x φ

/-- Flows that a program allows, of cost `c`. -/
def Costs (s : Built) (b : Builder) (φ : EdgeDecl → ℚ) (c : ℚ) : Prop := ∃ x, s.lp.Feasible x ∧ Means s b x φ ∧ s.lp.objective x = c

/-- Flows that a program allows, of least cost. -/
def Best (s : Built) (b : Builder) (φ : EdgeDecl → ℚ) : Prop :=
  ∃ x, s.lp.Feasible x ∧ Means s b x φ ∧ ∀ y, s.lp.Feasible y → s.lp.objective x ≤ s.lp.objective y

end Verif.Reorder
