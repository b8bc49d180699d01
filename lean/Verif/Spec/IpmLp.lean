import Verif.Model.IpmLp
import Verif.Spec.Solver
import Verif.Spec.Ipm

/-!
# Specification of the program of the interior point solver

In terms of flows along edges only.
-/

namespace Verif.IpmLp

open Verif.Solver

/-- Flows that are not negative and balance at links; that stay below the maximum of every node that has one, and below `big` there;
and that keep every storage between its limits, changing by at most `big` per day. Minimum flows play no part. -/
structure Within (M : Model) (big : ℚ) (st : StepState) (f : Nat → ℚ) : Prop where
  nonneg : ∀ e < M.net.edges.length, 0 ≤ f e
  balanced : Balanced M.net f
  flows : ∀ n ∈ M.net.nodes, n.kind ≠ .storage → ∀ q, (M.data n.index).maxFlow = some q →
    nodeFlow f n ≤ big ∧ ∃ u, q.get st.metric = some u ∧ nodeFlow f n ≤ u
  volumes : ∀ n ∈ M.net.nodes, n.kind = .storage → -big ≤ nodeFlow f n ∧ nodeFlow f n ≤ big ∧
    ∃ v, st.volume n.index = some v ∧
      AtLeast st.metric (M.data n.index).minVolume 0 (v + st.days * nodeFlow f n) ∧
      AtMost st.metric (M.data n.index).maxVolume f64MAX (v + st.days * nodeFlow f n)

/-- Programs reached from the one created by any number of updates, each for some group of states. -/
inductive Reach (M : Model) : Built → Prop
  | create {s : Built} : create M = .ok s → Reach M s
  | update {s s' : Built} {states : List StepState} : Reach M s → update M states s = some s' → Reach M s'

/-- The state of a lane: its own, or that of the last scenario of the group for the lanes left over. -/
def laneState (states : List StepState) (k : Fin 4) : Option StepState := states[min k.val (states.length - 1)]?

/-- The program of a lane allows the values `x` of its variables. -/
def Built.Allows (s : Built) (k : Fin 4) (x : Nat → ℚ) : Prop :=
  Ipm.Feasible s.lp.csr s.lp.inequality.nrows (s.lane k).1 x

/-- The objective of a lane, which the solver makes as large as possible. -/
def Built.gain (s : Built) (k : Fin 4) (x : Nat → ℚ) : ℚ := Ipm.objective s.lp.csr (s.lane k).2 x

/-- No node asks for a minimum flow, and there are no aggregated nodes or virtual storages. -/
structure OnlyMaxima (M : Model) : Prop where
  minFlow : ∀ n ∈ M.net.nodes, n.kind ≠ .storage → (M.data n.index).minFlow = none
  aggs : M.aggs = []
  vs : M.vs = []

/-- The metrics factors are given by. -/
def metricsOf : Factors → List Metric
  | .proportion fs => fs
  | .ratio fs => fs
  | .coefficients fs rhs => fs ++ rhs.toList

/-- No aggregated node has factors that may change from step to step. -/
def ConstantFactors (M : Model) : Prop := ∀ a ∈ M.aggs, ∀ F, a.relationship = some (.factored F) → ∀ q ∈ metricsOf F, ∃ v, q = .const v

/-- Everything the program of a step asks for is there: costs at every edge, limits of nodes that have a maximum flow, and volumes. -/
structure Given (M : Model) (st : StepState) : Prop where
  costs : ∀ n ∈ M.net.nodes, n.incoming ≠ [] ∨ n.outgoing ≠ [] → ∃ c, CostIs M st.metric n c
  flows : ∀ n ∈ M.net.nodes, n.kind ≠ .storage → (M.data n.index).maxFlow ≠ none →
    (∃ v, ValueIs st.metric (M.data n.index).minFlow 0 v) ∧ (∃ v, ValueIs st.metric (M.data n.index).maxFlow f64MAX v)
  volumes : ∀ n ∈ M.net.nodes, n.kind = .storage → (∃ v, st.volume n.index = some v) ∧
    (∃ v, ValueIs st.metric (M.data n.index).minVolume 0 v) ∧ (∃ v, ValueIs st.metric (M.data n.index).maxVolume f64MAX v)

/-- The node is joined by edges, in whichever direction, to a node that is not a link. -/
inductive Anchored (net : Topology.Network) : Nat → Prop
  | here {i : Nat} {n : Topology.TNode} : net.nodes[i]? = some n → n.kind ≠ .link → Anchored net i
  | down {e : State.Edge} : e ∈ net.edges → Anchored net e.toNode → Anchored net e.fromNode
  | up {e : State.Edge} : e ∈ net.edges → Anchored net e.fromNode → Anchored net e.toNode

/-- A matrix with the numbers of another field, that of the solver. -/
def castCsr (K : Type) [DivisionRing K] (a : Ipm.Csr ℚ) : Ipm.Csr K :=
  ⟨a.nrows, a.ncols, a.offsets, a.cols, a.values.map (fun v : ℚ => (v : K))⟩

end Verif.IpmLp
