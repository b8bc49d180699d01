import Verif.Spec.Solver

/-!
# Merit order

What an allocation of least cost cannot leave undone. Written in terms of flows along edges, ways through the network and what has
room to change.
-/

namespace Verif.Solver

open Verif.State (NodeKind Edge)
open Verif.Topology (Network TNode)

/-- The value of a metric if given, else the default, lies strictly below `v`. -/
def Over (σ : Nat → Option ℚ) (m : Option Metric) (default v : ℚ) : Prop := ∃ l, ValueIs σ m default l ∧ l < v

/-- The value of a metric if given, else the default, lies strictly above `v`. -/
def Under (σ : Nat → Option ℚ) (m : Option Metric) (default v : ℚ) : Prop := ∃ u, ValueIs σ m default u ∧ v < u

/-- Flows of least cost among those allowed. -/
structure LeastCost (M : Model) (big negBig : ℚ) (st : StepState) (cost : TNode → ℚ) (f : Nat → ℚ) : Prop where
  allowed : Allowed M st f
  within : WithinLimits M big negBig st f
  least : ∀ f', Allowed M st f' → WithinLimits M big negBig st f' → totalCost M cost f ≤ totalCost M cost f'

/-- Flows that do not touch the largest numbers of the solver. -/
structure Inside (M : Model) (big negBig : ℚ) (f : Nat → ℚ) : Prop where
  edges : ∀ e < M.net.edges.length, f e < big
  nodes : ∀ n ∈ M.net.nodes, constBounds n (M.data n.index) = none → negBig < nodeFlow f n ∧ nodeFlow f n < big
  aggs : ∀ a ∈ M.aggs, negBig < aggFlow M.net f a ∧ aggFlow M.net f a < big
  vs : ∀ v ∈ M.vs, negBig < -vsUse M.net f v ∧ -vsUse M.net f v < big

/-- The nodes have room for a change `g` of the flows `f`: those whose flow falls are above their minimum flow, those whose flow
rises below their maximum flow, and likewise the volumes of storages at the end of the step. -/
structure NodesHaveRoom (M : Model) (st : StepState) (f g : Nat → ℚ) : Prop where
  falls : ∀ n ∈ M.net.nodes, n.kind ≠ .storage → nodeFlow g n < 0 → Over st.metric (M.data n.index).minFlow 0 (nodeFlow f n)
  rises : ∀ n ∈ M.net.nodes, n.kind ≠ .storage → 0 < nodeFlow g n → Under st.metric (M.data n.index).maxFlow f64MAX (nodeFlow f n)
  empties : ∀ n ∈ M.net.nodes, n.kind = .storage → nodeFlow g n < 0 → ∀ v, st.volume n.index = some v →
    Over st.metric (M.data n.index).minVolume 0 (v + st.days * nodeFlow f n)
  fills : ∀ n ∈ M.net.nodes, n.kind = .storage → 0 < nodeFlow g n → ∀ v, st.volume n.index = some v →
    Under st.metric (M.data n.index).maxVolume f64MAX (v + st.days * nodeFlow f n)

/-- The aggregated nodes and virtual storages have room for a change `g` of the flows `f`, and the factors of aggregated nodes
are kept. -/
structure GroupsHaveRoom (M : Model) (st : StepState) (f g : Nat → ℚ) : Prop where
  falls : ∀ a ∈ M.aggs, aggFlow M.net g a < 0 → Over st.metric a.minFlow 0 (aggFlow M.net f a)
  rises : ∀ a ∈ M.aggs, 0 < aggFlow M.net g a → Under st.metric a.maxFlow f64MAX (aggFlow M.net f a)
  factors : ∀ a ∈ M.aggs, ∀ F ps, a.factors = some F → F.pairs a.nodes st.metric = .ok ps → ∀ p ∈ ps, ∀ x y,
    p.f0 = some x → p.f1 = some y → x * setFlow (flowAt M.net g) p.nodes0 + y * setFlow (flowAt M.net g) p.nodes1 = 0
  uses : ∀ (k : Nat) (v : VStore), M.vs[k]? = some v → st.vsActive k = true → 0 < vsUse M.net g v →
    ∀ available missing, st.vsBounds k = some (available, missing) → st.days * vsUse M.net f v < available
  returns : ∀ (k : Nat) (v : VStore), M.vs[k]? = some v → st.vsActive k = true → vsUse M.net g v < 0 →
    ∀ available missing, st.vsBounds k = some (available, missing) → -(st.days * vsUse M.net f v) < missing

/-- An edge from one node to another. -/
def Leads (net : Network) (e : Nat) (u v : TNode) : Prop :=
  net.nodes[u.index]? = some u ∧ net.nodes[v.index]? = some v ∧ net.edges[e]? = some ⟨e, u.index, v.index⟩

/-- A way through the network from one node to another: the edges taken and the links passed. -/
inductive Way (net : Network) : TNode → List Nat → List TNode → TNode → Prop
  | last (u v : TNode) (e : Nat) : Leads net e u v → Way net u [e] [] v
  | cons (u w v : TNode) (e : Nat) (es : List Nat) (ls : List TNode) :
      Leads net e u w → w.kind = .link → Way net w es ls v → Way net u (e :: es) (w :: ls) v

/-- One unit of flow along edges. -/
def along (es : List Nat) (e : Nat) : ℚ := (es.count e : ℚ)

/-- One unit of flow moved from some edges to others. -/
def instead (es es' : List Nat) (e : Nat) : ℚ := along es e - along es' e

/-- Cost of taking a unit from a node: water taken from a storage counts against its cost. -/
def takeCost (cost : TNode → ℚ) (n : TNode) : ℚ := if n.kind = .storage then -cost n else cost n

/-- Cost of a unit sent from one node to another by way of links. -/
def wayCost (cost : TNode → ℚ) (u : TNode) (ls : List TNode) (v : TNode) : ℚ := takeCost cost u + (ls.map cost).sum + cost v

/-- Where water can be taken from. -/
def Source (n : TNode) : Prop := n.kind = .input ∨ n.kind = .storage

/-- Where water can be brought to. -/
def Sink (n : TNode) : Prop := n.kind = .output ∨ n.kind = .storage

/-- None of the nodes is a member of an aggregated node or of a virtual storage. -/
def Apart (M : Model) (ns : List TNode) : Prop :=
  (∀ a ∈ M.aggs, ∀ s ∈ a.nodes, ∀ n ∈ ns, n.index ∉ s) ∧ ∀ v ∈ M.vs, ∀ p ∈ v.members, ∀ n ∈ ns, p.1 ≠ n.index

/-- Aggregated nodes and virtual storages do not tell two nodes apart: they are listed equally often in every set of nodes, and
have the same total factor in every virtual storage. -/
def Alike (M : Model) (a b : TNode) : Prop :=
  (∀ g ∈ M.aggs, ∀ s ∈ g.nodes, s.count a.index = s.count b.index) ∧
  ∀ v ∈ M.vs, ((v.members.filter (fun p => p.1 = a.index)).map (·.2)).sum = ((v.members.filter (fun p => p.1 = b.index)).map (·.2)).sum

/-- As `Alike`, except that a group without factors may list the first node more often than the second as long as it is below its
maximum flow, or less often as long as it is above its minimum flow. -/
def AlikeOrRoom (M : Model) (st : StepState) (f : Nat → ℚ) (a b : TNode) : Prop :=
  (∀ g ∈ M.aggs, (∀ s ∈ g.nodes, s.count a.index = s.count b.index) ∨
    (g.factors = none ∧ (∀ s ∈ g.nodes, s.count b.index ≤ s.count a.index) ∧ Under st.metric g.maxFlow f64MAX (aggFlow M.net f g)) ∨
    (g.factors = none ∧ (∀ s ∈ g.nodes, s.count a.index ≤ s.count b.index) ∧ Over st.metric g.minFlow 0 (aggFlow M.net f g))) ∧
  ∀ v ∈ M.vs, ((v.members.filter (fun p => p.1 = a.index)).map (·.2)).sum = ((v.members.filter (fun p => p.1 = b.index)).map (·.2)).sum

/-- The flow of a node has reached its maximum. -/
def Full (M : Model) (st : StepState) (f : Nat → ℚ) (n : TNode) : Prop :=
  ValueIs st.metric (M.data n.index).maxFlow f64MAX (nodeFlow f n)

/-- The flow of a node is at its minimum. -/
def Least (M : Model) (st : StepState) (f : Nat → ℚ) (n : TNode) : Prop :=
  ValueIs st.metric (M.data n.index).minFlow 0 (nodeFlow f n)

/-- A storage is at its maximum volume at the end of the step. -/
def Brimful (M : Model) (st : StepState) (f : Nat → ℚ) (n : TNode) : Prop :=
  ∃ v, st.volume n.index = some v ∧ ValueIs st.metric (M.data n.index).maxVolume f64MAX (v + st.days * nodeFlow f n)

/-- A storage is at its minimum volume at the end of the step. -/
def Drained (M : Model) (st : StepState) (f : Nat → ℚ) (n : TNode) : Prop :=
  ∃ v, st.volume n.index = some v ∧ ValueIs st.metric (M.data n.index).minVolume 0 (v + st.days * nodeFlow f n)

/-- Whatever comes by one link could come by the other: every edge to or from the second has one to or from the same node at the
first. -/
def Beside (net : Network) (a b : TNode) : Prop :=
  (∀ e u, Leads net e u b → ∃ e', Leads net e' u a) ∧ ∀ e v, Leads net e b v → ∃ e', Leads net e' a v

end Verif.Solver
