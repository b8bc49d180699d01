import Verif.Model.Solver
import Verif.Spec.Columns
import Verif.Spec.Factors

/-!
# Specification of the allocation problem of a timestep

Written in terms of flows along edges, without columns or rows.
-/

namespace Verif.Solver

open Verif.State (NodeKind Edge)
open Verif.Topology (Network TNode)

/-- Flow of a node: what leaves an input or link, what enters an output, the net inflow of a storage. -/
def nodeFlow (f : Nat → ℚ) (n : TNode) : ℚ :=
  match n.kind with
  | .input => (n.outgoing.map f).sum
  | .link => (n.outgoing.map f).sum
  | .output => (n.incoming.map f).sum
  | .storage => (n.incoming.map f).sum - (n.outgoing.map f).sum

/-- The edges on which the flow of a node is measured. -/
def edgesOf (n : TNode) : List Nat :=
  match n.kind with
  | .link => n.outgoing
  | .input => n.outgoing
  | .output => n.incoming
  | .storage => n.incoming ++ n.outgoing

/-- The edges on which the flow of a set of nodes is measured. -/
def edgesOfSet (net : Network) (is : List Nat) : List Nat := is.flatMap (fun i => ((net.nodes[i]?).map edgesOf).getD [])

/-- Flow of the node with an index. -/
def flowAt (net : Network) (f : Nat → ℚ) (i : Nat) : ℚ := ((net.nodes[i]?).map (nodeFlow f)).getD 0

/-- The value of a metric if given, else the default, lies below `v`. -/
def AtLeast (σ : Nat → Option ℚ) (m : Option Metric) (default v : ℚ) : Prop :=
  match m with
  | none => default ≤ v
  | some m => ∃ l, m.get σ = some l ∧ l ≤ v

/-- The value of a metric if given, else the default, lies above `v`. -/
def AtMost (σ : Nat → Option ℚ) (m : Option Metric) (default v : ℚ) : Prop :=
  match m with
  | none => v ≤ default
  | some m => ∃ u, m.get σ = some u ∧ v ≤ u

/-- Bounds of a node: on its flow, or for a storage on its volume at the end of the step. -/
def NodeOk (M : Model) (st : StepState) (f : Nat → ℚ) (n : TNode) : Prop :=
  if n.kind = .storage then
    ∃ v, st.volume n.index = some v ∧
      AtLeast st.metric (M.data n.index).minVolume 0 (v + st.days * nodeFlow f n) ∧
      AtMost st.metric (M.data n.index).maxVolume f64MAX (v + st.days * nodeFlow f n)
  else
    AtLeast st.metric (M.data n.index).minFlow 0 (nodeFlow f n) ∧
    AtMost st.metric (M.data n.index).maxFlow f64MAX (nodeFlow f n)

/-- Flow of an aggregated node: the flows of all its members. -/
def aggFlow (net : Network) (f : Nat → ℚ) (a : AggNode) : ℚ := (a.nodes.map (setFlow (flowAt net f))).sum

/-- Use of a virtual storage per day. -/
def vsUse (net : Network) (f : Nat → ℚ) (v : VStore) : ℚ := (v.members.map (fun p => p.2 * flowAt net f p.1)).sum

/-- The flows allowed in a step. -/
structure Allowed (M : Model) (st : StepState) (f : Nat → ℚ) : Prop where
  nonneg : ∀ e < M.net.edges.length, 0 ≤ f e
  balanced : Balanced M.net f
  nodes : ∀ n ∈ M.net.nodes, NodeOk M st f n
  aggs : ∀ a ∈ M.aggs, AtLeast st.metric a.minFlow 0 (aggFlow M.net f a) ∧ AtMost st.metric a.maxFlow f64MAX (aggFlow M.net f a)
  factors : ∀ a ∈ M.aggs, ∀ F, a.factors = some F →
    ∃ ps, F.pairs a.nodes st.metric = .ok ps ∧ ∀ p ∈ ps, p.Holds (flowAt M.net f)
  vs : ∀ (k : Nat) (v : VStore), M.vs[k]? = some v → st.vsActive k = true →
    ∃ available missing, st.vsBounds k = some (available, missing) ∧
      st.days * vsUse M.net f v ≤ available ∧ -(st.days * vsUse M.net f v) ≤ missing

/-- The largest numbers of the solver bound every edge, and everything whose bounds can change from step to step. -/
structure WithinLimits (M : Model) (big negBig : ℚ) (st : StepState) (f : Nat → ℚ) : Prop where
  edges : ∀ e < M.net.edges.length, f e ≤ big
  nodes : ∀ n ∈ M.net.nodes, constBounds n (M.data n.index) = none → negBig ≤ nodeFlow f n ∧ nodeFlow f n ≤ big
  aggs : ∀ a ∈ M.aggs, negBig ≤ aggFlow M.net f a ∧ aggFlow M.net f a ≤ big
  vs : ∀ v ∈ M.vs, negBig ≤ -vsUse M.net f v ∧ -vsUse M.net f v ≤ big
  factors : ∀ a ∈ M.aggs, ∀ F cps ps, a.factors = some F → F.constPairs a.nodes = .ok cps → F.pairs a.nodes st.metric = .ok ps →
    ∀ q ∈ cps.zip ps, (q.1.f0 = none ∨ q.1.f1 = none) → negBig ≤ q.2.rhs ∧ q.2.rhs ≤ big

/-- The value of a metric if given, else the default. -/
def ValueIs (σ : Nat → Option ℚ) (m : Option Metric) (default v : ℚ) : Prop :=
  match m with
  | none => v = default
  | some m => m.get σ = some v

/-- The costs of virtual storages with given indices. -/
def VsCostsAre (M : Model) (σ : Nat → Option ℚ) (is : List Nat) (cs : List ℚ) : Prop :=
  List.Forall₂ (fun i c => ∃ v, M.vs[i]? = some v ∧ ValueIs σ v.cost 0 c) is cs

/-- Current cost of a node: its own, or if asked for the sum, largest or smallest of its own and those of the virtual storages
it belongs to. -/
def CostIs (M : Model) (σ : Nat → Option ℚ) (n : TNode) (c : ℚ) : Prop :=
  ∃ own, ValueIs σ (M.data n.index).cost 0 own ∧
    match (M.data n.index).costAgg with
    | none => c = own
    | some .sum => ∃ cs, VsCostsAre M σ n.associatedVs cs ∧ c = own + cs.sum
    | some .max => ∃ cs, VsCostsAre M σ n.associatedVs cs ∧ c ∈ own :: cs ∧ ∀ d ∈ own :: cs, d ≤ c
    | some .min => ∃ cs, VsCostsAre M σ n.associatedVs cs ∧ c ∈ own :: cs ∧ ∀ d ∈ own :: cs, c ≤ d

/-- Everything the solver asks for in a step is there. -/
structure Defined (M : Model) (st : StepState) : Prop where
  costs : ∀ n ∈ M.net.nodes, n.incoming ≠ [] ∨ n.outgoing ≠ [] → ∃ c, CostIs M st.metric n c
  flows : ∀ n ∈ M.net.nodes, n.kind ≠ .storage →
    (∃ v, ValueIs st.metric (M.data n.index).minFlow 0 v) ∧ (∃ v, ValueIs st.metric (M.data n.index).maxFlow f64MAX v)
  volumes : ∀ n ∈ M.net.nodes, n.kind = .storage → (∃ v, st.volume n.index = some v) ∧
    (∃ v, ValueIs st.metric (M.data n.index).minVolume 0 v) ∧ (∃ v, ValueIs st.metric (M.data n.index).maxVolume f64MAX v)
  aggs : ∀ a ∈ M.aggs, (∃ v, ValueIs st.metric a.minFlow 0 v) ∧ (∃ v, ValueIs st.metric a.maxFlow f64MAX v)
  factors : ∀ a ∈ M.aggs, ∀ F, a.factors = some F →
    ∃ ps, F.pairs a.nodes st.metric = .ok ps ∧ ∀ p ∈ ps, p.f0.isSome ∧ p.f1.isSome
  vs : ∀ k < M.vs.length, st.vsActive k = true → ∃ b, st.vsBounds k = some b

/-- Total cost of flows: for each node its current cost times its flow. -/
def totalCost (M : Model) (cost : TNode → ℚ) (f : Nat → ℚ) : ℚ := (M.net.nodes.map (fun n => cost n * nodeFlow f n)).sum

/-- Flow `f` as seen through the columns of a built program. -/
def Built.flow (s : Built) (x : Nat → ℚ) (e : Nat) : ℚ := x (s.cols.getD e 0)

/-- A model the network builder can produce: its network was built, and the indices of members are in range. -/
structure Model.Valid (M : Model) : Prop where
  built : ∃ b : Verif.Topology.Builder, b.build = .ok M.net
  aggs : ∀ a ∈ M.aggs, ∀ s ∈ a.nodes, ∀ i ∈ s, i < M.net.nodes.length
  vs : ∀ v ∈ M.vs, ∀ p ∈ v.members, p.1 < M.net.nodes.length

/-- No exclusivity relationships. -/
def Model.NoExclusivity (M : Model) : Prop := ∀ a ∈ M.aggs, a.exclusivity = none

/-- The factors of an aggregated node are accepted at setup with finite coefficients. -/
def SetupOk (a : AggNode) : Prop := ∀ F, a.factors = some F → ∃ cps, F.constPairs a.nodes = .ok cps ∧
  ∀ p ∈ cps, p.f0 ≠ some none ∧ p.f1 ≠ some none

/-- The pairs of an aggregated node known at setup. -/
def AggNode.setupPairs (a : AggNode) : List CPair :=
  match a.factors with
  | none => []
  | some F =>
    match F.constPairs a.nodes with
    | .ok cps => cps
    | .error _ => []

/-- The edges a pair is concerned with. -/
def CPair.edges (net : Network) (p : CPair) : List Nat := edgesOfSet net p.nodes0 ++ edgesOfSet net p.nodes1

/-- A factor of the pair varies in time. -/
def CPair.Varying (p : CPair) : Prop := p.f0 = none ∨ p.f1 = none

/-- Two pairs reach exactly the same chains of edges. -/
def SameReach (net : Network) (p q : CPair) : Prop :=
  (∀ e ∈ p.edges net, ∃ e' ∈ q.edges net, SameChain net e e') ∧ (∀ e ∈ q.edges net, ∃ e' ∈ p.edges net, SameChain net e e')

/-- Conditions under which factors are followed. Factors are accepted at setup. For factors varying in time: a varying
right-hand side comes with a varying factor; no two edges of the pair lie on one chain; storage nodes in the pair have no
outflow; and no two such pairs concern the same chains. -/
structure Model.FactorsOk (M : Model) : Prop where
  setup : ∀ a ∈ M.aggs, SetupOk a
  rhs : ∀ a ∈ M.aggs, ∀ F, a.factors = some F → F.RhsSeen
  apart : ∀ a ∈ M.aggs, ∀ p ∈ a.setupPairs, p.Varying → (p.edges M.net).Pairwise (fun e e' => ¬ SameChain M.net e e')
  storage : ∀ a ∈ M.aggs, ∀ p ∈ a.setupPairs, p.Varying → ∀ i ∈ p.nodes0 ++ p.nodes1, ∀ n, M.net.nodes[i]? = some n →
    n.kind = .storage → n.outgoing = []
  distinct : (M.aggs.flatMap AggNode.setupPairs).Pairwise (fun p q => p.Varying → q.Varying → ¬ SameReach M.net p q)

/-- Programs reached: the one created, and those after steps. -/
inductive Reach (M : Model) (big negBig : ℚ) (sets : List (List Nat)) : Built → Prop
  | create (s : Built) : create M big negBig sets = .ok s → Reach M big negBig sets s
  | step (s s' : Built) (st : StepState) : Reach M big negBig sets s → step M s st = .ok s' → Reach M big negBig sets s'

end Verif.Solver
