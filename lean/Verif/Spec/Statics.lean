import Verif.Spec.Choice

/-!
# What a change of limits or costs does: what is claimed

Two versions of a network, or one network in two scenarios or on two days: the same nodes, edges, groups and licences with other
limits and costs. Limits and costs are compared by value, be they constants or parameters.
-/

namespace Verif.Statics

open Verif.Solver
open Verif.Topology (TNode)

/-- The value of the second lower limit is not above that of the first. -/
def NoHigher (σ σ' : Nat → Option ℚ) (m m' : Option Metric) (default : ℚ) : Prop :=
  ∀ v v', ValueIs σ m default v → ValueIs σ' m' default v' → v' ≤ v

/-- The value of the second upper limit is not below that of the first. -/
def NoLower (σ σ' : Nat → Option ℚ) (m m' : Option Metric) (default : ℚ) : Prop :=
  ∀ v v', ValueIs σ m default v → ValueIs σ' m' default v' → v ≤ v'

/-- A limit that cannot change in a run. -/
def Fixed (m : Option Metric) : Prop := m = none ∨ ∃ c, m = some (.const c)

/-- The second version has the same nodes, edges, groups, relations and licences, and no limit is narrower. Limits of members of
exclusive groups are the same, and constants are not replaced by parameters. -/
structure Looser (M M' : Model) (st st' : StepState) : Prop where
  net : M'.net = M.net
  days : st'.days = st.days
  flows : ∀ n ∈ M.net.nodes, n.kind ≠ .storage →
    NoHigher st.metric st'.metric (M.data n.index).minFlow (M'.data n.index).minFlow 0 ∧
    NoLower st.metric st'.metric (M.data n.index).maxFlow (M'.data n.index).maxFlow f64MAX
  fixed : ∀ n ∈ M.net.nodes, n.kind ≠ .storage → Fixed (M.data n.index).minFlow → Fixed (M.data n.index).maxFlow →
    Fixed (M'.data n.index).minFlow ∧ Fixed (M'.data n.index).maxFlow
  volumes : ∀ n ∈ M.net.nodes, n.kind = .storage → st'.volume n.index = st.volume n.index ∧
    NoHigher st.metric st'.metric (M.data n.index).minVolume (M'.data n.index).minVolume 0 ∧
    NoLower st.metric st'.metric (M.data n.index).maxVolume (M'.data n.index).maxVolume f64MAX
  groups : List.Forall₂ (fun a a' : AggNode => a'.nodes = a.nodes ∧ a'.relationship = a.relationship ∧
    NoHigher st.metric st'.metric a.minFlow a'.minFlow 0 ∧ NoLower st.metric st'.metric a.maxFlow a'.maxFlow f64MAX) M.aggs M'.aggs
  relations : ∀ a ∈ M.aggs, ∀ F, a.factors = some F → F.pairs a.nodes st'.metric = F.pairs a.nodes st.metric
  members : ∀ i, InGroup M i → (M'.data i).minFlow = (M.data i).minFlow ∧ (M'.data i).maxFlow = (M.data i).maxFlow
  licences : List.Forall₂ (fun v v' : VStore => v'.members = v.members) M.vs M'.vs
  active : ∀ k, st'.vsActive k = true → st.vsActive k = true
  left : ∀ k b b', st.vsBounds k = some b → st'.vsBounds k = some b' → b.1 ≤ b'.1 ∧ b.2 ≤ b'.2

/-- A network with a program prepared for a step, after any steps before. -/
structure Prepared (M : Model) (big negBig : ℚ) (st : StepState) (p : Built) : Prop where
  valid : M.Valid
  members : MembersConstant M
  factors : M.FactorsOk
  days : 0 < st.days
  program : ∃ sets s, GroupsAre M sets ∧ Reach M big negBig sets s ∧ step M s st = .ok p

/-- A solution of least objective. -/
def Cheapest (p : Built) (x : Nat → ℚ) : Prop := p.lp.Feasible x ∧ ∀ y, p.lp.Feasible y → p.lp.objective x ≤ p.lp.objective y

/-- The same flows. -/
def SameFlows (M : Model) (p p' : Built) (x y : Nat → ℚ) : Prop := ∀ e < M.net.edges.length, p'.flow y e = p.flow x e

/-- A node on some edge. -/
def Used (n : TNode) : Prop := n.incoming ≠ [] ∨ n.outgoing ≠ []

end Verif.Statics
