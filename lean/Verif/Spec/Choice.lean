import Verif.Spec.Exclusivity

/-!
# Specification of the allocation problem with exclusive groups
-/

namespace Verif.Solver

open Verif.State (NodeKind Edge)
open Verif.Topology (Network TNode)

/-- `g` is a group of an exclusive aggregated node. -/
def IsGroup (M : Model) (g : List Nat) : Prop := ∃ a ∈ M.aggs, ∃ mn mx, a.exclusivity = some (mn, mx) ∧ g ∈ a.nodes

/-- Node `i` is in a group. -/
def InGroup (M : Model) (i : Nat) : Prop := ∃ g, IsGroup M g ∧ i ∈ g

/-- `sets` are the groups in some order. -/
def GroupsAre (M : Model) (sets : List (List Nat)) : Prop := ∀ g, g ∈ sets ↔ IsGroup M g

/-- A choice of active groups and flows that fit together. Flows of members are cut off at one million, and a minimum flow other
than zero counts as at least one millionth. -/
structure Choice (M : Model) (f : Nat → ℚ) (on : List Nat → Bool) : Prop where
  count : ∀ a ∈ M.aggs, ∀ mn mx, a.exclusivity = some (mn, mx) →
    mn ≤ (a.nodes.filter on).length ∧ (a.nodes.filter on).length ≤ mx
  idle : ∀ g, IsGroup M g → on g = false → ∀ i ∈ g, flowAt M.net f i = 0
  busy : ∀ g, IsGroup M g → on g = true → ∀ i ∈ g, ∀ lo hi, ConstantBounds M i lo hi →
    flowAt M.net f i ≤ hi ∧ flowAt M.net f i ≤ 1000000 ∧ (lo ≠ 0 → lo ≤ flowAt M.net f i ∧ 1 / 1000000 ≤ flowAt M.net f i)

/-- The flows allowed in a step, with exclusive groups. -/
structure AllowedChoice (M : Model) (st : StepState) (f : Nat → ℚ) : Prop where
  nonneg : ∀ e < M.net.edges.length, 0 ≤ f e
  balanced : Balanced M.net f
  nodes : ∀ n ∈ M.net.nodes, ¬ InGroup M n.index → NodeOk M st f n
  aggs : ∀ a ∈ M.aggs, AtLeast st.metric a.minFlow 0 (aggFlow M.net f a) ∧ AtMost st.metric a.maxFlow f64MAX (aggFlow M.net f a)
  factors : ∀ a ∈ M.aggs, ∀ F, a.factors = some F →
    ∃ ps, F.pairs a.nodes st.metric = .ok ps ∧ ∀ p ∈ ps, p.Holds (flowAt M.net f)
  vs : ∀ (k : Nat) (v : VStore), M.vs[k]? = some v → st.vsActive k = true →
    ∃ available missing, st.vsBounds k = some (available, missing) ∧
      st.days * vsUse M.net f v ≤ available ∧ -(st.days * vsUse M.net f v) ≤ missing
  choice : ∃ on, Choice M f on

/-- All members of exclusive aggregated nodes have constant limits. -/
def MembersConstant (M : Model) : Prop := ∀ a ∈ M.aggs, ∀ mn mx, a.exclusivity = some (mn, mx) → AllConstant M a

end Verif.Solver
