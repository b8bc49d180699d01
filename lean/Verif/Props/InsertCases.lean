import Verif.Props.Insert
import Verif.Props.ReorderCases

/-!
# Cases for C110

The network of the cases of C56, where one output gets water in a ratio that varies in time, with a gauge before that output.
-/

namespace Verif.Insert

open Verif.Solver Verif.Topology Verif.Reorder
open Verif.Simulation (noExclusivity_ok)

/-- The gauge, at the end of the nodes; its edges come first. -/
def gaugeB : Builder :=
  ⟨caseB.nodes ++ [⟨("gauge", none), .link⟩],
   ⟨("gauge", none), ("out1", none)⟩ :: ⟨("mid", none), ("gauge", none)⟩ :: caseB.edges.erase ⟨("mid", none), ("out1", none)⟩, caseB.vs⟩

/-- The same limits, costs, group and licence. -/
def gaugeM : Model where
  net := netOf gaugeB
  data := fun i => if i < 5 then caseM.data i else plainNode
  aggs := caseM.aggs
  vs := caseM.vs

/-- The other edges. -/
def others : List EdgeDecl := caseB.edges.erase ⟨("mid", none), ("out1", none)⟩

theorem gauge_inserted : Inserted caseB gaugeB ("mid", none) ("out1", none) ("gauge", none) others where
  nodes := rfl
  edges := by decide +kernel
  edges' := .swap _ _ _
  storages := rfl

theorem gauge_built : gaugeB.build = .ok gaugeM.net := netOf_built gaugeB (by decide +kernel)

theorem gauge_same : SameElse caseB caseM gaugeM where
  data := fun i hi => if_pos hi
  minFlow := rfl
  maxFlow := rfl
  cost := rfl
  costAgg := rfl
  aggs := rfl
  vs := rfl

/-- It can be built, as the name is new. -/
example : ∃ net, gaugeB.build = .ok net := C110_builds gauge_inserted (by decide +kernel) ⟨_, case_built⟩

/-- Flows through the gauge. -/
def gaugeφ (e : EdgeDecl) : ℚ := if e.src = ("gauge", none) ∨ e.dst = ("gauge", none) then 2 else caseφ e

theorem gauge_through : Through ("mid", none) ("out1", none) ("gauge", none) others caseφ gaugeφ := by
  refine ⟨by decide +kernel, by decide +kernel, by decide +kernel⟩

theorem gauge_exclusivity : gaugeM.NoExclusivity := caseM_exclusivity

/-- The case: the network with the gauge does one step more before. Both then make a program; the flows 6, 2, 4, 3, 1 of the first
are allowed by both at the same cost, with 2 through the gauge; what is allowed with the gauge is flows without; and flows of least
cost of one are of the other. -/
example : ∃ s s' s₁ s₁', Reach caseM f64MAX (-f64MAX) [] s ∧ Reach gaugeM f64MAX (-f64MAX) [] s' ∧
    step caseM s caseSt2 = .ok s₁ ∧ step gaugeM s' caseSt2 = .ok s₁' ∧ Costs s₁ caseB caseφ (-3) ∧ Costs s₁' gaugeB gaugeφ (-3) ∧
    (∀ φ', Allows s₁' gaugeB φ' → ∃ φ, Through ("mid", none) ("out1", none) ("gauge", none) others φ φ') ∧
    (Best s₁' gaugeB gaugeφ ↔ Best s₁ caseB caseφ) := by
  have r1 : Reach caseM f64MAX (-f64MAX) [] (built caseM) := .create _ (built_ok caseM (by decide +kernel))
  have r1' : Reach gaugeM f64MAX (-f64MAX) [] (built gaugeM) := .create _ (built_ok gaugeM (by decide +kernel))
  have r2' := Reach.step _ _ _ r1' (stepped_ok gaugeM (built gaugeM) caseSt (by decide +kernel))
  have h2 := stepped_ok caseM (built caseM) caseSt2 (by decide +kernel)
  have g := (noExclusivity_ok caseM_exclusivity).2
  have g' := (noExclusivity_ok gauge_exclusivity).2
  obtain ⟨s₁', h3'⟩ := (C110_step gauge_inserted gauge_same case_built gauge_built case_treated g g' r1 r2').2 ⟨_, h2⟩
  have hc : Costs (stepped caseM (built caseM) caseSt2) caseB caseφ (-3) := by
    refine ⟨vals [6, 2, 4, 3, 1], Lp.check_feasible _ _ (by decide +kernel), fun k e he => ?_, by decide +kernel⟩
    have hk : k < 5 := (List.getElem?_eq_some_iff.1 he).1
    have : ((caseB.edges[k]?).map fun e => decide ((stepped caseM (built caseM) caseSt2).flow (vals [6, 2, 4, 3, 1]) k = caseφ e)) = some true := by
      interval_cases k <;> decide +kernel
    rw [he] at this
    exact of_decide_eq_true (Option.some.inj this)
  refine ⟨_, _, _, s₁', r1, r2', h2, h3', hc, ?_, ?_, ?_⟩
  · exact (C110_flows gauge_inserted gauge_same case_built gauge_built case_treated g g' million_le_max le_rfl r1 r2' (by decide +kernel)
      h2 h3' gauge_through (-3)).2 hc
  · exact fun φ' ha => C110_link gauge_inserted case_built gauge_built gauge_same case_treated g' r2' (by decide +kernel) h3' φ' ha
  · exact C110_best gauge_inserted gauge_same case_built gauge_built case_treated g g' million_le_max le_rfl r1 r2' (by decide +kernel)
      h2 h3' gauge_through

end Verif.Insert
