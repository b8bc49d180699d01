import Verif.Props.SchemaLicences
import Verif.Props.SchemaVirtualCases

/-! # Cases for C70 -/

namespace Verif.Schema

open Verif.Topology (Name EdgeDecl)
open Verif.Solver (Metric AtLeast AtMost)

/-- `limitNet` with three licences: on "c" and "b", on "a" and "b" with factors 2 and 3, and on "c" and "b" with factors 2 and 3. -/
def licenceNet : Net :=
  { limitNet with virtualNodes := [⟨"plain", .virtualStorage [⟨"c", none⟩, ⟨"b", none⟩] none (some (.const 50)), ["unused"]⟩,
      ⟨"weighted", .virtualStorage [⟨"a", none⟩, ⟨"b", none⟩] (some [2, 3]) none, []⟩,
      ⟨"shifted", .virtualStorage [⟨"c", none⟩, ⟨"b", none⟩] (some [2, 3]) none, []⟩] }

def licenceFlows : Nat → ℚ := limitFlows

/-- The licences have 10, 25 and 16 left. -/
def licenceSt : Solver.StepState := ⟨fun _ => some 6, fun _ => none, fun _ => true, fun k => [some (10, 0), some (25, 0), some (16, 0)][k]?.join, 1⟩

theorem licenceNet_built : Built caseP licenceNet (fragOf caseP licenceNet) (coreOf caseP licenceNet) := builtCheck_ok (by decide +kernel)

theorem licenceNet_allowed : Solver.Allowed (coreOf caseP licenceNet).model licenceSt licenceFlows := allowedCheck_ok (by decide +kernel)

def Net.virtualAt (N : Net) (i : Nat) : VNode := N.virtualNodes.getD i ⟨"", .placeholder, []⟩

example := C70_use licenceNet_built licenceNet_allowed (v := licenceNet.virtualAt 0) (by decide +kernel) rfl
  (fun _ _ n hn b _ hb => absurd hb (limitNet_no_river n hn b))

example := C70_factors_partial licenceNet_built licenceNet_allowed (v := licenceNet.virtualAt 1) (by decide +kernel) rfl
  (by
    intro r hr
    simp only [List.mem_cons, List.not_mem_nil, or_false] at hr
    rcases hr with rfl | rfl
    · exact ⟨("a", none), by decide +kernel⟩
    · exact ⟨("b", none), by decide +kernel⟩)
  (fun _ _ n hn b _ hb => absurd hb (limitNet_no_river n hn b))

/-- **C70, refuted (factors).** The licence "shifted" has 16 left and is active. The flows of its components are 6 and 3, its factors 2 and 3,
so 21 is used. The second factor is applied to the second core node of "c", and "b" counts for nothing. -/
theorem C70_factors_refuted :
    Solver.Allowed (coreOf caseP licenceNet).model licenceSt licenceFlows ∧ IsLicence (fragOf caseP licenceNet) (licenceNet.virtualAt 2) 2 ∧
    licenceSt.vsActive 2 = true ∧ licenceSt.vsBounds 2 = some (16, 0) ∧
    ∃ qs : List ℚ, (licenceNet.virtualAt 2).body = .virtualStorage [⟨"c", none⟩, ⟨"b", none⟩] (some [2, 3]) none ∧
      List.Forall₂ (RefIs caseP licenceNet (fragOf caseP licenceNet) (coreOf caseP licenceNet) licenceSt licenceFlows)
        [⟨"c", none⟩, ⟨"b", none⟩] qs ∧
      licenceSt.days * (List.zipWith (· * ·) [2, 3] qs).sum = 21 := by
  refine ⟨licenceNet_allowed, by unfold IsLicence; decide +kernel, rfl, rfl, [6, 3], rfl, .cons ?_ (.cons ?_ .nil), by decide +kernel⟩
  · exact ⟨licenceNet.at 5, by decide +kernel, rfl, show (6 : ℚ) = sent licenceNet (fragOf caseP licenceNet) licenceFlows "c" by decide +kernel⟩
  · exact ⟨licenceNet.at 4, by decide +kernel, rfl, show (3 : ℚ) = sent licenceNet (fragOf caseP licenceNet) licenceFlows "b" by decide +kernel⟩

/-- The licence "plain" costs 50, but the cost of "b" is 0. -/
example : ∃ t ∈ (coreOf caseP licenceNet).model.net.nodes, t.name = ("b", none) ∧
    Solver.CostIs (coreOf caseP licenceNet).model licenceSt.metric t 0 := by
  have hex : ((coreOf caseP licenceNet).model.net.nodes.any (fun t => decide (t.name = ("b", none)))) = true := by decide +kernel
  obtain ⟨t, ht, hn⟩ := List.any_eq_true.1 hex
  rw [decide_eq_true_eq] at hn
  exact ⟨t, ht, hn, (C70_cost_refuted licenceNet_built ht _ _).2 ⟨⟨("b", none), .link, flowData none (some (.const 1)) (some (.const 20)), none⟩,
    by decide +kernel, hn.symm, rfl⟩⟩

example := C70_parameters_refuted licenceNet_built (v := licenceNet.virtualAt 0) (by decide +kernel) "unused"

end Verif.Schema
