import Verif.Props.SchemaVirtual
import Verif.Props.SchemaCases

/-! # Cases for C68 and C69 -/

namespace Verif.Schema

open Verif.Topology (Name EdgeDecl)
open Verif.Solver (Metric AtLeast AtMost)

/-- An input feeds a link with both soft constraints (largest flow 12, soft largest flow 20), a gauge whose bypass costs 2, and three
links in parallel, the first of which goes through a turbine. Virtual nodes relate the three. -/
def limitNet : Net :=
  { nodes := [⟨"src", .input ⟨some (.const 30), some (.const 1), none⟩, []⟩,
      ⟨"both", .link ⟨some (.const 12), none, none, some ⟨some (.const (-5)), some (.const 4)⟩, some ⟨some (.const 3), some (.const 20)⟩⟩, []⟩,
      ⟨"gauge", .riverGauge ⟨some (.const 3), some (.const (-9)), some (.const 2)⟩, []⟩,
      ⟨"a", .link ⟨some (.const 20), none, none, none, none⟩, []⟩,
      ⟨"b", .link ⟨some (.const 20), some (.const 1), none, none, none⟩, []⟩,
      ⟨"c", .link ⟨some (.const 20), none, none, some ⟨some (.const (-5)), some (.const 4)⟩, none⟩, []⟩,
      ⟨"turbine", .turbine ⟨none, some (.const 100), some .both, none⟩, []⟩,
      ⟨"sea", .output ⟨some (.const 40), some (.const 2), none⟩, []⟩]
    virtualNodes := [⟨"share", .aggregated [⟨"a", none⟩, ⟨"b", none⟩] (some (.const 10)) (some (.const 8)) (some (.proportion [.const (1/3)])), []⟩,
      ⟨"rate", .aggregated [⟨"a", none⟩, ⟨"c", some .inflow⟩] none none (some (.ratio [.const 2, .const 2])), []⟩,
      ⟨"line", .aggregated [⟨"b", none⟩, ⟨"c", none⟩] none none (some (.coefficients [.const 1, .const 1] (some (.const 9)))), []⟩]
    edges := [⟨"src", "both", none, none⟩, ⟨"both", "gauge", none, none⟩, ⟨"gauge", "a", none, none⟩, ⟨"gauge", "b", none, none⟩,
      ⟨"gauge", "c", none, none⟩, ⟨"a", "turbine", none, none⟩, ⟨"turbine", "sea", none, none⟩, ⟨"b", "sea", none, none⟩,
      ⟨"c", "sea", none, none⟩] }

def limitFlows : Nat → ℚ := flows (fragOf caseP limitNet)
  [(⟨("src", none), ("both", none)⟩, 11), (⟨("src", none), ("both", some "soft_min")⟩, 4),
   (⟨("both", none), ("gauge", some "mrf")⟩, 3), (⟨("both", none), ("gauge", some "bypass")⟩, 8),
   (⟨("both", some "soft_min"), ("gauge", some "bypass")⟩, 4),
   (⟨("gauge", some "mrf"), ("a", none)⟩, 3), (⟨("gauge", some "bypass"), ("a", none)⟩, 3), (⟨("gauge", some "bypass"), ("b", none)⟩, 3),
   (⟨("gauge", some "bypass"), ("c", none)⟩, 2), (⟨("gauge", some "bypass"), ("c", some "soft_min")⟩, 4),
   (⟨("a", none), ("turbine", none)⟩, 6), (⟨("turbine", none), ("sea", none)⟩, 6), (⟨("b", none), ("sea", none)⟩, 3),
   (⟨("c", none), ("sea", none)⟩, 2), (⟨("c", some "soft_min"), ("sea", none)⟩, 4)]

/-- The turbine needs a flow of 6. -/
def limitSt : Solver.StepState := ⟨fun _ => some 6, fun _ => none, fun _ => false, fun _ => none, 1⟩

theorem limitNet_built : Built caseP limitNet (fragOf caseP limitNet) (coreOf caseP limitNet) := builtCheck_ok (by decide +kernel)

theorem limitNet_allowed : Solver.Allowed (coreOf caseP limitNet).model limitSt limitFlows := allowedCheck_ok (by decide +kernel)

/-- **C68, refuted (largest flow of a link).** A link with a largest flow of 12 and both soft constraints may send 15. -/
theorem C68_max_flow_refuted : ∃ b, (limitNet.at 1).body = .link b ∧ b.maxFlow = some (.const 12) ∧
    sent limitNet (fragOf caseP limitNet) limitFlows "both" = 15 :=
  ⟨_, rfl, rfl, by decide +kernel⟩

example := C68_input limitNet_built limitNet_allowed (n := limitNet.at 0) (by decide +kernel) rfl
example := C68_output limitNet_built limitNet_allowed (n := limitNet.at 7) (by decide +kernel) rfl
example := C68_catchment lineNet_built lineNet_allowed (n := lineNet.at 0) (by decide +kernel) rfl rfl
example := C68_link limitNet_built limitNet_allowed (n := limitNet.at 4) (by decide +kernel) rfl
example := (C68_link limitNet_built limitNet_allowed (n := limitNet.at 5) (by decide +kernel) rfl).2 (.inr rfl)
example := C68_soft_max_refuted limitNet_built limitNet_allowed (n := limitNet.at 1) (by decide +kernel) rfl rfl rfl rfl
example := C68_net lineNet_built lineNet_allowed (n := lineNet.at 3) (by decide +kernel) (.inl ⟨_, rfl, rfl, rfl⟩)
example := C68_net lineNet_built lineNet_allowed (n := lineNet.at 4) (by decide +kernel) (.inr ⟨_, rfl, rfl, rfl⟩)
example := C68_abstraction lineNet_built lineNet_allowed (n := lineNet.at 7) (by decide +kernel) rfl
example := C68_pieceLink lineNet_built lineNet_allowed (n := lineNet.at 5) (by decide +kernel) rfl
example := (C68_turbine limitNet_built limitNet_allowed (n := limitNet.at 6) (by decide +kernel) rfl rfl).2 (.inr rfl)
example := C68_gauge_refuted limitNet_built limitNet_allowed (n := limitNet.at 2) (by decide +kernel) rfl rfl

example := C69_component limitNet_built limitNet_allowed (n := limitNet.at 5) (by decide +kernel) (c := some .inflow)
  (S := [("c", none), ("c", some "soft_min")]) (by decide +kernel) (by decide +kernel) (by intro b hb; cases hb)

/-- No river. -/
theorem limitNet_no_river : ∀ n ∈ limitNet.nodes, ∀ b, n.body ≠ .river b := by
  intro n hn b hb
  have : limitNet.nodes.all (fun n => match n.body with | .river _ => false | _ => true) = true := by decide +kernel
  have := List.all_eq_true.1 this n hn
  rw [hb] at this
  cases this

example := C69_aggregated limitNet_built limitNet_allowed (v := limitNet.virtualNodes.getD 0 ⟨"", .placeholder, []⟩) (by decide +kernel) rfl
  (fun _ _ n hn b _ hb => absurd hb (limitNet_no_river n hn b))
example := C69_aggregated limitNet_built limitNet_allowed (v := limitNet.virtualNodes.getD 1 ⟨"", .placeholder, []⟩) (by decide +kernel) rfl
  (fun _ _ n hn b _ hb => absurd hb (limitNet_no_river n hn b))
example := C69_aggregated limitNet_built limitNet_allowed (v := limitNet.virtualNodes.getD 2 ⟨"", .placeholder, []⟩) (by decide +kernel) rfl
  (fun _ _ n hn b _ hb => absurd hb (limitNet_no_river n hn b))

end Verif.Schema
