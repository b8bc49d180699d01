import Verif.Props.SchemaMerit
import Verif.Props.SchemaCases
import Verif.Props.MeritCases

/-!
# Cases for C75

A gauge, a link with a soft minimum, works, a piecewise link, an abstraction and a link with a soft maximum, one after the other.
-/

namespace Verif.Schema

open Verif.Topology (Name EdgeDecl TNode)
open Verif.Solver (Metric f64MAX)

/-- The net. An aggregated node and a virtual storage refer to the piecewise link, the gauge and the soft link. -/
def meritNet : Net :=
  { nodes := [⟨"in", .input ⟨none, none, none⟩, []⟩,
      ⟨"g", .riverGauge ⟨some (.const 3), some (.const (-1)), none⟩, []⟩,
      ⟨"l", .link ⟨none, none, some (.const 1), some ⟨some (.const (-2)), some (.const 4)⟩, none⟩, []⟩,
      ⟨"w", .works ⟨none, some (.const 2), some (.const (-1)), none, none, none⟩, []⟩,
      ⟨"p", .pieceLink ⟨[⟨some (.const 3), none, some (.const 1)⟩, ⟨none, none, some (.const 3)⟩]⟩, []⟩,
      ⟨"a", .abstraction ⟨some (.const 1), some (.const (-1)), none, some (.const 2), none⟩, []⟩,
      ⟨"m", .link ⟨none, none, some (.const 1), none, some ⟨some (.const 4), some (.const 2)⟩⟩, []⟩,
      ⟨"out", .output ⟨some (.const 5), none, some (.const (-20))⟩, []⟩,
      ⟨"town", .output ⟨some (.const 2), none, some (.const (-20))⟩, []⟩]
    virtualNodes := [⟨"agg", .aggregated [⟨"p", none⟩, ⟨"g", none⟩] (some (.const 50)) none none, []⟩,
      ⟨"vs", .virtualStorage [⟨"p", none⟩, ⟨"l", none⟩] none none, []⟩, ⟨"vs2", .virtualStorage [⟨"in", none⟩] (some [2]) none, []⟩]
    edges := [⟨"in", "g", none, none⟩, ⟨"g", "l", none, none⟩, ⟨"l", "w", none, none⟩, ⟨"w", "p", none, none⟩,
      ⟨"p", "a", none, none⟩, ⟨"a", "m", some .river, none⟩, ⟨"a", "town", some .abstraction, none⟩, ⟨"m", "out", none, none⟩] }

/-- Seven units, three of them as residual flow, and so on. -/
def meritF (k : Nat) : ℚ := [2, 5, 3, 4, 0, 3, 3, 1, 3, 4, 2, 0, 1, 4, 1, 2, 0, 3, 0, 1, 0, 1, 3, 1, 2, 3, 2].getD k 0

/-- Costs of the nodes. -/
def meritCost (n : TNode) : ℚ := [0, -1, 0, 1, -2, 0, -1, 0, 1, 3, -1, 0, 0, 4, 1, -20, -20].getD n.index 0

theorem meritNet_built : Built caseP meritNet (fragOf caseP meritNet) (coreOf caseP meritNet) := builtCheck_ok (by decide +kernel)

theorem meritNet_allowed : Solver.Allowed (coreOf caseP meritNet).model plainSt meritF := allowedCheck_ok (by decide +kernel)

theorem merit_nodes : (coreOf caseP meritNet).model.net.nodes =
    [⟨0, ("in", none), .input, [], [2, 3], [1]⟩,
     ⟨1, ("g", some "mrf"), .link, [2], [4, 5], []⟩,
     ⟨2, ("g", some "bypass"), .link, [3], [6, 7], []⟩,
     ⟨3, ("l", none), .link, [4, 6], [8], [0]⟩,
     ⟨4, ("l", some "soft_min"), .link, [5, 7], [9], [0]⟩,
     ⟨5, ("w", some "net"), .link, [8, 9], [0, 1], []⟩,
     ⟨6, ("w", some "net_soft_min_flow"), .link, [0], [10, 11], []⟩,
     ⟨7, ("w", some "net_above_soft_min_flow"), .link, [1], [12, 13], []⟩,
     ⟨8, ("p", some "step-00"), .link, [10, 12], [14, 15, 16], [0]⟩,
     ⟨9, ("p", some "step-01"), .link, [11, 13], [17, 18, 19], [0]⟩,
     ⟨10, ("a", some "mrf"), .link, [16, 19], [20, 21], []⟩,
     ⟨11, ("a", some "bypass"), .link, [14, 17], [22, 23], []⟩,
     ⟨12, ("a", some "abstraction"), .link, [15, 18], [24], []⟩,
     ⟨13, ("m", none), .link, [20, 22], [25], []⟩,
     ⟨14, ("m", some "soft_max"), .link, [21, 23], [26], []⟩,
     ⟨15, ("out", none), .output, [25, 26], [], []⟩,
     ⟨16, ("town", none), .output, [24], [], []⟩] := by decide +kernel

theorem merit_inside : Solver.Inside (coreOf caseP meritNet).model f64MAX (-f64MAX) meritF := by
  refine ⟨by decide +kernel, ?_, by decide +kernel, by decide +kernel⟩
  have : ∀ n ∈ (coreOf caseP meritNet).model.net.nodes, -f64MAX < Solver.nodeFlow meritF n ∧ Solver.nodeFlow meritF n < f64MAX := by
    decide +kernel
  exact fun n hn _ => this n hn

theorem merit_priced : Priced (coreOf caseP meritNet).model plainSt meritCost := by
  have : ∀ n ∈ (coreOf caseP meritNet).model.net.nodes, Solver.nodeCost (coreOf caseP meritNet).model plainSt.metric n = some (meritCost n) := by
    decide +kernel
  exact fun n hn _ => (Solver.nodeCost_iff _ _ _ _).1 (this n hn)

theorem merit_least : Solver.LeastCost (coreOf caseP meritNet).model f64MAX (-f64MAX) plainSt meritCost meritF := by
  have hi := merit_inside
  refine ⟨meritNet_allowed, ⟨fun e he => (hi.edges e he).le, fun n hn hc => ⟨(hi.nodes n hn hc).1.le, (hi.nodes n hn hc).2.le⟩,
    fun a ha => ⟨(hi.aggs a ha).1.le, (hi.aggs a ha).2.le⟩, fun v hv => ⟨(hi.vs v hv).1.le, (hi.vs v hv).2.le⟩, ?_⟩, ?_⟩
  · have hno : ∀ a ∈ (coreOf caseP meritNet).model.aggs, a.factors = none := by decide +kernel
    intro a ha F _ _ hF
    rw [hno a ha] at hF
    cases hF
  · intro f' ha _
    have hb := ha.balanced
    have h0 := ha.nonneg
    have hlen : (coreOf caseP meritNet).model.net.edges.length = 27 := by decide +kernel
    rw [hlen] at h0
    have hle : ∀ (n : TNode) (u : ℚ), n ∈ (coreOf caseP meritNet).model.net.nodes → n.kind ≠ .storage →
        ((coreOf caseP meritNet).model.data n.index).maxFlow = some (.const u) → Solver.nodeFlow f' n ≤ u := by
      intro n u hn hk hmax
      have := ha.nodes n hn
      unfold Solver.NodeOk at this
      rw [if_neg hk, hmax] at this
      obtain ⟨l, hl, hle⟩ := this.2
      simp only [Metric.get, Option.some.injEq] at hl
      rw [hl]; exact hle
    unfold Solver.Balanced at hb
    rw [merit_nodes] at hb
    have b1 := hb ⟨1, ("g", some "mrf"), .link, [2], [4, 5], []⟩ (by simp) rfl
    have b2 := hb ⟨2, ("g", some "bypass"), .link, [3], [6, 7], []⟩ (by simp) rfl
    have b3 := hb ⟨3, ("l", none), .link, [4, 6], [8], [0]⟩ (by simp) rfl
    have b4 := hb ⟨4, ("l", some "soft_min"), .link, [5, 7], [9], [0]⟩ (by simp) rfl
    have b5 := hb ⟨5, ("w", some "net"), .link, [8, 9], [0, 1], []⟩ (by simp) rfl
    have b6 := hb ⟨6, ("w", some "net_soft_min_flow"), .link, [0], [10, 11], []⟩ (by simp) rfl
    have b7 := hb ⟨7, ("w", some "net_above_soft_min_flow"), .link, [1], [12, 13], []⟩ (by simp) rfl
    have b8 := hb ⟨8, ("p", some "step-00"), .link, [10, 12], [14, 15, 16], [0]⟩ (by simp) rfl
    have b9 := hb ⟨9, ("p", some "step-01"), .link, [11, 13], [17, 18, 19], [0]⟩ (by simp) rfl
    have b10 := hb ⟨10, ("a", some "mrf"), .link, [16, 19], [20, 21], []⟩ (by simp) rfl
    have b11 := hb ⟨11, ("a", some "bypass"), .link, [14, 17], [22, 23], []⟩ (by simp) rfl
    have b12 := hb ⟨12, ("a", some "abstraction"), .link, [15, 18], [24], []⟩ (by simp) rfl
    have b13 := hb ⟨13, ("m", none), .link, [20, 22], [25], []⟩ (by simp) rfl
    have b14 := hb ⟨14, ("m", some "soft_max"), .link, [21, 23], [26], []⟩ (by simp) rfl
    have m1 := hle ⟨1, ("g", some "mrf"), .link, [2], [4, 5], []⟩ 3 (by rw [merit_nodes]; simp) (by decide) (by decide +kernel)
    have m4 := hle ⟨4, ("l", some "soft_min"), .link, [5, 7], [9], [0]⟩ 4 (by rw [merit_nodes]; simp) (by decide) (by decide +kernel)
    have m6 := hle ⟨6, ("w", some "net_soft_min_flow"), .link, [0], [10, 11], []⟩ 2 (by rw [merit_nodes]; simp) (by decide) (by decide +kernel)
    have m8 := hle ⟨8, ("p", some "step-00"), .link, [10, 12], [14, 15, 16], [0]⟩ 3 (by rw [merit_nodes]; simp) (by decide) (by decide +kernel)
    have m10 := hle ⟨10, ("a", some "mrf"), .link, [16, 19], [20, 21], []⟩ 1 (by rw [merit_nodes]; simp) (by decide) (by decide +kernel)
    have m14 := hle ⟨14, ("m", some "soft_max"), .link, [21, 23], [26], []⟩ 2 (by rw [merit_nodes]; simp) (by decide) (by decide +kernel)
    have m15 := hle ⟨15, ("out", none), .output, [25, 26], [], []⟩ 5 (by rw [merit_nodes]; simp) (by decide) (by decide +kernel)
    have m16 := hle ⟨16, ("town", none), .output, [24], [], []⟩ 2 (by rw [merit_nodes]; simp) (by decide) (by decide +kernel)
    simp only [List.map_cons, List.map_nil, List.sum_cons, List.sum_nil, add_zero, Solver.nodeFlow] at b1 b2 b3 b4 b5 b6 b7 b8 b9 b10 b11 b12 b13 b14 m1 m4 m6 m8 m10 m14 m15 m16
    have p0 := h0 0 (by omega)
    have p1 := h0 1 (by omega)
    have p2 := h0 2 (by omega)
    have p3 := h0 3 (by omega)
    have p4 := h0 4 (by omega)
    have p5 := h0 5 (by omega)
    have p6 := h0 6 (by omega)
    have p7 := h0 7 (by omega)
    have p8 := h0 8 (by omega)
    have p9 := h0 9 (by omega)
    have p10 := h0 10 (by omega)
    have p11 := h0 11 (by omega)
    have p12 := h0 12 (by omega)
    have p13 := h0 13 (by omega)
    have p14 := h0 14 (by omega)
    have p15 := h0 15 (by omega)
    have p16 := h0 16 (by omega)
    have p17 := h0 17 (by omega)
    have p18 := h0 18 (by omega)
    have p19 := h0 19 (by omega)
    have p20 := h0 20 (by omega)
    have p21 := h0 21 (by omega)
    have p22 := h0 22 (by omega)
    have p23 := h0 23 (by omega)
    have p24 := h0 24 (by omega)
    have p25 := h0 25 (by omega)
    have p26 := h0 26 (by omega)
    have hf : Solver.totalCost (coreOf caseP meritNet).model meritCost meritF = -122 := by decide +kernel
    rw [hf]
    unfold Solver.totalCost
    rw [merit_nodes]
    simp only [List.map_cons, List.map_nil, List.sum_cons, List.sum_nil, add_zero, Solver.nodeFlow, meritCost, List.getD_cons_zero,
      List.getD_cons_succ]
    linarith

theorem merit_free (x : String) (hx : x ≠ "in") : meritNet.Unweighted x := by
  intro v hv refs fs c hb r hr
  simp only [meritNet, List.mem_cons, List.not_mem_nil, or_false] at hv
  rcases hv with rfl | rfl | rfl
  · cases hb
  · cases hb
  · cases hb
    simp only [List.mem_singleton] at hr
    subst hr
    exact Ne.symm hx

example := C75_gauge meritNet_built (n := meritNet.at 1) (by decide +kernel) (merit_free _ (by decide)) (by decide) merit_priced
  merit_least merit_inside rfl (c := -1) (u := 3) rfl (by decide +kernel) rfl
example := C75_soft_min meritNet_built (n := meritNet.at 2) (by decide +kernel) (merit_free _ (by decide)) (by decide) merit_priced
  merit_least merit_inside rfl rfl rfl (c := -2) (c' := 1) (u := 4) rfl rfl (by decide +kernel) rfl
example := C75_works meritNet_built (n := meritNet.at 3) (by decide +kernel) (merit_free _ (by decide)) (by decide) merit_priced
  merit_least merit_inside rfl (c := -1) (u := 2) rfl (by decide +kernel) rfl
example := C75_piecewise_link meritNet_built (n := meritNet.at 4) (by decide +kernel) (merit_free _ (by decide)) (by decide) merit_priced
  merit_least merit_inside rfl (i := 0) (j := 1) rfl rfl (c := 1) (c' := 3) rfl rfl (by decide +kernel)
example := C75_piecewise_fill meritNet_built (n := meritNet.at 4) (by decide +kernel) (merit_free _ (by decide)) (by decide) merit_priced
  merit_least merit_inside rfl (cs := [1, 3]) (us := [3, f64MAX]) (.cons rfl (.cons rfl .nil)) (by simp)
  (.cons rfl (.cons rfl .nil)) (by simp)
example := C75_abstraction meritNet_built (n := meritNet.at 5) (by decide +kernel) (merit_free _ (by decide)) (by decide) merit_priced
  merit_least merit_inside rfl rfl (c := -1) (u := 1) rfl (by decide +kernel) rfl
example := C75_soft_max meritNet_built (n := meritNet.at 6) (by decide +kernel) (merit_free _ (by decide)) (by decide) merit_priced
  merit_least merit_inside rfl rfl rfl (c := 1) (c' := 4) (u := 2) rfl rfl (by decide +kernel) rfl

/-- Seven units pass the piecewise link: three at the first step, four at the second. -/
example : (sent meritNet (fragOf caseP meritNet) meritF "p", nameFlow (fragOf caseP meritNet) meritF ("p", some "step-00"),
    nameFlow (fragOf caseP meritNet) meritF ("p", some "step-01")) = (7, 3, 4) ∧ fill [3, f64MAX] 7 = [3, 4] := by
  decide +kernel

/-- A link with both soft limits. -/
def bothNet : Net :=
  { nodes := [⟨"in", .input ⟨none, none, none⟩, []⟩,
      ⟨"l", .link ⟨none, none, some (.const 1), some ⟨some (.const (-2)), some (.const 4)⟩, some ⟨some (.const 3), some (.const 9)⟩⟩, []⟩,
      ⟨"out", .output ⟨some (.const 5), none, some (.const (-20))⟩, []⟩]
    virtualNodes := []
    edges := [⟨"in", "l", none, none⟩, ⟨"l", "out", none, none⟩] }

def bothF (k : Nat) : ℚ := [1, 4, 0, 1, 4, 0].getD k 0

def bothCost (n : TNode) : ℚ := [0, 1, -2, 3, -20].getD n.index 0

theorem bothNet_built : Built caseP bothNet (fragOf caseP bothNet) (coreOf caseP bothNet) := builtCheck_ok (by decide +kernel)

theorem bothNet_allowed : Solver.Allowed (coreOf caseP bothNet).model plainSt bothF := allowedCheck_ok (by decide +kernel)

theorem both_nodes : (coreOf caseP bothNet).model.net.nodes =
    [⟨0, ("in", none), .input, [], [0, 1, 2], []⟩, ⟨1, ("l", none), .link, [0], [3], []⟩, ⟨2, ("l", some "soft_min"), .link, [1], [4], []⟩,
     ⟨3, ("l", some "soft_max"), .link, [2], [5], []⟩, ⟨4, ("out", none), .output, [3, 4, 5], [], []⟩] := by decide +kernel

theorem both_inside : Solver.Inside (coreOf caseP bothNet).model f64MAX (-f64MAX) bothF := by
  refine ⟨by decide +kernel, ?_, by decide +kernel, by decide +kernel⟩
  have : ∀ n ∈ (coreOf caseP bothNet).model.net.nodes, -f64MAX < Solver.nodeFlow bothF n ∧ Solver.nodeFlow bothF n < f64MAX := by
    decide +kernel
  exact fun n hn _ => this n hn

theorem both_priced : Priced (coreOf caseP bothNet).model plainSt bothCost := by
  have : ∀ n ∈ (coreOf caseP bothNet).model.net.nodes, Solver.nodeCost (coreOf caseP bothNet).model plainSt.metric n = some (bothCost n) := by
    decide +kernel
  exact fun n hn _ => (Solver.nodeCost_iff _ _ _ _).1 (this n hn)

theorem both_least : Solver.LeastCost (coreOf caseP bothNet).model f64MAX (-f64MAX) plainSt bothCost bothF := by
  have hi := both_inside
  refine ⟨bothNet_allowed, ⟨fun e he => (hi.edges e he).le, fun n hn hc => ⟨(hi.nodes n hn hc).1.le, (hi.nodes n hn hc).2.le⟩,
    fun a ha => ⟨(hi.aggs a ha).1.le, (hi.aggs a ha).2.le⟩, fun v hv => ⟨(hi.vs v hv).1.le, (hi.vs v hv).2.le⟩, ?_⟩, ?_⟩
  · have hno : ∀ a ∈ (coreOf caseP bothNet).model.aggs, a.factors = none := by decide +kernel
    intro a ha F _ _ hF
    rw [hno a ha] at hF
    cases hF
  · intro f' ha _
    have hb := ha.balanced
    have h0 := ha.nonneg
    have hlen : (coreOf caseP bothNet).model.net.edges.length = 6 := by decide +kernel
    rw [hlen] at h0
    have hle : ∀ (n : TNode) (u : ℚ), n ∈ (coreOf caseP bothNet).model.net.nodes → n.kind ≠ .storage →
        ((coreOf caseP bothNet).model.data n.index).maxFlow = some (.const u) → Solver.nodeFlow f' n ≤ u := by
      intro n u hn hk hmax
      have := ha.nodes n hn
      unfold Solver.NodeOk at this
      rw [if_neg hk, hmax] at this
      obtain ⟨l, hl, hle⟩ := this.2
      simp only [Metric.get, Option.some.injEq] at hl
      rw [hl]; exact hle
    unfold Solver.Balanced at hb
    rw [both_nodes] at hb
    have b1 := hb ⟨1, ("l", none), .link, [0], [3], []⟩ (by simp) rfl
    have b2 := hb ⟨2, ("l", some "soft_min"), .link, [1], [4], []⟩ (by simp) rfl
    have b3 := hb ⟨3, ("l", some "soft_max"), .link, [2], [5], []⟩ (by simp) rfl
    have m2 := hle ⟨2, ("l", some "soft_min"), .link, [1], [4], []⟩ 4 (by rw [both_nodes]; simp) (by decide) (by decide +kernel)
    have m4 := hle ⟨4, ("out", none), .output, [3, 4, 5], [], []⟩ 5 (by rw [both_nodes]; simp) (by decide) (by decide +kernel)
    simp only [List.map_cons, List.map_nil, List.sum_cons, List.sum_nil, add_zero, Solver.nodeFlow] at b1 b2 b3 m2 m4
    have p3 := h0 3 (by omega)
    have p4 := h0 4 (by omega)
    have p5 := h0 5 (by omega)
    have hf : Solver.totalCost (coreOf caseP bothNet).model bothCost bothF = -107 := by decide +kernel
    rw [hf]
    unfold Solver.totalCost
    rw [both_nodes]
    simp only [List.map_cons, List.map_nil, List.sum_cons, List.sum_nil, add_zero, Solver.nodeFlow, bothCost, List.getD_cons_zero,
      List.getD_cons_succ]
    linarith

theorem both_sent : sent bothNet (fragOf caseP bothNet) bothF "l" < f64MAX := by decide +kernel

example := C75_soft_both bothNet_built (n := bothNet.at 1) (by decide +kernel) (by intro v hv; cases hv) (by decide) both_priced
  both_least both_inside rfl rfl rfl both_sent (lane := (("l", some "soft_min"), some (.const (-2)), some (.const 4)))
  (lane' := (("l", some "soft_max"), some (.const 3), none)) List.mem_cons_self
  (List.mem_cons_of_mem _ (List.mem_cons_of_mem _ List.mem_cons_self)) (c := -2) (c' := 3) rfl rfl (by decide +kernel)

example := C75_soft_both_order bothNet_built (n := bothNet.at 1) (by decide +kernel) (by intro v hv; cases hv) (by decide) both_priced
  both_least both_inside rfl rfl rfl both_sent (c := -2) (c' := 1) (c'' := 3) (u := 4) rfl rfl rfl (by decide +kernel) (by decide +kernel) rfl

end Verif.Schema
