import Verif.Lemmas.SchemaTypes
import Verif.Props.Factors
import Mathlib.Tactic.Linarith
import Mathlib.Tactic.FieldSimp
import Mathlib.Tactic.Ring

/-! # Flows of nodes with losses, delays and stores -/

namespace Verif.Schema

open Verif.State (NodeKind)
open Verif.Topology (Name EdgeDecl TNode)
open Verif.Solver (Metric NodeData Relationship Factors)

/-! ## Relations between two core nodes -/

section
variable {F : Frag} {C : Core} (h : F.build = .ok C) {st : Solver.StepState} {f : Nat → ℚ} (ha : Solver.Allowed C.model st f)
include h ha

theorem two_pairs {a : AggDecl} (hm : a ∈ F.aggs) {x y : Name} (hn : a.nodes = [[x], [y]]) {Fs : Factors}
    (hr : a.relationship = some (.factored Fs)) :
    ∃ i j ps, Fs.pairs [[i], [j]] st.metric = .ok ps ∧ (∀ p ∈ ps, p.Holds (Solver.flowAt C.model.net f)) ∧
      Solver.flowAt C.model.net f i = nameFlow F f x ∧ Solver.flowAt C.model.net f j = nameFlow F f y := by
  obtain ⟨b, hb, _, _, h3, h4⟩ := agg_at h hm
  rw [hn] at h4
  have hF : b.factors = some Fs := by unfold Solver.AggNode.factors; rw [h3, hr]
  obtain ⟨ps, h5, h6⟩ := ha.factors b hb Fs hF
  generalize hbn : b.nodes = bn at h4 h5
  cases h4 with
  | cons h1 h2 =>
    cases h1 with
    | cons hi hi' =>
      cases hi'
      cases h2 with
      | cons h3 h4 =>
        cases h4
        cases h3 with
        | cons hj hj' =>
          cases hj'
          exact ⟨_, _, ps, h5, h6, flowAt_eq h f hi, flowAt_eq h f hj⟩

theorem two_proportion {a : AggDecl} (hm : a ∈ F.aggs) {x y : Name} (hn : a.nodes = [[x], [y]]) {m : Metric}
    (hr : a.relationship = some (.factored (.proportion [m]))) :
    ∃ g, m.get st.metric = some g ∧ 0 < g ∧ g < 1 ∧ nameFlow F f y = g * (nameFlow F f x + nameFlow F f y) := by
  obtain ⟨i, j, ps, h1, h2, h3, h4⟩ := two_pairs h ha hm hn hr
  simp only [Factors.pairs, Solver.proportional] at h1
  cases hg : m.get st.metric with
  | none => simp [Solver.currentValues, hg] at h1
  | some g =>
    by_cases h0 : g < 0
    · simp [Solver.currentValues, hg, h0] at h1
    · by_cases hlt : 1 ≤ g
      · simp [Solver.currentValues, hg, h0, hlt] at h1
      · simp only [List.length_cons, List.length_nil, Solver.currentValues, hg, h0, if_false, ne_eq, not_true_eq_false, List.sum_cons,
          List.sum_nil, add_zero, ge_iff_le, hlt, List.zip_cons_cons, List.zip_nil_right, List.map_cons, List.map_nil,
          Except.ok.injEq] at h1
        subst h1
        obtain ⟨p, q, h5, h6, h7⟩ := h2 _ List.mem_cons_self
        simp only [Option.some.injEq] at h5
        unfold Solver.negDiv at h6
        by_cases hz : g = 0
        · rw [if_pos hz] at h6; cases h6
        · rw [if_neg hz, Option.some.injEq] at h6
          have hpos : 0 < g := lt_of_le_of_ne (not_lt.1 h0) (Ne.symm hz)
          simp only [Solver.setFlow, List.map_cons, List.map_nil, List.sum_cons, List.sum_nil, add_zero, h3, h4] at h7
          refine ⟨g, rfl, hpos, not_le.1 hlt, ?_⟩
          rw [← h5, ← h6] at h7
          field_simp at h7
          linarith

theorem two_ratio {a : AggDecl} (hm : a ∈ F.aggs) {x y : Name} (hn : a.nodes = [[x], [y]]) {m : Metric}
    (hr : a.relationship = some (.factored (.ratio [.const 1, m]))) :
    ∃ g, m.get st.metric = some g ∧ g ≠ 0 ∧ nameFlow F f y = g * nameFlow F f x := by
  obtain ⟨i, j, ps, h1, h2, h3, h4⟩ := two_pairs h ha hm hn hr
  simp only [Factors.pairs, Solver.ratio] at h1
  have hone : Metric.get st.metric (.const 1) = some 1 := rfl
  cases hg : m.get st.metric with
  | none => simp [Solver.ratioLoop, hg, hone, not_lt.2 (zero_le_one (α := ℚ))] at h1
  | some g =>
    simp only [List.length_cons, List.length_nil, ne_eq, not_true_eq_false, if_false, hone, not_lt.2 (zero_le_one (α := ℚ)),
      List.zip_cons_cons, List.zip_nil_right, Solver.ratioLoop, hg, Except.ok.injEq] at h1
    subst h1
    obtain ⟨p, q, h5, h6, h7⟩ := h2 _ List.mem_cons_self
    simp only [Option.some.injEq] at h5
    unfold Solver.negDiv at h6
    by_cases hz : g = 0
    · rw [if_pos hz] at h6; cases h6
    · rw [if_neg hz, Option.some.injEq] at h6
      simp only [Solver.setFlow, List.map_cons, List.map_nil, List.sum_cons, List.sum_nil, add_zero, h3, h4] at h7
      refine ⟨g, rfl, hz, ?_⟩
      rw [← h5, ← h6] at h7
      field_simp at h7
      linarith

theorem two_coefficients {a : AggDecl} (hm : a ∈ F.aggs) {x y : Name} (hn : a.nodes = [[x], [y]]) {m r : Metric}
    (hr : a.relationship = some (.factored (.coefficients [.const 1, m] (some r)))) :
    ∃ g c, m.get st.metric = some g ∧ r.get st.metric = some c ∧ nameFlow F f x + g * nameFlow F f y = c := by
  obtain ⟨i, j, ps, h1, h2, h3, h4⟩ := two_pairs h ha hm hn hr
  simp only [Factors.pairs] at h1
  obtain ⟨n0, n1, f0, f1, v0, v1, c, h5, h6, h7, h8, h9, h10⟩ := (Solver.C22_coefficients _ _ _ _ _).1 h1
  simp only [List.cons.injEq, and_true] at h5 h6
  obtain ⟨rfl, rfl⟩ := h5
  obtain ⟨rfl, rfl⟩ := h6
  subst h10
  obtain ⟨p, q, h11, h12, h13⟩ := h2 _ List.mem_cons_self
  simp only [Option.some.injEq, Metric.get] at h11 h12 h7
  simp only [Solver.setFlow, List.map_cons, List.map_nil, List.sum_cons, List.sum_nil, add_zero, h3, h4] at h13
  refine ⟨v1, c, h8, h9, ?_⟩
  rw [← h11, ← h12, ← h7] at h13
  linarith

end

/-! ## Flow of a core node, by its kind -/

section
variable {P : ParamNo} {N : Net} {F : Frag} {C : Core} (h : Built P N F C) {n : SNode} (hm : n ∈ N.nodes) {G : Frag} (hG : n.frag P = .ok G)
include h hm hG

theorem nameFlow_link (f : Nat → ℚ) {d : Decl} (hd : d ∈ G.nodes) (hk : d.kind = .link) : nameFlow F f d.name = outOf F f d.name := by
  rw [nameFlow_eq (names_nodup h.built) f (mem_nodes h.compiled hm hG hd)]; unfold coreFlow; rw [hk]

theorem nameFlow_input (f : Nat → ℚ) {d : Decl} (hd : d ∈ G.nodes) (hk : d.kind = .input) : nameFlow F f d.name = outOf F f d.name := by
  rw [nameFlow_eq (names_nodup h.built) f (mem_nodes h.compiled hm hG hd)]; unfold coreFlow; rw [hk]

theorem nameFlow_output (f : Nat → ℚ) {d : Decl} (hd : d ∈ G.nodes) (hk : d.kind = .output) : nameFlow F f d.name = into F f d.name := by
  rw [nameFlow_eq (names_nodup h.built) f (mem_nodes h.compiled hm hG hd)]; unfold coreFlow; rw [hk]

/-- All input connectors, when there are no inner edges into them. -/
theorem received_eq (f : Nat → ℚ) {S : List Name} (hi : n.inputs = .ok S) (hS : S.Nodup) (hin : ∀ e ∈ G.edges, e.dst ∉ S) :
    (S.map (into F f)).sum = received N F f n.name := by
  have hall : ∀ s ns, n.inputConnectors s = .ok ns → ns = S := by
    intro s ns hc
    have := inputConnectors_inputs hc
    rw [hi] at this
    simpa using this.symm
  have hown : ∀ c ∈ S, c.1 = n.name := by
    by_cases hp : ∃ s, n.inputConnectors s = .ok S
    · obtain ⟨s, hs⟩ := hp; exact inputs_owned n s S hs
    · exfalso; apply hp
      refine ⟨none, ?_⟩
      unfold SNode.inputConnectors
      cases n.body <;> exact hi
  rw [into_inputs h.compiled hm hG f S hS hown (fun s ns hc c hcn => hall s ns hc ▸ hcn), sumWhere_none, zero_add]
  intro e he
  simpa using hin e he

/-- All output connectors of a type without slots, when there are no inner edges from them. -/
theorem sent_eq (f : Nat → ℚ) {S : List Name} (hi : n.outputs = .ok S)
    (hb : ∀ b, n.body ≠ .riverSplit b) (hb' : ∀ b, n.body ≠ .abstraction b) (hb'' : ∀ b, n.body ≠ .reservoir b)
    (hS : S.Nodup) (hin : ∀ e ∈ G.edges, e.src ∉ S) :
    (S.map (outOf F f)).sum = sent N F f n.name := by
  have hall : ∀ s ns, n.outputConnectors s = .ok ns → ns = S := by
    intro s ns hc
    have := outputConnectors_outputs hc hb hb' hb''
    rw [hi] at this
    simpa using this.symm
  have hown : ∀ c ∈ S, c.1 = n.name := by
    have hc : n.outputConnectors none = .ok S := by
      unfold SNode.outputConnectors
      cases hn : n.body with
      | riverSplit b => exact absurd hn (hb b)
      | abstraction b => exact absurd hn (hb' b)
      | reservoir b => exact absurd hn (hb'' b)
      | placeholder => unfold SNode.outputs at hi; simp only [hn] at hi; exact hi
      | _ => exact hi
    exact outputs_owned n none S hc
  rw [outOf_outputs h.compiled hm hG f S hS hown (fun s ns hc c hcn => hall s ns hc ▸ hcn), sumWhere_none, zero_add]
  intro e he
  simpa using hin e he

end

/-! ## Loss nodes -/

/-- The facts about a node that splits what it receives into a net flow and a loss: the names of its core nodes are given. -/
structure SplitsLoss (N : Net) (F : Frag) (st : Solver.StepState) (f : Nat → ℚ) (n : SNode) (net loss : Name) (l : Option Loss) : Prop where
  received : (if l.isSome then into F f net + into F f loss else into F f net) = received N F f n.name
  through : into F f net = sent N F f n.name ∧ outOf F f net = sent N F f n.name ∧ nameFlow F f net = sent N F f n.name
  lost : l.isSome → nameFlow F f loss = into F f loss ∧ 0 ≤ into F f loss
  law : LossIs st.metric l (Schema.received N F f n.name) (sent N F f n.name) (if l.isSome then into F f loss else 0)
  exists_net : ∃ d ∈ F.nodes, d.name = net
  exists_loss : l.isSome → ∃ d ∈ F.nodes, d.name = loss

section
variable {P : ParamNo} {N : Net} {F : Frag} {C : Core} (h : Built P N F C) {st : Solver.StepState} {f : Nat → ℚ}
  (ha : Solver.Allowed C.model st f)
include h ha

/-- The law of loss from the aggregated node or the maximum of zero. -/
theorem loss_law {n : SNode} (hm : n ∈ N.nodes) {G : Frag} (hG : n.frag P = .ok G) {net loss nm : Name} {l : Loss} {hi : Option Metric}
    (hnet : ∃ d ∈ G.nodes, d.name = net ∧ d.kind = .link) (hloss : ⟨loss, .output, flowData none none hi, none⟩ ∈ G.nodes)
    (hz : l.load = none → hi = some (.const 0))
    (hagg : ∀ r, l.load = some r → ⟨nm, [[net], [loss]], none, none, some r⟩ ∈ G.aggs) {r s : ℚ}
    (hr : into F f net + into F f loss = r) (hs : into F f net = s) : LossIs st.metric (some l) r s (into F f loss) := by
  obtain ⟨d, hd, rfl, hk⟩ := hnet
  have hbal := link_balance h.built ha (mem_nodes h.compiled hm hG hd) hk
  have h1 := nameFlow_link h hm hG f hd hk
  have h2 := nameFlow_output h hm hG f hloss rfl
  have hzero : l.load = none → into F f loss = 0 := by
    intro hl
    have hlim := (flow_limits h.built ha (mem_nodes h.compiled hm hG hloss) (by simp)).2
    rw [hz hl] at hlim
    obtain ⟨u, hu, hle⟩ := hlim
    cases hu
    have := into_nonneg h.built ha loss
    have hle' : into F f loss ≤ 0 := hle
    linarith
  cases l with
  | gross m =>
    by_cases h0 : m = .const 0
    · refine ⟨0, by rw [h0]; rfl, ?_⟩
      rw [zero_mul]
      exact hzero (by simp [Loss.load, h0])
    · obtain ⟨g, hg, _, _, hlaw⟩ := two_proportion h.built ha (mem_aggs h.compiled hm hG (hagg (.factored (.proportion [m])) (by simp [Loss.load, h0]))) rfl rfl
      refine ⟨g, hg, ?_⟩
      rw [h1, h2, ← hbal] at hlaw
      rw [← hr]; exact hlaw
  | net m =>
    by_cases h0 : m = .const 0
    · refine ⟨0, by rw [h0]; rfl, ?_⟩
      rw [zero_mul]
      exact hzero (by simp [Loss.load, h0])
    · obtain ⟨g, hg, _, hlaw⟩ := two_ratio h.built ha (mem_aggs h.compiled hm hG (hagg (.factored (.ratio [.const 1, m])) (by simp [Loss.load, h0]))) rfl rfl
      refine ⟨g, hg, ?_⟩
      rw [h1, h2, ← hbal] at hlaw
      rw [← hs]; exact hlaw

theorem splits_lossLink {n : SNode} (hm : n ∈ N.nodes) {b : LossLinkN} (hb : n.body = .lossLink b) :
    SplitsLoss N F st f n (n.name, some "net") (n.name, some "loss") b.loss := by
  obtain ⟨G, hG⟩ := frag_of_mem h.compiled hm
  have hG' := hG
  unfold SNode.frag at hG'
  simp only [hb, Except.ok.injEq, LossLinkN.frag] at hG'
  have hout : n.outputs = .ok [(n.name, some "net")] := by unfold SNode.outputs; simp only [hb]
  have hnet : ⟨(n.name, some "net"), .link, flowData b.netCost b.minNetFlow b.maxNetFlow, none⟩ ∈ G.nodes := by
    cases hl : b.loss <;> simp only [hl] at hG' <;> subst hG' <;> simp
  have hE : G.edges = [] := by cases hl : b.loss <;> simp only [hl] at hG' <;> subst hG' <;> rfl
  have hs := sent_eq h hm hG f hout (by simp [hb]) (by simp [hb]) (by simp [hb]) (by simp) (by simp [hE])
  simp only [List.map_cons, List.map_nil, List.sum_cons, List.sum_nil, add_zero] at hs
  have hbal := link_balance h.built ha (mem_nodes h.compiled hm hG hnet) rfl
  simp only at hbal
  have hnf := nameFlow_link h hm hG f hnet rfl
  simp only at hnf
  cases hl : b.loss with
  | none =>
    have hin : n.inputs = .ok [(n.name, some "net")] := by unfold SNode.inputs; simp [hb, grossNames, hl]
    have hr := received_eq h hm hG f hin (by simp) (by simp [hE])
    simp only [List.map_cons, List.map_nil, List.sum_cons, List.sum_nil, add_zero] at hr
    exact ⟨by simpa using hr, ⟨hbal.trans hs, hs, hnf.trans hs⟩, by simp, by simp [LossIs], ⟨_, mem_nodes h.compiled hm hG hnet, rfl⟩, by simp⟩
  | some l =>
    have hin : n.inputs = .ok [(n.name, some "net"), (n.name, some "loss")] := by unfold SNode.inputs; simp [hb, grossNames, hl]
    have hr := received_eq h hm hG f hin (by simp) (by simp [hE])
    simp only [List.map_cons, List.map_nil, List.sum_cons, List.sum_nil, add_zero] at hr
    simp only [hl] at hG'
    have hloss : ⟨(n.name, some "loss"), .output, flowData none none (if l.load = none then some (.const 0) else none), none⟩ ∈ G.nodes := by
      subst hG'; simp
    refine ⟨by simpa using hr, ⟨hbal.trans hs, hs, hnf.trans hs⟩, ?_, ?_, ⟨_, mem_nodes h.compiled hm hG hnet, rfl⟩, ?_⟩
    · intro _
      exact ⟨nameFlow_output h hm hG f hloss rfl, into_nonneg h.built ha _⟩
    · simp only [Option.isSome_some, if_true]
      refine loss_law h ha hm hG (nm := (n.name, some "agg")) ⟨_, hnet, rfl, rfl⟩ hloss (by intro hz; rw [if_pos hz]) ?_ hr (hbal.trans hs)
      intro r hr
      subst hG'
      simp [hr]
    · intro _
      exact ⟨_, mem_nodes h.compiled hm hG hloss, rfl⟩

theorem splits_works {n : SNode} (hm : n ∈ N.nodes) {b : WorksN} (hb : n.body = .works b) :
    SplitsLoss N F st f n (n.name, some "net") (n.name, some "loss") b.loss := by
  obtain ⟨G, hG⟩ := frag_of_mem h.compiled hm
  have hG' := hG
  unfold SNode.frag at hG'
  simp only [hb, Except.ok.injEq, WorksN.frag] at hG'
  have hout : n.outputs = .ok [(n.name, some "net_soft_min_flow"), (n.name, some "net_above_soft_min_flow")] := by
    unfold SNode.outputs; simp only [hb]
  have hE : G.edges = [⟨(n.name, some "net"), (n.name, some "net_soft_min_flow")⟩, ⟨(n.name, some "net"), (n.name, some "net_above_soft_min_flow")⟩] := by
    cases hl : b.loss with
    | none => simp only [hl] at hG'; subst hG'; rfl
    | some l => cases hl' : l.load <;> simp only [hl, hl'] at hG' <;> subst hG' <;> rfl
  have hnet : ⟨(n.name, some "net"), .link, flowData b.cost b.minFlow b.maxFlow, none⟩ ∈ G.nodes ∧
      ⟨(n.name, some "net_soft_min_flow"), .link, flowData b.softMinFlowCost none b.softMinFlow, none⟩ ∈ G.nodes ∧
      ⟨(n.name, some "net_above_soft_min_flow"), .link, noData, none⟩ ∈ G.nodes := by
    cases hl : b.loss with
    | none => simp only [hl] at hG'; subst hG'; simp
    | some l => cases hl' : l.load <;> simp only [hl, hl'] at hG' <;> subst hG' <;> simp
  obtain ⟨hnet, hlow, habove⟩ := hnet
  have hs := sent_eq h hm hG f hout (by simp [hb]) (by simp [hb]) (by simp [hb]) (by simp) (by simp [hE])
  simp only [List.map_cons, List.map_nil, List.sum_cons, List.sum_nil, add_zero] at hs
  have hinner := into_other h.compiled hm hG f [(n.name, some "net_soft_min_flow"), (n.name, some "net_above_soft_min_flow")] (by simp) (by simp) (by
    intro s ns hc c hcn
    have := inputConnectors_inputs hc
    unfold SNode.inputs at this
    simp only [hb, Except.ok.injEq, grossNames] at this
    subst this
    cases hl : b.loss <;> simp [hl] at hcn ⊢
    · subst hcn; simp
    · rcases hcn with rfl | rfl <;> simp)
  have houter := outOf_other h.compiled hm hG f [(n.name, some "net")] (by simp) (by simp) (by
    intro s ns hc c hcn
    have := outputConnectors_outputs hc (by simp [hb]) (by simp [hb]) (by simp [hb])
    rw [hout, Except.ok.injEq] at this
    subst this
    simp only [List.mem_cons, List.not_mem_nil, or_false] at hcn
    rcases hcn with rfl | rfl <;> simp)
  rw [hE, sumWhere_all _ _ _ (by simp)] at hinner houter
  simp only [List.map_cons, List.map_nil, List.sum_cons, List.sum_nil, add_zero] at hinner houter
  have hbal := link_balance h.built ha (mem_nodes h.compiled hm hG hnet) rfl
  have hbl := link_balance h.built ha (mem_nodes h.compiled hm hG hlow) rfl
  have hba := link_balance h.built ha (mem_nodes h.compiled hm hG habove) rfl
  simp only at hbal hbl hba
  have hsn : outOf F f (n.name, some "net") = sent N F f n.name := by linarith
  have hnf := nameFlow_link h hm hG f hnet rfl
  simp only at hnf
  cases hl : b.loss with
  | none =>
    have hin : n.inputs = .ok [(n.name, some "net")] := by unfold SNode.inputs; simp [hb, grossNames, hl]
    have hr := received_eq h hm hG f hin (by simp) (by simp [hE])
    simp only [List.map_cons, List.map_nil, List.sum_cons, List.sum_nil, add_zero] at hr
    exact ⟨by simpa using hr, ⟨hbal.trans hsn, hsn, hnf.trans hsn⟩, by simp, by simp [LossIs], ⟨_, mem_nodes h.compiled hm hG hnet, rfl⟩, by simp⟩
  | some l =>
    have hin : n.inputs = .ok [(n.name, some "net"), (n.name, some "loss")] := by unfold SNode.inputs; simp [hb, grossNames, hl]
    have hr := received_eq h hm hG f hin (by simp) (by simp [hE])
    simp only [List.map_cons, List.map_nil, List.sum_cons, List.sum_nil, add_zero] at hr
    have hloss : ⟨(n.name, some "loss"), .output, flowData none none (if l.load = none then some (.const 0) else none), none⟩ ∈ G.nodes := by
      cases hl' : l.load <;> simp only [hl, hl'] at hG' <;> subst hG' <;> simp [noData, flowData]
    refine ⟨by simpa using hr, ⟨hbal.trans hsn, hsn, hnf.trans hsn⟩, ?_, ?_, ⟨_, mem_nodes h.compiled hm hG hnet, rfl⟩, ?_⟩
    · intro _
      exact ⟨nameFlow_output h hm hG f hloss rfl, into_nonneg h.built ha _⟩
    · simp only [Option.isSome_some, if_true]
      refine loss_law h ha hm hG (nm := (n.name, some "agg")) ⟨_, hnet, rfl, rfl⟩ hloss (by intro hz; rw [if_pos hz]) ?_ hr (hbal.trans hsn)
      intro r hr
      simp only [hl, hr] at hG'
      subst hG'
      simp
    · intro _
      exact ⟨_, mem_nodes h.compiled hm hG hloss, rfl⟩

theorem splits_river {n : SNode} (hm : n ∈ N.nodes) {b : RiverN} (hb : n.body = .river b) (hr : b.routing = none) :
    SplitsLoss N F st f n (n.name, some "net") (n.name, some "loss") b.loss := by
  obtain ⟨G, hG⟩ := frag_of_mem h.compiled hm
  have hG' := hG
  unfold SNode.frag at hG'
  simp only [hb, Except.ok.injEq, RiverN.frag, hr] at hG'
  have hout : n.outputs = .ok [(n.name, some "net")] := by
    unfold SNode.outputs; simp only [hb, hr]; cases b.loss <;> rfl
  have hnet : ⟨(n.name, some "net"), .link, noData, none⟩ ∈ G.nodes := by
    cases hl : b.loss <;> simp only [hl] at hG' <;> subst hG' <;> simp
  have hE : G.edges = [] := by cases hl : b.loss <;> simp only [hl] at hG' <;> subst hG' <;> rfl
  have hs := sent_eq h hm hG f hout (by simp [hb]) (by simp [hb]) (by simp [hb]) (by simp) (by simp [hE])
  simp only [List.map_cons, List.map_nil, List.sum_cons, List.sum_nil, add_zero] at hs
  have hbal := link_balance h.built ha (mem_nodes h.compiled hm hG hnet) rfl
  simp only at hbal
  have hnf := nameFlow_link h hm hG f hnet rfl
  simp only at hnf
  cases hl : b.loss with
  | none =>
    have hin : n.inputs = .ok [(n.name, some "net")] := by unfold SNode.inputs; simp [hb, hr, hl]
    have hr := received_eq h hm hG f hin (by simp) (by simp [hE])
    simp only [List.map_cons, List.map_nil, List.sum_cons, List.sum_nil, add_zero] at hr
    exact ⟨by simpa using hr, ⟨hbal.trans hs, hs, hnf.trans hs⟩, by simp, by simp [LossIs], ⟨_, mem_nodes h.compiled hm hG hnet, rfl⟩, by simp⟩
  | some l =>
    have hin : n.inputs = .ok [(n.name, some "net"), (n.name, some "loss")] := by unfold SNode.inputs; simp [hb, hr, hl]
    have hr := received_eq h hm hG f hin (by simp) (by simp [hE])
    simp only [List.map_cons, List.map_nil, List.sum_cons, List.sum_nil, add_zero] at hr
    simp only [hl, RiverN.lossFrag] at hG'
    have hloss : ⟨(n.name, some "loss"), .output, flowData none none (if l.load = none then some (.const 0) else none), none⟩ ∈ G.nodes := by
      cases hl' : l.load <;> simp only [hl'] at hG' <;> subst hG' <;> simp [noData, flowData]
    refine ⟨by simpa using hr, ⟨hbal.trans hs, hs, hnf.trans hs⟩, ?_, ?_, ⟨_, mem_nodes h.compiled hm hG hnet, rfl⟩, ?_⟩
    · intro _
      exact ⟨nameFlow_output h hm hG f hloss rfl, into_nonneg h.built ha _⟩
    · simp only [Option.isSome_some, if_true]
      refine loss_law h ha hm hG (nm := (n.name, some "aggregated_loss_node")) ⟨_, hnet, rfl, rfl⟩ hloss (by intro hz; rw [if_pos hz]) ?_ hr (hbal.trans hs)
      intro r hr
      simp only [hr] at hG'
      subst hG'
      simp
    · intro _
      exact ⟨_, mem_nodes h.compiled hm hG hloss, rfl⟩

end

end Verif.Schema
