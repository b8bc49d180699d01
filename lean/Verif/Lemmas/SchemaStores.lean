import Verif.Lemmas.SchemaLoss

/-! # Flows of routed nodes and of stores -/

namespace Verif.Schema

open Verif.State (NodeKind)
open Verif.Topology (Name EdgeDecl TNode)
open Verif.Solver (Metric NodeData Relationship Factors)

section
variable {P : ParamNo} {N : Net} {F : Frag} {C : Core} (h : Built P N F C)
include h

theorem mem_edges {n : SNode} (hm : n ∈ N.nodes) {G : Frag} (hG : n.frag P = .ok G) {e : EdgeDecl} (he : e ∈ G.edges) : e ∈ F.edges := by
  obtain ⟨Gs, Vs, Es, hparts⟩ := compile_parts h.compiled
  rw [hparts.edges']
  apply List.mem_append_left
  rw [List.mem_flatMap]
  obtain ⟨k, hk⟩ := List.getElem?_of_mem hm
  obtain ⟨hlt, hget⟩ := List.getElem?_eq_some_iff.1 hk
  have hlt' : k < Gs.length := hparts.frags.length_eq ▸ hlt
  have hr := hparts.frags.get hlt hlt'
  simp only [List.get_eq_getElem, hget, hG, Except.ok.injEq] at hr
  exact ⟨G, hr ▸ List.getElem_mem hlt', he⟩

theorem mem_params {n : SNode} (hm : n ∈ N.nodes) {G : Frag} (hG : n.frag P = .ok G) {e : String × String × PDef} (he : e ∈ G.params) :
    e ∈ F.params := by
  obtain ⟨Gs, Vs, Es, hparts⟩ := compile_parts h.compiled
  rw [hparts.params', List.mem_flatMap]
  obtain ⟨k, hk⟩ := List.getElem?_of_mem hm
  obtain ⟨hlt, hget⟩ := List.getElem?_eq_some_iff.1 hk
  have hlt' : k < Gs.length := hparts.frags.length_eq ▸ hlt
  have hr := hparts.frags.get hlt hlt'
  simp only [List.get_eq_getElem, hget, hG, Except.ok.injEq] at hr
  exact ⟨G, hr ▸ List.getElem_mem hlt', he⟩

/-- Nodes of a name come from the node of the schema of that name. -/
theorem node_owner {n : SNode} (hm : n ∈ N.nodes) {G : Frag} (hG : n.frag P = .ok G) {d : Decl} (hd : d ∈ F.nodes) (hx : d.name.1 = n.name) :
    d ∈ G.nodes := by
  obtain ⟨Gs, Vs, Es, hparts⟩ := compile_parts h.compiled
  rw [hparts.nodes', List.mem_flatMap] at hd
  obtain ⟨G', hG', hd⟩ := hd
  obtain ⟨k, hk⟩ := List.getElem?_of_mem hG'
  obtain ⟨hlt, hget⟩ := List.getElem?_eq_some_iff.1 hk
  have hlt' : k < N.nodes.length := hparts.frags.length_eq ▸ hlt
  have hr := hparts.frags.get hlt' hlt
  simp only [List.get_eq_getElem, hget] at hr
  have hname := (owned P _ _ hr).nodes d hd
  have : N.nodes[k] = n := by
    have hv := (validate_ok N hparts.valid).1
    have h1 := node?_of_mem hv (List.getElem_mem hlt')
    have h2 := node?_of_mem hv hm
    rw [← hname, hx, h2] at h1
    simpa using h1.symm
  rw [this, hG, Except.ok.injEq] at hr
  exact hr ▸ hd

theorem edge_ends {e : EdgeDecl} (he : e ∈ F.edges) : e.src ∈ F.nodes.map (·.name) ∧ e.dst ∈ F.nodes.map (·.name) := by
  have := (valid_of_build h.built).ends e he
  simpa [Frag.builder, Function.comp_def] using this

theorem missing {n : Name} (hn : n ∉ F.nodes.map (·.name)) (f : Nat → ℚ) : into F f n = 0 ∧ outOf F f n = 0 := by
  constructor
  · rw [into_eq, sumWhere_none]
    intro e he
    have := (edge_ends h he).2
    simp only [decide_eq_false_iff_not]
    rintro rfl; exact hn this
  · rw [outOf_eq, sumWhere_none]
    intro e he
    have := (edge_ends h he).1
    simp only [decide_eq_false_iff_not]
    rintro rfl; exact hn this

omit h in
theorem nameFlow_missing {n : Name} (hn : n ∉ F.nodes.map (·.name)) (f : Nat → ℚ) : nameFlow F f n = 0 := by
  unfold nameFlow
  have : F.nodes.find? (fun d => decide (d.name = n)) = none := by
    rw [List.find?_eq_none]
    intro d hd
    simp only [decide_eq_true_eq]
    rintro rfl; exact hn (List.mem_map_of_mem hd)
  rw [this]; rfl

variable {st : Solver.StepState} {f : Nat → ℚ} (ha : Solver.Allowed C.model st f)
include ha

/-- Volumes by name. -/
theorem stored_limits {d : Decl} (hd : d ∈ F.nodes) (hk : d.kind = .storage) :
    ∃ v, stored F st d.name = some v ∧
      Solver.AtLeast st.metric d.data.minVolume 0 (v + st.days * (into F f d.name - outOf F f d.name)) ∧
      Solver.AtMost st.metric d.data.maxVolume Solver.f64MAX (v + st.days * (into F f d.name - outOf F f d.name)) := by
  obtain ⟨k, hk'⟩ := List.getElem?_of_mem hd
  have hidx : (F.nodes.map (·.name)).idxOf d.name = k := by
    have hget : (F.nodes.map (·.name))[k]? = some d.name := by simp [hk']
    obtain ⟨hlt, hg⟩ := List.getElem?_eq_some_iff.1 hget
    rw [← hg]
    exact (names_nodup h.built).idxOf_getElem k hlt
  unfold stored
  rw [hidx]
  exact volume_limits h.built ha hk' hk

/-- A flow fixed by a metric. -/
theorem fixed_flow {d : Decl} (hd : d ∈ F.nodes) (hk : d.kind ≠ .storage) {m : Metric} (h1 : d.data.minFlow = some m) (h2 : d.data.maxFlow = some m) :
    m.get st.metric = some (nameFlow F f d.name) := by
  have := flow_limits h.built ha hd hk
  rw [h1, h2, ← nameFlow_eq (names_nodup h.built) f hd] at this
  obtain ⟨⟨l, hl, hle⟩, u, hu, hge⟩ := this
  rw [hl, Option.some.injEq] at hu
  subst hu
  rw [hl, le_antisymm hle hge]

end

/-! ## Routed nodes -/

/-- The facts about a routed node: all it receives enters one core node; another core node releases `out`. -/
structure Routes (N : Net) (F : Frag) (st : Solver.StepState) (f : Nat → ℚ) (n : SNode) (l : Option Loss) : Prop where
  inflow : into F f (n.name, some "inflow") = received N F f n.name ∧ nameFlow F f (n.name, some "inflow") = received N F f n.name
  out : nameFlow F f (n.name, some "outflow") = outOf F f (n.name, some "outflow")
  lost : l.isSome → 0 ≤ into F f (n.name, some "loss") ∧ nameFlow F f (n.name, some "loss") = into F f (n.name, some "loss")
  sent : outOf F f (n.name, some "outflow") = sent N F f n.name + if l.isSome then into F f (n.name, some "loss") else 0
  law : LossIs st.metric l (outOf F f (n.name, some "outflow")) (Schema.sent N F f n.name)
    (if l.isSome then into F f (n.name, some "loss") else 0)
  present : (∃ d ∈ F.nodes, d.name = (n.name, some "inflow")) ∧ (∃ d ∈ F.nodes, d.name = (n.name, some "outflow")) ∧
    (l.isSome → ∃ d ∈ F.nodes, d.name = (n.name, some "loss"))

section
variable {P : ParamNo} {N : Net} {F : Frag} {C : Core} (h : Built P N F C) {st : Solver.StepState} {f : Nat → ℚ}
  (ha : Solver.Allowed C.model st f)
include h ha

omit ha in
theorem routes_delay {n : SNode} (hm : n ∈ N.nodes) {b : DelayN} (hb : n.body = .delay b) : Routes N F st f n none := by
  obtain ⟨G, hG⟩ := frag_of_mem h.compiled hm
  have hG' := hG
  unfold SNode.frag at hG'
  simp only [hb, Except.ok.injEq, DelayN.frag] at hG'
  have hi : ⟨(n.name, some "inflow"), .output, noData, none⟩ ∈ G.nodes := by subst hG'; simp
  have ho : ∃ d ∈ G.nodes, d.name = (n.name, some "outflow") ∧ d.kind = .input := by subst hG'; simp
  obtain ⟨d, hd, hdn, hk⟩ := ho
  have hE : G.edges = [] := by subst hG'; rfl
  have hr := received_eq h hm hG f (S := [(n.name, some "inflow")]) (by unfold SNode.inputs; simp only [hb]) (by simp) (by simp [hE])
  have hs := sent_eq h hm hG f (S := [(n.name, some "outflow")]) (by unfold SNode.outputs; simp only [hb]) (by simp [hb]) (by simp [hb]) (by simp [hb])
    (by simp) (by simp [hE])
  simp only [List.map_cons, List.map_nil, List.sum_cons, List.sum_nil, add_zero] at hr hs
  have h1 := nameFlow_output h hm hG f hi rfl
  have h2 := nameFlow_input h hm hG f hd hk
  simp only at h1
  rw [hdn] at h2
  exact ⟨⟨hr, h1.trans hr⟩, h2, by simp, by simpa using hs, by simp [LossIs],
    ⟨_, mem_nodes h.compiled hm hG hi, rfl⟩, ⟨_, mem_nodes h.compiled hm hG hd, hdn⟩, by simp⟩

theorem routes_river {n : SNode} (hm : n ∈ N.nodes) {b : RiverN} (hb : n.body = .river b) {r : Routing} (hroute : b.routing = some r) :
    Routes N F st f n b.loss := by
  obtain ⟨G, hG⟩ := frag_of_mem h.compiled hm
  have hG' := hG
  unfold SNode.frag at hG'
  simp only [hb, Except.ok.injEq, RiverN.frag, hroute] at hG'
  have hi : ⟨(n.name, some "inflow"), .output, noData, none⟩ ∈ G.nodes := by
    cases hl : b.loss <;> simp only [hl] at hG' <;> subst hG' <;> simp
  have hdecl : (RiverN.routingFrag P n.name r).1.name = (n.name, some "outflow") ∧ (RiverN.routingFrag P n.name r).1.kind = .input := by
    cases r <;> simp [RiverN.routingFrag]
  have hd : (RiverN.routingFrag P n.name r).1 ∈ G.nodes := by
    cases hl : b.loss <;> simp only [hl] at hG' <;> subst hG' <;> simp
  have hE : ∀ e ∈ G.edges, e.dst ≠ (n.name, some "inflow") := by
    cases hl : b.loss <;> simp only [hl] at hG' <;> subst hG' <;> simp
  have hr := received_eq h hm hG f (S := [(n.name, some "inflow")]) (by unfold SNode.inputs; simp only [hb, hroute]; cases b.loss <;> rfl) (by simp)
    (by simpa using hE)
  simp only [List.map_cons, List.map_nil, List.sum_cons, List.sum_nil, add_zero] at hr
  have h1 := nameFlow_output h hm hG f hi rfl
  have h2 := nameFlow_input h hm hG f hd hdecl.2
  simp only at h1
  rw [hdecl.1] at h2
  cases hl : b.loss with
  | none =>
    have hE : G.edges = [] := by simp only [hl] at hG'; subst hG'; rfl
    have hs := sent_eq h hm hG f (S := [(n.name, some "outflow")]) (by unfold SNode.outputs; simp [hb, hroute, hl]) (by simp [hb]) (by simp [hb])
      (by simp [hb]) (by simp) (by simp [hE])
    simp only [List.map_cons, List.map_nil, List.sum_cons, List.sum_nil, add_zero] at hs
    exact ⟨⟨hr, h1.trans hr⟩, h2, by simp, by simpa using hs, by simp [LossIs],
      ⟨_, mem_nodes h.compiled hm hG hi, rfl⟩, ⟨_, mem_nodes h.compiled hm hG hd, hdecl.1⟩, by simp⟩
  | some l =>
    simp only [hl, RiverN.lossFrag] at hG'
    have hE : G.edges = [⟨(n.name, some "outflow"), (n.name, some "net")⟩, ⟨(n.name, some "outflow"), (n.name, some "loss")⟩] := by subst hG'; rfl
    have hnet : ⟨(n.name, some "net"), .link, noData, none⟩ ∈ G.nodes := by subst hG'; simp
    have hloss : ⟨(n.name, some "loss"), .output, flowData none none (if l.load = none then some (.const 0) else none), none⟩ ∈ G.nodes := by
      cases hl' : l.load <;> simp only [hl'] at hG' <;> subst hG' <;> simp [noData, flowData]
    have hout : n.outputs = .ok [(n.name, some "net")] := by unfold SNode.outputs; simp [hb, hroute, hl]
    have hs := sent_eq h hm hG f hout (by simp [hb]) (by simp [hb]) (by simp [hb]) (by simp) (by simp [hE])
    simp only [List.map_cons, List.map_nil, List.sum_cons, List.sum_nil, add_zero] at hs
    have hinner := into_other h.compiled hm hG f [(n.name, some "net"), (n.name, some "loss")] (by simp) (by simp) (by
      intro s ns hc c hcn
      have := inputConnectors_inputs hc
      unfold SNode.inputs at this
      simp only [hb, hroute, hl, Except.ok.injEq, Option.isSome_some] at this
      subst this
      simp only [List.mem_singleton] at hcn
      subst hcn; simp)
    have houter := outOf_other h.compiled hm hG f [(n.name, some "outflow")] (by simp) (by simp) (by
      intro s ns hc c hcn
      have := outputConnectors_outputs hc (by simp [hb]) (by simp [hb]) (by simp [hb])
      rw [hout, Except.ok.injEq] at this
      subst this
      simp only [List.mem_singleton] at hcn
      subst hcn; simp)
    rw [hE, sumWhere_all _ _ _ (by simp)] at hinner houter
    simp only [List.map_cons, List.map_nil, List.sum_cons, List.sum_nil, add_zero] at hinner houter
    have hbal := link_balance h.built ha (mem_nodes h.compiled hm hG hnet) rfl
    simp only at hbal
    have hsum : into F f (n.name, some "net") + into F f (n.name, some "loss") = outOf F f (n.name, some "outflow") := by linarith
    refine ⟨⟨hr, h1.trans hr⟩, h2, fun _ => ⟨into_nonneg h.built ha _, nameFlow_output h hm hG f hloss rfl⟩, ?_, ?_,
      ⟨_, mem_nodes h.compiled hm hG hi, rfl⟩, ⟨_, mem_nodes h.compiled hm hG hd, hdecl.1⟩, fun _ => ⟨_, mem_nodes h.compiled hm hG hloss, rfl⟩⟩
    · simp only [Option.isSome_some, if_true]
      linarith
    · simp only [Option.isSome_some, if_true]
      refine loss_law h ha hm hG (nm := (n.name, some "aggregated_loss_node")) ⟨_, hnet, rfl, rfl⟩ hloss (by intro hz; rw [if_pos hz]) ?_ hsum
        (hbal.trans hs)
      intro r hr
      simp only [hr] at hG'
      subst hG'
      simp

/-! ## Stores -/

omit h ha in
theorem pieceLoop_nodes (nm : String) (b : PieceStoreN) (ss : List Piece) (i : Nat) (l : Option Metric) (pr : List Metric) :
    ∀ j ≤ ss.length, ∃ d ∈ (pieceLoop P nm b ss i l pr).nodes, d.name = storeName nm (i + j) ∧ d.kind = .storage ∧
      d.data.minVolume = b.minVolume.map (fun _ => pieceMin P nm (i + j)) ∧ d.data.maxVolume = some (pieceMax P nm (i + j)) := by
  induction ss generalizing i l pr with
  | nil =>
    intro j hj
    have : j = 0 := by simpa using hj
    subst this
    simp [pieceLoop, pieceFrag, volumeData]
  | cons s ss ih =>
    intro j hj
    simp only [pieceLoop]
    cases j with
    | zero => refine ⟨_, List.mem_append_left _ (by simp only [pieceFrag]; exact List.mem_singleton.2 rfl), ?_⟩; simp [volumeData]
    | succ j =>
      obtain ⟨d, hd, h1⟩ := ih (i + 1) (some s.curve) (pr ++ [pieceMax P nm i]) j (by simpa using hj)
      rw [show i + 1 + j = i + (j + 1) by omega] at h1
      exact ⟨d, List.mem_append_right _ hd, h1⟩

omit h ha in
theorem pieceLoop_edges (nm : String) (b : PieceStoreN) (ss : List Piece) (i : Nat) (l : Option Metric) (pr : List Metric) :
    ∀ e ∈ (pieceLoop P nm b ss i l pr).edges, ∃ j k, j ≤ i + ss.length ∧ k ≤ i + ss.length ∧ e = ⟨storeName nm j, storeName nm k⟩ := by
  induction ss generalizing i l pr with
  | nil =>
    intro e he
    simp only [pieceLoop, pieceFrag] at he
    split at he
    · cases he
    · simp only [List.mem_cons, List.not_mem_nil, or_false] at he
      rcases he with rfl | rfl
      · exact ⟨i, i - 1, by simp, by simp, rfl⟩
      · exact ⟨i - 1, i, by simp, by simp, rfl⟩
  | cons s ss ih =>
    intro e he
    simp only [pieceLoop] at he
    rcases List.mem_append.1 he with he | he
    · simp only [pieceFrag] at he
      split at he
      · cases he
      · simp only [List.mem_cons, List.not_mem_nil, or_false] at he
        rcases he with rfl | rfl
        · exact ⟨i, i - 1, by simp, by omega, rfl⟩
        · exact ⟨i - 1, i, by omega, by simp, rfl⟩
    · obtain ⟨j, k, hj, hk, rfl⟩ := ih _ _ _ e he
      exact ⟨j, k, by simp; omega, by simp; omega, rfl⟩

omit ha in
/-- What enters all stores together, less what leaves them. -/
theorem pieces_balance {n : SNode} (hm : n ∈ N.nodes) {b : PieceStoreN} (hb : n.body = .pieceStore b) :
    (((List.range (b.steps.length + 1)).map (storeName n.name)).map (fun c => into F f c - outOf F f c)).sum =
      received N F f n.name - sent N F f n.name := by
  obtain ⟨G, hG⟩ := frag_of_mem h.compiled hm
  have hG' := hG
  unfold SNode.frag at hG'
  simp only [hb, Except.ok.injEq, PieceStoreN.frag] at hG'
  have hsub : ∀ c ∈ (List.range b.steps.length).map (storeName n.name), c ∈ (List.range (b.steps.length + 1)).map (storeName n.name) := by
    intro c hc
    obtain ⟨j, hj, rfl⟩ := List.mem_map.1 hc
    exact List.mem_map_of_mem (by simp only [List.mem_range] at hj ⊢; omega)
  have hE : ∀ e ∈ G.edges, e.src ∈ (List.range (b.steps.length + 1)).map (storeName n.name) ∧
      e.dst ∈ (List.range (b.steps.length + 1)).map (storeName n.name) := by
    intro e he
    subst hG'
    simp only [Frag.add, List.append_nil] at he
    obtain ⟨j, k, hj, hk, rfl⟩ := pieceLoop_edges _ _ _ _ _ _ e he
    exact ⟨List.mem_map_of_mem (by simp only [List.mem_range]; omega), List.mem_map_of_mem (by simp only [List.mem_range]; omega)⟩
  have hown : ∀ c ∈ (List.range (b.steps.length + 1)).map (storeName n.name), c.1 = n.name := by
    intro c hc
    obtain ⟨j, _, rfl⟩ := List.mem_map.1 hc
    rfl
  have h1 := into_inputs h.compiled hm hG f _ (range_nodup (fun _ _ => storeName_inj) (b.steps.length + 1)) hown (by
    intro s ns hc c hcn
    have := inputConnectors_inputs hc
    unfold SNode.inputs at this
    simp only [hb, Except.ok.injEq] at this
    subst this
    exact hsub c hcn)
  have h2 := outOf_outputs h.compiled hm hG f _ (range_nodup (fun _ _ => storeName_inj) (b.steps.length + 1)) hown (by
    intro s ns hc c hcn
    have := outputConnectors_outputs hc (by simp [hb]) (by simp [hb]) (by simp [hb])
    unfold SNode.outputs at this
    simp only [hb, Except.ok.injEq] at this
    subst this
    exact hsub c hcn)
  rw [sumWhere_all _ _ _ (fun e he => decide_eq_true (hE e he).2)] at h1
  rw [sumWhere_all _ _ _ (fun e he => decide_eq_true (hE e he).1)] at h2
  have h3 : ∀ l : List Name, (l.map (fun c => into F f c - outOf F f c)).sum = (l.map (into F f)).sum - (l.map (outOf F f)).sum := by
    intro l
    induction l with
    | nil => simp
    | cons c l ih => simp only [List.map_cons, List.sum_cons, ih]; ring
  rw [h3, h1, h2]; ring

/-! ## Reservoirs -/

omit ha in
/-- The evaporation node cannot be built. -/
theorem no_evaporation {n : SNode} (hm : n ∈ N.nodes) {b : ReservoirN} (hb : n.body = .reservoir b) : b.evaporation = none := by
  obtain ⟨G, hG⟩ := frag_of_mem h.compiled hm
  have hG' := hG
  unfold SNode.frag at hG'
  simp only [hb] at hG'
  unfold ReservoirN.frag at hG'
  cases he : b.evaporation with
  | none => rfl
  | some e =>
    exfalso
    cases harea : b.area with
    | none => simp only [he, harea] at hG'; split at hG' <;> simp at hG'
    | some a =>
      simp only [he, harea, Option.isNone_some, Bool.and_false, Bool.false_eq_true, if_false, Except.ok.injEq] at hG'
      have hd : ⟨(n.name, some "evaporation"), .input, flowData e.cost none (some (.dyn (P n.name "evaporation" none))), none⟩ ∈ G.nodes := by
        subst hG'; simp [Frag.add, ReservoirN.evapFrag]
      have hedge : ⟨(n.name, none), (n.name, some "evaporation")⟩ ∈ G.edges := by
        subst hG'; simp [Frag.add, ReservoirN.evapFrag]
      have := (ends_of_kind h.built (mem_nodes h.compiled hm hG hd)).1 rfl
      rw [List.filter_eq_nil_iff] at this
      exact this _ (mem_edges h hm hG hedge) (by simp)

/-- Edges whose flows count alike as entering and as leaving. -/
def EvenEdges (F : Frag) (f : Nat → ℚ) (x : String) (es : List EdgeDecl) : Prop :=
  sumWhere (flowOn F f) (fun e => decide (e.dst ∈ [(x, none), (x, some "compensation"), (x, some "spill")])) es
      + sumWhere (flowOn F f) (fun e => decide (e.dst ∈ [(x, some "leakage")])) es =
    sumWhere (flowOn F f) (fun e => decide (e.src ∈ [(x, none), (x, some "compensation"), (x, some "spill")])) es
      + sumWhere (flowOn F f) (fun e => decide (e.src ∈ [(x, some "rainfall")])) es

omit h ha in
/-- The core nodes of a reservoir without evaporation. -/
theorem reservoir_nodes {n : SNode} {b : ReservoirN} (hb : n.body = .reservoir b) (hev : b.evaporation = none) {G : Frag} (hG : n.frag P = .ok G)
    (d : Decl) : d ∈ G.nodes ↔
      d = ⟨(n.name, none), .storage, volumeData b.storage.cost b.storage.minVolume b.storage.maxVolume, some b.storage.initial.toInitial⟩ ∨
      (∃ c, b.compensation = some c ∧ d = ⟨(n.name, some "compensation"), .link, flowData none (some c) none, none⟩) ∨
      (∃ k, b.spill = some k ∧ d = ⟨(n.name, some "spill"), match k with | .output => .output | .link => .link, noData, none⟩) ∨
      (b.rainfall.isSome ∧ d = ⟨(n.name, some "rainfall"), .input,
        flowData none (some (.dyn (P n.name "rainfall" none))) (some (.dyn (P n.name "rainfall" none))), none⟩) ∨
      (∃ l, b.leakage = some l ∧ d = ⟨(n.name, some "leakage"), .output, flowData l.cost none (some l.loss), none⟩) := by
  unfold SNode.frag at hG
  simp only [hb] at hG
  unfold ReservoirN.frag at hG
  have hok : ¬ (b.rainfall.isSome && b.area.isNone) = true := by
    intro hc; rw [if_pos hc] at hG; cases hG
  rw [if_neg hok] at hG
  simp only [hev, Option.isSome_none, Bool.false_and, Bool.false_eq_true, if_false, Except.ok.injEq] at hG
  subst hG
  simp only [Frag.add, ReservoirN.releaseFrag, StorageN.frag, apply_ite Frag.nodes, ite_self, List.append_nil]
  cases b.compensation <;> cases b.spill <;> cases har : b.area <;> cases hr : b.rainfall <;> cases b.leakage <;>
    simp_all [ReservoirN.rainFrag, ReservoirN.leakFrag]
  all_goals exact Iff.rfl

omit h ha in
/-- The kinds of the core nodes of a reservoir. -/
theorem reservoir_kind {n : SNode} {b : ReservoirN} (hb : n.body = .reservoir b) (hev : b.evaporation = none) {G : Frag} (hG : n.frag P = .ok G)
    {d : Decl} (hd : d ∈ G.nodes) : (d.name = (n.name, some "rainfall") → d.kind = .input) ∧ (d.name = (n.name, some "leakage") → d.kind = .output) ∧
      (d.name = (n.name, some "compensation") → b.compensation ≠ none) ∧ (d.name = (n.name, some "spill") → b.spill ≠ none) ∧
      (d.name = (n.name, some "rainfall") → b.rainfall ≠ none) ∧ (d.name = (n.name, some "leakage") → b.leakage ≠ none) := by
  rcases (reservoir_nodes hb hev hG d).1 hd with rfl | ⟨c, h1, rfl⟩ | ⟨k, h1, rfl⟩ | ⟨h1, rfl⟩ | ⟨l, h1, rfl⟩ <;> simp [*]
  rintro h2; rw [h2] at h1; cases h1

/-- What enters the storage of a reservoir, less what leaves it. -/
theorem reservoir_balance {n : SNode} (hm : n ∈ N.nodes) {b : ReservoirN} (hb : n.body = .reservoir b) :
    into F f (n.name, none) - outOf F f (n.name, none) =
      received N F f n.name + nameFlow F f (n.name, some "rainfall") - sent N F f n.name - nameFlow F f (n.name, some "leakage") -
        (if b.spill = some .output then nameFlow F f (n.name, some "spill") else 0) := by
  obtain ⟨G, hG⟩ := frag_of_mem h.compiled hm
  have hev := no_evaporation h hm hb
  have hG' := hG
  unfold SNode.frag at hG'
  simp only [hb] at hG'
  unfold ReservoirN.frag at hG'
  have hok : ¬ (b.rainfall.isSome && b.area.isNone) = true := by
    intro hc; rw [if_pos hc] at hG'; cases hG'
  rw [if_neg hok] at hG'
  simp only [hev, Option.isSome_none, Bool.false_and, Bool.false_eq_true, if_false, Except.ok.injEq] at hG'
  have hmem : ∀ c : Name, c.1 = n.name → c ∉ G.nodes.map (·.name) → c ∉ F.nodes.map (·.name) := by
    intro c hc hn hF
    obtain ⟨d, hd, rfl⟩ := List.mem_map.1 hF
    exact hn (List.mem_map_of_mem (node_owner h hm hG hd hc))
  have hin : ∀ s ns, n.inputConnectors s = .ok ns → ns = [(n.name, none)] := by
    intro s ns hc
    have := inputConnectors_inputs hc
    unfold SNode.inputs at this
    simp only [hb, Except.ok.injEq] at this
    exact this.symm
  have hout : ∀ s ns, n.outputConnectors s = .ok ns → ∀ c ∈ ns, c ∈ [(n.name, none), (n.name, some "compensation"), (n.name, some "spill")] := by
    intro s ns hc c hcn
    unfold SNode.outputConnectors at hc
    simp only [hb] at hc
    split at hc
    · simp only [Except.ok.injEq] at hc; subst hc; simp at hcn; simp [hcn]
    · simp only [Except.ok.injEq] at hc; subst hc; simp at hcn; simp [hcn]
    · simp only [Except.ok.injEq] at hc; subst hc; simp at hcn; simp [hcn]
    · split at hc
      · simp only [Except.ok.injEq] at hc; subst hc; simp at hcn; simp [hcn]
      · cases hc
    · cases hc
  have h1 := into_inputs h.compiled hm hG f [(n.name, none), (n.name, some "compensation"), (n.name, some "spill")] (by simp) (by simp)
    (by intro s ns hc c hcn; rw [hin s ns hc] at hcn; simp at hcn; simp [hcn])
  have h2 := outOf_outputs h.compiled hm hG f [(n.name, none), (n.name, some "compensation"), (n.name, some "spill")] (by simp) (by simp) hout
  have h3 := into_other h.compiled hm hG f [(n.name, some "leakage")] (by simp) (by simp)
    (by intro s ns hc c hcn; rw [hin s ns hc] at hcn; simp at hcn; simp [hcn])
  have h4 := outOf_other h.compiled hm hG f [(n.name, some "rainfall")] (by simp) (by simp)
    (by intro s ns hc c hcn hc'; have := hout s ns hc c hcn; simp at hc'; subst hc'; simp at this)
  simp only [List.map_cons, List.map_nil, List.sum_cons, List.sum_nil, add_zero] at h1 h2 h3 h4
  -- the inner edges
  have hcount : sumWhere (flowOn F f) (fun e => decide (e.dst ∈ [(n.name, none), (n.name, some "compensation"), (n.name, some "spill")])) G.edges
        + sumWhere (flowOn F f) (fun e => decide (e.dst ∈ [(n.name, some "leakage")])) G.edges =
      sumWhere (flowOn F f) (fun e => decide (e.src ∈ [(n.name, none), (n.name, some "compensation"), (n.name, some "spill")])) G.edges
        + sumWhere (flowOn F f) (fun e => decide (e.src ∈ [(n.name, some "rainfall")])) G.edges := by
    have happ : ∀ {a c : List EdgeDecl}, EvenEdges F f n.name a → EvenEdges F f n.name c → EvenEdges F f n.name (a ++ c) := by
      intro a c h1 h2
      unfold EvenEdges at *
      simp only [sumWhere_append]
      linarith
    have hnil : EvenEdges F f n.name [] := by unfold EvenEdges; simp [sumWhere_nil]
    show EvenEdges F f n.name G.edges
    subst hG'
    simp only [Frag.add, ReservoirN.releaseFrag, StorageN.frag]
    refine happ (happ (happ hnil (happ (happ ?_ ?_) ?_)) ?_) ?_
    · cases b.compensation <;> simp [EvenEdges, sumWhere_cons, sumWhere_nil]
    · cases b.spill <;> simp [EvenEdges, sumWhere_cons, sumWhere_nil]
    · split <;> simp [EvenEdges, sumWhere_cons, sumWhere_nil]
    · cases b.area with
      | none => exact hnil
      | some a => cases b.rainfall <;> simp [EvenEdges, sumWhere_cons, sumWhere_nil, ReservoirN.rainFrag]
    · cases b.leakage <;> simp [EvenEdges, sumWhere_cons, sumWhere_nil, ReservoirN.leakFrag]
  have hcomp : into F f (n.name, some "compensation") = outOf F f (n.name, some "compensation") := by
    cases hc : b.compensation with
    | some c =>
      refine link_balance h.built ha (d := ⟨(n.name, some "compensation"), .link, flowData none (some c) none, none⟩) (mem_nodes h.compiled hm hG ?_) rfl
      exact (reservoir_nodes hb hev hG _).2 (Or.inr (Or.inl ⟨c, hc, rfl⟩))
    | none =>
      have := missing h (hmem (n.name, some "compensation") rfl ?_) f
      · rw [this.1, this.2]
      · intro hmem
        obtain ⟨d, hd, hdn⟩ := List.mem_map.1 hmem
        exact (reservoir_kind hb hev hG hd).2.2.1 hdn hc
  have hspill : into F f (n.name, some "spill") = outOf F f (n.name, some "spill") +
      (if b.spill = some .output then nameFlow F f (n.name, some "spill") else 0) := by
    cases hc : b.spill with
    | some k =>
      cases k with
      | link =>
        have := link_balance h.built ha (d := ⟨(n.name, some "spill"), .link, noData, none⟩) (mem_nodes h.compiled hm hG
          ((reservoir_nodes hb hev hG _).2 (Or.inr (Or.inr (Or.inl ⟨.link, hc, rfl⟩))))) rfl
        simpa using this
      | output =>
        have hd : ⟨(n.name, some "spill"), .output, noData, none⟩ ∈ G.nodes :=
          (reservoir_nodes hb hev hG _).2 (Or.inr (Or.inr (Or.inl ⟨.output, hc, rfl⟩)))
        have h5 := outOf_output h.built (mem_nodes h.compiled hm hG hd) rfl f
        have h6 := nameFlow_output h hm hG f hd rfl
        simp only at h5 h6
        rw [if_pos rfl, h5, h6, zero_add]
    | none =>
      have := missing h (hmem (n.name, some "spill") rfl ?_) f
      · simp [this.1, this.2]
      · intro hmem
        obtain ⟨d, hd, hdn⟩ := List.mem_map.1 hmem
        exact (reservoir_kind hb hev hG hd).2.2.2.1 hdn hc
  have hrain : nameFlow F f (n.name, some "rainfall") = outOf F f (n.name, some "rainfall") := by
    by_cases hr : (n.name, some "rainfall") ∈ F.nodes.map (·.name)
    · obtain ⟨d, hd, hdn⟩ := List.mem_map.1 hr
      have hdG := node_owner h hm hG hd (by rw [hdn])
      have hk : d.kind = .input := by
        exact (reservoir_kind hb hev hG hdG).1 hdn
      have := nameFlow_input h hm hG f hdG hk
      rwa [hdn] at this
    · rw [nameFlow_missing hr, (missing h hr f).2]
  have hleak : nameFlow F f (n.name, some "leakage") = into F f (n.name, some "leakage") := by
    by_cases hr : (n.name, some "leakage") ∈ F.nodes.map (·.name)
    · obtain ⟨d, hd, hdn⟩ := List.mem_map.1 hr
      have hdG := node_owner h hm hG hd (by rw [hdn])
      have hk : d.kind = .output := by
        exact (reservoir_kind hb hev hG hdG).2.1 hdn
      have := nameFlow_output h hm hG f hdG hk
      rwa [hdn] at this
    · rw [nameFlow_missing hr, (missing h hr f).1]
  rw [hrain, hleak]
  linarith

end

end Verif.Schema
