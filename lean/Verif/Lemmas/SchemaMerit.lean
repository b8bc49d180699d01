import Verif.Lemmas.SchemaTypes
import Verif.Props.Merit
import Verif.Spec.SchemaMerit

/-! # Lemmas on lanes of a node -/

namespace Verif.Schema

open Verif.Topology (Name EdgeDecl TNode)
open Verif.Solver (Metric Leads Beside Alike)

section
variable {F : Frag} {C : Core} (h : F.build = .ok C)
include h

theorem name_at {u : TNode} (hu : C.model.net.nodes[u.index]? = some u) :
    ∃ d, F.nodes[u.index]? = some d ∧ d.name = u.name ∧ d.kind = u.kind := by
  have hlt : u.index < F.nodes.length := by
    rw [← nodes_length h]; exact (List.getElem?_eq_some_iff.1 hu).1
  obtain ⟨vs, hv⟩ := node_at h (List.getElem?_eq_getElem hlt)
  rw [hu, Option.some.injEq] at hv
  exact ⟨F.nodes[u.index], List.getElem?_eq_getElem hlt, (congrArg TNode.name hv).symm, (congrArg TNode.kind hv).symm⟩

theorem index_of_name {i j : Nat} {d d' : Decl} (hi : F.nodes[i]? = some d) (hj : F.nodes[j]? = some d') (hn : d.name = d'.name) : i = j := by
  have hnd := names_nodup h
  obtain ⟨h1, h2⟩ := List.getElem?_eq_some_iff.1 hi
  obtain ⟨h3, h4⟩ := List.getElem?_eq_some_iff.1 hj
  have := hnd.getElem_inj_iff (i := i) (j := j) (hi := by simpa using h1) (hj := by simpa using h3)
  apply this.1
  simp [h2, h4, hn]

theorem leads_iff {e : Nat} {u v : TNode} (hu : C.model.net.nodes[u.index]? = some u) (hv : C.model.net.nodes[v.index]? = some v) :
    Leads C.model.net e u v ↔ F.edges[e]? = some ⟨u.name, v.name⟩ := by
  obtain ⟨_, hlen, _, hedge⟩ := Topology.C49_topology _ _ (build_ok F C h).1
  have hE : F.builder.edges = F.edges := rfl
  obtain ⟨du, hdu, hdu', _⟩ := name_at h hu
  obtain ⟨dv, hdv, hdv', _⟩ := name_at h hv
  constructor
  · rintro ⟨_, _, h3⟩
    have hlt : e < F.edges.length := by rw [← hE, ← hlen]; exact (List.getElem?_eq_some_iff.1 h3).1
    obtain ⟨a, b, h4, h5, h6⟩ := hedge e _ (List.getElem?_eq_getElem (by rw [hE]; exact hlt))
    rw [h3] at h4
    simp only [Option.some.injEq, State.Edge.mk.injEq, true_and] at h4
    obtain ⟨rfl, rfl⟩ := h4
    simp only [Frag.builder, List.getElem?_map, hdu, hdv, Option.map_some, Option.some.injEq] at h5 h6
    rw [List.getElem?_eq_getElem hlt, ← hdu', ← hdv', h5, h6]
  · intro he
    refine ⟨hu, hv, ?_⟩
    obtain ⟨a, b, h4, h5, h6⟩ := hedge e _ he
    simp only [Frag.builder, List.getElem?_map] at h5 h6
    cases ha : F.nodes[a]? with
    | none => simp [ha] at h5
    | some da =>
      cases hb : F.nodes[b]? with
      | none => simp [hb] at h6
      | some db =>
        simp only [ha, hb, Option.map_some, Option.some.injEq] at h5 h6
        rw [h4, index_of_name h ha hdu (h5.trans hdu'.symm), index_of_name h hb hdv (h6.trans hdv'.symm)]

theorem beside_names {a b : TNode} (ha : C.model.net.nodes[a.index]? = some a)
    (hin : ∀ u, ⟨u, b.name⟩ ∈ F.edges → ⟨u, a.name⟩ ∈ F.edges) (hout : ∀ v, ⟨b.name, v⟩ ∈ F.edges → ⟨a.name, v⟩ ∈ F.edges) :
    Beside C.model.net a b := by
  constructor
  · intro e u hl
    have h1 := (leads_iff h hl.1 hl.2.1).1 hl
    obtain ⟨k, hk⟩ := List.getElem?_of_mem (hin _ (List.mem_of_getElem? h1))
    exact ⟨k, (leads_iff h hl.1 ha).2 hk⟩
  · intro e u hl
    have h1 := (leads_iff h hl.1 hl.2.1).1 hl
    obtain ⟨k, hk⟩ := List.getElem?_of_mem (hout _ (List.mem_of_getElem? h1))
    exact ⟨k, (leads_iff h ha hl.2.1).2 hk⟩

theorem count_names {ns : List Name} {is : List Nat} (hf : List.Forall₂ (fun n i => F.index? n = .ok i) ns is) {k : Nat} {d : Decl}
    (hk : F.nodes[k]? = some d) : is.count k = ns.count d.name := by
  induction hf with
  | nil => rfl
  | cons hab _ ih =>
    rename_i n i ns is _
    rw [List.count_cons, List.count_cons, ih]
    congr 1
    obtain ⟨d', hd', hn⟩ := (index_ok (names_nodup h) _ _).1 hab
    by_cases hik : i = k
    · subst hik
      rw [hk, Option.some.injEq] at hd'
      subst hd'
      simp [hn]
    · have : n ≠ d.name := fun hne => hik (index_of_name h hd' hk (hn.trans hne))
      simp [hik, this]

theorem agg_from {b : Solver.AggNode} (hm : b ∈ C.model.aggs) :
    ∃ a ∈ F.aggs, List.Forall₂ (List.Forall₂ (fun n i => F.index? n = .ok i)) a.nodes b.nodes ∧ b.relationship = a.relationship ∧
      b.minFlow = a.minFlow ∧ b.maxFlow = a.maxFlow := by
  have hall := (build_ok F C h).2.2.1
  obtain ⟨k, hk⟩ := List.getElem?_of_mem hm
  obtain ⟨hlt, hget⟩ := List.getElem?_eq_some_iff.1 hk
  have hlt' : k < F.aggs.length := hall.length_eq ▸ hlt
  have hr := hall.get hlt' hlt
  simp only [List.get_eq_getElem, hget] at hr
  refine ⟨_, List.getElem_mem hlt', ?_⟩
  unfold Frag.resolveAgg at hr
  cases hs : eachB (eachB F.index?) F.aggs[k].nodes with
  | error e => simp [hs, Bind.bind, Except.bind] at hr
  | ok sets =>
    simp only [hs, Bind.bind, Except.bind, Pure.pure, Except.pure, Except.ok.injEq] at hr
    rw [← hr]
    exact ⟨((eachB_ok _ _ _).1 hs).imp (fun _ _ hxy => (eachB_ok _ _ _).1 hxy), rfl, rfl, rfl⟩

theorem vs_from {w : Solver.VStore} (hm : w ∈ C.model.vs) :
    ∃ v ∈ F.vs, ∃ is, List.Forall₂ (fun n i => F.index? n = .ok i) v.nodes is ∧
      w.members = is.zip (v.factors.getD (is.map (fun _ => 1))) := by
  have hall := (build_ok F C h).2.2.2.2
  obtain ⟨k, hk⟩ := List.getElem?_of_mem hm
  obtain ⟨hlt, hget⟩ := List.getElem?_eq_some_iff.1 hk
  have hlt' : k < F.vs.length := hall.length_eq ▸ hlt
  have hr := hall.get hlt' hlt
  simp only [List.get_eq_getElem, hget] at hr
  refine ⟨_, List.getElem_mem hlt', ?_⟩
  unfold Frag.resolveVs at hr
  cases hs : eachB F.index? F.vs[k].nodes with
  | error e => simp [hs, Bind.bind, Except.bind] at hr
  | ok is =>
    simp only [hs, Bind.bind, Except.bind, Pure.pure, Except.pure, Except.ok.injEq] at hr
    rw [← hr]
    exact ⟨is, (eachB_ok _ _ _).1 hs, rfl⟩

theorem model_valid : C.model.Valid := by
  have hr : ∀ {ns : List Name} {is : List Nat}, List.Forall₂ (fun n i => F.index? n = .ok i) ns is →
      ∀ i ∈ is, i < C.model.net.nodes.length := by
    intro ns is hf i hi
    obtain ⟨k, hk⟩ := List.getElem?_of_mem hi
    obtain ⟨hlt, hget⟩ := List.getElem?_eq_some_iff.1 hk
    have hlt' : k < ns.length := hf.length_eq ▸ hlt
    have := hf.get hlt' hlt
    simp only [List.get_eq_getElem, hget] at this
    obtain ⟨d, hd, _⟩ := (index_ok (names_nodup h) _ _).1 this
    rw [nodes_length h]
    exact (List.getElem?_eq_some_iff.1 hd).1
  refine ⟨⟨_, (build_ok F C h).1⟩, ?_, ?_⟩
  · intro b hb s hs i hi
    obtain ⟨a, _, hf, _⟩ := agg_from h hb
    obtain ⟨k, hk⟩ := List.getElem?_of_mem hs
    obtain ⟨hlt, hget⟩ := List.getElem?_eq_some_iff.1 hk
    have hlt' : k < a.nodes.length := hf.length_eq ▸ hlt
    have := hf.get hlt' hlt
    simp only [List.get_eq_getElem, hget] at this
    exact hr this i hi
  · intro w hw p hp
    obtain ⟨v, _, is, hf, hm⟩ := vs_from h hw
    rw [hm] at hp
    exact hr hf _ (List.of_mem_zip (a := p.1) (b := p.2) hp).1

end

theorem zip_ones (is : List Nat) (k : Nat) :
    (((is.zip (is.map (fun _ => (1 : ℚ)))).filter (fun p => p.1 = k)).map (·.2)).sum = (is.count k : ℚ) := by
  induction is with
  | nil => rfl
  | cons i is ih =>
    simp only [List.map_cons, List.zip_cons_cons, List.filter_cons, List.count_cons]
    by_cases hk : i = k
    · subst hk
      simp only [decide_true, if_true, List.map_cons, List.sum_cons, ih, beq_self_eq_true]
      push_cast; ring
    · simp only [hk, decide_false, Bool.false_eq_true, if_false, ih, beq_iff_eq, add_zero]

theorem zip_absent {is : List Nat} (fs : List ℚ) {k : Nat} (hk : k ∉ is) : ((is.zip fs).filter (fun p => p.1 = k)) = [] := by
  rw [List.filter_eq_nil_iff]
  intro p hp
  simp only [decide_eq_true_eq]
  rintro rfl
  exact hk (List.of_mem_zip (a := p.1) (b := p.2) hp).1

/-! ## Lanes -/

variable {P : ParamNo} {N : Net} {F : Frag} {C : Core} {n : SNode} {G : Frag}

/-- Two core nodes of a node of the schema that are connected alike, and referred to alike from without. -/
structure Abreast (P : ParamNo) (n : SNode) (x y : Decl) : Prop where
  links : x.kind = .link ∧ y.kind = .link
  plain : x.data.costAgg = none ∧ y.data.costAgg = none
  owned : ∀ G, n.frag P = .ok G → x ∈ G.nodes ∧ y ∈ G.nodes
  ins : ∀ s ns, n.inputConnectors s = .ok ns → y.name ∈ ns → x.name ∈ ns
  outs : ∀ s ns, n.outputConnectors s = .ok ns → y.name ∈ ns → x.name ∈ ns
  edges : ∀ G, n.frag P = .ok G → (∀ u, ⟨u, y.name⟩ ∈ G.edges → ⟨u, x.name⟩ ∈ G.edges) ∧ ∀ v, ⟨y.name, v⟩ ∈ G.edges → ⟨x.name, v⟩ ∈ G.edges
  refs : ∀ c ns, n.flowNodes c = .ok ns → ns.count x.name = ns.count y.name

/-- Two core nodes of a node of the schema that are connected and referred to alike. -/
structure Lanes (P : ParamNo) (n : SNode) (x y : Decl) : Prop extends Abreast P n x y where
  aggs : ∀ G, n.frag P = .ok G → ∀ a ∈ G.aggs, ∀ s ∈ a.nodes, s.count x.name = s.count y.name

theorem Lanes.of {x y : Decl} (h1 : x.kind = .link ∧ y.kind = .link) (h2 : x.data.costAgg = none ∧ y.data.costAgg = none)
    (h3 : ∀ G, n.frag P = .ok G → x ∈ G.nodes ∧ y ∈ G.nodes)
    (h4 : ∀ s ns, n.inputConnectors s = .ok ns → y.name ∈ ns → x.name ∈ ns)
    (h5 : ∀ s ns, n.outputConnectors s = .ok ns → y.name ∈ ns → x.name ∈ ns)
    (h6 : ∀ G, n.frag P = .ok G → (∀ u, ⟨u, y.name⟩ ∈ G.edges → ⟨u, x.name⟩ ∈ G.edges) ∧ ∀ v, ⟨y.name, v⟩ ∈ G.edges → ⟨x.name, v⟩ ∈ G.edges)
    (h7 : ∀ G, n.frag P = .ok G → ∀ a ∈ G.aggs, ∀ s ∈ a.nodes, s.count x.name = s.count y.name)
    (h8 : ∀ c ns, n.flowNodes c = .ok ns → ns.count x.name = ns.count y.name) : Lanes P n x y :=
  ⟨⟨h1, h2, h3, h4, h5, h6, h8⟩, h7⟩

theorem edges_in (hc : N.compile P = .ok F) (hm : n ∈ N.nodes) {x y : Decl} (hl : Abreast P n x y) :
    (∀ u, ⟨u, y.name⟩ ∈ F.edges → ⟨u, x.name⟩ ∈ F.edges) ∧ ∀ v, ⟨y.name, v⟩ ∈ F.edges → ⟨x.name, v⟩ ∈ F.edges := by
  obtain ⟨G, hG⟩ := frag_of_mem hc hm
  obtain ⟨hx, hy⟩ := hl.owned G hG
  have hyn := (owned P n G hG).nodes y hy
  obtain ⟨Gs, Vs, Es, hparts⟩ := compile_parts hc
  have hnd := (validate_ok N hparts.valid).1
  have hsub : ∀ e ∈ G.edges, e ∈ F.edges := by
    intro e he
    rw [hparts.edges', List.mem_append, List.mem_flatMap]
    left
    obtain ⟨k, hk⟩ := List.getElem?_of_mem hm
    obtain ⟨hlt, hget⟩ := List.getElem?_eq_some_iff.1 hk
    have hlt' : k < Gs.length := hparts.frags.length_eq ▸ hlt
    have hr := hparts.frags.get hlt hlt'
    simp only [List.get_eq_getElem, hget, hG, Except.ok.injEq] at hr
    exact ⟨G, hr ▸ List.getElem_mem hlt', he⟩
  have hsplit : ∀ e ∈ F.edges, e.src.1 = n.name ∨ e.dst.1 = n.name → e ∈ G.edges ∨ ∃ ed ∈ N.edges, ∃ ps, N.pairs ed = .ok ps ∧ e ∈ ps := by
    intro e he hown
    rw [hparts.edges', List.mem_append, List.mem_flatMap] at he
    rcases he with ⟨H, hH, he⟩ | he
    · left
      obtain ⟨k, hk⟩ := List.getElem?_of_mem hH
      obtain ⟨hlt, hget⟩ := List.getElem?_eq_some_iff.1 hk
      have hlt' : k < N.nodes.length := hparts.frags.length_eq ▸ hlt
      have hr := hparts.frags.get hlt' hlt
      simp only [List.get_eq_getElem, hget] at hr
      have ho := (owned P _ H hr).edges e he
      have hname : N.nodes[k].name = n.name := by rcases hown with h | h; exacts [ho.1 ▸ h, ho.2 ▸ h]
      have hnode : N.nodes[k] = n := by
        have h1 := node?_of_mem hnd (List.getElem_mem hlt')
        rw [hname, node?_of_mem hnd hm, Except.ok.injEq] at h1
        exact h1.symm
      rw [hnode, hG, Except.ok.injEq] at hr
      rw [hr]; exact he
    · right
      obtain ⟨ps, hps, he⟩ := List.mem_flatten.1 he
      obtain ⟨k, hk⟩ := List.getElem?_of_mem hps
      obtain ⟨hlt, hget⟩ := List.getElem?_eq_some_iff.1 hk
      have hlt' : k < N.edges.length := hparts.pairs.length_eq ▸ hlt
      have hr := hparts.pairs.get hlt' hlt
      simp only [List.get_eq_getElem, hget] at hr
      exact ⟨_, List.getElem_mem hlt', ps, hr, he⟩
  have hjoin : ∀ ed ∈ N.edges, ∀ ps, N.pairs ed = .ok ps → ∀ e ∈ ps, e ∈ F.edges := by
    intro ed hed ps hp e he
    rw [hparts.edges', List.mem_append, List.mem_flatten]
    right
    obtain ⟨k, hk⟩ := List.getElem?_of_mem hed
    obtain ⟨hlt, hget⟩ := List.getElem?_eq_some_iff.1 hk
    have hlt' : k < Es.length := hparts.pairs.length_eq ▸ hlt
    have hr := hparts.pairs.get hlt hlt'
    simp only [List.get_eq_getElem, hget, hp, Except.ok.injEq] at hr
    exact ⟨ps, hr ▸ List.getElem_mem hlt', he⟩
  constructor
  · intro u hu
    rcases hsplit _ hu (Or.inr hyn) with he | ⟨ed, hed, ps, hp, he⟩
    · exact hsub _ ((hl.edges G hG).1 u he)
    · refine hjoin ed hed ps hp _ ?_
      obtain ⟨s, hs, t, ht, hs', ht', froms, tos, hf, hto, rfl⟩ := pairs_ok hp
      simp only [List.mem_flatMap, List.mem_map, EdgeDecl.mk.injEq] at he ⊢
      obtain ⟨a, ha, b, hb, rfl, rfl⟩ := he
      have htn : t = n := by
        have h1 := inputs_owned t _ _ hto _ hb
        have h2 := node?_of_mem hnd ht
        rw [← h1, hyn, node?_of_mem hnd hm, Except.ok.injEq] at h2
        exact h2.symm
      subst htn
      exact ⟨a, ha, x.name, hl.ins _ _ hto hb, rfl, rfl⟩
  · intro v hv
    rcases hsplit _ hv (Or.inl hyn) with he | ⟨ed, hed, ps, hp, he⟩
    · exact hsub _ ((hl.edges G hG).2 v he)
    · refine hjoin ed hed ps hp _ ?_
      obtain ⟨s, hs, t, ht, hs', ht', froms, tos, hf, hto, rfl⟩ := pairs_ok hp
      simp only [List.mem_flatMap, List.mem_map, EdgeDecl.mk.injEq] at he ⊢
      obtain ⟨a, ha, b, hb, rfl, rfl⟩ := he
      have htn : s = n := by
        have h1 := outputs_owned s _ _ hf _ ha
        have h2 := node?_of_mem hnd hs
        rw [← h1, hyn, node?_of_mem hnd hm, Except.ok.injEq] at h2
        exact h2.symm
      subst htn
      exact ⟨x.name, hl.outs _ _ hf ha, b, hb, rfl, rfl⟩

theorem flowNodes_owned (n : SNode) (c : Option Comp) (ns : List Name) (h : n.flowNodes c = .ok ns) : ∀ x ∈ ns, x.1 = n.name := by
  unfold SNode.flowNodes at h
  cases hb : n.body with
  | link b =>
    simp only [hb] at h; split at h <;> cases h <;> (unfold LinkN.names; cases b.softMin <;> cases b.softMax <;> simp)
  | lossLink b => simp only [hb] at h; split at h <;> cases h <;> (cases b.loss <;> simp [grossNames])
  | works b => simp only [hb] at h; split at h <;> cases h <;> (cases b.loss <;> simp [grossNames])
  | river b => simp only [hb] at h; split at h <;> cases h <;> (cases b.loss <;> cases b.routing <;> simp)
  | riverSplit b => simp only [hb] at h; split at h <;> cases h <;> simp [SplitN.names, splitName]
  | pieceLink b => simp only [hb] at h; split at h <;> cases h <;> simp [PieceLinkN.names, stepName]
  | abstraction b => simp only [hb] at h; split at h <;> cases h <;> (cases b.mrf <;> simp)
  | storage b => simp only [hb] at h; cases h
  | pieceStore b => simp only [hb] at h; cases h
  | placeholder => simp only [hb] at h; cases h
  | _ => simp only [hb] at h; split at h <;> cases h <;> simp

theorem pieceLoop_aggs (P : ParamNo) (x : String) (n : PieceStoreN) (ss : List Piece) (i : Nat) (l : Option Metric) (prior : List Metric) :
    (pieceLoop P x n ss i l prior).aggs = [] := by
  induction ss generalizing i l prior with
  | nil => rfl
  | cons s ss ih => simp [pieceLoop, Frag.add, ih, pieceFrag]

theorem splitLoop_aggs (x : String) (ss : List Split) (i : Nat) : ∀ a ∈ (splitLoop x ss i).aggs, ∀ s ∈ a.nodes, ∀ y ∈ s, y.1 = x := by
  induction ss generalizing i with
  | nil => simp [splitLoop]
  | cons s ss ih =>
    intro a ha
    rcases List.mem_cons.1 ha with rfl | ha
    · simp [splitName]
    · exact ih _ a ha

theorem aggs_owned (P : ParamNo) (n : SNode) (G : Frag) (h : n.frag P = .ok G) : ∀ a ∈ G.aggs, ∀ s ∈ a.nodes, ∀ x ∈ s, x.1 = n.name := by
  unfold SNode.frag at h
  cases hb : n.body with
  | input b => simp only [hb, Except.ok.injEq] at h; subst h; simp [FlowN.inputFrag]
  | output b => simp only [hb, Except.ok.injEq] at h; subst h; simp [FlowN.outputFrag]
  | storage b => simp only [hb, Except.ok.injEq] at h; subst h; simp [StorageN.frag]
  | catchment b => simp only [hb, Except.ok.injEq] at h; subst h; simp [CatchmentN.frag]
  | riverGauge b => simp only [hb, Except.ok.injEq] at h; subst h; simp [GaugeN.frag]
  | turbine b => simp only [hb, Except.ok.injEq] at h; subst h; simp [TurbineN.frag]
  | delay b => simp only [hb, Except.ok.injEq] at h; subst h; simp [DelayN.frag]
  | link b =>
    simp only [hb, Except.ok.injEq] at h; subst h
    unfold LinkN.frag
    cases b.softMin <;> cases b.softMax <;> simp <;> grind
  | lossLink b =>
    simp only [hb, Except.ok.injEq] at h; subst h
    unfold LossLinkN.frag
    cases b.loss <;> simp
  | works b =>
    simp only [hb, Except.ok.injEq] at h; subst h
    unfold WorksN.frag
    cases b.loss with
    | none => simp
    | some l => cases hl : l.load <;> simp [hl]
  | river b =>
    simp only [hb, Except.ok.injEq] at h; subst h
    have hl : ∀ l : Loss, ∀ a ∈ (RiverN.lossFrag n.name l).2, ∀ s ∈ a.nodes, ∀ x ∈ s, x.1 = n.name := by
      intro l; unfold RiverN.lossFrag; cases l.load <;> simp
    have hr : ∀ r : Routing, ∀ a ∈ (RiverN.routingFrag P n.name r).2.1, ∀ s ∈ a.nodes, ∀ x ∈ s, x.1 = n.name := by
      intro r; cases r <;> simp [RiverN.routingFrag]
    unfold RiverN.frag
    cases hl' : b.loss with
    | none =>
      cases hr' : b.routing with
      | none => simp
      | some r => exact hr r
    | some l =>
      cases hr' : b.routing with
      | none => exact hl l
      | some r =>
        intro a ha
        rcases List.mem_append.1 ha with ha | ha
        · exact hl l a ha
        · exact hr r a ha
  | riverSplit b =>
    simp only [hb, Except.ok.injEq] at h; subst h
    intro a ha
    simp only [SplitN.frag, Frag.add, List.append_nil] at ha
    exact splitLoop_aggs _ _ _ a ha
  | pieceLink b => simp only [hb, Except.ok.injEq] at h; subst h; simp [PieceLinkN.frag]
  | pieceStore b =>
    simp only [hb, Except.ok.injEq] at h; subst h
    simp [PieceStoreN.frag, Frag.add, pieceLoop_aggs]
  | reservoir b =>
    simp only [hb] at h
    unfold ReservoirN.frag at h
    split at h
    · cases h
    · split at h
      · cases h
      · simp only [Except.ok.injEq] at h
        subst h
        have h1 : (b.releaseFrag n.name).aggs = [] := by
          unfold ReservoirN.releaseFrag
          cases b.compensation <;> cases b.spill <;> simp [Frag.add] <;> split <;> rfl
        simp only [Frag.add, h1, StorageN.frag, List.nil_append]
        cases b.area <;> cases b.leakage <;> cases b.rainfall <;> cases b.evaporation <;>
          simp [ReservoirN.leakFrag, ReservoirN.rainFrag, ReservoirN.evapFrag]
  | placeholder => simp [hb] at h
  | abstraction b =>
    simp only [hb] at h
    unfold AbstractionN.frag at h
    cases hm : b.mrf with
    | some m => simp only [hm, Except.ok.injEq] at h; subst h; simp
    | none =>
      simp only [hm] at h
      split at h
      · cases h
      · simp only [Except.ok.injEq] at h; subst h; simp

theorem count_owned {ns : List Name} {x : String} (h : ∀ c ∈ ns, c.1 = x) {c : Name} (hc : c.1 ≠ x) : ns.count c = 0 :=
  List.count_eq_zero.2 (fun hm => hc (h c hm))

theorem refs_alike (hc : N.compile P = .ok F) (hm : n ∈ N.nodes) {x y : Decl} (hl : Abreast P n x y) {r : Ref} {ns : List Name}
    (hr : N.refNodes r = .ok ns) : ns.count x.name = ns.count y.name ∧ (r.name ≠ n.name → ns.count x.name = 0 ∧ ns.count y.name = 0) := by
  obtain ⟨G, hG⟩ := frag_of_mem hc hm
  obtain ⟨hx, hy⟩ := hl.owned G hG
  have hxn := (owned P n G hG).nodes x hx
  have hyn := (owned P n G hG).nodes y hy
  obtain ⟨Gs, Vs, Es, hparts⟩ := compile_parts hc
  have hnd := (validate_ok N hparts.valid).1
  unfold Net.refNodes at hr
  obtain ⟨m, hmn, hf⟩ := bind_ok hr
  obtain ⟨hm', hname⟩ := node?_ok hmn
  have ho := flowNodes_owned m _ _ hf
  by_cases hn : m.name = n.name
  · have : m = n := by
      have h1 := node?_of_mem hnd hm'
      rw [hn, node?_of_mem hnd hm, Except.ok.injEq] at h1
      exact h1.symm
    subst this
    exact ⟨hl.refs _ _ hf, fun hne => absurd hname.symm hne⟩
  · have h1 := count_owned ho (c := x.name) (by rw [hxn]; exact Ne.symm hn)
    have h2 := count_owned ho (c := y.name) (by rw [hyn]; exact Ne.symm hn)
    exact ⟨h1.trans h2.symm, fun _ => ⟨h1, h2⟩⟩

theorem sets_alike (hc : N.compile P = .ok F) (hm : n ∈ N.nodes) {x y : Decl} (hl : Abreast P n x y) {refs : List Ref} {sets : List (List Name)}
    (hr : each N.refNodes refs = .ok sets) : (∀ s ∈ sets, s.count x.name = s.count y.name) ∧
      sets.flatten.count x.name = sets.flatten.count y.name ∧
      ((∀ r ∈ refs, r.name ≠ n.name) → sets.flatten.count x.name = 0 ∧ sets.flatten.count y.name = 0) := by
  have hf := (each_ok _ _ _).1 hr
  clear hr
  induction hf with
  | nil => simp
  | cons hab _ ih =>
    obtain ⟨h1, h2⟩ := refs_alike hc hm hl hab
    obtain ⟨h3, h4, h5⟩ := ih
    refine ⟨?_, ?_, ?_⟩
    · intro s hs
      rcases List.mem_cons.1 hs with rfl | hs
      exacts [h1, h3 s hs]
    · simp only [List.flatten_cons, List.count_append, h1, h4]
    · intro hne
      obtain ⟨h6, h7⟩ := h2 (hne _ List.mem_cons_self)
      obtain ⟨h8, h9⟩ := h5 (fun r hr => hne r (List.mem_cons_of_mem _ hr))
      simp only [List.flatten_cons, List.count_append, h6, h7, h8, h9, and_self]

theorem lanes_aggs (hc : N.compile P = .ok F) (hm : n ∈ N.nodes) {x y : Decl} (hl : Abreast P n x y) :
    ∀ a ∈ F.aggs, (∀ s ∈ a.nodes, s.count x.name = s.count y.name) ∨ ∃ G, n.frag P = .ok G ∧ a ∈ G.aggs := by
  obtain ⟨G, hG⟩ := frag_of_mem hc hm
  obtain ⟨hx, hy⟩ := hl.owned G hG
  have hxn := (owned P n G hG).nodes x hx
  have hyn := (owned P n G hG).nodes y hy
  obtain ⟨Gs, Vs, Es, hparts⟩ := compile_parts hc
  have hnd := (validate_ok N hparts.valid).1
  intro a ha
  rw [hparts.aggs, List.mem_append, List.mem_flatMap, List.mem_flatMap] at ha
  rcases ha with ⟨H, hH, ha⟩ | ⟨H, hH, ha⟩
  · obtain ⟨k, hk⟩ := List.getElem?_of_mem hH
    obtain ⟨hlt, hget⟩ := List.getElem?_eq_some_iff.1 hk
    have hlt' : k < N.nodes.length := hparts.frags.length_eq ▸ hlt
    have hr := hparts.frags.get hlt' hlt
    simp only [List.get_eq_getElem, hget] at hr
    by_cases hname : N.nodes[k].name = n.name
    · have hnode : N.nodes[k] = n := by
        have h1 := node?_of_mem hnd (List.getElem_mem hlt')
        rw [hname, node?_of_mem hnd hm, Except.ok.injEq] at h1
        exact h1.symm
      rw [hnode] at hr
      exact Or.inr ⟨H, hr, ha⟩
    · left
      intro s hs
      have ho := aggs_owned P _ H hr a ha s hs
      rw [count_owned ho (by rw [hxn]; exact Ne.symm hname), count_owned ho (by rw [hyn]; exact Ne.symm hname)]
  · obtain ⟨k, hk⟩ := List.getElem?_of_mem hH
    obtain ⟨hlt, hget⟩ := List.getElem?_eq_some_iff.1 hk
    have hlt' : k < N.virtualNodes.length := hparts.virtuals.length_eq ▸ hlt
    have hr := hparts.virtuals.get hlt' hlt
    simp only [List.get_eq_getElem, hget] at hr
    unfold Net.virtualFrag at hr
    split at hr
    · obtain ⟨sets, h1, h2⟩ := bind_ok hr
      simp only [Pure.pure, Except.pure, Except.ok.injEq] at h2
      subst h2
      simp only [List.mem_singleton] at ha
      subst ha
      exact Or.inl (sets_alike hc hm hl h1).1
    · obtain ⟨sets, h1, h2⟩ := bind_ok hr
      simp only [Pure.pure, Except.pure, Except.ok.injEq] at h2
      subst h2
      simp at ha
    · obtain ⟨sets, h1, h2⟩ := bind_ok hr
      simp only [Pure.pure, Except.pure, Except.ok.injEq] at h2
      subst h2
      simp at ha
    · cases hr

theorem lanes_vs (hc : N.compile P = .ok F) (hm : n ∈ N.nodes) {x y : Decl} (hl : Abreast P n x y) (hu : N.Unweighted n.name) :
    ∀ v ∈ F.vs, v.nodes.count x.name = v.nodes.count y.name ∧
      (v.factors ≠ none → v.nodes.count x.name = 0 ∧ v.nodes.count y.name = 0) := by
  obtain ⟨Gs, Vs, Es, hparts⟩ := compile_parts hc
  intro v hv
  rw [hparts.vs, List.mem_append, List.mem_flatMap, List.mem_flatMap] at hv
  rcases hv with ⟨H, hH, ha⟩ | ⟨H, hH, ha⟩
  · obtain ⟨k, hk⟩ := List.getElem?_of_mem hH
    obtain ⟨hlt, hget⟩ := List.getElem?_eq_some_iff.1 hk
    have hlt' : k < N.nodes.length := hparts.frags.length_eq ▸ hlt
    have hr := hparts.frags.get hlt' hlt
    simp only [List.get_eq_getElem, hget] at hr
    rw [(owned P _ H hr).vs] at ha
    cases ha
  · obtain ⟨k, hk⟩ := List.getElem?_of_mem hH
    obtain ⟨hlt, hget⟩ := List.getElem?_eq_some_iff.1 hk
    have hlt' : k < N.virtualNodes.length := hparts.virtuals.length_eq ▸ hlt
    have hr := hparts.virtuals.get hlt' hlt
    simp only [List.get_eq_getElem, hget] at hr
    have hmem : N.virtualNodes[k] ∈ N.virtualNodes := List.getElem_mem hlt'
    generalize N.virtualNodes[k] = w at hr hmem
    unfold Net.virtualFrag at hr
    cases hb : w.body with
    | virtualStorage refs fs c =>
      simp only [hb] at hr
      obtain ⟨sets, h1, h2⟩ := bind_ok hr
      simp only [Pure.pure, Except.pure, Except.ok.injEq] at h2
      subst h2
      simp only [List.mem_singleton] at ha
      subst ha
      obtain ⟨_, h3, h4⟩ := sets_alike hc hm hl h1
      refine ⟨h3, fun hfs => h4 ?_⟩
      obtain ⟨fs', rfl⟩ := Option.ne_none_iff_exists'.1 hfs
      exact hu w hmem refs fs' c hb
    | aggregated refs hi lo rel =>
      simp only [hb] at hr
      obtain ⟨sets, h1, h2⟩ := bind_ok hr
      simp only [Pure.pure, Except.pure, Except.ok.injEq] at h2
      subst h2
      simp at ha
    | aggregatedStorage refs =>
      simp only [hb] at hr
      obtain ⟨sets, h1, h2⟩ := bind_ok hr
      simp only [Pure.pure, Except.pure, Except.ok.injEq] at h2
      subst h2
      simp at ha
    | placeholder => simp [hb] at hr

/-- Of the groups a node of the schema sets up itself: they do not tell two of its core nodes apart, or have room. -/
def OwnRoom (P : ParamNo) (F : Frag) (n : SNode) (st : Solver.StepState) (f : Nat → ℚ) (x y : Decl) : Prop :=
  ∀ G, n.frag P = .ok G → ∀ a ∈ G.aggs, (∀ s ∈ a.nodes, s.count x.name = s.count y.name) ∨
    (a.relationship = none ∧ (∀ s ∈ a.nodes, s.count y.name ≤ s.count x.name) ∧
      Solver.Under st.metric a.maxFlow Solver.f64MAX ((a.nodes.map (fun s => (s.map (nameFlow F f)).sum)).sum)) ∨
    (a.relationship = none ∧ (∀ s ∈ a.nodes, s.count x.name ≤ s.count y.name) ∧
      Solver.Over st.metric a.minFlow 0 ((a.nodes.map (fun s => (s.map (nameFlow F f)).sum)).sum))

theorem lanes_alike (h : Built P N F C) (hm : n ∈ N.nodes) {x y : Decl} (hl : Abreast P n x y) (hu : N.Unweighted n.name)
    {st : Solver.StepState} {f : Nat → ℚ} (hroom : OwnRoom P F n st f x y)
    {a b : TNode} (ha : F.nodes[a.index]? = some x) (hb : F.nodes[b.index]? = some y) : Solver.AlikeOrRoom C.model st f a b := by
  constructor
  · intro g hg
    obtain ⟨d, hd, hf, hfac, hmin, hmax⟩ := agg_from h.built hg
    have key : ∀ s ∈ g.nodes, ∃ s' ∈ d.nodes, s.count a.index = s'.count x.name ∧ s.count b.index = s'.count y.name := by
      intro s hs
      obtain ⟨k, hk⟩ := List.getElem?_of_mem hs
      obtain ⟨hlt, hget⟩ := List.getElem?_eq_some_iff.1 hk
      have hlt' : k < d.nodes.length := hf.length_eq ▸ hlt
      have hr := hf.get hlt' hlt
      simp only [List.get_eq_getElem, hget] at hr
      exact ⟨_, List.getElem_mem hlt', count_names h.built hr ha, count_names h.built hr hb⟩
    have hcase : (∀ s ∈ d.nodes, s.count x.name = s.count y.name) ∨ (d.relationship = none ∧
        (∀ s ∈ d.nodes, s.count y.name ≤ s.count x.name) ∧
        Solver.Under st.metric d.maxFlow Solver.f64MAX ((d.nodes.map (fun s => (s.map (nameFlow F f)).sum)).sum)) ∨
        (d.relationship = none ∧ (∀ s ∈ d.nodes, s.count x.name ≤ s.count y.name) ∧
        Solver.Over st.metric d.minFlow 0 ((d.nodes.map (fun s => (s.map (nameFlow F f)).sum)).sum)) := by
      rcases lanes_aggs h.compiled hm hl d hd with h1 | ⟨G, hG, h1⟩
      · exact Or.inl h1
      · exact hroom G hG d h1
    rcases hcase with h1 | ⟨h1, h2, h3⟩ | ⟨h1, h2, h3⟩
    · left
      intro s hs
      obtain ⟨s', hs', e1, e2⟩ := key s hs
      rw [e1, e2, h1 s' hs']
    · right; left
      refine ⟨by rw [Solver.AggNode.factors, hfac, h1], ?_, ?_⟩
      · intro s hs
        obtain ⟨s', hs', e1, e2⟩ := key s hs
        rw [e1, e2]
        exact h2 s' hs'
      · rw [hmax, aggFlow_names h.built hf]
        exact h3
    · right; right
      refine ⟨by rw [Solver.AggNode.factors, hfac, h1], ?_, ?_⟩
      · intro s hs
        obtain ⟨s', hs', e1, e2⟩ := key s hs
        rw [e1, e2]
        exact h2 s' hs'
      · rw [hmin, aggFlow_names h.built hf]
        exact h3
  · intro w hw
    obtain ⟨v, hv, is, hf, hmem⟩ := vs_from h.built hw
    obtain ⟨h1, h2⟩ := lanes_vs h.compiled hm hl hu v hv
    have ca := count_names h.built hf ha
    have cb := count_names h.built hf hb
    rw [hmem]
    cases hfs : v.factors with
    | none => simp only [Option.getD_none]; rw [zip_ones, zip_ones, ca, cb, h1]
    | some fs =>
      obtain ⟨h3, h4⟩ := h2 (by simp [hfs])
      simp only [Option.getD_some]
      rw [zip_absent fs (List.count_eq_zero.1 (ca.trans h3)), zip_absent fs (List.count_eq_zero.1 (cb.trans h4))]

/-- Of two lanes that the groups of their node do not tell apart, or have room for, the dearer one carries flow beyond its minimum only if the cheaper one is at its maximum. -/
theorem lane_order_room (h : Built P N F C) (hm : n ∈ N.nodes) {x y : Decl} (hl : Abreast P n x y) (hu : N.Unweighted n.name)
    {st : Solver.StepState} (hd : 0 < st.days) {big negBig : ℚ} {cost : TNode → ℚ} {f : Nat → ℚ} (hp : Priced C.model st cost)
    (hf : Solver.LeastCost C.model big negBig st cost f) (hi : Solver.Inside C.model big negBig f) {c c' : ℚ}
    (hroom : OwnRoom P F n st f x y) (hx : Solver.ValueIs st.metric x.data.cost 0 c) (hy : Solver.ValueIs st.metric y.data.cost 0 c') (hlt : c < c') :
    Solver.ValueIs st.metric x.data.maxFlow Solver.f64MAX (nameFlow F f x.name) ∨
      Solver.ValueIs st.metric y.data.minFlow 0 (nameFlow F f y.name) ∨ nameFlow F f y.name = 0 := by
  obtain ⟨G, hG⟩ := frag_of_mem h.compiled hm
  obtain ⟨mx, my⟩ := hl.owned G hG
  have mx := mem_nodes h.compiled hm hG mx
  have my := mem_nodes h.compiled hm hG my
  have key : ∀ d ∈ F.nodes, d.kind = .link → d.data.costAgg = none → ∀ q, Solver.ValueIs st.metric d.data.cost 0 q →
      ∃ t : TNode, C.model.net.nodes[t.index]? = some t ∧ F.nodes[t.index]? = some d ∧ t.name = d.name ∧ t.kind = .link ∧
        Solver.nodeFlow f t = nameFlow F f d.name ∧ C.model.data t.index = d.data ∧ cost t = q := by
    intro d hd' hk hagg q hq
    obtain ⟨k, hk'⟩ := List.getElem?_of_mem hd'
    obtain ⟨t, ht, hindex, hname, hkind, _, _, hflow⟩ := nodeFlow_at h.built f hk'
    have hdata := data_at h.built hk'
    subst hindex
    refine ⟨t, ht, hk', hname, hkind.trans hk, ?_, hdata, ?_⟩
    · rw [hflow, nameFlow_eq (names_nodup h.built) f hd']
    · have hconn := (valid_of_build h.built).connected ⟨d.name, d.kind⟩ (by
        simp only [Frag.builder, List.mem_map]; exact ⟨d, hd', rfl⟩)
      obtain ⟨vs, hv⟩ := node_at h.built hk'
      rw [ht, Option.some.injEq] at hv
      have hne : t.incoming ≠ [] ∨ t.outgoing ≠ [] := by
        have h1 : t.incoming = _ := congrArg TNode.incoming hv
        rw [h1]
        simp only [hk] at hconn
        exact Or.inl hconn.1
      obtain ⟨own, h1, h2⟩ := hp t (List.mem_of_getElem? ht) hne
      rw [hdata, hagg] at h2
      rw [hdata] at h1
      rw [h2]
      exact Solver.valueIs_unique h1 hq
  obtain ⟨a, h1, h2, h3, h4, h5, h6, h7⟩ := key x mx hl.links.1 hl.plain.1 c hx
  obtain ⟨b, g1, g2, g3, g4, g5, g6, g7⟩ := key y my hl.links.2 hl.plain.2 c' hy
  obtain ⟨hin, hout⟩ := edges_in h.compiled hm hl
  have := Solver.C74_merit_order_room (model_valid h.built) hd hf hi (List.mem_of_getElem? h1) (List.mem_of_getElem? g1) h4 g4
    (beside_names h.built h1 (by rw [h3, g3]; exact hin) (by rw [h3, g3]; exact hout)) (lanes_alike h hm hl hu hroom h2 g2)
    (by rw [h7, g7]; exact hlt)
  unfold Solver.Full Solver.Least at this
  rwa [h5, g5, h6, g6] at this

/-- Of two lanes the dearer one carries flow beyond its minimum only if the cheaper one is at its maximum. -/
theorem lane_order (h : Built P N F C) (hm : n ∈ N.nodes) {x y : Decl} (hl : Lanes P n x y) (hu : N.Unweighted n.name)
    {st : Solver.StepState} (hd : 0 < st.days) {big negBig : ℚ} {cost : TNode → ℚ} {f : Nat → ℚ} (hp : Priced C.model st cost)
    (hf : Solver.LeastCost C.model big negBig st cost f) (hi : Solver.Inside C.model big negBig f) {c c' : ℚ}
    (hx : Solver.ValueIs st.metric x.data.cost 0 c) (hy : Solver.ValueIs st.metric y.data.cost 0 c') (hlt : c < c') :
    Solver.ValueIs st.metric x.data.maxFlow Solver.f64MAX (nameFlow F f x.name) ∨
      Solver.ValueIs st.metric y.data.minFlow 0 (nameFlow F f y.name) ∨ nameFlow F f y.name = 0 :=
  lane_order_room h hm hl.toAbreast hu hd hp hf hi (fun G hG a ha => Or.inl (hl.aggs G hG a ha)) hx hy hlt

end Verif.Schema
