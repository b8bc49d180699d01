import Verif.Spec.Schema
import Verif.Props.Topology
import Mathlib.Tactic.Linarith
import Mathlib.Tactic.Ring
import Mathlib.Data.List.Nodup
import Mathlib.Algebra.BigOperators.Group.List.Basic
import Mathlib.Algebra.Order.BigOperators.Group.List

/-! # The built network, by name -/

namespace Verif.Schema

open Verif.State (NodeKind)
open Verif.Topology (Name EdgeDecl TNode)
open Verif.Solver (Metric NodeData Relationship)

/-! ## Loops -/

theorem eachB_ok {α β : Type} (f : α → Except BuildErr β) (as : List α) (bs : List β) :
    eachB f as = .ok bs ↔ List.Forall₂ (fun a b => f a = .ok b) as bs := by
  induction as generalizing bs with
  | nil => simp [eachB, eq_comm]
  | cons a as ih =>
    simp only [eachB]
    cases h : f a with
    | error e => simp [Bind.bind, Except.bind, h, List.forall₂_cons_left_iff]
    | ok b =>
      cases h' : eachB f as with
      | error e =>
        simp only [Bind.bind, Except.bind, reduceCtorEq, false_iff, List.forall₂_cons_left_iff, not_exists, not_and]
        intro b' u hb hu
        have := (ih u).2 hu
        rw [h'] at this; cases this
      | ok cs =>
        simp only [Bind.bind, Except.bind, Pure.pure, Except.pure, Except.ok.injEq, List.forall₂_cons_left_iff]
        have hcs := ih cs
        rw [h'] at hcs
        constructor
        · rintro rfl; exact ⟨b, cs, h, hcs.1 rfl, rfl⟩
        · rintro ⟨b', u, hb, hu, rfl⟩
          have := (ih u).2 hu
          rw [h'] at this
          rw [h] at hb
          simp only [Except.ok.injEq] at this hb
          rw [this, hb]

theorem each_ok {α β : Type} (f : α → Except Err β) (as : List α) (bs : List β) :
    each f as = .ok bs ↔ List.Forall₂ (fun a b => f a = .ok b) as bs := by
  induction as generalizing bs with
  | nil => simp [each, eq_comm]
  | cons a as ih =>
    simp only [each]
    cases h : f a with
    | error e => simp [Bind.bind, Except.bind, h, List.forall₂_cons_left_iff]
    | ok b =>
      cases h' : each f as with
      | error e =>
        simp only [Bind.bind, Except.bind, reduceCtorEq, false_iff, List.forall₂_cons_left_iff, not_exists, not_and]
        intro b' u hb hu
        have := (ih u).2 hu
        rw [h'] at this; cases this
      | ok cs =>
        simp only [Bind.bind, Except.bind, Pure.pure, Except.pure, Except.ok.injEq, List.forall₂_cons_left_iff]
        have hcs := ih cs
        rw [h'] at hcs
        constructor
        · rintro rfl; exact ⟨b, cs, h, hcs.1 rfl, rfl⟩
        · rintro ⟨b', u, hb, hu, rfl⟩
          have := (ih u).2 hu
          rw [h'] at this
          rw [h] at hb
          simp only [Except.ok.injEq] at this hb
          rw [this, hb]

/-! ## Building -/

theorem build_ok (F : Frag) (C : Core) (h : F.build = .ok C) :
    F.builder.build = .ok C.model.net ∧ C.model.data = (fun i => ((F.nodes[i]?).map (·.data)).getD noData) ∧
    List.Forall₂ (fun a b => F.resolveAgg a = .ok b) F.aggs C.model.aggs ∧
    List.Forall₂ (fun a b => F.resolveStore a = .ok b) F.stores C.stores ∧
    List.Forall₂ (fun a b => F.resolveVs a = .ok b) F.vs C.model.vs := by
  unfold Frag.build at h
  cases hb : F.builder.build with
  | error e => simp [hb] at h
  | ok net =>
    simp only [hb] at h
    cases h1 : firstDuplicate [] (F.aggs.map (·.name)) with
    | some n => simp [h1] at h
    | none =>
      cases h2 : firstDuplicate [] (F.stores.map (·.name)) with
      | some n => simp [h1, h2] at h
      | none =>
        simp only [h1, h2] at h
        cases ha : eachB F.resolveAgg F.aggs with
        | error e => simp [ha, Bind.bind, Except.bind] at h
        | ok aggs =>
          cases hs : eachB F.resolveStore F.stores with
          | error e => simp [ha, hs, Bind.bind, Except.bind] at h
          | ok stores =>
            cases hv : eachB F.resolveVs F.vs with
            | error e => simp [ha, hs, hv, Bind.bind, Except.bind] at h
            | ok vs =>
              simp only [ha, hs, hv, Bind.bind, Except.bind, Pure.pure, Except.pure, Except.ok.injEq] at h
              subst h
              exact ⟨rfl, rfl, (eachB_ok _ _ _).1 ha, (eachB_ok _ _ _).1 hs, (eachB_ok _ _ _).1 hv⟩

section
variable {F : Frag} {C : Core} (h : F.build = .ok C)
include h

theorem valid_of_build : Topology.Valid F.builder := (Topology.C49_build_iff _).1 ⟨_, (build_ok F C h).1⟩

theorem names_nodup : (F.nodes.map (·.name)).Nodup := by
  have := (valid_of_build h).nodes
  simpa [Frag.builder, Function.comp_def] using this

theorem edges_nodup : F.edges.Nodup := (valid_of_build h).edges

theorem node_at {k : Nat} {d : Decl} (hk : F.nodes[k]? = some d) :
    ∃ vs, C.model.net.nodes[k]? =
      some ⟨k, d.name, d.kind, Topology.edgesInto F.builder d.name, Topology.edgesFrom F.builder d.name, vs⟩ := by
  have := (Topology.C49_topology _ _ (build_ok F C h).1).2.2.1 k ⟨d.name, d.kind⟩ (by simp [Frag.builder, hk])
  exact ⟨_, this⟩

theorem data_at {k : Nat} {d : Decl} (hk : F.nodes[k]? = some d) : C.model.data k = d.data := by
  rw [(build_ok F C h).2.1]; simp [hk]

theorem nodes_length : C.model.net.nodes.length = F.nodes.length := by
  have := (Topology.C49_topology _ _ (build_ok F C h).1).1
  simpa [Frag.builder] using this

end

/-! ## Sums over edges by name -/

theorem sum_positions {α : Type} [DecidableEq α] (es : List α) (hn : es.Nodup) (p : α → Bool) (f : Nat → ℚ)
    (pre : List α) (hd : (pre ++ es).Nodup) :
    (((es.zipIdx pre.length).filter (fun q => p q.1)).map (fun q => f q.2)).sum =
      ((es.filter p).map (fun e => f ((pre ++ es).idxOf e))).sum := by
  induction es generalizing pre with
  | nil => simp
  | cons e es ih =>
    have h1 : (pre ++ e :: es) = (pre ++ [e]) ++ es := by simp
    have hpos : (pre ++ e :: es).idxOf e = pre.length := by
      have hne : e ∉ pre := by
        intro hm
        have := List.disjoint_of_nodup_append hd hm
        exact this (by simp)
      rw [List.idxOf_append_of_notMem hne]
      simp
    have ih' := ih (List.nodup_cons.1 hn).2 (pre ++ [e]) (by rw [← h1]; exact hd)
    simp only [List.length_append, List.length_cons, List.length_nil, zero_add] at ih'
    rw [← h1] at ih'
    simp only [List.zipIdx_cons, List.filter_cons]
    by_cases hp : p e = true
    · simp only [hp, if_true, List.map_cons, List.sum_cons, hpos]
      rw [ih']
    · simp only [hp, Bool.false_eq_true, if_false]
      exact ih'

theorem into_positions {F : Frag} (hn : F.edges.Nodup) (f : Nat → ℚ) (n : Name) :
    ((Topology.edgesInto F.builder n).map f).sum = into F f n := by
  unfold Topology.edgesInto into flowOn
  rw [List.map_map]
  have := sum_positions F.edges hn (fun e => decide (e.dst = n)) f [] (by simpa using hn)
  simpa [Frag.builder, Function.comp_def] using this

theorem outOf_positions {F : Frag} (hn : F.edges.Nodup) (f : Nat → ℚ) (n : Name) :
    ((Topology.edgesFrom F.builder n).map f).sum = outOf F f n := by
  unfold Topology.edgesFrom outOf flowOn
  rw [List.map_map]
  have := sum_positions F.edges hn (fun e => decide (e.src = n)) f [] (by simpa using hn)
  simpa [Frag.builder, Function.comp_def] using this

/-! ## Nodes by name -/

theorem find_name {F : Frag} (hn : (F.nodes.map (·.name)).Nodup) {d : Decl} (hd : d ∈ F.nodes) :
    F.nodes.find? (fun d' => decide (d'.name = d.name)) = some d := by
  generalize F.nodes = l at hn hd ⊢
  induction l with
  | nil => simp at hd
  | cons x xs ih =>
    simp only [List.map_cons, List.nodup_cons] at hn
    rcases List.mem_cons.1 hd with rfl | hm
    · simp
    · have hne : x.name ≠ d.name := by
        intro he
        exact hn.1 (he ▸ List.mem_map_of_mem hm)
      rw [List.find?_cons_of_neg (by simpa using hne)]
      exact ih hn.2 hm

theorem nameFlow_eq {F : Frag} (hn : (F.nodes.map (·.name)).Nodup) (f : Nat → ℚ) {d : Decl} (hd : d ∈ F.nodes) :
    nameFlow F f d.name = coreFlow F f d := by
  unfold nameFlow
  rw [find_name hn hd]; rfl

theorem index_ok {F : Frag} (hn : (F.nodes.map (·.name)).Nodup) (n : Name) (i : Nat) :
    F.index? n = .ok i ↔ ∃ d, F.nodes[i]? = some d ∧ d.name = n := by
  unfold Frag.index?
  have := Topology.lookup_zipIdx n (F.nodes.map (·.name)) 0 i hn
  cases hl : Topology.lookup n (F.nodes.map (·.name)).zipIdx with
  | none =>
    rw [hl] at this
    simp only [reduceCtorEq, false_iff, zero_le, Nat.sub_zero, true_and, List.getElem?_map, Option.map_eq_some_iff] at this ⊢
    exact this
  | some j =>
    rw [hl] at this
    simp only [Option.some.injEq, zero_le, Nat.sub_zero, true_and, List.getElem?_map, Option.map_eq_some_iff] at this
    simp only [Except.ok.injEq]
    exact this

section
variable {F : Frag} {C : Core} (h : F.build = .ok C)
include h

theorem nodeFlow_at (f : Nat → ℚ) {k : Nat} {d : Decl} (hk : F.nodes[k]? = some d) :
    ∃ n : TNode, C.model.net.nodes[k]? = some n ∧ n.index = k ∧ n.name = d.name ∧ n.kind = d.kind ∧
      (n.incoming.map f).sum = into F f d.name ∧ (n.outgoing.map f).sum = outOf F f d.name ∧
      Solver.nodeFlow f n = coreFlow F f d := by
  obtain ⟨vs, hv⟩ := node_at h hk
  refine ⟨_, hv, rfl, rfl, rfl, into_positions (edges_nodup h) f _, outOf_positions (edges_nodup h) f _, ?_⟩
  unfold Solver.nodeFlow coreFlow
  simp only [into_positions (edges_nodup h), outOf_positions (edges_nodup h)]
  cases d.kind <;> rfl

theorem flowAt_eq (f : Nat → ℚ) {n : Name} {i : Nat} (hi : F.index? n = .ok i) :
    Solver.flowAt C.model.net f i = nameFlow F f n := by
  obtain ⟨d, hd, rfl⟩ := (index_ok (names_nodup h) n i).1 hi
  obtain ⟨t, ht, _, _, _, _, _, hf⟩ := nodeFlow_at h f hd
  unfold Solver.flowAt
  rw [ht, nameFlow_eq (names_nodup h) f (List.mem_of_getElem? hd)]
  exact hf

theorem find_net {d : Decl} (hd : d ∈ F.nodes) (f : Nat → ℚ) :
    inFlowOf C.model.net f d.name = some (into F f d.name) ∧ outFlowOf C.model.net f d.name = some (outOf F f d.name) := by
  obtain ⟨k, hk⟩ := List.getElem?_of_mem hd
  obtain ⟨t, ht, _, hname, _, hi, ho, _⟩ := nodeFlow_at h f hk
  have hnames : C.model.net.nodes.map (·.name) = F.nodes.map (·.name) := by
    apply List.ext_getElem?
    intro j
    rw [List.getElem?_map, List.getElem?_map]
    cases hj : F.nodes[j]? with
    | none =>
      rw [List.getElem?_eq_none]
      · rfl
      · rw [nodes_length h]; exact List.getElem?_eq_none_iff.1 hj
    | some d' =>
      obtain ⟨t', ht', _, hn', _⟩ := nodeFlow_at h f hj
      rw [ht']; simp [hn']
  have hnd : (C.model.net.nodes.map (·.name)).Nodup := hnames ▸ names_nodup h
  have hfind : C.model.net.nodes.find? (fun x => decide (x.name = d.name)) = some t := by
    have hmem := List.mem_of_getElem? ht
    clear hnames ht
    generalize C.model.net.nodes = l at hnd hmem ⊢
    induction l with
    | nil => simp at hmem
    | cons x xs ih =>
      simp only [List.map_cons, List.nodup_cons] at hnd
      rcases List.mem_cons.1 hmem with rfl | hm
      · simp [hname]
      · have hne : x.name ≠ d.name := by
          intro he
          exact hnd.1 (by rw [he, ← hname]; exact List.mem_map_of_mem hm)
        rw [List.find?_cons_of_neg (by simpa using hne)]
        exact ih hnd.2 hm
  unfold inFlowOf outFlowOf
  rw [hfind]
  simp [hi, ho]

theorem inFlowOf_none {n : Name} (hn : n ∉ F.nodes.map (·.name)) (f : Nat → ℚ) :
    inFlowOf C.model.net f n = none ∧ outFlowOf C.model.net f n = none := by
  have : C.model.net.nodes.find? (fun x => decide (x.name = n)) = none := by
    rw [List.find?_eq_none]
    intro t ht
    obtain ⟨k, hk⟩ := List.getElem?_of_mem ht
    have hlt : k < F.nodes.length := by
      rw [← nodes_length h]; exact (List.getElem?_eq_some_iff.1 hk).1
    obtain ⟨t', ht', _, hn', _⟩ := nodeFlow_at h f (List.getElem?_eq_getElem hlt)
    rw [hk] at ht'
    simp only [Option.some.injEq] at ht'
    subst ht'
    simp only [decide_eq_true_eq]
    intro he
    exact hn (by rw [← he, hn']; exact List.mem_map_of_mem (List.getElem_mem hlt))
  unfold inFlowOf outFlowOf
  rw [this]
  exact ⟨rfl, rfl⟩

/-- Edges at nodes follow their type. -/
theorem ends_of_kind {d : Decl} (hd : d ∈ F.nodes) :
    (d.kind = .input → F.edges.filter (fun e => e.dst = d.name) = []) ∧
    (d.kind = .output → F.edges.filter (fun e => e.src = d.name) = []) := by
  have hc := (valid_of_build h).connected ⟨d.name, d.kind⟩ (by
    simp only [Frag.builder, List.mem_map]; exact ⟨d, hd, rfl⟩)
  have hz : ∀ (p : EdgeDecl → Bool), ((F.edges.zipIdx.filter (fun q => p q.1)).map (·.2)) = [] → F.edges.filter p = [] := by
    intro p hp
    rw [List.map_eq_nil_iff, List.filter_eq_nil_iff] at hp
    rw [List.filter_eq_nil_iff]
    intro e he
    obtain ⟨i, hi⟩ := List.getElem?_of_mem he
    exact hp (e, i) (by rw [List.mem_zipIdx_iff_getElem?]; exact hi)
  constructor
  · intro hk
    rw [show (⟨d.name, d.kind⟩ : Topology.NodeDecl).kind = .input from hk] at hc
    exact hz _ hc.1
  · intro hk
    rw [show (⟨d.name, d.kind⟩ : Topology.NodeDecl).kind = .output from hk] at hc
    exact hz _ hc.2

theorem into_input {d : Decl} (hd : d ∈ F.nodes) (hk : d.kind = .input) (f : Nat → ℚ) : into F f d.name = 0 := by
  unfold into
  rw [(ends_of_kind h hd).1 hk]; rfl

theorem outOf_output {d : Decl} (hd : d ∈ F.nodes) (hk : d.kind = .output) (f : Nat → ℚ) : outOf F f d.name = 0 := by
  unfold outOf
  rw [(ends_of_kind h hd).2 hk]; rfl

/-! ## Allowed flows, by name -/

variable {st : Solver.StepState} {f : Nat → ℚ} (ha : Solver.Allowed C.model st f)
include ha

theorem link_balance {d : Decl} (hd : d ∈ F.nodes) (hk : d.kind = .link) : into F f d.name = outOf F f d.name := by
  obtain ⟨k, hk'⟩ := List.getElem?_of_mem hd
  obtain ⟨t, ht, _, _, hkind, hi, ho, _⟩ := nodeFlow_at h f hk'
  rw [← hi, ← ho]
  exact ha.balanced t (List.mem_of_getElem? ht) (hkind.trans hk)

theorem flow_limits {d : Decl} (hd : d ∈ F.nodes) (hk : d.kind ≠ .storage) :
    Solver.AtLeast st.metric d.data.minFlow 0 (coreFlow F f d) ∧
    Solver.AtMost st.metric d.data.maxFlow Solver.f64MAX (coreFlow F f d) := by
  obtain ⟨k, hk'⟩ := List.getElem?_of_mem hd
  obtain ⟨t, ht, hindex, _, hkind, _, _, hf⟩ := nodeFlow_at h f hk'
  have := ha.nodes t (List.mem_of_getElem? ht)
  unfold Solver.NodeOk at this
  rw [if_neg (by rw [hkind]; exact hk), hindex, data_at h hk', hf] at this
  exact this

theorem volume_limits {k : Nat} {d : Decl} (hd : F.nodes[k]? = some d) (hk : d.kind = .storage) :
    ∃ v, st.volume k = some v ∧
      Solver.AtLeast st.metric d.data.minVolume 0 (v + st.days * (into F f d.name - outOf F f d.name)) ∧
      Solver.AtMost st.metric d.data.maxVolume Solver.f64MAX (v + st.days * (into F f d.name - outOf F f d.name)) := by
  obtain ⟨t, ht, hindex, _, hkind, _, _, hf⟩ := nodeFlow_at h f hd
  have := ha.nodes t (List.mem_of_getElem? ht)
  unfold Solver.NodeOk at this
  rw [if_pos (by rw [hkind]; exact hk), hindex, data_at h hd, hf] at this
  unfold coreFlow at this
  rw [hk] at this
  exact this

theorem flowOn_nonneg {e : EdgeDecl} (he : e ∈ F.edges) : 0 ≤ flowOn F f e := by
  apply ha.nonneg
  have hl := (Topology.C49_topology _ _ (build_ok F C h).1).2.1
  have : F.builder.edges = F.edges := rfl
  rw [hl, this]
  exact List.idxOf_lt_length_of_mem he

theorem into_nonneg (n : Name) : 0 ≤ into F f n := by
  unfold into
  apply List.sum_nonneg
  intro x hx
  obtain ⟨e, he, rfl⟩ := List.mem_map.1 hx
  exact flowOn_nonneg h ha (List.mem_of_mem_filter he)

theorem outOf_nonneg (n : Name) : 0 ≤ outOf F f n := by
  unfold outOf
  apply List.sum_nonneg
  intro x hx
  obtain ⟨e, he, rfl⟩ := List.mem_map.1 hx
  exact flowOn_nonneg h ha (List.mem_of_mem_filter he)

omit ha in
theorem agg_at {a : AggDecl} (hm : a ∈ F.aggs) :
    ∃ b ∈ C.model.aggs, b.minFlow = a.minFlow ∧ b.maxFlow = a.maxFlow ∧ b.relationship = a.relationship ∧
      List.Forall₂ (List.Forall₂ (fun n i => F.index? n = .ok i)) a.nodes b.nodes := by
  have hall := (build_ok F C h).2.2.1
  obtain ⟨k, hk⟩ := List.getElem?_of_mem hm
  obtain ⟨hlt, hget⟩ := List.getElem?_eq_some_iff.1 hk
  have hlt' : k < C.model.aggs.length := hall.length_eq ▸ hlt
  have hr := hall.get hlt hlt'
  simp only [List.get_eq_getElem, hget] at hr
  refine ⟨_, List.getElem_mem hlt', ?_⟩
  unfold Frag.resolveAgg at hr
  cases hs : eachB (eachB F.index?) a.nodes with
  | error e => simp [hs, Bind.bind, Except.bind] at hr
  | ok sets =>
    simp only [hs, Bind.bind, Except.bind, Pure.pure, Except.pure, Except.ok.injEq] at hr
    rw [← hr]
    refine ⟨rfl, rfl, rfl, ?_⟩
    have := (eachB_ok _ _ _).1 hs
    refine this.imp ?_
    intro x y hxy
    exact (eachB_ok _ _ _).1 hxy

omit ha in
theorem setFlow_names {ns : List Name} {is : List Nat} (hf : List.Forall₂ (fun n i => F.index? n = .ok i) ns is) :
    Solver.setFlow (Solver.flowAt C.model.net f) is = (ns.map (nameFlow F f)).sum := by
  unfold Solver.setFlow
  induction hf with
  | nil => rfl
  | cons hab _ ih => simp only [List.map_cons, List.sum_cons, ih, flowAt_eq h f hab]

omit ha in
theorem aggFlow_names {sets : List (List Name)} {b : Solver.AggNode}
    (hf : List.Forall₂ (List.Forall₂ (fun n i => F.index? n = .ok i)) sets b.nodes) :
    Solver.aggFlow C.model.net f b = (sets.map (fun s => (s.map (nameFlow F f)).sum)).sum := by
  unfold Solver.aggFlow
  generalize b.nodes = bs at hf
  induction hf with
  | nil => rfl
  | cons hab _ ih => simp only [List.map_cons, List.sum_cons, ih, setFlow_names h hab]

/-- The total flow of an aggregated node lies within its limits. -/
theorem agg_limits {a : AggDecl} (hm : a ∈ F.aggs) :
    Solver.AtLeast st.metric a.minFlow 0 ((a.nodes.map (fun s => (s.map (nameFlow F f)).sum)).sum) ∧
    Solver.AtMost st.metric a.maxFlow Solver.f64MAX ((a.nodes.map (fun s => (s.map (nameFlow F f)).sum)).sum) := by
  obtain ⟨b, hb, h1, h2, _, hn⟩ := agg_at h hm
  have := ha.aggs b hb
  rw [h1, h2, aggFlow_names h hn] at this
  exact this

end

end Verif.Schema
