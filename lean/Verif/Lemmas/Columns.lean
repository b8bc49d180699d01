import Verif.Lemmas.Lp
import Verif.Spec.Columns
import Mathlib.Data.List.Nodup

/-! # Lemmas about columns -/

namespace Verif.Solver

open Verif.State (NodeKind Edge)
open Verif.Topology (Network TNode)

/-! ## Edges of nodes -/

theorem WF.mem_incoming {net : Network} (wf : WF net) {k : Nat} {n : TNode} (hn : net.nodes[k]? = some n) (e : Nat) :
    e ∈ n.incoming ↔ ∃ ed, net.edges[e]? = some ed ∧ ed.toNode = k := by
  rw [wf.incoming k n hn]
  simp only [List.mem_map, List.mem_filter, decide_eq_true_eq]
  constructor
  · rintro ⟨ed, ⟨hm, ht⟩, rfl⟩
    obtain ⟨j, hj⟩ := List.mem_iff_getElem?.1 hm
    have := (wf.index j ed hj).1
    exact ⟨ed, by rw [this]; exact hj, ht⟩
  · rintro ⟨ed, he, ht⟩
    exact ⟨ed, ⟨List.mem_iff_getElem?.2 ⟨e, he⟩, ht⟩, (wf.index e ed he).1⟩

theorem WF.mem_outgoing {net : Network} (wf : WF net) {k : Nat} {n : TNode} (hn : net.nodes[k]? = some n) (e : Nat) :
    e ∈ n.outgoing ↔ ∃ ed, net.edges[e]? = some ed ∧ ed.fromNode = k := by
  rw [wf.outgoing k n hn]
  simp only [List.mem_map, List.mem_filter, decide_eq_true_eq]
  constructor
  · rintro ⟨ed, ⟨hm, ht⟩, rfl⟩
    obtain ⟨j, hj⟩ := List.mem_iff_getElem?.1 hm
    have := (wf.index j ed hj).1
    exact ⟨ed, by rw [this]; exact hj, ht⟩
  · rintro ⟨ed, he, ht⟩
    exact ⟨ed, ⟨List.mem_iff_getElem?.2 ⟨e, he⟩, ht⟩, (wf.index e ed he).1⟩

theorem WF.indices_nodup {net : Network} (wf : WF net) (p : Edge → Bool) : ((net.edges.filter p).map (·.index)).Nodup := by
  have h : net.edges.map (·.index) = List.range net.edges.length := by
    apply List.ext_getElem?
    intro i
    rw [List.getElem?_map]
    cases he : net.edges[i]? with
    | none =>
      have := List.getElem?_eq_none_iff.1 he
      rw [List.getElem?_eq_none (by simpa using this)]; rfl
    | some e =>
      have := (List.getElem?_eq_some_iff.1 he).1
      rw [List.getElem?_range this]
      simp [(wf.index i e he).1]
  have hs : ((net.edges.filter p).map (·.index)).Sublist (net.edges.map (·.index)) :=
    List.Sublist.map _ List.filter_sublist
  rw [h] at hs
  exact hs.nodup List.nodup_range

theorem WF.incoming_nodup {net : Network} (wf : WF net) {n : TNode} (hn : n ∈ net.nodes) : n.incoming.Nodup := by
  obtain ⟨k, hk⟩ := List.mem_iff_getElem?.1 hn
  rw [wf.incoming k n hk]; exact wf.indices_nodup _

theorem WF.outgoing_nodup {net : Network} (wf : WF net) {n : TNode} (hn : n ∈ net.nodes) : n.outgoing.Nodup := by
  obtain ⟨k, hk⟩ := List.mem_iff_getElem?.1 hn
  rw [wf.outgoing k n hk]; exact wf.indices_nodup _

/-- An edge ends at one node. -/
theorem WF.incoming_unique {net : Network} (wf : WF net) {n n' : TNode} (hn : n ∈ net.nodes) (hn' : n' ∈ net.nodes) {e : Nat}
    (h : e ∈ n.incoming) (h' : e ∈ n'.incoming) : n = n' := by
  obtain ⟨k, hk⟩ := List.mem_iff_getElem?.1 hn
  obtain ⟨k', hk'⟩ := List.mem_iff_getElem?.1 hn'
  obtain ⟨ed, h1, h2⟩ := (wf.mem_incoming hk e).1 h
  obtain ⟨ed', h1', h2'⟩ := (wf.mem_incoming hk' e).1 h'
  rw [h1] at h1'
  simp only [Option.some.injEq] at h1'
  subst h1'
  subst h2
  subst h2'
  rw [hk] at hk'
  simpa using hk'

/-- An edge starts at one node. -/
theorem WF.outgoing_unique {net : Network} (wf : WF net) {n n' : TNode} (hn : n ∈ net.nodes) (hn' : n' ∈ net.nodes) {e : Nat}
    (h : e ∈ n.outgoing) (h' : e ∈ n'.outgoing) : n = n' := by
  obtain ⟨k, hk⟩ := List.mem_iff_getElem?.1 hn
  obtain ⟨k', hk'⟩ := List.mem_iff_getElem?.1 hn'
  obtain ⟨ed, h1, h2⟩ := (wf.mem_outgoing hk e).1 h
  obtain ⟨ed', h1', h2'⟩ := (wf.mem_outgoing hk' e).1 h'
  rw [h1] at h1'
  simp only [Option.some.injEq] at h1'
  subst h1'
  subst h2
  subst h2'
  rw [hk] at hk'
  simpa using hk'

/-! ## Chains -/

theorem SameChain.refl (net : Network) (e : Nat) : SameChain net e e := Relation.EqvGen.refl e
theorem SameChain.symm {net : Network} {a b : Nat} (h : SameChain net a b) : SameChain net b a := Relation.EqvGen.symm _ _ h
theorem SameChain.trans {net : Network} {a b c : Nat} (h : SameChain net a b) (h' : SameChain net b c) : SameChain net a c :=
  Relation.EqvGen.trans _ _ _ h h'

theorem WF.passThrough_right {net : Network} (wf : WF net) {a b c : Nat} (h : PassThrough net a b) (h' : PassThrough net a c) :
    b = c := by
  obtain ⟨n, hn, _, h1, h2⟩ := h
  obtain ⟨n', hn', _, h1', h2'⟩ := h'
  have := wf.incoming_unique hn hn' (e := a) (by rw [h1]; simp) (by rw [h1']; simp)
  subst this
  rw [h2] at h2'
  simpa using h2'

theorem WF.passThrough_left {net : Network} (wf : WF net) {a b c : Nat} (h : PassThrough net a c) (h' : PassThrough net b c) :
    a = b := by
  obtain ⟨n, hn, _, h1, h2⟩ := h
  obtain ⟨n', hn', _, h1', h2'⟩ := h'
  have := wf.outgoing_unique hn hn' (e := c) (by rw [h2]; simp) (by rw [h2']; simp)
  subst this
  rw [h1] at h1'
  simpa using h1'

open Relation in
/-- Two edges of a chain: one is reached from the other downstream. -/
theorem WF.chain_total {net : Network} (wf : WF net) {a b : Nat} (h : SameChain net a b) :
    ReflTransGen (PassThrough net) a b ∨ ReflTransGen (PassThrough net) b a := by
  induction h with
  | rel x y h => exact Or.inl (ReflTransGen.single h)
  | refl x => exact Or.inl ReflTransGen.refl
  | symm x y _ ih => exact ih.symm
  | trans x y z _ _ ih1 ih2 =>
    rcases ih1 with h1 | h1 <;> rcases ih2 with h2 | h2
    · exact Or.inl (h1.trans h2)
    · -- x →* y, z →* y
      have hs1 := h1.swap
      have hs2 := h2.swap
      have hU : Relator.RightUnique (Function.swap (PassThrough net)) := fun a b c h h' => wf.passThrough_left h h'
      rcases ReflTransGen.total_of_right_unique hU hs1 hs2 with h | h
      · exact Or.inr h.swap
      · exact Or.inl h.swap
    · have hU : Relator.RightUnique (PassThrough net) := fun a b c h h' => wf.passThrough_right h h'
      exact ReflTransGen.total_of_right_unique hU h1 h2
    · exact Or.inr (h2.trans h1)

open Relation in
/-- Two edges of one chain that both end at nodes that pass nothing on are the same edge. -/
theorem WF.chain_end_unique {net : Network} (wf : WF net) {a b : Nat} (h : SameChain net a b)
    (ha : ∀ c, ¬ PassThrough net a c) (hb : ∀ c, ¬ PassThrough net b c) : a = b := by
  rcases wf.chain_total h with h | h
  · rcases ReflTransGen.cases_head h with h | ⟨c, hc, _⟩
    · exact h
    · exact absurd hc (ha c)
  · rcases ReflTransGen.cases_head h with h | ⟨c, hc, _⟩
    · exact h.symm
    · exact absurd hc (hb c)

open Relation in
/-- Two edges of one chain that both start at nodes that pass nothing on are the same edge. -/
theorem WF.chain_start_unique {net : Network} (wf : WF net) {a b : Nat} (h : SameChain net a b)
    (ha : ∀ c, ¬ PassThrough net c a) (hb : ∀ c, ¬ PassThrough net c b) : a = b := by
  rcases wf.chain_total h with h | h
  · rcases ReflTransGen.cases_tail h with h | ⟨c, _, hc⟩
    · exact h.symm
    · exact absurd hc (hb c)
  · rcases ReflTransGen.cases_tail h with h | ⟨c, _, hc⟩
    · exact h
    · exact absurd hc (ha c)

/-- A balanced flow is constant along a chain. -/
theorem Balanced.chain {net : Network} {f : Nat → ℚ} (hf : Balanced net f) {a b : Nat} (h : SameChain net a b) : f a = f b := by
  induction h with
  | rel x y h =>
    obtain ⟨n, hn, hk, h1, h2⟩ := h
    have := hf n hn hk
    rw [h1, h2] at this
    simpa using this
  | refl x => rfl
  | symm x y _ ih => exact ih.symm
  | trans x y z _ _ ih1 ih2 => exact ih1.trans ih2

/-! ## The map of columns -/

/-- Invariant of the map while it is built. -/
structure ColInv (net : Network) (m : ColMap) : Prop where
  sorted : (m.edgeToCol.map (·.1)).Pairwise (· < ·)
  bound : ∀ e c, m.edgeToCol.find e = some c → e < net.edges.length
  fwd : ∀ e c, m.edgeToCol.find e = some c → ∃ es, m.colToEdges[c]? = some es ∧ e ∈ es
  bwd : ∀ c es, m.colToEdges[c]? = some es → es ≠ [] ∧ ∀ e ∈ es, m.edgeToCol.find e = some c
  chain : ∀ e e' c, m.edgeToCol.find e = some c → m.edgeToCol.find e' = some c → SameChain net e e'

theorem colInv_empty (net : Network) : ColInv net ⟨[], []⟩ := by
  constructor <;> simp [OMap.find]

theorem colInv_new {net : Network} {m : ColMap} (hm : ColInv net m) {e : Nat} (he : e < net.edges.length)
    (hnone : m.edgeToCol.find e = none) :
    ColInv net ⟨m.colToEdges ++ [[e]], m.edgeToCol.insert e m.colToEdges.length⟩ := by
  have hfind : ∀ j, (m.edgeToCol.insert e m.colToEdges.length).find j
      = if j = e then some m.colToEdges.length else m.edgeToCol.find j := fun j => find_insert _ _ _ _ hm.sorted
  have hlt : ∀ j c, m.edgeToCol.find j = some c → c < m.colToEdges.length := by
    intro j c h
    obtain ⟨es, h1, _⟩ := hm.fwd j c h
    exact (List.getElem?_eq_some_iff.1 h1).1
  refine ⟨sorted_insert _ _ _ hm.sorted, ?_, ?_, ?_, ?_⟩
  · intro j c h
    simp only [hfind] at h
    split_ifs at h with hj
    · omega
    · exact hm.bound j c h
  · intro j c h
    simp only [hfind] at h
    split_ifs at h with hj
    · simp only [Option.some.injEq] at h; subst h; subst hj
      exact ⟨[j], by simp, by simp⟩
    · obtain ⟨es, h1, h2⟩ := hm.fwd j c h
      exact ⟨es, by rw [List.getElem?_append_left (hlt j c h)]; exact h1, h2⟩
  · intro c es h
    by_cases hc : c < m.colToEdges.length
    · rw [List.getElem?_append_left hc] at h
      obtain ⟨h1, h2⟩ := hm.bwd c es h
      refine ⟨h1, fun j hj => ?_⟩
      simp only [hfind]
      rw [if_neg, h2 j hj]
      rintro rfl
      rw [h2 j hj] at hnone; cases hnone
    · rw [List.getElem?_append_right (by omega)] at h
      have h0 : c - m.colToEdges.length = 0 := by
        have := (List.getElem?_eq_some_iff.1 h).1
        simp at this; omega
      rw [h0] at h
      simp only [List.getElem?_cons_zero, Option.some.injEq] at h
      subst h
      refine ⟨by simp, fun j hj => ?_⟩
      simp only [List.mem_singleton] at hj
      subst hj
      simp only [hfind, if_true]
      congr 1; omega
  · intro j j' c h h'
    simp only [hfind] at h h'
    split_ifs at h h' with h1 h2
    · rw [h1, h2]; exact SameChain.refl _ _
    · simp only [Option.some.injEq] at h; have := hlt _ _ h'; omega
    · simp only [Option.some.injEq] at h'; have := hlt _ _ h; omega
    · exact hm.chain j j' c h h'

theorem colInv_join {net : Network} {m : ColMap} (hm : ColInv net m) {e e' c : Nat} (he : e < net.edges.length)
    (hnone : m.edgeToCol.find e = none) (hsome : m.edgeToCol.find e' = some c) (hch : SameChain net e e') :
    ColInv net ⟨m.colToEdges.modify c (· ++ [e]), m.edgeToCol.insert e c⟩ := by
  have hfind : ∀ j, (m.edgeToCol.insert e c).find j
      = if j = e then some c else m.edgeToCol.find j := fun j => find_insert _ _ _ _ hm.sorted
  refine ⟨sorted_insert _ _ _ hm.sorted, ?_, ?_, ?_, ?_⟩
  · intro j d h
    simp only [hfind] at h
    split_ifs at h with hj
    · omega
    · exact hm.bound j d h
  · intro j d h
    simp only [hfind] at h
    simp only [List.getElem?_modify]
    split_ifs at h with hj
    · simp only [Option.some.injEq] at h
      subst h; subst hj
      obtain ⟨es, h1, _⟩ := hm.fwd e' c hsome
      exact ⟨es ++ [j], by simp [h1], by simp⟩
    · obtain ⟨es, h1, h2⟩ := hm.fwd j d h
      by_cases hd : c = d
      · exact ⟨es ++ [e], by simp [h1, hd], by simp [h2]⟩
      · exact ⟨es, by simp [h1, hd], h2⟩
  · intro d es h
    simp only [List.getElem?_modify] at h
    cases hd : m.colToEdges[d]? with
    | none => simp [hd] at h
    | some es₀ =>
      obtain ⟨h1, h2⟩ := hm.bwd d es₀ hd
      have hold : ∀ j ∈ es₀, (m.edgeToCol.insert e c).find j = some d := by
        intro j hj
        rw [hfind, if_neg, h2 j hj]
        rintro rfl
        rw [h2 j hj] at hnone; cases hnone
      simp only [hd, Option.map_eq_map, Option.map_some, Option.some.injEq] at h
      by_cases hcd : c = d
      · rw [if_pos hcd] at h
        subst h
        refine ⟨by simp, fun j hj => ?_⟩
        rcases List.mem_append.1 hj with hj | hj
        · exact hold j hj
        · simp only [List.mem_singleton] at hj
          rw [hfind, if_pos hj, hcd]
      · rw [if_neg hcd] at h
        subst h
        exact ⟨h1, hold⟩
  · intro j j' d h h'
    simp only [hfind] at h h'
    split_ifs at h h' with h1 h2
    · rw [h1, h2]; exact SameChain.refl _ _
    · simp only [Option.some.injEq] at h; subst h; subst h1
      exact hch.trans (hm.chain e' j' c hsome h')
    · simp only [Option.some.injEq] at h'; subst h'
      rw [‹j' = e›]
      exact (hm.chain j e' c h hsome).trans hch.symm
    · exact hm.chain j j' d h h'

/-- What one step does: the invariant is kept, the edge gets a column, and no edge loses its column. -/
structure StepOk (net : Network) (m m' : ColMap) (e : Nat) : Prop where
  inv : ColInv net m'
  has : (m'.edgeToCol.find e).isSome = true
  keep : ∀ j c, m.edgeToCol.find j = some c → m'.edgeToCol.find j = some c

theorem addSimple_ok {net : Network} {m : ColMap} (hm : ColInv net m) {e : Nat} (he : e < net.edges.length) :
    StepOk net m (m.addSimple e) e := by
  unfold ColMap.addSimple
  cases h : m.edgeToCol.find e with
  | some c => exact ⟨hm, by simp [h], fun _ _ h => h⟩
  | none =>
    refine ⟨colInv_new hm he h, ?_, ?_⟩
    · simp only [find_insert _ _ _ _ hm.sorted, if_true, Option.isSome_some]
    · intro j c hj
      simp only [find_insert _ _ _ _ hm.sorted]
      rw [if_neg, hj]
      rintro rfl
      rw [h] at hj; cases hj

theorem addEqual_ok {net : Network} {m : ColMap} (hm : ColInv net m) {e e' : Nat} (he : e < net.edges.length)
    (he' : e' < net.edges.length) (hch : SameChain net e e') : StepOk net m (m.addEqual e e') e := by
  unfold ColMap.addEqual
  cases h : m.edgeToCol.find e with
  | some c =>
    cases h' : m.edgeToCol.find e' with
    | some c' => exact ⟨hm, by simp [h], fun _ _ h => h⟩
    | none =>
      refine ⟨colInv_join hm he' h' h hch.symm, ?_, ?_⟩
      · simp only [find_insert _ _ _ _ hm.sorted]
        split_ifs <;> simp [h]
      · intro j d hj
        simp only [find_insert _ _ _ _ hm.sorted]
        rw [if_neg, hj]
        rintro rfl
        rw [h'] at hj; cases hj
  | none =>
    cases h' : m.edgeToCol.find e' with
    | some c =>
      refine ⟨colInv_join hm he h h' hch, ?_, ?_⟩
      · simp only [find_insert _ _ _ _ hm.sorted, if_true, Option.isSome_some]
      · intro j d hj
        simp only [find_insert _ _ _ _ hm.sorted]
        rw [if_neg, hj]
        rintro rfl
        rw [h] at hj; cases hj
    | none =>
      have hm1 := colInv_new hm he h
      have hf1 : ∀ j, (m.edgeToCol.insert e m.colToEdges.length).find j
          = if j = e then some m.colToEdges.length else m.edgeToCol.find j := fun j => find_insert _ _ _ _ hm.sorted
      have hf2 : ∀ j, ((m.edgeToCol.insert e m.colToEdges.length).insert e' m.colToEdges.length).find j
          = if j = e' then some m.colToEdges.length else if j = e then some m.colToEdges.length else m.edgeToCol.find j := by
        intro j; rw [find_insert _ _ _ _ hm1.sorted, hf1]
      refine ⟨?_, ?_, ?_⟩
      · by_cases hee : e' = e
        · -- the same edge twice
          have hid : (m.edgeToCol.insert e m.colToEdges.length).insert e' m.colToEdges.length
              = (m.edgeToCol.insert e m.colToEdges.length).insert e m.colToEdges.length := by rw [hee]
          refine ⟨sorted_insert _ _ _ hm1.sorted, ?_, ?_, ?_, ?_⟩
          · intro j c hj
            simp only [hf2] at hj
            exact hm1.bound j c (by simp only [hf1]; split_ifs at hj ⊢ <;> simp_all)
          · intro j c hj
            simp only [hf2] at hj
            have h2 : (m.edgeToCol.insert e m.colToEdges.length).find j = some c := by
              rw [hf1]; split_ifs at hj ⊢ <;> simp_all
            obtain ⟨es, h3, h4⟩ := hm1.fwd j c h2
            by_cases hc : c < m.colToEdges.length
            · simp only [List.getElem?_append_left hc] at h3 ⊢
              exact ⟨es, h3, h4⟩
            · have hlt := (List.getElem?_eq_some_iff.1 h3).1
              simp only [List.length_append, List.length_singleton] at hlt
              have hc' : c = m.colToEdges.length := by omega
              subst hc'
              simp at h3
              subst h3
              exact ⟨[e, e'], by simp, by simpa [hee] using h4⟩
          · intro c es hc
            by_cases hlt : c < m.colToEdges.length
            · simp only [List.getElem?_append_left hlt] at hc
              obtain ⟨h3, h4⟩ := hm1.bwd c es (by simp only [List.getElem?_append_left hlt]; exact hc)
              refine ⟨h3, fun j hj => ?_⟩
              have := h4 j hj
              simp only [hf1] at this
              simp only [hf2]
              split_ifs at this ⊢ <;> simp_all
            · have hlt' := (List.getElem?_eq_some_iff.1 hc).1
              simp only [List.length_append, List.length_singleton] at hlt'
              have hc' : c = m.colToEdges.length := by omega
              subst hc'
              simp at hc
              subst hc
              refine ⟨by simp, fun j hj => ?_⟩
              have : j = e' := by simp [hee] at hj ⊢; exact hj
              simp only [hf2, this, if_true]
          · intro j j' c hj hj'
            simp only [hf2] at hj hj'
            apply hm1.chain j j' c
            · rw [hf1]; split_ifs at hj ⊢ <;> simp_all
            · rw [hf1]; split_ifs at hj' ⊢ <;> simp_all
        · have h1 : (m.edgeToCol.insert e m.colToEdges.length).find e' = none := by rw [hf1, if_neg hee, h']
          have h2 : (m.edgeToCol.insert e m.colToEdges.length).find e = some m.colToEdges.length := by rw [hf1, if_pos rfl]
          have := colInv_join hm1 he' h1 h2 hch.symm
          have hmod : (m.colToEdges ++ [[e]]).modify m.colToEdges.length (· ++ [e']) = m.colToEdges ++ [[e, e']] := by
            apply List.ext_getElem?
            intro i
            rw [List.getElem?_modify]
            rcases Nat.lt_trichotomy i m.colToEdges.length with hi | hi | hi
            · rw [List.getElem?_append_left hi, List.getElem?_append_left hi]
              have : m.colToEdges.length ≠ i := by omega
              cases m.colToEdges[i]? <;> simp [this]
            · subst hi; simp
            · rw [List.getElem?_eq_none (by simp; omega), List.getElem?_eq_none (by simp; omega)]; rfl
          simp only [hmod] at this
          exact this
      · simp only [hf2]; split_ifs <;> simp
      · intro j c hj
        simp only [hf2]
        rw [if_neg, if_neg, hj]
        · rintro rfl; rw [h] at hj; cases hj
        · rintro rfl; rw [h'] at hj; cases hj

theorem columnStep_ok {net : Network} (wf : WF net) {m : ColMap} (hm : ColInv net m) {e : Edge} (he : e ∈ net.edges) :
    ∃ m', columnStep net m e = .ok m' ∧ StepOk net m m' e.index := by
  obtain ⟨k, hk⟩ := List.mem_iff_getElem?.1 he
  obtain ⟨hidx, hfrom, _⟩ := wf.index k e hk
  have hlt : e.index < net.edges.length := by rw [hidx]; exact (List.getElem?_eq_some_iff.1 hk).1
  have hn := List.getElem?_eq_getElem hfrom
  have hmemn : net.nodes[e.fromNode] ∈ net.nodes := List.getElem_mem _
  unfold columnStep
  rw [hn]
  simp only
  have hout : e.index ∈ net.nodes[e.fromNode].outgoing := (wf.mem_outgoing hn _).2 ⟨e, by rw [hidx]; exact hk, rfl⟩
  cases hkind : net.nodes[e.fromNode].kind with
  | link =>
    simp only [List.contains_iff_mem, hout, if_true]
    have hsimple := addSimple_ok hm hlt
    split
    · rename_i i o hin ho
      rw [ho] at hout
      simp only [List.mem_singleton] at hout
      subst hout
      have hi : i < net.edges.length := by
        obtain ⟨ed, h1, _⟩ := (wf.mem_incoming hn i).1 (by rw [hin]; simp)
        exact (List.getElem?_eq_some_iff.1 h1).1
      exact ⟨_, rfl, addEqual_ok hm hlt hi
        (Relation.EqvGen.symm _ _ (Relation.EqvGen.rel _ _ ⟨_, hmemn, hkind, hin, ho⟩))⟩
    · exact ⟨_, rfl, hsimple⟩
  | input => exact ⟨_, rfl, addSimple_ok hm hlt⟩
  | output => exact ⟨_, rfl, addSimple_ok hm hlt⟩
  | storage => exact ⟨_, rfl, addSimple_ok hm hlt⟩

theorem columnLoop_ok {net : Network} (wf : WF net) (es : List Edge) : ∀ (m : ColMap), ColInv net m → (∀ e ∈ es, e ∈ net.edges) →
    ∃ m', columnLoop net es m = .ok m' ∧ ColInv net m' ∧ (∀ e ∈ es, (m'.edgeToCol.find e.index).isSome = true) ∧
      ∀ j c, m.edgeToCol.find j = some c → m'.edgeToCol.find j = some c := by
  induction es with
  | nil => intro m hm _; exact ⟨m, rfl, hm, by simp, fun _ _ h => h⟩
  | cons e es ih =>
    intro m hm hes
    obtain ⟨m1, h1, hok⟩ := columnStep_ok wf hm (hes e (by simp))
    obtain ⟨m2, h2, hinv, hhas, hkeep⟩ := ih m1 hok.inv (fun e' he' => hes e' (List.mem_cons_of_mem _ he'))
    refine ⟨m2, by simp only [columnLoop, h1, h2], hinv, ?_, fun j c hj => hkeep j c (hok.keep j c hj)⟩
    intro e' he'
    rcases List.mem_cons.1 he' with rfl | he'
    · obtain ⟨c, hc⟩ := Option.isSome_iff_exists.1 hok.has
      rw [hkeep _ c hc]; rfl
    · exact hhas e' he'

theorem createColMap_ok {net : Network} (wf : WF net) (hne : net.edges ≠ []) :
    ∃ m, createColMap net = .ok m ∧ ColInv net m ∧ ∀ e < net.edges.length, ∃ c, m.edgeToCol.find e = some c := by
  obtain ⟨m, h1, h2, h3, _⟩ := columnLoop_ok wf net.edges ⟨[], []⟩ (colInv_empty net) (fun _ h => h)
  refine ⟨m, ?_, h2, fun e he => ?_⟩
  · unfold createColMap
    rw [if_neg]
    · exact h1
    · have := List.length_pos_iff.2 hne; omega
  · have hk := List.getElem?_eq_getElem he
    have := h3 _ (List.getElem_mem he)
    rw [(wf.index e _ hk).1] at this
    exact Option.isSome_iff_exists.1 this

/-- A strictly increasing list with the elements below `n` is `0, …, n − 1`. -/
theorem eq_range {l : List Nat} {n : Nat} (h : l.Pairwise (· < ·)) (hm : ∀ j, j ∈ l ↔ j < n) : l = List.range n := by
  have hp : l.Perm (List.range n) := by
    rw [List.perm_ext_iff_of_nodup (h.imp (fun h => Nat.ne_of_lt h)) List.nodup_range]
    intro a; rw [hm, List.mem_range]
  exact hp.eq_of_pairwise (fun a b _ _ h1 h2 => by omega) h List.pairwise_lt_range

theorem find_of_get {α : Type} (m : OMap α) (hm : (m.map (·.1)).Pairwise (· < ·)) (i k : Nat) (v : α)
    (h : m[i]? = some (k, v)) : m.find k = some v := by
  induction m generalizing i with
  | nil => simp at h
  | cons x xs ih =>
    obtain ⟨k', v'⟩ := x
    simp only [List.map_cons, List.pairwise_cons] at hm
    cases i with
    | zero => simp only [List.getElem?_cons_zero, Option.some.injEq, Prod.mk.injEq] at h; simp [OMap.find, h]
    | succ i =>
      simp only [List.getElem?_cons_succ] at h
      have hmem : k ∈ xs.map (·.1) := List.mem_map.2 ⟨(k, v), List.mem_iff_getElem?.2 ⟨i, h⟩, rfl⟩
      have := hm.1 k hmem
      simp only [OMap.find]
      rw [if_neg (by omega)]
      exact ih hm.2 i h

theorem build_ok {net : Network} {m : ColMap} (hm : ColInv net m) (hne : net.edges ≠ [])
    (hall : ∀ e < net.edges.length, ∃ c, m.edgeToCol.find e = some c) :
    ∃ cols, m.build = some cols ∧ cols.length = net.edges.length ∧
      ∀ e < net.edges.length, cols[e]? = m.edgeToCol.find e := by
  have hkeys : m.edgeToCol.map (·.1) = List.range net.edges.length := by
    apply eq_range hm.sorted
    intro j
    rw [← find_isSome]
    constructor
    · intro h
      obtain ⟨c, hc⟩ := Option.isSome_iff_exists.1 h
      exact hm.bound j c hc
    · intro h
      obtain ⟨c, hc⟩ := hall j h
      rw [hc]; rfl
  have hlen : m.edgeToCol.length = net.edges.length := by
    have := congrArg List.length hkeys; simpa using this
  have hpos : 0 < net.edges.length := List.length_pos_iff.2 hne
  have hget : ∀ e < net.edges.length, ∃ v, m.edgeToCol[e]? = some (e, v) := by
    intro e he
    have hlt : e < m.edgeToCol.length := by omega
    have h1 := List.getElem?_eq_getElem hlt
    have h2 : (m.edgeToCol.map (·.1))[e]? = some e := by rw [hkeys, List.getElem?_range he]
    rw [List.getElem?_map, h1] at h2
    simp only [Option.map_some, Option.some.injEq] at h2
    exact ⟨(m.edgeToCol[e]).2, by rw [h1]; exact congrArg some (Prod.ext h2 rfl)⟩
  obtain ⟨v, hv⟩ := hget (net.edges.length - 1) (by omega)
  have hlast : m.edgeToCol.getLast? = some (net.edges.length - 1, v) := by
    rw [List.getLast?_eq_getElem?, hlen]; exact hv
  refine ⟨m.edgeToCol.map (·.2), ?_, by simp [hlen], ?_⟩
  · unfold ColMap.build
    rw [hlast]
    simp only [hlen, if_true]
  · intro e he
    obtain ⟨v, hv⟩ := hget e he
    rw [List.getElem?_map, hv, find_of_get _ hm.sorted _ _ _ hv]
    rfl

end Verif.Solver
