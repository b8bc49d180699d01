import Verif.Lemmas.SchemaNet

/-! # Accounting of flows between the nodes of the schema -/

namespace Verif.Schema

open Verif.State (NodeKind)
open Verif.Topology (Name EdgeDecl TNode)
open Verif.Solver (Metric NodeData Relationship)

/-! ## Sums -/

/-- Sum of a function over the members of a list that satisfy a predicate. -/
def sumWhere (g : EdgeDecl → ℚ) (p : EdgeDecl → Bool) (es : List EdgeDecl) : ℚ := ((es.filter p).map g).sum

theorem sumWhere_append (g p a b) : sumWhere g p (a ++ b) = sumWhere g p a + sumWhere g p b := by simp [sumWhere]

theorem sumWhere_nil (g p) : sumWhere g p [] = 0 := rfl

theorem sumWhere_cons (g p e es) : sumWhere g p (e :: es) = (if p e then g e else 0) + sumWhere g p es := by
  unfold sumWhere
  by_cases h : p e = true <;> simp [h]

theorem sumWhere_flatMap {α : Type} (g p) (l : List α) (k : α → List EdgeDecl) :
    sumWhere g p (l.flatMap k) = (l.map (fun a => sumWhere g p (k a))).sum := by
  induction l with
  | nil => rfl
  | cons a l ih => simp [sumWhere_append, ih]

theorem sumWhere_none (g p es) (h : ∀ e ∈ es, p e = false) : sumWhere g p es = 0 := by
  unfold sumWhere
  rw [List.filter_eq_nil_iff.2 (by simpa using h)]; rfl

theorem sumWhere_all (g p es) (h : ∀ e ∈ es, p e = true) : sumWhere g p es = (es.map g).sum := by
  unfold sumWhere
  rw [List.filter_eq_self.2 h]

theorem sumWhere_or (g) (p q : EdgeDecl → Bool) (es) (h : ∀ e, p e = true → q e = false) :
    sumWhere g (fun e => p e || q e) es = sumWhere g p es + sumWhere g q es := by
  induction es with
  | nil => simp [sumWhere]
  | cons e es ih =>
    simp only [sumWhere_cons, ih]
    cases hp : p e <;> cases hq : q e <;> simp
    · ring
    · ring
    · have := h e hp; rw [hq] at this; cases this

theorem into_eq (F : Frag) (f : Nat → ℚ) (n : Name) : into F f n = sumWhere (flowOn F f) (fun e => decide (e.dst = n)) F.edges := rfl

theorem outOf_eq (F : Frag) (f : Nat → ℚ) (n : Name) : outOf F f n = sumWhere (flowOn F f) (fun e => decide (e.src = n)) F.edges := rfl

theorem sum_into (F : Frag) (f : Nat → ℚ) (S : List Name) (hS : S.Nodup) :
    (S.map (into F f)).sum = sumWhere (flowOn F f) (fun e => decide (e.dst ∈ S)) F.edges := by
  induction S with
  | nil => rw [sumWhere_none]; · rfl
           · simp
  | cons n S ih =>
    rw [List.nodup_cons] at hS
    rw [List.map_cons, List.sum_cons, ih hS.2, into_eq, ← sumWhere_or]
    · congr 1; funext e; simp
    · intro e he
      simp only [decide_eq_true_eq] at he
      simp [he, hS.1]

theorem sum_outOf (F : Frag) (f : Nat → ℚ) (S : List Name) (hS : S.Nodup) :
    (S.map (outOf F f)).sum = sumWhere (flowOn F f) (fun e => decide (e.src ∈ S)) F.edges := by
  induction S with
  | nil => rw [sumWhere_none]; · rfl
           · simp
  | cons n S ih =>
    rw [List.nodup_cons] at hS
    rw [List.map_cons, List.sum_cons, ih hS.2, outOf_eq, ← sumWhere_or]
    · congr 1; funext e; simp
    · intro e he
      simp only [decide_eq_true_eq] at he
      simp [he, hS.1]

/-! ## Edges of a node and edges of the schema -/

/-- The edges an edge of the schema stands for. -/
def pairsOf (N : Net) (e : SEdge) : List EdgeDecl :=
  match N.pairs e with
  | .ok ps => ps
  | .error _ => []

theorem edgeFlow_eq (N F f e) : edgeFlow N F f e = ((pairsOf N e).map (flowOn F f)).sum := by
  unfold edgeFlow pairsOf
  cases N.pairs e <;> rfl

theorem node?_ok {N : Net} {x : String} {n : SNode} (h : N.node? x = .ok n) : n ∈ N.nodes ∧ n.name = x := by
  unfold Net.node? at h
  split at h
  · rename_i m hm
    simp only [Except.ok.injEq] at h
    subst h
    exact ⟨List.mem_of_find?_eq_some hm, by simpa using List.find?_some hm⟩
  · cases h

theorem node?_of_mem {N : Net} (hn : (N.nodes.map (·.name)).Nodup) {n : SNode} (hm : n ∈ N.nodes) : N.node? n.name = .ok n := by
  unfold Net.node?
  have : N.nodes.find? (fun m => decide (m.name = n.name)) = some n := by
    generalize N.nodes = l at hn hm ⊢
    induction l with
    | nil => simp at hm
    | cons x xs ih =>
      simp only [List.map_cons, List.nodup_cons] at hn
      rcases List.mem_cons.1 hm with rfl | hm'
      · simp
      · have hne : x.name ≠ n.name := by
          intro he
          exact hn.1 (he ▸ List.mem_map_of_mem hm')
        rw [List.find?_cons_of_neg (by simpa using hne)]
        exact ih hn.2 hm'
  rw [this]

/-- An edge of the schema stands for edges from connectors of its source to connectors of its target. -/
theorem pairs_ok {N : Net} {e : SEdge} {ps : List EdgeDecl} (h : N.pairs e = .ok ps) :
    ∃ s ∈ N.nodes, ∃ t ∈ N.nodes, s.name = e.src ∧ t.name = e.dst ∧ ∃ froms tos, s.outputConnectors e.srcSlot = .ok froms ∧
      t.inputConnectors e.dstSlot = .ok tos ∧ ps = froms.flatMap (fun a => tos.map (fun b => ⟨a, b⟩)) := by
  unfold Net.pairs at h
  obtain ⟨s, hs, h⟩ := bind_ok h
  obtain ⟨t, ht, h⟩ := bind_ok h
  obtain ⟨froms, hf, h⟩ := bind_ok h
  obtain ⟨tos, hto, h⟩ := bind_ok h
  simp only [Pure.pure, Except.pure, Except.ok.injEq] at h
  obtain ⟨hs1, hs2⟩ := node?_ok hs
  obtain ⟨ht1, ht2⟩ := node?_ok ht
  exact ⟨s, hs1, t, ht1, hs2, ht2, froms, tos, hf, hto, h.symm⟩

theorem pairsOf_ends {N : Net} {e : SEdge} {p : EdgeDecl} (h : p ∈ pairsOf N e) :
    ∃ s ∈ N.nodes, ∃ t ∈ N.nodes, s.name = e.src ∧ t.name = e.dst ∧ ∃ froms tos, s.outputConnectors e.srcSlot = .ok froms ∧
      t.inputConnectors e.dstSlot = .ok tos ∧ p.src ∈ froms ∧ p.dst ∈ tos ∧ p.src.1 = e.src ∧ p.dst.1 = e.dst := by
  unfold pairsOf at h
  cases hp : N.pairs e with
  | error _ => simp [hp] at h
  | ok ps =>
    simp only [hp] at h
    obtain ⟨s, hs, t, ht, hs', ht', froms, tos, hf, hto, rfl⟩ := pairs_ok hp
    simp only [List.mem_flatMap, List.mem_map] at h
    obtain ⟨a, ha, b, hb, rfl⟩ := h
    exact ⟨s, hs, t, ht, hs', ht', froms, tos, hf, hto, ha, hb, hs' ▸ outputs_owned s _ _ hf a ha, ht' ▸ inputs_owned t _ _ hto b hb⟩

theorem flatten_pairs {N : Net} {es : List SEdge} {Es : List (List EdgeDecl)}
    (h : List.Forall₂ (fun e ps => N.pairs e = .ok ps) es Es) : Es.flatten = es.flatMap (pairsOf N) := by
  induction h with
  | nil => rfl
  | cons hab _ ih => simp [List.flatten_cons, List.flatMap_cons, ih, pairsOf, hab]

theorem sum_filter {α : Type} (l : List α) (p : α → Bool) (g : α → ℚ) (h : ∀ a ∈ l, p a = false → g a = 0) :
    (l.map g).sum = ((l.filter p).map g).sum := by
  induction l with
  | nil => rfl
  | cons a l ih =>
    have ih := ih (fun b hb => h b (by simp [hb]))
    by_cases hp : p a = true
    · simp [hp, ih]
    · simp only [List.map_cons, List.sum_cons, List.filter_cons, hp]
      rw [h a (by simp) (by simpa using hp), ih]; simp

/-- Only one node has the name `x`. -/
theorem sum_frags {P : ParamNo} {ns : List SNode} {Gs : List Frag} (hf : List.Forall₂ (fun n G => n.frag P = .ok G) ns Gs)
    (hn : (ns.map (·.name)).Nodup) {n : SNode} (hm : n ∈ ns) {G : Frag} (hG : n.frag P = .ok G) (g : EdgeDecl → ℚ) (p : EdgeDecl → Bool)
    (hp : ∀ e, p e = true → e.src.1 = n.name ∨ e.dst.1 = n.name) :
    (Gs.map (fun G => sumWhere g p G.edges)).sum = sumWhere g p G.edges := by
  have hz : ∀ (m : SNode) (H : Frag), m.frag P = .ok H → m.name ≠ n.name → sumWhere g p H.edges = 0 := by
    intro m H hH hne
    apply sumWhere_none
    intro e he
    have ho := (owned P m H hH).edges e he
    by_contra hc
    rcases hp e (by simpa using hc) with h1 | h1
    · exact hne (ho.1.symm.trans h1)
    · exact hne (ho.2.symm.trans h1)
  induction hf with
  | nil => simp at hm
  | cons hab hrest ih =>
    rename_i a b l1 l2
    simp only [List.map_cons, List.nodup_cons] at hn
    simp only [List.map_cons, List.sum_cons]
    rcases List.mem_cons.1 hm with rfl | hm'
    · rw [hab] at hG
      simp only [Except.ok.injEq] at hG
      subst hG
      have : (l2.map (fun G => sumWhere g p G.edges)).sum = 0 := by
        clear ih hm
        induction hrest with
        | nil => rfl
        | cons hab' _ ih' =>
          rename_i a' b' l1' l2' _
          simp only [List.map_cons, List.mem_cons, not_or] at hn
          simp only [List.map_cons, List.sum_cons]
          rw [hz a' b' hab' (Ne.symm hn.1.1), ih' ⟨hn.1.2, (List.nodup_cons.1 hn.2).2⟩]; simp
      rw [this]; simp
    · rw [hz _ _ hab (fun he => hn.1 (he ▸ List.mem_map_of_mem hm')), ih hn.2 hm']; simp

section
variable {P : ParamNo} {N : Net} {F : Frag} (hc : N.compile P = .ok F) {n : SNode} (hm : n ∈ N.nodes) {G : Frag} (hG : n.frag P = .ok G)
include hc hm hG

/-- The edges at a node are its own and those of the schema. -/
theorem split_edges (g : EdgeDecl → ℚ) (p : EdgeDecl → Bool) (hp : ∀ e, p e = true → e.src.1 = n.name ∨ e.dst.1 = n.name) :
    sumWhere g p F.edges = sumWhere g p G.edges + (N.edges.map (fun e => sumWhere g p (pairsOf N e))).sum := by
  obtain ⟨Gs, Vs, Es, hparts⟩ := compile_parts hc
  rw [hparts.edges', sumWhere_append, sumWhere_flatMap, sum_frags hparts.frags (validate_ok N hparts.valid).1 hm hG g p hp,
    flatten_pairs hparts.pairs, sumWhere_flatMap]

/-- Inflow into core nodes of a node that include all its input connectors. -/
theorem into_inputs (f : Nat → ℚ) (S : List Name) (hS : S.Nodup) (hown : ∀ c ∈ S, c.1 = n.name)
    (hin : ∀ s ns, n.inputConnectors s = .ok ns → ∀ c ∈ ns, c ∈ S) :
    (S.map (into F f)).sum = sumWhere (flowOn F f) (fun e => decide (e.dst ∈ S)) G.edges + received N F f n.name := by
  have hv := (validate_ok N (compile_parts hc).choose_spec.choose_spec.choose_spec.valid).1
  rw [sum_into F f S hS, split_edges hc hm hG]
  · congr 1
    unfold received
    rw [sum_filter N.edges (fun e => decide (e.dst = n.name))]
    · congr 1
      apply List.map_congr_left
      intro e he
      rw [edgeFlow_eq]
      apply sumWhere_all
      intro p hp
      simp only [List.mem_filter, decide_eq_true_eq] at he
      obtain ⟨s, _, t, ht, _, ht', froms, tos, _, hto, _, hpd, _, _⟩ := pairsOf_ends hp
      have : t = n := by
        have h1 := node?_of_mem hv ht
        have h2 := node?_of_mem hv hm
        rw [ht', he.2, h2] at h1
        simpa using h1.symm
      subst this
      simpa using hin _ _ hto _ hpd
    · intro e _ he
      apply sumWhere_none
      intro p hp
      obtain ⟨s, _, t, _, _, ht', froms, tos, _, hto, _, hpd, _, hpn⟩ := pairsOf_ends hp
      simp only [decide_eq_false_iff_not] at he ⊢
      intro hmem
      exact he (hpn.symm.trans (hown _ hmem))
  · intro e he
    exact Or.inr (hown _ (by simpa using he))

/-- Inflow into core nodes of a node that are none of its input connectors. -/
theorem into_other (f : Nat → ℚ) (S : List Name) (hS : S.Nodup) (hown : ∀ c ∈ S, c.1 = n.name)
    (hin : ∀ s ns, n.inputConnectors s = .ok ns → ∀ c ∈ ns, c ∉ S) :
    (S.map (into F f)).sum = sumWhere (flowOn F f) (fun e => decide (e.dst ∈ S)) G.edges := by
  have hv := (validate_ok N (compile_parts hc).choose_spec.choose_spec.choose_spec.valid).1
  rw [sum_into F f S hS, split_edges hc hm hG]
  · rw [List.sum_eq_zero]
    · simp
    · intro x hx
      obtain ⟨e, _, rfl⟩ := List.mem_map.1 hx
      apply sumWhere_none
      intro p hp
      obtain ⟨s, _, t, ht, _, ht', froms, tos, _, hto, _, hpd, _, hpn⟩ := pairsOf_ends hp
      simp only [decide_eq_false_iff_not]
      intro hmem
      have : t = n := by
        have h1 := node?_of_mem hv ht
        have h2 := node?_of_mem hv hm
        rw [ht', ← hpn, hown _ hmem, h2] at h1
        simpa using h1.symm
      subst this
      exact hin _ _ hto _ hpd hmem
  · intro e he
    exact Or.inr (hown _ (by simpa using he))

/-- Outflow of core nodes of a node that include the output connectors of certain slots, and none of the others. -/
theorem outOf_via (f : Nat → ℚ) (S : List Name) (hS : S.Nodup) (hown : ∀ c ∈ S, c.1 = n.name) (q : Option Slot → Bool)
    (hin : ∀ s ns, n.outputConnectors s = .ok ns → q s = true → ∀ c ∈ ns, c ∈ S)
    (hout : ∀ s ns, n.outputConnectors s = .ok ns → q s = false → ∀ c ∈ ns, c ∉ S) :
    (S.map (outOf F f)).sum = sumWhere (flowOn F f) (fun e => decide (e.src ∈ S)) G.edges + sentVia N F f n.name q := by
  have hv := (validate_ok N (compile_parts hc).choose_spec.choose_spec.choose_spec.valid).1
  rw [sum_outOf F f S hS, split_edges hc hm hG]
  · congr 1
    unfold sentVia
    rw [sum_filter N.edges (fun e => decide (e.src = n.name ∧ q e.srcSlot = true))]
    · congr 1
      apply List.map_congr_left
      intro e he
      rw [edgeFlow_eq]
      apply sumWhere_all
      intro p hp
      simp only [List.mem_filter, decide_eq_true_eq] at he
      obtain ⟨s, hs, t, _, hs', _, froms, tos, hf, _, hps, _, _, _⟩ := pairsOf_ends hp
      have : s = n := by
        have h1 := node?_of_mem hv hs
        have h2 := node?_of_mem hv hm
        rw [hs', he.2.1, h2] at h1
        simpa using h1.symm
      subst this
      simpa using hin _ _ hf he.2.2 _ hps
    · intro e _ he
      apply sumWhere_none
      intro p hp
      obtain ⟨s, hs, t, _, hs', _, froms, tos, hf, _, hps, _, hpn, _⟩ := pairsOf_ends hp
      simp only [decide_eq_false_iff_not, not_and, Bool.not_eq_true] at he ⊢
      intro hmem
      have hsrc : e.src = n.name := hpn.symm.trans (hown _ hmem)
      have : s = n := by
        have h1 := node?_of_mem hv hs
        have h2 := node?_of_mem hv hm
        rw [hs', hsrc, h2] at h1
        simpa using h1.symm
      subst this
      exact hout _ _ hf (he hsrc) _ hps hmem
  · intro e he
    exact Or.inl (hown _ (by simpa using he))

omit hc hm hG in
theorem sentVia_true (f : Nat → ℚ) (x : String) : sentVia N F f x (fun _ => true) = sent N F f x := by
  unfold sentVia sent; simp

omit hc hm hG in
theorem sentVia_false (f : Nat → ℚ) (x : String) : sentVia N F f x (fun _ => false) = 0 := by
  unfold sentVia; simp

/-- Outflow of core nodes of a node that include all output connectors. -/
theorem outOf_outputs (f : Nat → ℚ) (S : List Name) (hS : S.Nodup) (hown : ∀ c ∈ S, c.1 = n.name)
    (hin : ∀ s ns, n.outputConnectors s = .ok ns → ∀ c ∈ ns, c ∈ S) :
    (S.map (outOf F f)).sum = sumWhere (flowOn F f) (fun e => decide (e.src ∈ S)) G.edges + sent N F f n.name := by
  rw [outOf_via hc hm hG f S hS hown (fun _ => true) (fun s ns h _ => hin s ns h) (fun _ _ _ h => by cases h), sentVia_true]

/-- Outflow of core nodes of a node that are no output connectors. -/
theorem outOf_other (f : Nat → ℚ) (S : List Name) (hS : S.Nodup) (hown : ∀ c ∈ S, c.1 = n.name)
    (hin : ∀ s ns, n.outputConnectors s = .ok ns → ∀ c ∈ ns, c ∉ S) :
    (S.map (outOf F f)).sum = sumWhere (flowOn F f) (fun e => decide (e.src ∈ S)) G.edges := by
  rw [outOf_via hc hm hG f S hS hown (fun _ => false) (fun _ _ _ h => by cases h) (fun s ns h _ => hin s ns h), sentVia_false]; simp

theorem mem_nodes {d : Decl} (hd : d ∈ G.nodes) : d ∈ F.nodes := by
  obtain ⟨Gs, Vs, Es, hparts⟩ := compile_parts hc
  rw [hparts.nodes', List.mem_flatMap]
  obtain ⟨k, hk⟩ := List.getElem?_of_mem hm
  obtain ⟨hlt, hget⟩ := List.getElem?_eq_some_iff.1 hk
  have hlt' : k < Gs.length := hparts.frags.length_eq ▸ hlt
  have hr := hparts.frags.get hlt hlt'
  simp only [List.get_eq_getElem, hget, hG, Except.ok.injEq] at hr
  exact ⟨G, hr ▸ List.getElem_mem hlt', hd⟩

theorem mem_aggs {a : AggDecl} (hd : a ∈ G.aggs) : a ∈ F.aggs := by
  obtain ⟨Gs, Vs, Es, hparts⟩ := compile_parts hc
  rw [hparts.aggs]
  apply List.mem_append_left
  rw [List.mem_flatMap]
  obtain ⟨k, hk⟩ := List.getElem?_of_mem hm
  obtain ⟨hlt, hget⟩ := List.getElem?_eq_some_iff.1 hk
  have hlt' : k < Gs.length := hparts.frags.length_eq ▸ hlt
  have hr := hparts.frags.get hlt hlt'
  simp only [List.get_eq_getElem, hget, hG, Except.ok.injEq] at hr
  exact ⟨G, hr ▸ List.getElem_mem hlt', hd⟩

end

theorem frag_of_mem {P : ParamNo} {N : Net} {F : Frag} (hc : N.compile P = .ok F) {n : SNode} (hm : n ∈ N.nodes) :
    ∃ G, n.frag P = .ok G := by
  obtain ⟨Gs, Vs, Es, hparts⟩ := compile_parts hc
  obtain ⟨k, hk⟩ := List.getElem?_of_mem hm
  obtain ⟨hlt, hget⟩ := List.getElem?_eq_some_iff.1 hk
  have hlt' : k < Gs.length := hparts.frags.length_eq ▸ hlt
  have hr := hparts.frags.get hlt hlt'
  simp only [List.get_eq_getElem, hget] at hr
  exact ⟨_, hr⟩

/-! ## Names of steps, splits and stores -/

theorem toString_inj {i j : Nat} (h : toString i = toString j) : i = j := by
  have h' : Nat.toDigits 10 i = Nat.toDigits 10 j := by
    have := congrArg String.toList h
    simpa [Nat.toString_eq_repr, Nat.toList_repr] using this
  have := congrArg (fun l => Nat.ofDigitChars 10 l 0) h'
  simpa [Nat.ofDigitChars_ten_toDigits] using this

theorem pad2_inj {i j : Nat} (h : pad2 i = pad2 j) : i = j := by
  have key : ∀ i, Nat.ofDigitChars 10 (pad2 i).toList 0 = i := by
    intro i
    unfold pad2
    split
    · have : ("0" ++ toString i).toList = '0' :: Nat.toDigits 10 i := by
        simp [Nat.toString_eq_repr, Nat.toList_repr]
      rw [this]
      have h0 : Nat.ofDigitChars 10 ('0' :: Nat.toDigits 10 i) 0 = Nat.ofDigitChars 10 (Nat.toDigits 10 i) 0 := by
        simp [Nat.ofDigitChars]
      rw [h0, Nat.ofDigitChars_ten_toDigits]
    · rw [Nat.toString_eq_repr, Nat.toList_repr, Nat.ofDigitChars_ten_toDigits]
  rw [← key i, ← key j, h]

theorem append_left_inj {a b c : String} (h : a ++ b = a ++ c) : b = c := by
  have := congrArg String.toList h
  simp only [String.toList_append, List.append_cancel_left_eq] at this
  exact String.toList_inj.1 this

theorem splitName_inj {x : String} {i j : Nat} (h : splitName x i = splitName x j) : i = j := by
  unfold splitName at h
  simp only [Prod.mk.injEq, Option.some.injEq, true_and] at h
  exact toString_inj (append_left_inj h)

theorem stepName_inj {x : String} {i j : Nat} (h : stepName x i = stepName x j) : i = j := by
  unfold stepName at h
  simp only [Prod.mk.injEq, Option.some.injEq, true_and] at h
  exact pad2_inj (append_left_inj h)

theorem storeName_inj {x : String} {i j : Nat} (h : storeName x i = storeName x j) : i = j := by
  unfold storeName at h
  simp only [Prod.mk.injEq, Option.some.injEq, true_and] at h
  exact pad2_inj (append_left_inj h)

theorem range_nodup {g : Nat → Name} (hg : ∀ i j, g i = g j → i = j) (k : Nat) : ((List.range k).map g).Nodup :=
  (List.nodup_range).map (fun _ _ h => hg _ _ h)

theorem splitName_ne (x : String) (i : Nat) : splitName x i ≠ (x, some "mrf") ∧ splitName x i ≠ (x, some "bypass") := by
  unfold splitName
  constructor <;>
  · intro h
    simp only [Prod.mk.injEq, Option.some.injEq, true_and] at h
    have := congrArg (fun s => s.toList.head?) h
    simp at this

end Verif.Schema
