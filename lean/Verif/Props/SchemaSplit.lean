import Verif.Props.SchemaLimits
import Verif.Lemmas.SchemaCheck

/-!
# C93: the parts of a river split

The residual flow is what goes through the core node `mrf` of the split, the water that is shared goes through `bypass` and
the nodes of the splits.
-/

namespace Verif.Schema

open Verif.State (NodeKind)
open Verif.Topology (Name EdgeDecl TNode)
open Verif.Solver (Metric NodeData Relationship Factors AtMost AtLeast f64MAX)

/-! ## Specification -/

/-- An edge from this slot starts at the split of number `i`: its number is given, or its name and no split before has that
name. -/
def SplitN.leads (b : SplitN) (i : Nat) : Option Slot → Bool
  | some (.split j) => j == i
  | some (.user x) => b.splits[i]?.any (fun s => s.slotName == some x) && (b.splits.take i).all (fun s => s.slotName != some x)
  | _ => false

/-- The part that each of several splits gets if each is in the given proportion to the sum of itself and what stays in the
river. -/
def share (gs : List ℚ) (g : ℚ) : ℚ := g / (1 - g) / (1 + (gs.map (fun g => g / (1 - g))).sum)

/-! ## Lemmas -/

theorem splitLoop_pair (x : String) (ss : List Split) (k i : Nat) (s : Split) (h : ss[i]? = some s) :
    (⟨(x, some ("split-agg-" ++ toString (k + i))), [[(x, some "bypass")], [splitName x (k + i)]], none, none,
      some (.factored (.proportion [s.factor]))⟩ : AggDecl) ∈ (splitLoop x ss k).aggs := by
  induction ss generalizing k i with
  | nil => simp at h
  | cons t ss ih =>
    simp only [splitLoop, Frag.add]
    cases i with
    | zero =>
      simp only [List.getElem?_cons_zero, Option.some.injEq] at h
      subst h
      simp
    | succ i =>
      have := ih (k + 1) i (by simpa using h)
      rw [show k + 1 + i = k + (i + 1) by omega] at this
      exact List.mem_append_right _ this

theorem sum_mul_right (l : List ℚ) (g : ℚ → ℚ) (c : ℚ) : (l.map g).sum * c = (l.map (fun x => g x * c)).sum := by
  induction l with
  | nil => simp
  | cons x l ih => simp [add_mul, ih]

theorem lt_sum (l : List ℚ) (h : ∀ x ∈ l, 0 < x) (hl : 2 ≤ l.length) (i : Nat) (x : ℚ) (hi : l[i]? = some x) : x < l.sum := by
  match l, i with
  | [], _ => simp at hl
  | [y], _ => simp at hl
  | y :: z :: l, 0 =>
    simp only [List.getElem?_cons_zero, Option.some.injEq] at hi
    subst hi
    have h1 := h z (by simp)
    have h2 : 0 ≤ l.sum := List.sum_nonneg fun x hx => (h x (by simp [hx])).le
    simp only [List.sum_cons]
    linarith
  | y :: z :: l, i + 1 =>
    have h1 := h y (by simp)
    have h2 : x ≤ (z :: l).sum :=
      List.single_le_sum (fun x hx => (h x (List.mem_cons_of_mem _ hx)).le) _
        (List.mem_of_getElem? (by simpa using hi : (z :: l)[i]? = some x))
    rw [List.sum_cons]
    linarith

theorem leads_findIdx (ss : List Split) (x : String) (i : Nat)
    (h1 : ss[i]?.any (fun s => s.slotName == some x) = true) (h2 : (ss.take i).all (fun s => s.slotName != some x) = true) :
    ss.findIdx? (fun s => s.slotName = some x) = some i := by
  induction ss generalizing i with
  | nil => simp at h1
  | cons s ss ih =>
    rw [List.findIdx?_cons]
    cases i with
    | zero =>
      have : s.slotName = some x := by simpa using h1
      simp [this]
    | succ i =>
      simp only [List.take_succ_cons, List.all_cons, Bool.and_eq_true, bne_iff_ne, ne_eq] at h2
      simp only [h2.1, decide_false, Bool.false_eq_true, if_false]
      rw [ih i (by simpa using h1) h2.2]
      rfl

section
variable {P : ParamNo} {N : Net} {F : Frag} {C : Core} (h : Built P N F C) {st : Solver.StepState} {f : Nat → ℚ}
  (ha : Solver.Allowed C.model st f) {n : SNode} (hm : n ∈ N.nodes)
include h ha hm

/-- What is sent from slots that lead to a core node is at most what leaves that. -/
theorem sentVia_le {c : Name} {G : Frag} (hG : n.frag P = .ok G) (hE : G.edges = []) (hown : c.1 = n.name) (q : Option Slot → Bool)
    (hin : ∀ s ns, n.outputConnectors s = .ok ns → q s = true → ∀ d ∈ ns, d = c) :
    sentVia N F f n.name q ≤ outOf F f c := by
  have hv := (validate_ok N (compile_parts h.compiled).choose_spec.choose_spec.choose_spec.valid).1
  have hF : ∀ e ∈ N.edges, ∀ p ∈ pairsOf N e, p ∈ F.edges := by
    intro e he p hp
    obtain ⟨Gs, Vs, Es, hparts⟩ := compile_parts h.compiled
    rw [hparts.edges', flatten_pairs hparts.pairs]
    exact List.mem_append_right _ (List.mem_flatMap.2 ⟨e, he, hp⟩)
  have hs := sum_outOf F f [c] (by simp)
  simp only [List.map_cons, List.map_nil, List.sum_cons, List.sum_nil, add_zero, List.mem_singleton] at hs
  rw [hs, split_edges h.compiled hm hG _ _ (fun e he => Or.inl (by
    have : e.src = c := by simpa using he
    rw [this, hown])), hE, sumWhere_nil, zero_add]
  have h1 : sentVia N F f n.name q ≤
      (N.edges.map (fun e => sumWhere (flowOn F f) (fun e => decide (e.src = c)) (pairsOf N e))).sum := by
    unfold sentVia
    have hF' := hF
    revert hF'
    generalize N.edges = es
    intro hF'
    induction es with
    | nil => simp
    | cons e es ih =>
      have ih := ih fun e he => hF' e (List.mem_cons_of_mem _ he)
      have hnn : 0 ≤ sumWhere (flowOn F f) (fun e => decide (e.src = c)) (pairsOf N e) := by
        unfold sumWhere
        apply List.sum_nonneg
        intro x hx
        obtain ⟨p, hp, rfl⟩ := List.mem_map.1 hx
        exact flowOn_nonneg h.built ha (hF' e (List.mem_cons_self ..) p (List.mem_of_mem_filter hp))
      rw [List.map_cons, List.sum_cons]
      by_cases hq : e.src = n.name ∧ q e.srcSlot = true
      · rw [List.filter_cons_of_pos (by simpa using hq), List.map_cons, List.sum_cons]
        refine add_le_add (le_of_eq ?_) ih
        rw [edgeFlow_eq]
        symm
        apply sumWhere_all
        intro p hp
        obtain ⟨s, hs, t, _, hs', _, froms, tos, hf, _, hps, _, _, _⟩ := pairsOf_ends hp
        have : s = n := by
          have h1 := node?_of_mem hv hs
          have h2 := node?_of_mem hv hm
          rw [hs', hq.1, h2] at h1
          simpa using h1.symm
        subst this
        simpa using hin _ _ hf hq.2 _ hps
      · rw [List.filter_cons_of_neg (by simpa using hq)]
        linarith
  exact h1

variable {b : SplitN} (hb : n.body = .riverSplit b)
include hb

/-- The lanes of a river split. -/
theorem split_lanes :
    received N F f n.name = nameFlow F f (n.name, some "mrf") + nameFlow F f (n.name, some "bypass") +
      ((List.range b.splits.length).map (fun i => nameFlow F f (splitName n.name i))).sum ∧
    0 ≤ nameFlow F f (n.name, some "mrf") ∧ 0 ≤ nameFlow F f (n.name, some "bypass") ∧
    (∀ i, i < b.splits.length → 0 ≤ nameFlow F f (splitName n.name i) ∧
      outOf F f (splitName n.name i) = nameFlow F f (splitName n.name i)) ∧
    AtMost st.metric b.mrf f64MAX (nameFlow F f (n.name, some "mrf")) := by
  have hp := parallel_split P n b hb
  obtain ⟨h1, h2⟩ := hp.balance h hm ha
  obtain ⟨-, -, h3, -⟩ := hp.sums h hm ha
  have hn : ∀ c ∈ b.names n.name, 0 ≤ nameFlow F f c ∧ outOf F f c = nameFlow F f c := by
    intro c hc
    rw [(h3 c hc).2]
    exact ⟨outOf_nonneg h.built ha c, rfl⟩
  refine ⟨?_, (hn _ (by simp [SplitN.names])).1, (hn _ (by simp [SplitN.names])).1, ?_, ?_⟩
  · rw [h1, ← h2]
    simp only [SplitN.names, List.map_append, List.map_cons, List.map_nil, List.sum_append, List.sum_cons, List.sum_nil,
      add_zero, List.map_map]
    rfl
  · intro i hi
    refine hn _ ?_
    unfold SplitN.names
    exact List.mem_append_right _ (List.mem_map_of_mem (List.mem_range.2 hi))
  · obtain ⟨G, hG⟩ := frag_of_mem h.compiled hm
    have hd : (⟨(n.name, some "mrf"), .link, flowData b.mrfCost none b.mrf, none⟩ : Decl) ∈ G.nodes := by
      unfold SNode.frag at hG
      simp only [hb, Except.ok.injEq] at hG
      subst hG
      unfold SplitN.frag
      exact List.mem_append_right _ (by simp)
    have hd' := mem_nodes h.compiled hm hG hd
    have := (flow_limits h.built ha hd' (by simp)).2
    rwa [← nameFlow_eq (names_nodup h.built) f hd'] at this

/-- The relation of a split to what stays in the river. -/
theorem split_pair {i : Nat} {s : Split} (hs : b.splits[i]? = some s) :
    ∃ g, s.factor.get st.metric = some g ∧ 0 < g ∧ g < 1 ∧
      nameFlow F f (splitName n.name i) = g * (nameFlow F f (n.name, some "bypass") + nameFlow F f (splitName n.name i)) := by
  obtain ⟨G, hG⟩ := frag_of_mem h.compiled hm
  have hagg := splitLoop_pair n.name b.splits 0 i s hs
  rw [Nat.zero_add] at hagg
  have hG' := hG
  unfold SNode.frag at hG'
  simp only [hb, Except.ok.injEq] at hG'
  have hmem := mem_aggs h.compiled hm hG (by subst hG'; exact List.mem_append_left _ hagg)
  exact two_proportion h.built ha hmem rfl rfl

/-- What is sent from the slots of a split goes through it. -/
theorem split_sent (i : Nat) (hi : i < b.splits.length) :
    sentVia N F f n.name (b.leads i) ≤ nameFlow F f (splitName n.name i) := by
  obtain ⟨G, hG⟩ := frag_of_mem h.compiled hm
  have hE : G.edges = [] := ((parallel_split P n b hb).frag G hG).1
  rw [← ((split_lanes h ha hm hb).2.2.2.1 i hi).2]
  refine sentVia_le h ha hm hG hE rfl _ ?_
  intro s ns hc hq d hd
  unfold SNode.outputConnectors at hc
  simp only [hb] at hc
  match s with
  | none => simp [SplitN.leads] at hq
  | some (.split j) =>
    simp only [SplitN.leads, beq_iff_eq] at hq
    subst hq
    simp only [hi, if_true, Except.ok.injEq] at hc
    subst hc
    simpa using hd
  | some (.user x) =>
    simp only [SplitN.leads, Bool.and_eq_true] at hq
    simp only [leads_findIdx b.splits x i hq.1 hq.2, Except.ok.injEq] at hc
    subst hc
    simpa using hd
  | some .river => simp [SplitN.leads] at hq
  | some .abstraction => simp [SplitN.leads] at hq
  | some .storage => simp [SplitN.leads] at hq
  | some .compensation => simp [SplitN.leads] at hq
  | some .spill => simp [SplitN.leads] at hq

/-! ## The claims -/

/-- **C93 (slots).** Of what a river split receives, a residual flow `r` within the limit given passes first. What is sent from the
slots of a split is at most its factor times the rest; the factors are between 0 and 1. -/
theorem C93_slot :
    ∃ r, 0 ≤ r ∧ r ≤ received N F f n.name ∧ AtMost st.metric b.mrf f64MAX r ∧ ∀ (i : Nat) (s : Split), b.splits[i]? = some s →
      ∃ g, s.factor.get st.metric = some g ∧ 0 < g ∧ g < 1 ∧
        sentVia N F f n.name (b.leads i) ≤ g * (received N F f n.name - r) := by
  obtain ⟨h1, h2, h3, h4, h5⟩ := split_lanes h ha hm hb
  have hsum : ∀ i, i < b.splits.length → nameFlow F f (splitName n.name i) ≤
      ((List.range b.splits.length).map (fun i => nameFlow F f (splitName n.name i))).sum := by
    intro i hi
    refine List.single_le_sum ?_ _ (List.mem_map_of_mem (List.mem_range.2 hi))
    intro x hx
    obtain ⟨j, hj, rfl⟩ := List.mem_map.1 hx
    exact (h4 j (List.mem_range.1 hj)).1
  have hnn : 0 ≤ ((List.range b.splits.length).map (fun i => nameFlow F f (splitName n.name i))).sum := by
    apply List.sum_nonneg
    intro x hx
    obtain ⟨j, hj, rfl⟩ := List.mem_map.1 hx
    exact (h4 j (List.mem_range.1 hj)).1
  refine ⟨nameFlow F f (n.name, some "mrf"), h2, by linarith, h5, ?_⟩
  intro i s hs
  have hi := (List.getElem?_eq_some_iff.1 hs).1
  obtain ⟨g, g1, g2, g3, g4⟩ := split_pair h ha hm hb hs
  refine ⟨g, g1, g2, g3, le_trans (split_sent h ha hm hb i hi) ?_⟩
  rw [g4]
  refine mul_le_mul_of_nonneg_left ?_ g2.le
  have := hsum i hi
  linarith

/-- **C93 (exactly).** The water of a river split beyond the residual flow is shared: each split gets the part `share`, in terms of all
factors. With one split this is its factor. -/
theorem C93_share {gs : List ℚ} (hg : b.splits.map (fun s => s.factor.get st.metric) = gs.map some) (i : Nat) (g : ℚ)
    (hi : gs[i]? = some g) :
    nameFlow F f (splitName n.name i) = share gs g * (received N F f n.name - nameFlow F f (n.name, some "mrf")) ∧
      (gs.length = 1 → share gs g = g) ∧ (2 ≤ gs.length → share gs g < g) := by
  obtain ⟨h1, h2, h3, h4, h5⟩ := split_lanes h ha hm hb
  have hl : b.splits.length = gs.length := by simpa using congrArg List.length hg
  have key : ∀ (j : Nat) (g : ℚ), gs[j]? = some g → 0 < g ∧ g < 1 ∧
      nameFlow F f (splitName n.name j) = g / (1 - g) * nameFlow F f (n.name, some "bypass") := by
    intro j g hj
    have hlt := (List.getElem?_eq_some_iff.1 hj).1
    obtain ⟨g', g1, g2, g3, g4⟩ := split_pair h ha hm hb (List.getElem?_eq_getElem (hl ▸ hlt))
    have : g' = g := by
      have e := congrArg (fun l => l[j]?) hg
      simp only [List.getElem?_map, hj, List.getElem?_eq_getElem (hl ▸ hlt : j < b.splits.length), Option.map_some, g1,
        Option.some.injEq] at e
      exact e
    subst this
    refine ⟨g2, g3, ?_⟩
    have : (1 - g') ≠ 0 := by linarith
    field_simp
    linarith
  have hsum : ((List.range b.splits.length).map (fun i => nameFlow F f (splitName n.name i))).sum =
      (gs.map (fun g => g / (1 - g))).sum * nameFlow F f (n.name, some "bypass") := by
    rw [hl, sum_mul_right]
    congr 1
    refine List.ext_getElem? fun j => ?_
    by_cases hj : j < gs.length
    · simp only [List.getElem?_map, List.getElem?_range hj, List.getElem?_eq_getElem hj, Option.map_some]
      rw [(key j _ (List.getElem?_eq_getElem hj)).2.2]
    · rw [List.getElem?_eq_none (by simpa using hj), List.getElem?_eq_none (by simpa using hj)]
  have hpos : ∀ x ∈ gs.map (fun g => g / (1 - g)), 0 < x := by
    intro x hx
    obtain ⟨g, hg, rfl⟩ := List.mem_map.1 hx
    obtain ⟨j, hj⟩ := List.mem_iff_getElem?.1 hg
    obtain ⟨a1, a2, -⟩ := key j g hj
    exact div_pos a1 (by linarith)
  have hS : 0 ≤ (gs.map (fun g => g / (1 - g))).sum := List.sum_nonneg fun x hx => (hpos x hx).le
  obtain ⟨a1, a2, a3⟩ := key i g hi
  have hne : (1 + (gs.map (fun g => g / (1 - g))).sum) ≠ 0 := by linarith
  have hne' : (1 - g) ≠ 0 := by linarith
  refine ⟨?_, ?_, ?_⟩
  · have : received N F f n.name - nameFlow F f (n.name, some "mrf") =
        (1 + (gs.map (fun g => g / (1 - g))).sum) * nameFlow F f (n.name, some "bypass") := by
      rw [h1, hsum]
      ring
    rw [this, a3]
    unfold share
    field_simp
  · intro h1
    obtain ⟨x, rfl⟩ := List.length_eq_one_iff.1 h1
    have : i = 0 := by
      have := (List.getElem?_eq_some_iff.1 hi).1
      simp at this
      omega
    subst this
    simp only [List.getElem?_cons_zero, Option.some.injEq] at hi
    subst hi
    unfold share
    simp only [List.map_cons, List.map_nil, List.sum_cons, List.sum_nil, add_zero]
    field_simp
    ring
  · intro h2
    have hlt := lt_sum _ hpos (by simpa using h2) i (g / (1 - g)) (by simp [hi])
    have hp : 0 < g / (1 - g) := div_pos a1 (by linarith)
    have e : g = g / (1 - g) / (1 + g / (1 - g)) := by
      have : (1 + g / (1 - g)) ≠ 0 := by linarith
      field_simp
      ring
    unfold share
    conv_rhs => rw [e]
    exact div_lt_div_of_pos_left hp (by linarith) (by linarith)

end

end Verif.Schema
