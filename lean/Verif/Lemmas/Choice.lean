import Verif.Lemmas.ChoiceTwin

/-!
# Solutions with exclusive groups and solutions without
-/

namespace Verif.Solver

open Verif.State (NodeKind Edge)
open Verif.Topology (Network TNode)

theorem flow_nonneg {M : Model} (hv : M.Valid) {f : Nat → ℚ} (hf : ∀ e < M.net.edges.length, 0 ≤ f e) {n : TNode}
    (hn : n ∈ M.net.nodes) (hk : n.kind ≠ .storage) : 0 ≤ nodeFlow f n := by
  have hed := edges_in_range (Created.wf hv) n hn
  unfold nodeFlow
  cases hkk : n.kind with
  | storage => exact absurd hkk hk
  | input => exact sum_nonneg' (by
      intro q hq; obtain ⟨e, he, rfl⟩ := List.mem_map.1 hq; exact hf e (hed e (Or.inr he)))
  | link => exact sum_nonneg' (by
      intro q hq; obtain ⟨e, he, rfl⟩ := List.mem_map.1 hq; exact hf e (hed e (Or.inr he)))
  | output => exact sum_nonneg' (by
      intro q hq; obtain ⟨e, he, rfl⟩ := List.mem_map.1 hq; exact hf e (hed e (Or.inl he)))

theorem sum_choice (y : List Nat → ℚ) (on : List Nat → Bool) (gs : List (List Nat))
    (h : ∀ g ∈ gs, y g = if on g then 1 else 0) : (gs.map y).sum = ((gs.filter on).length : ℚ) := by
  induction gs with
  | nil => simp
  | cons g gs ih =>
    rw [List.forall_mem_cons] at h
    rw [List.map_cons, List.sum_cons, ih h.2, h.1, List.filter_cons]
    by_cases hg : on g = true
    · simp [hg]; ring
    · simp [hg]

/-- The member with an index. -/
theorem member_node {M : Model} (hv : M.Valid) {g : List Nat} (hg : IsGroup M g) {i : Nat} (hi : i ∈ g) :
    ∃ n ∈ M.net.nodes, n.index = i ∧ ∀ f, flowAt M.net f i = nodeFlow f n := by
  obtain ⟨a, ha, mn, mx, _, hga⟩ := hg
  have hlt := hv.aggs a ha g hga i hi
  have hget := List.getElem?_eq_getElem hlt
  refine ⟨M.net.nodes[i], List.getElem_mem hlt, (Created.wf hv).nodeIndex i _ hget, fun f => ?_⟩
  unfold flowAt
  rw [hget]; rfl

theorem million_le_max : (1000000 : ℚ) ≤ f64MAX := by decide +kernel

section
variable {M : Model} {big negBig : ℚ} {sets : List (List Nat)} {s s' : Built} {m : ColMap} {b b' : LpBuilder} {bins : Bins}
  {core : (Nat → ℚ) → Prop}

theorem Pair2.rows_iff (h : Pair2 M big negBig sets s s' m b b' bins core) (x : Nat → ℚ) :
    ∃ var : Prop, (s.lp.RowsHold x ↔ var ∧ ∀ r ∈ b.fixedRows, r.Holds big x) ∧
      (s'.lp.RowsHold x ↔ var ∧ ∀ r ∈ b'.fixedRows, r.Holds big x) := by
  obtain ⟨lp, t, c, t', c', hb, _, _, e, e'⟩ := h.both
  have hk := h.keep
  have hk' := h.keep'
  rw [e] at hk
  rw [e'] at hk'
  refine ⟨lp.RowsHold x, ?_, ?_⟩
  · rw [e, rowsHold_onto hb hk, h.twin.f64Max]
  · rw [e', rowsHold_onto (by rw [h.twin.rows]; exact hb) hk', h.twin.f64Max']

/-- Solutions with groups are solutions without, and give a choice. -/
theorem Pair2.sound (h : Pair2 M big negBig sets s s' m b b' bins core) (hv : M.Valid) (hmc : MembersConstant M)
    (hg : GroupsAre M sets) {x : Nat → ℚ} (hx : s.lp.Feasible x) :
    s'.lp.Feasible x ∧ Choice M (via m x) (fun g => decide (x (groupCol bins.ofSet g) = 1)) := by
  obtain ⟨var, r1, r2⟩ := h.rows_iff x
  obtain ⟨hvar, hfix⟩ := r1.1 hx.1
  obtain ⟨hcore, hnode, hex⟩ := (h.twin.fixed x).1 hfix
  have hcols := hx.2
  unfold Lp.ColsHold at hcols
  rw [h.keep.colLower, h.keep.colUpper, h.keep.colType, h.twin.colLower, h.twin.colUpper, h.twin.colType] at hcols
  have hedge : ∀ c < m.colToEdges.length, 0 ≤ x c ∧ x c ≤ big := by
    intro c hc
    obtain ⟨q1, q2, _⟩ := hcols c 0 big (by rw [List.getElem?_replicate, if_pos (by omega)])
      (by rw [List.getElem?_append_left (by simpa using hc), List.getElem?_replicate, if_pos hc])
    exact ⟨q1, q2⟩
  have hbin : ∀ g k, (g, k) ∈ sets.zipIdx m.colToEdges.length → x k = 0 ∨ x k = 1 := by
    intro g c hgc
    obtain ⟨h1, hk⟩ := of_mem_zipIdx _ _ _ _ hgc
    have h2 : c < m.colToEdges.length + sets.length := by
      have := (List.getElem?_eq_some_iff.1 hk).1; omega
    obtain ⟨g1, g2, g3⟩ := hcols c 0 1 (by rw [List.getElem?_replicate, if_pos h2])
      (by rw [List.getElem?_append_right (by simpa using h1), List.getElem?_replicate, if_pos (by simp; omega)])
    obtain ⟨k, hkk⟩ := g3 (by rw [List.getElem?_append_right (by simpa using h1), List.getElem?_replicate, if_pos (by simp; omega)])
    rw [hkk] at g1 g2 ⊢
    have h1 : (0 : Int) ≤ k := by exact_mod_cast g1
    have h2 : k ≤ (1 : Int) := by exact_mod_cast g2
    have : k = 0 ∨ k = 1 := by omega
    rcases this with rfl | rfl <;> simp
  have hnn : ∀ e < M.net.edges.length, 0 ≤ via m x e := fun e he => (hedge _ ((h.twin.colsOk hv).2.2.1 e he)).1
  -- members and their groups
  have hmem : ∀ g, IsGroup M g → ∀ i ∈ g, ∀ n ∈ M.net.nodes, n.index = i → ∀ lo hi, constBounds n (M.data n.index) = some (lo, hi) →
      BinHold big lo hi (nodeFlow (via m x) n) (x (groupCol bins.ofSet g)) := by
    intro g hgr i hi n hn hix lo up hcb
    obtain ⟨cs, c1, c2⟩ := h.twin.member g ((hg g).2 hgr) i hi
    rw [← hix] at c1
    exact (hnode n hn lo up hcb).2 cs c1 _ c2
  have hcol : ∀ g, IsGroup M g → x (groupCol bins.ofSet g) = 0 ∨ x (groupCol bins.ofSet g) = 1 :=
    fun g hgr => hbin g _ (h.twin.ofSet g ((hg g).2 hgr))
  refine ⟨⟨r2.2 ⟨hvar, (h.twin.fixed' x).2 ⟨hcore, ?_⟩⟩, ?_⟩, ?_, ?_, ?_⟩
  · intro n hn lo hi hcb
    by_cases hin : InGroup M n.index
    · obtain ⟨lo0, hi0, _, hk, _, q1, q2⟩ := member_bounds hv hmc hn hin
      rw [q2] at hcb
      simp only [Option.some.injEq, Prod.mk.injEq] at hcb
      obtain ⟨rfl, rfl⟩ := hcb
      refine ⟨flow_nonneg hv hnn hn hk, ?_⟩
      obtain ⟨g, hgr, hi⟩ := hin
      have hb := hmem g hgr _ hi n hn rfl lo0 hi0 q1
      have h1 := hb.1.1
      have hle := min_le_right hi0 (1000000 : ℚ)
      have hM := million_le_max
      generalize f64MAX = F at hM ⊢
      rcases hcol g hgr with h0 | h0
      · rw [h0, mul_zero] at h1; linarith
      · rw [h0, mul_one] at h1; linarith
    · rw [Model.relax_out hin] at hcb
      exact (hnode n hn lo hi hcb).1 ((h.twin.noNode _).2 hin)
  · unfold Lp.ColsHold
    rw [h.keep'.colLower, h.keep'.colUpper, h.keep'.colType, h.twin.colLower', h.twin.colUpper', h.twin.colType']
    intro c lo hi hlo hhi
    obtain ⟨h1, rfl⟩ := List.getElem?_eq_some_iff.1 hlo
    obtain ⟨_, rfl⟩ := List.getElem?_eq_some_iff.1 hhi
    have hc : c < m.colToEdges.length := by simpa using h1
    obtain ⟨q1, q2⟩ := hedge c hc
    refine ⟨by simpa using q1, by simpa using q2, fun hi => ?_⟩
    rw [List.getElem?_replicate, if_pos hc] at hi
    cases hi
  · intro a ha mn mx he
    obtain ⟨e1, e2⟩ := hex a ha mn mx he
    rw [sum_choice (fun g => x (groupCol bins.ofSet g)) (fun g => decide (x (groupCol bins.ofSet g) = 1)) a.nodes (by
      intro g hga
      rcases hcol g ⟨a, ha, mn, mx, he, hga⟩ with h0 | h0 <;> simp [h0])] at e1 e2
    exact ⟨by exact_mod_cast e1, by exact_mod_cast e2⟩
  · intro g hgr hoff i hi
    obtain ⟨n, hn, hix, hfl⟩ := member_node hv hgr hi
    obtain ⟨lo, up, _, hk, _, q1, _⟩ := member_bounds hv hmc hn ⟨g, hgr, by rw [hix]; exact hi⟩
    have hb := hmem g hgr i hi n hn hix lo up q1
    have h0 : x (groupCol bins.ofSet g) = 0 := by
      rcases hcol g hgr with h | h
      · exact h
      · simp [h] at hoff
    have h1 := hb.1.1
    rw [h0, mul_zero] at h1
    rw [hfl]
    have := flow_nonneg hv hnn hn hk
    linarith
  · intro g hgr hon i hi lo up hcb
    have hon' : x (groupCol bins.ofSet g) = 1 := of_decide_eq_true hon
    obtain ⟨n, n1, n2, n3, n4, n5⟩ := constBounds_of hv hcb
    have hfl : flowAt M.net (via m x) i = nodeFlow (via m x) n := by simp [flowAt, n1]
    have hb := hmem g hgr i hi n n2 n3 lo up n5
    unfold BinHold at hb
    rw [hon', mul_one, mul_one] at hb
    rw [hfl]
    have h1 := hb.1.1
    refine ⟨by linarith [min_le_left up (1000000 : ℚ)], by linarith [min_le_right up (1000000 : ℚ)], fun hlo => ?_⟩
    have h2 := (hb.2 hlo).1
    exact ⟨by linarith [le_max_left lo (1 / 1000000 : ℚ)], by linarith [le_max_right lo (1 / 1000000 : ℚ)]⟩

/-- Solutions without groups with a choice are solutions with groups. -/
theorem Pair2.complete (h : Pair2 M big negBig sets s s' m b b' bins core) (hv : M.Valid) (hmc : MembersConstant M)
    (hg : GroupsAre M sets) (hbig : 1000000 ≤ big) {x : Nat → ℚ} (hx : s'.lp.Feasible x) {on : List Nat → Bool}
    (hon : Choice M (via m x) on)
    (hbin : ∀ (k : Nat) (g : List Nat), sets[k]? = some g → x (m.colToEdges.length + k) = if on g then 1 else 0) : s.lp.Feasible x := by
  obtain ⟨var, r1, r2⟩ := h.rows_iff x
  obtain ⟨hvar, hfix⟩ := r2.1 hx.1
  obtain ⟨hcore, hnode⟩ := (h.twin.fixed' x).1 hfix
  have hcols := hx.2
  unfold Lp.ColsHold at hcols
  rw [h.keep'.colLower, h.keep'.colUpper, h.keep'.colType, h.twin.colLower', h.twin.colUpper', h.twin.colType'] at hcols
  have hedge : ∀ c < m.colToEdges.length, 0 ≤ x c ∧ x c ≤ big := by
    intro c hc
    obtain ⟨q1, q2, _⟩ := hcols c 0 big (by rw [List.getElem?_replicate, if_pos hc]) (by rw [List.getElem?_replicate, if_pos hc])
    exact ⟨q1, q2⟩
  have hnn : ∀ e < M.net.edges.length, 0 ≤ via m x e := fun e he => (hedge _ ((h.twin.colsOk hv).2.2.1 e he)).1
  have hval : ∀ g k, (g, k) ∈ sets.zipIdx m.colToEdges.length → x k = if on g then 1 else 0 := by
    intro g k hgk
    obtain ⟨h1, h2⟩ := of_mem_zipIdx _ _ _ _ hgk
    have := hbin _ g h2
    rwa [show m.colToEdges.length + (k - m.colToEdges.length) = k by omega] at this
  refine ⟨r1.2 ⟨hvar, (h.twin.fixed x).2 ⟨hcore, ?_, ?_⟩⟩, ?_⟩
  · intro n hn lo hi hcb
    refine ⟨fun hl => ?_, fun cs hl k hk => ?_⟩
    · have hout := (h.twin.noNode _).1 hl
      exact hnode n hn lo hi (by rw [Model.relax_out hout]; exact hcb)
    · obtain ⟨g, hi', hgk⟩ := h.twin.ofNode _ _ hl k hk
      have hgs : g ∈ sets := List.mem_of_getElem? (of_mem_zipIdx _ _ _ _ hgk).2
      have hgr := (hg g).1 hgs
      obtain ⟨lo0, hi0, q0, hkk, hnk, q1, _⟩ := member_bounds hv hmc hn ⟨g, hgr, hi'⟩
      rw [hcb] at q1
      simp only [Option.some.injEq, Prod.mk.injEq] at q1
      obtain ⟨rfl, rfl⟩ := q1
      have hfl : flowAt M.net (via m x) n.index = nodeFlow (via m x) n := by simp [flowAt, hnk]
      have h0 := flow_nonneg hv hnn hn hkk
      rw [hval g k hgk]
      unfold BinHold
      cases ho : on g with
      | false =>
        have := hon.idle g hgr ho _ hi'
        rw [hfl] at this
        rw [this]
        have hb0 : (0 : ℚ) ≤ big := le_trans (by norm_num) hbig
        simp only [Bool.false_eq_true, if_false, mul_zero, sub_zero]
        exact ⟨⟨le_refl _, hb0⟩, fun _ => ⟨le_refl _, hb0⟩⟩
      | true =>
        obtain ⟨b1, b2, b3⟩ := hon.busy g hgr ho _ hi' lo hi q0
        rw [hfl] at b1 b2 b3
        simp only [if_true, mul_one]
        refine ⟨⟨by linarith [le_min b1 b2], by linarith [min_le_right hi (1000000 : ℚ)]⟩, fun hlo => ?_⟩
        obtain ⟨c1, c2⟩ := b3 hlo
        have := max_le c1 c2
        have h3 := le_max_right lo (1 / 1000000 : ℚ)
        have h4 : (0 : ℚ) ≤ 1 / 1000000 := by norm_num
        exact ⟨by linarith, by linarith⟩
  · intro a ha mn mx he
    obtain ⟨e1, e2⟩ := hon.count a ha mn mx he
    rw [sum_choice (fun g => x (groupCol bins.ofSet g)) on a.nodes (by
      intro g hga
      exact hval g _ (h.twin.ofSet g ((hg g).2 ⟨a, ha, mn, mx, he, hga⟩)))]
    exact ⟨by exact_mod_cast e1, by exact_mod_cast e2⟩
  · unfold Lp.ColsHold
    rw [h.keep.colLower, h.keep.colUpper, h.keep.colType, h.twin.colLower, h.twin.colUpper, h.twin.colType]
    intro c lo hi hlo hhi
    rw [List.getElem?_replicate] at hlo
    split_ifs at hlo with hc
    simp only [Option.some.injEq] at hlo
    subst hlo
    by_cases hc' : c < m.colToEdges.length
    · rw [List.getElem?_append_left (by simpa using hc'), List.getElem?_replicate, if_pos hc'] at hhi
      simp only [Option.some.injEq] at hhi
      subst hhi
      obtain ⟨q1, q2⟩ := hedge c hc'
      refine ⟨q1, q2, fun hi => ?_⟩
      rw [List.getElem?_append_left (by simpa using hc'), List.getElem?_replicate, if_pos hc'] at hi
      cases hi
    · rw [List.getElem?_append_right (by simpa using hc'), List.getElem?_replicate, if_pos (by simp; omega)] at hhi
      simp only [Option.some.injEq] at hhi
      subst hhi
      have hk : c - m.colToEdges.length < sets.length := by omega
      have hv' := hbin (c - m.colToEdges.length) _ (List.getElem?_eq_getElem hk)
      rw [show m.colToEdges.length + (c - m.colToEdges.length) = c by omega] at hv'
      rw [hv']
      split_ifs
      · exact ⟨by norm_num, le_refl _, fun _ => ⟨1, by norm_num⟩⟩
      · exact ⟨le_refl _, by norm_num, fun _ => ⟨0, by norm_num⟩⟩

end

/-! ## The allocation problem without groups -/

section
variable {M : Model}

theorem relax_nodeOk {st : StepState} {f : Nat → ℚ} {n : TNode} (h : ¬ InGroup M n.index) :
    NodeOk M.relax st f n ↔ NodeOk M st f n := by
  unfold NodeOk
  rw [Model.relax_out h]

theorem relax_aggFlow (f : Nat → ℚ) (a : AggNode) : aggFlow M.net f a.relax = aggFlow M.net f a := rfl

/-- Flows allowed with groups are those allowed without for which there is a choice. -/
theorem allowed_relax (hv : M.Valid) (hmc : MembersConstant M) {st : StepState} {f : Nat → ℚ} :
    AllowedChoice M st f ↔ Allowed M.relax st f ∧ ∃ on, Choice M f on := by
  constructor
  · intro h
    refine ⟨⟨h.nonneg, h.balanced, ?_, ?_, ?_, h.vs⟩, h.choice⟩
    · intro n hn
      by_cases hin : InGroup M n.index
      · obtain ⟨lo, hi, hcb, hk, hnk, _, _⟩ := member_bounds hv hmc hn hin
        have hd : (M.relax.data n.index).minFlow = none ∧ (M.relax.data n.index).maxFlow = none := by
          unfold Model.relax
          simp only [if_pos hin, and_self]
        unfold NodeOk
        rw [if_neg hk, hd.1, hd.2]
        have h0 := flow_nonneg hv h.nonneg hn hk
        refine ⟨h0, ?_⟩
        show nodeFlow f n ≤ f64MAX
        obtain ⟨on, hon⟩ := h.choice
        obtain ⟨g, hgr, hi'⟩ := hin
        have hfl : flowAt M.net f n.index = nodeFlow f n := by simp [flowAt, hnk]
        have hM := million_le_max
        generalize f64MAX = F at hM ⊢
        cases ho : on g with
        | false =>
          have := hon.idle g hgr ho _ hi'
          rw [hfl] at this
          rw [this]; linarith
        | true =>
          have := (hon.busy g hgr ho _ hi' lo hi hcb).2.1
          rw [hfl] at this
          linarith
      · exact (relax_nodeOk hin).2 (h.nodes n hn hin)
    · intro a ha
      obtain ⟨a', ha', rfl⟩ := List.mem_map.1 ha
      exact h.aggs a' ha'
    · intro a ha F hF
      obtain ⟨a', ha', rfl⟩ := List.mem_map.1 ha
      rw [a'.relax_factors] at hF
      exact h.factors a' ha' F hF
  · rintro ⟨h, hc⟩
    refine ⟨h.nonneg, h.balanced, fun n hn hin => (relax_nodeOk hin).1 (h.nodes n hn), ?_, ?_, h.vs, hc⟩
    · intro a ha
      exact h.aggs a.relax (List.mem_map.2 ⟨a, ha, rfl⟩)
    · intro a ha F hF
      exact h.factors a.relax (List.mem_map.2 ⟨a, ha, rfl⟩) F (by rw [a.relax_factors]; exact hF)

theorem constBounds_relax (hv : M.Valid) (hmc : MembersConstant M) {n : TNode} (hn : n ∈ M.net.nodes) :
    constBounds n (M.relax.data n.index) = none ↔ constBounds n (M.data n.index) = none := by
  by_cases hin : InGroup M n.index
  · obtain ⟨_, _, _, _, _, q1, q2⟩ := member_bounds hv hmc hn hin
    rw [q1, q2]; simp
  · rw [Model.relax_out hin]

theorem limits_relax (hv : M.Valid) (hmc : MembersConstant M) {big negBig : ℚ} {st : StepState} {f : Nat → ℚ} :
    WithinLimits M.relax big negBig st f ↔ WithinLimits M big negBig st f := by
  constructor
  · intro h
    refine ⟨h.edges, fun n hn hc => h.nodes n hn ((constBounds_relax hv hmc hn).2 hc), ?_, h.vs, ?_⟩
    · intro a ha; exact h.aggs a.relax (List.mem_map.2 ⟨a, ha, rfl⟩)
    · intro a ha F cps ps hF
      exact h.factors a.relax (List.mem_map.2 ⟨a, ha, rfl⟩) F cps ps (by rw [a.relax_factors]; exact hF)
  · intro h
    refine ⟨h.edges, fun n hn hc => h.nodes n hn ((constBounds_relax hv hmc hn).1 hc), ?_, h.vs, ?_⟩
    · intro a ha
      obtain ⟨a', ha', rfl⟩ := List.mem_map.1 ha
      exact h.aggs a' ha'
    · intro a ha F cps ps hF
      obtain ⟨a', ha', rfl⟩ := List.mem_map.1 ha
      rw [a'.relax_factors] at hF
      exact h.factors a' ha' F cps ps hF

theorem defined_relax (hv : M.Valid) (hmc : MembersConstant M) {st : StepState} : Defined M.relax st ↔ Defined M st := by
  constructor
  · intro h
    refine ⟨h.costs, ?_, h.volumes, ?_, ?_, h.vs⟩
    · intro n hn hk
      by_cases hin : InGroup M n.index
      · obtain ⟨lo, hi, ⟨_, _, _, h3, h4⟩, _⟩ := member_bounds hv hmc hn hin
        refine ⟨⟨lo, ?_⟩, ⟨hi, ?_⟩⟩
        · rcases h3 with h | ⟨h, rfl⟩
          · rw [h]; rfl
          · rw [h]; rfl
        · rcases h4 with h | ⟨h, rfl⟩
          · rw [h]; rfl
          · rw [h]; rfl
      · have := h.flows n hn hk
        rwa [Model.relax_out hin] at this
    · intro a ha; exact h.aggs a.relax (List.mem_map.2 ⟨a, ha, rfl⟩)
    · intro a ha F hF
      exact h.factors a.relax (List.mem_map.2 ⟨a, ha, rfl⟩) F (by rw [a.relax_factors]; exact hF)
  · intro h
    refine ⟨h.costs, ?_, h.volumes, ?_, ?_, h.vs⟩
    · intro n hn hk
      by_cases hin : InGroup M n.index
      · have hd : (M.relax.data n.index).minFlow = none ∧ (M.relax.data n.index).maxFlow = none := by
          unfold Model.relax
          simp only [if_pos hin, and_self]
        rw [hd.1, hd.2]
        exact ⟨⟨0, rfl⟩, ⟨f64MAX, rfl⟩⟩
      · rw [Model.relax_out hin]; exact h.flows n hn hk
    · intro a ha
      obtain ⟨a', ha', rfl⟩ := List.mem_map.1 ha
      exact h.aggs a' ha'
    · intro a ha F hF
      obtain ⟨a', ha', rfl⟩ := List.mem_map.1 ha
      rw [a'.relax_factors] at hF
      exact h.factors a' ha' F hF

/-- A choice depends on the flows along edges only. -/
theorem Choice.agree (hv : M.Valid) {f g : Nat → ℚ} (h : ∀ e < M.net.edges.length, f e = g e) {on : List Nat → Bool}
    (hc : Choice M f on) : Choice M g on := by
  have e := flowAt_agree hv h
  exact ⟨hc.count, by rw [← e]; exact hc.idle, by rw [← e]; exact hc.busy⟩

end

end Verif.Solver
