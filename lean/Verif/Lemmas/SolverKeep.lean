import Verif.Lemmas.SolverMain

/-! # What every program keeps, with or without exclusivity and whatever the factors -/

namespace Verif.Solver

open Verif.State (NodeKind Edge)
open Verif.Topology (Network TNode)

/-! ## Changes that leave fixed rows alone -/

/-- `lp'` differs from `lp` only in bounds and pending coefficients of rows before `nv`. -/
structure Same (nv : Nat) (lp lp' : Lp) : Prop where
  eq : lp' = { lp with rowLower := lp'.rowLower, rowUpper := lp'.rowUpper, coefficientsToUpdate := lp'.coefficientsToUpdate }
  lower : ∀ j, nv ≤ j → lp'.rowLower[j]? = lp.rowLower[j]?
  upper : ∀ j, nv ≤ j → lp'.rowUpper[j]? = lp.rowUpper[j]?
  lenLower : lp'.rowLower.length = lp.rowLower.length
  lenUpper : lp'.rowUpper.length = lp.rowUpper.length
  coefs : ∀ t ∈ lp'.coefficientsToUpdate, t ∈ lp.coefficientsToUpdate ∨ t.1 < nv

theorem Same.refl (nv : Nat) (lp : Lp) : Same nv lp lp := ⟨rfl, fun _ _ => rfl, fun _ _ => rfl, rfl, rfl, fun _ h => Or.inl h⟩

theorem Same.trans {nv : Nat} {a b c : Lp} (h : Same nv a b) (h' : Same nv b c) : Same nv a c := by
  refine ⟨?_, ?_, ?_, ?_, ?_, ?_⟩
  · rw [h'.eq, h.eq]
  · intro j hj; rw [h'.lower j hj, h.lower j hj]
  · intro j hj; rw [h'.upper j hj, h.upper j hj]
  · rw [h'.lenLower, h.lenLower]
  · rw [h'.lenUpper, h.lenUpper]
  · intro t ht
    rcases h'.coefs t ht with h1 | h1
    · exact h.coefs t h1
    · exact Or.inr h1

theorem same_bounds {nv row : Nat} (h : row < nv) {lp lp' : Lp} {l u : ℚ} (he : lp.applyRowBounds row l u = some lp') :
    Same nv lp lp' := by
  obtain ⟨_, _, rfl⟩ := applyRowBounds_some he
  refine ⟨rfl, ?_, ?_, by simp, by simp, fun _ h => Or.inl h⟩
  · intro j hj; have : row ≠ j := by omega
    simp [this]
  · intro j hj; have : row ≠ j := by omega
    simp [this]

theorem same_push {nv row : Nat} (h : row < nv) (lp : Lp) (c : Nat) (v : ℚ) : Same nv lp (lp.pushCoefficient row c v) := by
  refine ⟨rfl, fun _ _ => rfl, fun _ _ => rfl, rfl, rfl, ?_⟩
  intro t ht
  simp only [Lp.pushCoefficient, List.mem_append, List.mem_singleton] at ht
  rcases ht with ht | rfl
  · exact Or.inl ht
  · exact Or.inr h

theorem nodeBoundsLoop_same (M : Model) (st : StepState) {nv : Nat} (rs : List NodeRow) : (∀ r ∈ rs, r.row < nv) → ∀ lp lp',
    nodeBoundsLoop M st rs lp = .ok lp' → Same nv lp lp' := by
  induction rs with
  | nil =>
    intro _ lp lp' h
    simp only [nodeBoundsLoop, Except.ok.injEq] at h
    subst h; exact Same.refl _ _
  | cons r rs ih =>
    intro hr lp lp' h
    rw [List.forall_mem_cons] at hr
    simp only [nodeBoundsLoop] at h
    cases hn : M.net.nodes[r.node]? with
    | none => simp [hn] at h
    | some n =>
      cases hb : nodeBounds n (M.data n.index) st with
      | none => simp [hn, hb] at h
      | some p =>
        obtain ⟨lo, hi⟩ := p
        simp only [hn, hb] at h
        cases ht : r.type with
        | continuous =>
          simp only [ht] at h
          cases ha : lp.applyRowBounds r.row lo hi with
          | none => simp [ha] at h
          | some lp1 =>
            simp only [ha] at h
            exact (same_bounds hr.1 ha).trans (ih hr.2 _ _ h)
        | binaryUpper c =>
          simp only [ht] at h
          exact (same_push hr.1 _ _ _).trans (ih hr.2 _ _ h)
        | binaryLower c =>
          simp only [ht] at h
          exact (same_push hr.1 _ _ _).trans (ih hr.2 _ _ h)

theorem pushEdges_same (cols : List Nat) {nv row : Nat} (hr : row < nv) (k : ℚ) (es : List Nat) : ∀ lp lp',
    pushEdges cols row k es lp = some lp' → Same nv lp lp' := by
  induction es with
  | nil =>
    intro lp lp' h
    simp only [pushEdges, Option.some.injEq] at h
    subst h; exact Same.refl _ _
  | cons e es ih =>
    intro lp lp' h
    simp only [pushEdges] at h
    cases hc : cols[e]? with
    | none => simp [hc] at h
    | some c =>
      simp only [hc] at h
      exact (same_push hr _ _ _).trans (ih _ _ h)

theorem pushNode_same (cols : List Nat) {nv row : Nat} (hr : row < nv) (n : TNode) (k : ℚ) (lp lp' : Lp)
    (h : pushNode cols row n k lp = some lp') : Same nv lp lp' := by
  unfold pushNode at h
  cases hk : n.kind with
  | storage =>
    simp only [hk] at h
    cases h1 : pushEdges cols row k n.incoming lp with
    | none => simp [h1] at h
    | some lp1 =>
      simp only [h1] at h
      exact (pushEdges_same cols hr k _ _ _ h1).trans (pushEdges_same cols hr k _ _ _ h)
  | _ =>
    simp only [hk] at h
    exact pushEdges_same cols hr k _ _ _ h

theorem pushNodes_same (net : Network) (cols : List Nat) {nv row : Nat} (hr : row < nv) (k : ℚ) (is : List Nat) : ∀ lp lp',
    pushNodes net cols row k is lp = some lp' → Same nv lp lp' := by
  induction is with
  | nil =>
    intro lp lp' h
    simp only [pushNodes, Option.some.injEq] at h
    subst h; exact Same.refl _ _
  | cons i is ih =>
    intro lp lp' h
    simp only [pushNodes] at h
    cases hn : net.nodes[i]? with
    | none => simp [hn] at h
    | some n =>
      simp only [hn] at h
      cases h1 : pushNode cols row n k lp with
      | none => simp [h1] at h
      | some lp1 =>
        simp only [h1] at h
        exact (pushNode_same cols hr n k _ _ h1).trans (ih _ _ h)

theorem updatePair_same (net : Network) (cols : List Nat) {nv row : Nat} (hr : row < nv) (p : Pair) (lp lp' : Lp)
    (h : updatePair net cols row p lp = .ok lp') : Same nv lp lp' := by
  unfold updatePair at h
  cases h0 : p.f0 with
  | none => simp [h0] at h
  | some k0 =>
    cases h1 : p.f1 with
    | none => simp [h0, h1] at h
    | some k1 =>
      simp only [h0, h1] at h
      cases e1 : pushNodes net cols row k0 p.nodes0 lp with
      | none => simp [e1] at h
      | some lp1 =>
        simp only [e1] at h
        cases e2 : pushNodes net cols row k1 p.nodes1 lp1 with
        | none => simp [e2] at h
        | some lp2 =>
          simp only [e2] at h
          cases e3 : lp2.applyRowBounds row p.rhs p.rhs with
          | none => simp [e3] at h
          | some lp3 =>
            simp only [e3, Except.ok.injEq] at h
            subst h
            exact ((pushNodes_same net cols hr _ _ _ _ e1).trans (pushNodes_same net cols hr _ _ _ _ e2)).trans (same_bounds hr e3)

theorem updatePairs_same (net : Network) (cols : List Nat) {nv : Nat} (l : List (Pair × Option Nat)) :
    (∀ t ∈ l, ∀ i, t.2 = some i → i < nv) → ∀ lp lp', updatePairs net cols l lp = .ok lp' → Same nv lp lp' := by
  induction l with
  | nil =>
    intro _ lp lp' h
    simp only [updatePairs, Except.ok.injEq] at h
    subst h; exact Same.refl _ _
  | cons t l ih =>
    obtain ⟨p, o⟩ := t
    intro hl lp lp' h
    rw [List.forall_mem_cons] at hl
    cases o with
    | none =>
      simp only [updatePairs] at h
      exact ih hl.2 _ _ h
    | some i =>
      simp only [updatePairs] at h
      cases h1 : updatePair net cols i p lp with
      | error e => simp [h1] at h
      | ok lp1 =>
        simp only [h1] at h
        exact (updatePair_same net cols (hl.1 i rfl) p _ _ h1).trans (ih hl.2 _ _ h)

theorem factorLoop_same (M : Model) (σ : Nat → Option ℚ) (cols : List Nat) {nv : Nat} (l : List (Nat × List (Option Nat))) :
    (∀ q ∈ l, ∀ i, some i ∈ q.2 → i < nv) → ∀ lp lp', factorLoop M σ cols l lp = .ok lp' → Same nv lp lp' := by
  induction l with
  | nil =>
    intro _ lp lp' h
    simp only [factorLoop, Except.ok.injEq] at h
    subst h; exact Same.refl _ _
  | cons q l ih =>
    obtain ⟨k, rows⟩ := q
    intro hl lp lp' h
    rw [List.forall_mem_cons] at hl
    simp only [factorLoop] at h
    cases ha : M.aggs[k]? with
    | none => simp [ha] at h
    | some a =>
      simp only [ha] at h
      cases hf : a.factors with
      | none => simp [hf] at h
      | some f =>
        simp only [hf] at h
        cases hp : f.pairs a.nodes σ with
        | error e => simp [hp] at h
        | ok ps =>
          simp only [hp] at h
          by_cases hlen : rows.length = ps.length
          · rw [if_pos hlen] at h
            cases h1 : updatePairs M.net cols (ps.zip rows) lp with
            | error e => simp [h1] at h
            | ok lp1 =>
              simp only [h1] at h
              refine (updatePairs_same M.net cols _ ?_ _ _ h1).trans (ih hl.2 _ _ h)
              intro t ht i hi
              exact hl.1 i (hi ▸ (List.of_mem_zip (a := t.1) (b := t.2) ht).2)
          · rw [if_neg hlen] at h
            cases h

theorem aggLoop_same (st : StepState) {nv : Nat} (l : List (Nat × AggNode)) : (∀ q ∈ l, q.1 < nv) → ∀ lp lp',
    aggLoop st l lp = .ok lp' → Same nv lp lp' := by
  induction l with
  | nil =>
    intro _ lp lp' h
    simp only [aggLoop, Except.ok.injEq] at h
    subst h; exact Same.refl _ _
  | cons q l ih =>
    obtain ⟨row, a⟩ := q
    intro hl lp lp' h
    rw [List.forall_mem_cons] at hl
    simp only [aggLoop] at h
    cases h1 : valueOr 0 st.metric a.minFlow with
    | none => simp [h1] at h
    | some lo =>
      cases h2 : valueOr f64MAX st.metric a.maxFlow with
      | none => simp [h1, h2] at h
      | some hi =>
        simp only [h1, h2] at h
        cases h3 : lp.applyRowBounds row lo hi with
        | none => simp [h3] at h
        | some lp1 =>
          simp only [h3] at h
          exact (same_bounds hl.1 h3).trans (ih hl.2 _ _ h)

theorem vsLoop_same (st : StepState) {nv : Nat} (l : List (Nat × Nat)) : (∀ q ∈ l, q.1 < nv) → ∀ lp lp',
    vsLoop st l lp = .ok lp' → Same nv lp lp' := by
  induction l with
  | nil =>
    intro _ lp lp' h
    simp only [vsLoop, Except.ok.injEq] at h
    subst h; exact Same.refl _ _
  | cons q l ih =>
    obtain ⟨row, v⟩ := q
    intro hl lp lp' h
    rw [List.forall_mem_cons] at hl
    simp only [vsLoop] at h
    by_cases ha : st.vsActive v = true
    · rw [if_pos ha] at h
      cases h2 : st.vsBounds v with
      | none => simp [h2] at h
      | some p =>
        obtain ⟨av, mi⟩ := p
        simp only [h2] at h
        cases h3 : lp.applyRowBounds row (-av / st.days) (mi / st.days) with
        | none => simp [h3] at h
        | some lp1 =>
          simp only [h3] at h
          exact (same_bounds hl.1 h3).trans (ih hl.2 _ _ h)
    · rw [if_neg ha] at h
      cases h3 : lp.applyRowBounds row lp.f64NegMax lp.f64Max with
      | none => simp [h3] at h
      | some lp1 =>
        simp only [h3] at h
        exact (same_bounds hl.1 h3).trans (ih hl.2 _ _ h)

theorem objectiveLoop_same (M : Model) (σ : Nat → Option ℚ) (cols : List Nat) (es : List Edge) : ∀ lp lp',
    objectiveLoop M σ cols es lp = .ok lp' → ∃ obj, lp' = { lp with colObj := obj } ∧ obj.length = lp.colObj.length := by
  induction es with
  | nil =>
    intro lp lp' h
    simp only [objectiveLoop, Except.ok.injEq] at h
    subst h; exact ⟨lp.colObj, rfl, rfl⟩
  | cons e es ih =>
    intro lp lp' h
    simp only [objectiveLoop] at h
    cases h1 : edgeCost M σ e with
    | none => simp [h1] at h
    | some c =>
      simp only [h1] at h
      cases h2 : cols[e.index]? with
      | none => simp [h2] at h
      | some col =>
        simp only [h2] at h
        cases h3 : lp.addObj col c with
        | none => simp [h3] at h
        | some lp1 =>
          simp only [h3] at h
          unfold Lp.addObj at h3
          split_ifs at h3
          simp only [Option.some.injEq] at h3
          subst h3
          obtain ⟨obj, e1, e2⟩ := ih _ _ h
          exact ⟨obj, e1, by simpa using e2⟩

/-! ## The invariant -/

/-- Where the entries of the fixed rows start. -/
def LpBuilder.split (b : LpBuilder) : Nat := ((b.rows.map (·.columns)).map List.length).sum

/-- What stays the same of a program from step to step. -/
structure KeepInv (b : LpBuilder) (lp : Lp) : Prop where
  colLower : lp.colLower = b.colLower
  colUpper : lp.colUpper = b.colUpper
  colType : lp.colType = b.colType
  colObj : lp.colObj.length = b.colObj.length
  mask : lp.rowMask = b.build.rowMask
  lenLower : lp.rowLower.length = b.build.rowLower.length
  lenUpper : lp.rowUpper.length = b.build.rowUpper.length
  lower : ∀ j, b.rows.length ≤ j → lp.rowLower[j]? = b.build.rowLower[j]?
  upper : ∀ j, b.rows.length ≤ j → lp.rowUpper[j]? = b.build.rowUpper[j]?
  starts : lp.rowStarts = b.build.rowStarts
  columns : lp.columns = b.build.columns
  elements : lp.elements.drop b.split = b.build.elements.drop b.split

theorem KeepInv.build (b : LpBuilder) : KeepInv b b.build :=
  ⟨rfl, rfl, rfl, rfl, rfl, rfl, rfl, fun _ _ => rfl, fun _ _ => rfl, rfl, rfl, rfl⟩

theorem KeepInv.same {b : LpBuilder} {lp lp' : Lp} (h : KeepInv b lp) (hs : Same b.rows.length lp lp') : KeepInv b lp' := by
  have e := hs.eq
  refine ⟨?_, ?_, ?_, ?_, ?_, ?_, ?_, ?_, ?_, ?_, ?_, ?_⟩
  · rw [e]; exact h.colLower
  · rw [e]; exact h.colUpper
  · rw [e]; exact h.colType
  · rw [e]; exact h.colObj
  · rw [e]; exact h.mask
  · rw [hs.lenLower]; exact h.lenLower
  · rw [hs.lenUpper]; exact h.lenUpper
  · intro j hj; rw [hs.lower j hj]; exact h.lower j hj
  · intro j hj; rw [hs.upper j hj]; exact h.upper j hj
  · rw [e]; exact h.starts
  · rw [e]; exact h.columns
  · rw [e]; exact h.elements

theorem KeepInv.withObj {b : LpBuilder} {lp : Lp} (h : KeepInv b lp) (obj : List ℚ) (ho : obj.length = lp.colObj.length) :
    KeepInv b { lp with colObj := obj } :=
  ⟨h.colLower, h.colUpper, h.colType, ho.trans h.colObj, h.mask, h.lenLower, h.lenUpper, h.lower, h.upper, h.starts, h.columns,
    h.elements⟩

theorem build_mask (b : LpBuilder) (j : Nat) (hj : b.rows.length ≤ j) : b.build.rowMask[j]? ≠ some 1 := by
  rw [(LpInv.build b (fun _ => False)).mask, if_neg (by omega)]
  split_ifs <;> simp

theorem KeepInv.reset {b : LpBuilder} {lp : Lp} (h : KeepInv b lp) : KeepInv b lp.resetRowBounds.resetCoefficients := by
  have ha := b.rowsAgree
  have e1 : lp.rowMask.length = lp.rowLower.length := by rw [h.mask, h.lenLower]; exact ha.1
  have e2 : lp.rowMask.length = lp.rowUpper.length := by rw [h.mask, h.lenUpper]; exact ha.1.trans ha.2
  refine ⟨h.colLower, h.colUpper, h.colType, h.colObj, h.mask, ?_, ?_, ?_, ?_, h.starts, h.columns, h.elements⟩
  · simp only [Lp.resetRowBounds, Lp.resetCoefficients, resetBounds_length]; exact h.lenLower
  · simp only [Lp.resetRowBounds, Lp.resetCoefficients, resetBounds_length]; exact h.lenUpper
  · intro j hj
    simp only [Lp.resetRowBounds, Lp.resetCoefficients]
    rw [resetBounds_get _ _ _ e1, h.mask, if_neg (build_mask b j hj), h.lower j hj]
  · intro j hj
    simp only [Lp.resetRowBounds, Lp.resetCoefficients]
    rw [resetBounds_get _ _ _ e2, h.mask, if_neg (build_mask b j hj), h.upper j hj]

theorem start_le_split (b : LpBuilder) (r : Nat) (hr : r < b.rows.length) :
    b.build.rowStarts[r + 1]? = some (((b.rows.map (·.columns)).take (r + 1)).map List.length).sum ∧
    (((b.rows.map (·.columns)).take (r + 1)).map List.length).sum ≤ b.split := by
  refine ⟨?_, ?_⟩
  · rw [b.build_has.start (r + 1) (by simp; omega), List.map_append, List.take_append_of_le_length (by simp; omega)]
  · unfold LpBuilder.split
    conv_rhs => rw [← List.take_append_drop (r + 1) (b.rows.map (·.columns)), List.map_append, List.sum_append]
    omega

theorem colPosition_lt (c : Nat) (l : List Nat) : ∀ p, colPosition c l = some p → p < l.length := by
  induction l with
  | nil => intro p h; cases h
  | cons a l ih =>
    intro p h
    simp only [colPosition] at h
    split_ifs at h with he
    · simp only [Option.some.injEq] at h; subst h; simp
    · obtain ⟨q, hq, rfl⟩ := Option.map_eq_some_iff.1 h
      have := ih q hq
      simp only [List.length_cons]; omega

theorem KeepInv.coefficient {b : LpBuilder} {lp lp' : Lp} (h : KeepInv b lp) {r c : Nat} {v : ℚ} (hr : r < b.rows.length)
    (he : lp.applyCoefficient r c v = some lp') : KeepInv b lp' := by
  unfold Lp.applyCoefficient at he
  rw [h.starts] at he
  obtain ⟨h1, h2⟩ := start_le_split b r hr
  rw [h1] at he
  cases hs : b.build.rowStarts[r]? with
  | none => simp [hs] at he
  | some s =>
    simp only [hs] at he
    cases hp : colPosition c ((lp.columns.take (((b.rows.map (·.columns)).take (r + 1)).map List.length).sum).drop s) with
    | none => simp only [hp] at he; cases he
    | some p =>
      simp only [hp, Option.some.injEq] at he
      subst he
      have hlt := colPosition_lt _ _ _ hp
      simp only [List.length_drop, List.length_take] at hlt
      refine ⟨h.colLower, h.colUpper, h.colType, h.colObj, h.mask, h.lenLower, h.lenUpper, h.lower, h.upper, rfl, h.columns, ?_⟩
      rw [← h.elements]
      exact List.drop_set_of_lt (by omega)

theorem KeepInv.applyAll {b : LpBuilder} (P : List (Nat × Nat × ℚ)) : ∀ (lp lp' : Lp), KeepInv b lp →
    (∀ t ∈ P, t.1 < b.rows.length) → lp.applyAll P = some lp' → KeepInv b lp' := by
  induction P with
  | nil =>
    intro lp lp' h _ he
    simp only [Lp.applyAll, Option.some.injEq] at he
    subst he; exact h
  | cons t P ih =>
    obtain ⟨r, c, v⟩ := t
    intro lp lp' h ht he
    rw [List.forall_mem_cons] at ht
    simp only [Lp.applyAll] at he
    cases h1 : lp.applyCoefficient r c v with
    | none => simp [h1] at he
    | some lp1 =>
      simp only [h1] at he
      exact ih _ _ (h.coefficient ht.1 h1) ht.2 he

theorem applyCoefficient_obj {lp lp' : Lp} {r c : Nat} {v : ℚ} (he : lp.applyCoefficient r c v = some lp') :
    lp'.colObj = lp.colObj := by
  unfold Lp.applyCoefficient at he
  split at he
  · split at he
    · simp only [Option.some.injEq] at he; subst he; rfl
    · cases he
  · cases he

theorem applyAll_obj (P : List (Nat × Nat × ℚ)) : ∀ (lp lp' : Lp), lp.applyAll P = some lp' → lp'.colObj = lp.colObj := by
  induction P with
  | nil =>
    intro lp lp' he
    simp only [Lp.applyAll, Option.some.injEq] at he
    subst he; rfl
  | cons t P ih =>
    obtain ⟨r, c, v⟩ := t
    intro lp lp' he
    simp only [Lp.applyAll] at he
    cases h1 : lp.applyCoefficient r c v with
    | none => simp [h1] at he
    | some lp1 =>
      simp only [h1] at he
      rw [ih _ _ he, applyCoefficient_obj h1]

/-- The ids of rows handed to the update name variable rows. -/
structure RowIds (s : Built) (nv : Nat) : Prop where
  nodes : ∀ r ∈ s.nodeRows, r.row < nv
  factors : ∀ q ∈ s.factorRows, ∀ i, some i ∈ q.2 → i < nv
  aggs : ∀ i ∈ s.aggRows, i < nv
  vs : ∀ i ∈ s.vsRows, i < nv

theorem step_keep {M : Model} {s s' : Built} {st : StepState} {b : LpBuilder} (hr : RowIds s b.rows.length) (hk : KeepInv b s.lp)
    (h : step M s st = .ok s') : s' = { s with lp := s'.lp } ∧ KeepInv b s'.lp ∧
      ∃ lpO, objectiveLoop M st.metric s.cols M.net.edges s.lp.zeroObj = .ok lpO ∧ s'.lp.colObj = lpO.colObj := by
  unfold step update at h
  cases h1 : objectiveLoop M st.metric s.cols M.net.edges s.lp.zeroObj with
  | error e => simp [h1] at h
  | ok lpO =>
    simp only [h1] at h
    obtain ⟨obj, o1, o2⟩ := objectiveLoop_same _ _ _ _ _ _ h1
    have kO : KeepInv b lpO := by
      rw [o1]
      exact hk.withObj obj (o2.trans (by simp [Lp.zeroObj]))
    cases h2 : nodeBoundsLoop M st s.nodeRows lpO.resetRowBounds.resetCoefficients with
    | error e => simp [h2] at h
    | ok lpN =>
      simp only [h2] at h
      cases h3 : factorLoop M st.metric s.cols s.factorRows lpN with
      | error e => simp [h3] at h
      | ok lpF =>
        simp only [h3] at h
        cases h4 : aggLoop st (s.aggRows.zip M.aggs) lpF with
        | error e => simp [h4] at h
        | ok lpA =>
          simp only [h4] at h
          cases h5 : vsLoop st (s.vsRows.zip (List.range M.vs.length)) lpA with
          | error e => simp [h5] at h
          | ok lpV =>
            simp only [h5] at h
            have hsame : Same b.rows.length lpO.resetRowBounds.resetCoefficients lpV :=
              (((nodeBoundsLoop_same M st _ hr.nodes _ _ h2).trans (factorLoop_same M _ _ _ hr.factors _ _ h3)).trans
                (aggLoop_same st _ (fun q hq => hr.aggs _ (List.of_mem_zip (a := q.1) (b := q.2) hq).1) _ _ h4)).trans
                (vsLoop_same st _ (fun q hq => hr.vs _ (List.of_mem_zip (a := q.1) (b := q.2) hq).1) _ _ h5)
            cases h6 : lpV.applyUpdatedCoefficients with
            | none => simp [h6] at h
            | some lp2 =>
              simp only [h6, Except.ok.injEq] at h
              subst h
              have h6' := h6
              unfold Lp.applyUpdatedCoefficients at h6'
              obtain ⟨lp3, h7, h8⟩ := Option.map_eq_some_iff.1 h6'
              have hcoef : ∀ t ∈ lpV.coefficientsToUpdate, t.1 < b.rows.length := by
                intro t ht
                rcases hsame.coefs t ht with h | h
                · cases h
                · exact h
              have k3 := KeepInv.applyAll _ _ _ (kO.reset.same hsame) hcoef h7
              refine ⟨rfl, ?_, lpO, rfl, ?_⟩
              · show KeepInv b lp2
                rw [← h8]
                exact ⟨k3.colLower, k3.colUpper, k3.colType, k3.colObj, k3.mask, k3.lenLower, k3.lenUpper, k3.lower, k3.upper,
                  k3.starts, k3.columns, k3.elements⟩
              · show lp2.colObj = _
                rw [← h8]
                show lp3.colObj = _
                rw [applyAll_obj _ _ _ h7, hsame.eq]
                rfl

/-- Fixed rows keep their entries. -/
theorem KeepInv.entries_fixed {b : LpBuilder} {lp : Lp} (h : KeepInv b lp) (i : Nat) (h1 : b.rows.length ≤ i)
    (h2 : i < (b.rows ++ b.fixedRows).length) : lp.entries i = b.build.entries i := by
  unfold Lp.entries
  rw [h.starts, h.columns]
  have hst : b.split ≤ b.build.rowStarts.getD i 0 := by
    rw [List.length_append] at h2
    rw [List.getD_eq_getElem?_getD, b.build_has.start i (by simp; omega), Option.getD_some, List.map_append,
      List.take_append, List.map_append, List.sum_append]
    have : (b.rows.map (·.columns)).take i = b.rows.map (·.columns) :=
      List.take_of_length_le (by simpa using h1)
    rw [this]
    unfold LpBuilder.split
    omega
  obtain ⟨d, hd⟩ := Nat.exists_eq_add_of_le hst
  rw [hd, ← List.drop_drop, ← List.drop_drop]
  congr 1
  rw [List.drop_take, List.drop_take]
  congr 1
  have hz : ∀ (k : Nat) (as : List Nat) (bs : List ℚ), (as.zip bs).drop k = (as.drop k).zip (bs.drop k) := by
    intro k as bs
    exact List.drop_zipWith
  rw [hz, hz, h.elements]

/-- Solutions satisfy the fixed rows. -/
theorem KeepInv.fixed {b : LpBuilder} {lp : Lp} (h : KeepInv b lp) {x : Nat → ℚ} (hx : lp.RowsHold x) :
    ∀ r ∈ b.fixedRows, r.Holds b.f64Max x := by
  intro r hr
  obtain ⟨i, hi⟩ := List.mem_iff_getElem?.1 hr
  have hget : (b.rows ++ b.fixedRows)[b.rows.length + i]? = some r := by
    rw [List.getElem?_append_right (by omega), Nat.add_sub_cancel_left]; exact hi
  obtain ⟨e1, e2, e3, _⟩ := (C19_sparse b).2.2.2.2.2.2.2 _ _ hget
  have h1 := hx (b.rows.length + i) r.lower (r.upper.getD b.f64Max) ((h.lower _ (by omega)).trans e2) ((h.upper _ (by omega)).trans e3)
  rw [h.entries_fixed _ (by omega) (List.getElem?_eq_some_iff.1 hget).1, e1] at h1
  exact h1

/-! ## Creation -/

/-- `b'` is `b` with rows added. -/
structure Adds (b b' : LpBuilder) : Prop where
  same : b' = { b with rows := b'.rows, fixedRows := b'.fixedRows }
  fixed : ∃ F, b'.fixedRows = b.fixedRows ++ F
  rows : ∃ new, b'.rows = b.rows ++ new

theorem Adds.refl (b : LpBuilder) : Adds b b := ⟨rfl, ⟨[], by simp⟩, ⟨[], by simp⟩⟩

theorem Adds.trans {a b c : LpBuilder} (h : Adds a b) (h' : Adds b c) : Adds a c := by
  obtain ⟨F, hF⟩ := h.fixed
  obtain ⟨F', hF'⟩ := h'.fixed
  obtain ⟨n, hn⟩ := h.rows
  obtain ⟨n', hn'⟩ := h'.rows
  exact ⟨by rw [h'.same, h.same], ⟨F ++ F', by rw [hF', hF, List.append_assoc]⟩, ⟨n ++ n', by rw [hn', hn, List.append_assoc]⟩⟩

theorem Adds.mem {b b' : LpBuilder} (h : Adds b b') {r : Row} (hr : r ∈ b.fixedRows) : r ∈ b'.fixedRows := by
  obtain ⟨F, hF⟩ := h.fixed
  rw [hF]; exact List.mem_append_left _ hr

theorem Adds.lt {b b' : LpBuilder} (h : Adds b b') {i : Nat} (hi : i < b.rows.length) : i < b'.rows.length := by
  obtain ⟨F, hF⟩ := h.rows
  rw [hF, List.length_append]; omega

theorem Adds.big {b b' : LpBuilder} (h : Adds b b') : b'.f64Max = b.f64Max := by rw [h.same]

theorem adds_fixed (b : LpBuilder) (r : Row) : Adds b (b.addFixedRow r) := ⟨rfl, ⟨[r], rfl⟩, ⟨[], by simp [LpBuilder.addFixedRow]⟩⟩

theorem adds_variable (b : LpBuilder) (r : Row) : Adds b (b.addVariableRow r).2 := by
  have h := grow_variable b r
  exact ⟨h.same, ⟨[], h.fixed⟩, h.keep⟩

theorem variable_lt (b : LpBuilder) (r : Row) : (b.addVariableRow r).1 < (b.addVariableRow r).2.rows.length :=
  (List.getElem?_eq_some_iff.1 (addVariableRow_spec b r).1).1

theorem createMassBalance_adds (m : ColMap) (ns : List TNode) : ∀ b b', createMassBalance m ns b = some b' → Adds b b' := by
  induction ns with
  | nil =>
    intro b b' h
    simp only [createMassBalance, Option.some.injEq] at h
    subst h; exact Adds.refl _
  | cons n ns ih =>
    intro b b' h
    simp only [createMassBalance] at h
    cases h1 : massBalanceRow m n with
    | none => simp [h1] at h
    | some o =>
      cases o with
      | none => simp only [h1] at h; exact ih _ _ h
      | some r => simp only [h1] at h; exact (adds_fixed b r).trans (ih _ _ h)

/-- The rows that tie a node to a binary column, for constant bounds. -/
def BinRows (m : ColMap) (n : TNode) (b : LpBuilder) (lo hi : ℚ) (c : Nat) : Prop :=
  (∃ ub, addNode m n (-1) Row.default = some ub ∧
    ((ub.addElement c (min hi 1000000)).setLower 0).setUpper b.f64Max ∈ b.fixedRows) ∧
  (lo ≠ 0 → ∃ lb, addNode m n 1 Row.default = some lb ∧
    ((lb.addElement c (-(max lo (1 / 1000000)))).setLower 0).setUpper b.f64Max ∈ b.fixedRows)

theorem BinRows.mono {m : ColMap} {n : TNode} {b b' : LpBuilder} {lo hi : ℚ} {c : Nat} (h : BinRows m n b lo hi c) (ha : Adds b b') :
    BinRows m n b' lo hi c := by
  obtain ⟨⟨ub, h1, h2⟩, h3⟩ := h
  refine ⟨⟨ub, h1, ?_⟩, fun hl => ?_⟩
  · rw [ha.big]; exact ha.mem h2
  · obtain ⟨lb, h4, h5⟩ := h3 hl
    exact ⟨lb, h4, by rw [ha.big]; exact ha.mem h5⟩

theorem binaryRows_adds (m : ColMap) (n : TNode) (bounds : Option (ℚ × ℚ)) (cs : List Nat) : ∀ b ids b' ids',
    binaryRows m n bounds cs b ids = some (b', ids') → Adds b b' ∧ (∀ r ∈ ids', r ∈ ids ∨ r.row < b'.rows.length) ∧
      ∀ lo hi, bounds = some (lo, hi) → ∀ c ∈ cs, BinRows m n b' lo hi c := by
  induction cs with
  | nil =>
    intro b ids b' ids' h
    simp only [binaryRows, Option.some.injEq, Prod.mk.injEq] at h
    obtain ⟨rfl, rfl⟩ := h
    exact ⟨Adds.refl _, fun r h => Or.inl h, by simp⟩
  | cons c cs ih =>
    intro b ids b' ids' h
    simp only [binaryRows] at h
    cases h1 : addNode m n (-1) Row.default with
    | none => simp [h1] at h
    | some ub =>
      cases h2 : addNode m n 1 Row.default with
      | none => simp [h1, h2] at h
      | some lb =>
        simp only [h1, h2] at h
        cases bounds with
        | none =>
          simp only at h
          obtain ⟨g1, g2, _⟩ := ih _ _ _ _ h
          have a1 := adds_variable b (ub.addElement c 1)
          have a2 := adds_variable (b.addVariableRow (ub.addElement c 1)).2 (lb.addElement c (-1))
          refine ⟨(a1.trans a2).trans g1, ?_, by simp⟩
          intro r hr
          rcases g2 r hr with hr | hr
          · simp only [List.mem_append, List.mem_cons, List.not_mem_nil, or_false] at hr
            rcases hr with hr | rfl | rfl
            · exact Or.inl hr
            · exact Or.inr (g1.lt (a2.lt (variable_lt _ _)))
            · exact Or.inr (g1.lt (variable_lt _ _))
          · exact Or.inr hr
        | some p =>
          obtain ⟨lo, hi⟩ := p
          simp only at h
          obtain ⟨g1, g2, g3⟩ := ih _ _ _ _ h
          have a1 := adds_fixed b (((ub.addElement c (min hi 1000000)).setLower 0).setUpper b.f64Max)
          have a2 : Adds (b.addFixedRow (((ub.addElement c (min hi 1000000)).setLower 0).setUpper b.f64Max))
              (if lo ≠ 0 then (b.addFixedRow (((ub.addElement c (min hi 1000000)).setLower 0).setUpper b.f64Max)).addFixedRow
                (((lb.addElement c (-(max lo (1 / 1000000)))).setLower 0).setUpper
                  (b.addFixedRow (((ub.addElement c (min hi 1000000)).setLower 0).setUpper b.f64Max)).f64Max)
              else b.addFixedRow (((ub.addElement c (min hi 1000000)).setLower 0).setUpper b.f64Max)) := by
            split_ifs
            · exact adds_fixed _ _
            · exact Adds.refl _
          refine ⟨(a1.trans a2).trans g1, g2, ?_⟩
          intro lo' hi' he d hd
          simp only [Option.some.injEq, Prod.mk.injEq] at he
          obtain ⟨rfl, rfl⟩ := he
          rcases List.mem_cons.1 hd with rfl | hd
          · refine BinRows.mono ?_ g1
            refine ⟨⟨ub, h1, ?_⟩, fun hl => ⟨lb, h2, ?_⟩⟩
            · rw [a2.big, a1.big]
              exact a2.mem (by simp [LpBuilder.addFixedRow])
            · rw [if_pos hl]
              simp [LpBuilder.addFixedRow]
          · exact g3 _ _ rfl d hd

theorem createNodeRows_adds (m : ColMap) (data : Nat → NodeData) (bins : List (Nat × List Nat)) (ns : List TNode) : ∀ b ids b' ids',
    createNodeRows m data bins ns b ids = some (b', ids') → Adds b b' ∧ (∀ r ∈ ids', r ∈ ids ∨ r.row < b'.rows.length) ∧
      ∀ n ∈ ns, ∀ lo hi cols, constBounds n (data n.index) = some (lo, hi) → Verif.Topology.lookup n.index bins = some cols →
        ∀ c ∈ cols, BinRows m n b' lo hi c := by
  induction ns with
  | nil =>
    intro b ids b' ids' h
    simp only [createNodeRows, Option.some.injEq, Prod.mk.injEq] at h
    obtain ⟨rfl, rfl⟩ := h
    exact ⟨Adds.refl _, fun r h => Or.inl h, by simp⟩
  | cons n ns ih =>
    intro b ids b' ids' h
    simp only [createNodeRows] at h
    cases hl : Verif.Topology.lookup n.index bins with
    | some cols =>
      simp only [hl] at h
      cases h1 : binaryRows m n (constBounds n (data n.index)) cols b ids with
      | none => simp [h1] at h
      | some q =>
        obtain ⟨b1, ids1⟩ := q
        simp only [h1] at h
        obtain ⟨g1, g2, g3⟩ := binaryRows_adds _ _ _ _ _ _ _ _ h1
        obtain ⟨k1, k2, k3⟩ := ih _ _ _ _ h
        refine ⟨g1.trans k1, ?_, ?_⟩
        · intro r hr
          rcases k2 r hr with hr | hr
          · rcases g2 r hr with hr | hr
            · exact Or.inl hr
            · exact Or.inr (k1.lt hr)
          · exact Or.inr hr
        · rw [List.forall_mem_cons]
          refine ⟨?_, k3⟩
          intro lo hi cols' hb hl' c hc
          rw [hl] at hl'
          simp only [Option.some.injEq] at hl'
          subst hl'
          exact (g3 lo hi hb c hc).mono k1
    | none =>
      simp only [hl] at h
      have hvac : ∀ lo hi cols, constBounds n (data n.index) = some (lo, hi) → Verif.Topology.lookup n.index bins = some cols →
          ∀ c ∈ cols, BinRows m n b' lo hi c := by
        intro lo hi cols _ h; rw [hl] at h; cases h
      cases h1 : addNode m n 1 Row.default with
      | none => simp [h1] at h
      | some r =>
        simp only [h1] at h
        cases hb : constBounds n (data n.index) with
        | some q =>
          obtain ⟨lo, hi⟩ := q
          simp only [hb] at h
          obtain ⟨k1, k2, k3⟩ := ih _ _ _ _ h
          refine ⟨(adds_fixed _ _).trans k1, k2, ?_⟩
          rw [List.forall_mem_cons]
          exact ⟨hvac, k3⟩
        | none =>
          simp only [hb] at h
          obtain ⟨k1, k2, k3⟩ := ih _ _ _ _ h
          refine ⟨(adds_variable _ _).trans k1, ?_, ?_⟩
          · intro q hq
            rcases k2 q hq with hq | hq
            · simp only [List.mem_append, List.mem_singleton] at hq
              rcases hq with hq | rfl
              · exact Or.inl hq
              · exact Or.inr (k1.lt (variable_lt _ _))
            · exact Or.inr hq
          · rw [List.forall_mem_cons]
            exact ⟨hvac, k3⟩

theorem createAggRows_adds (m : ColMap) (net : Network) (as : List AggNode) : ∀ b ids b' ids',
    createAggRows m net as b ids = some (b', ids') → Adds b b' ∧ ∀ i ∈ ids', i ∈ ids ∨ i < b'.rows.length := by
  induction as with
  | nil =>
    intro b ids b' ids' h
    simp only [createAggRows, Option.some.injEq, Prod.mk.injEq] at h
    obtain ⟨rfl, rfl⟩ := h
    exact ⟨Adds.refl _, fun r h => Or.inl h⟩
  | cons a as ih =>
    intro b ids b' ids' h
    simp only [createAggRows] at h
    cases h1 : addNodes m net (a.nodes.flatten.map (fun i => (i, 1))) Row.default with
    | none => simp only [h1] at h; cases h
    | some r =>
      simp only [h1] at h
      obtain ⟨k1, k2⟩ := ih _ _ _ _ h
      refine ⟨(adds_variable _ _).trans k1, ?_⟩
      intro q hq
      rcases k2 q hq with hq | hq
      · simp only [List.mem_append, List.mem_singleton] at hq
        rcases hq with hq | rfl
        · exact Or.inl hq
        · exact Or.inr (k1.lt (variable_lt _ _))
      · exact Or.inr hq

theorem factorRows_adds (m : ColMap) (net : Network) (ps : List CPair) : ∀ b ids b' ids',
    factorRows m net ps b ids = some (b', ids') → Adds b b' ∧ ∀ i, some i ∈ ids' → some i ∈ ids ∨ i < b'.rows.length := by
  induction ps with
  | nil =>
    intro b ids b' ids' h
    simp only [factorRows, Option.some.injEq, Prod.mk.injEq] at h
    obtain ⟨rfl, rfl⟩ := h
    exact ⟨Adds.refl _, fun r h => Or.inl h⟩
  | cons p ps ih =>
    intro b ids b' ids' h
    simp only [factorRows] at h
    cases h1 : factorRow m net p with
    | none => simp [h1] at h
    | some r =>
      simp only [h1] at h
      by_cases hf : p.f0.isSome ∧ p.f1.isSome
      · rw [if_pos hf] at h
        obtain ⟨k1, k2⟩ := ih _ _ _ _ h
        refine ⟨(adds_fixed _ _).trans k1, ?_⟩
        intro q hq
        rcases k2 q hq with hq | hq
        · simp only [List.mem_append, List.mem_singleton, reduceCtorEq, or_false] at hq
          exact Or.inl hq
        · exact Or.inr hq
      · rw [if_neg hf] at h
        obtain ⟨k1, k2⟩ := ih _ _ _ _ h
        refine ⟨(adds_variable _ _).trans k1, ?_⟩
        intro q hq
        rcases k2 q hq with hq | hq
        · simp only [List.mem_append, List.mem_singleton, Option.some.injEq] at hq
          rcases hq with hq | rfl
          · exact Or.inl hq
          · exact Or.inr (k1.lt (variable_lt _ _))
        · exact Or.inr hq

theorem createFactorRows_adds (m : ColMap) (net : Network) (as : List AggNode) : ∀ k b ids b' ids',
    createFactorRows m net as k b ids = some (b', ids') → Adds b b' ∧
      ∀ q ∈ ids', q ∈ ids ∨ ∀ i, some i ∈ q.2 → i < b'.rows.length := by
  induction as with
  | nil =>
    intro k b ids b' ids' h
    simp only [createFactorRows, Option.some.injEq, Prod.mk.injEq] at h
    obtain ⟨rfl, rfl⟩ := h
    exact ⟨Adds.refl _, fun r h => Or.inl h⟩
  | cons a as ih =>
    intro k b ids b' ids' h
    simp only [createFactorRows] at h
    cases hf : a.factors with
    | none => simp only [hf] at h; exact ih _ _ _ _ _ h
    | some f =>
      simp only [hf] at h
      cases hp : f.constPairs a.nodes with
      | error e =>
        simp only [hp] at h
        cases e
        case panic => cases h
        all_goals exact ih _ _ _ _ _ h
      | ok ps =>
        simp only [hp] at h
        cases h1 : factorRows m net ps b [] with
        | none => simp [h1] at h
        | some q =>
          obtain ⟨b1, rows⟩ := q
          simp only [h1] at h
          obtain ⟨g1, g2⟩ := factorRows_adds _ _ _ _ _ _ _ h1
          obtain ⟨k1, k2⟩ := ih _ _ _ _ _ h
          refine ⟨g1.trans k1, ?_⟩
          intro q hq
          rcases k2 q hq with hq | hq
          · simp only [List.mem_append, List.mem_singleton] at hq
            rcases hq with hq | rfl
            · exact Or.inl hq
            · refine Or.inr (fun i hi => ?_)
              rcases g2 i hi with hi | hi
              · cases hi
              · exact k1.lt hi
          · exact Or.inr hq

theorem createVsRows_adds (m : ColMap) (net : Network) (vs : List VStore) : ∀ b ids b' ids',
    createVsRows m net vs b ids = some (b', ids') → Adds b b' ∧ ∀ i ∈ ids', i ∈ ids ∨ i < b'.rows.length := by
  induction vs with
  | nil =>
    intro b ids b' ids' h
    simp only [createVsRows, Option.some.injEq, Prod.mk.injEq] at h
    obtain ⟨rfl, rfl⟩ := h
    exact ⟨Adds.refl _, fun r h => Or.inl h⟩
  | cons v vs ih =>
    intro b ids b' ids' h
    simp only [createVsRows] at h
    cases h1 : addNodes m net (v.members.map (fun p => (p.1, -p.2))) Row.default with
    | none => simp [h1] at h
    | some r =>
      simp only [h1] at h
      obtain ⟨k1, k2⟩ := ih _ _ _ _ h
      refine ⟨(adds_variable _ _).trans k1, ?_⟩
      intro q hq
      rcases k2 q hq with hq | hq
      · simp only [List.mem_append, List.mem_singleton] at hq
        rcases hq with hq | rfl
        · exact Or.inl hq
        · exact Or.inr (k1.lt (variable_lt _ _))
      · exact Or.inr hq

theorem createExclusivityRows_adds (bins : List (List Nat × Nat)) (as : List AggNode) : ∀ b b',
    createExclusivityRows bins as b = some b' → Adds b b' ∧ ∀ a ∈ as, ∀ lo hi, a.exclusivity = some (lo, hi) →
      ∃ r, exclusivityRow bins a.nodes Row.default = some r ∧ (r.setUpper hi).setLower lo ∈ b'.fixedRows := by
  induction as with
  | nil =>
    intro b b' h
    simp only [createExclusivityRows, Option.some.injEq] at h
    subst h
    exact ⟨Adds.refl _, by simp⟩
  | cons a as ih =>
    intro b b' h
    simp only [createExclusivityRows] at h
    cases he : a.exclusivity with
    | none =>
      simp only [he] at h
      obtain ⟨k1, k2⟩ := ih _ _ h
      refine ⟨k1, ?_⟩
      rw [List.forall_mem_cons]
      exact ⟨fun lo hi e => (by rw [he] at e; cases e), k2⟩
    | some q =>
      obtain ⟨lo, hi⟩ := q
      simp only [he] at h
      cases h1 : exclusivityRow bins a.nodes Row.default with
      | none => simp [h1] at h
      | some r =>
        simp only [h1] at h
        obtain ⟨k1, k2⟩ := ih _ _ h
        refine ⟨(adds_fixed _ _).trans k1, ?_⟩
        rw [List.forall_mem_cons]
        refine ⟨?_, k2⟩
        intro lo' hi' e
        rw [he] at e
        simp only [Option.some.injEq, Prod.mk.injEq] at e
        obtain ⟨rfl, rfl⟩ := e
        exact ⟨r, h1, k1.mem (by simp [LpBuilder.addFixedRow])⟩

theorem pushAll_lookup (c i : Nat) (s : List Nat) : ∀ acc : List (Nat × List Nat),
    (∀ d ∈ (Verif.Topology.lookup i acc).getD [], d ∈ (Verif.Topology.lookup i (s.foldl (fun acc i => Verif.Topology.pushEntry i c acc) acc)).getD []) ∧
    (i ∈ s → c ∈ (Verif.Topology.lookup i (s.foldl (fun acc i => Verif.Topology.pushEntry i c acc) acc)).getD []) := by
  induction s with
  | nil => intro acc; simp
  | cons j s ih =>
    intro acc
    obtain ⟨h1, h2⟩ := ih (Verif.Topology.pushEntry j c acc)
    have hp := Verif.Topology.lookup_pushEntry j c i acc
    rw [List.foldl_cons]
    refine ⟨fun d hd => h1 d ?_, fun hi => ?_⟩
    · rw [hp]; split_ifs
      · exact List.mem_append_left _ hd
      · exact hd
    · rcases List.mem_cons.1 hi with rfl | hi
      · apply h1
        rw [hp, if_pos rfl]; simp
      · exact h2 hi

theorem addBinaries_ok (sets : List (List Nat)) : ∀ (b : LpBuilder) (bins : Bins),
    (addBinaries sets b bins).1 = { b with
      colLower := b.colLower ++ List.replicate sets.length 0, colUpper := b.colUpper ++ List.replicate sets.length 1
      colObj := b.colObj ++ List.replicate sets.length 0, colType := b.colType ++ List.replicate sets.length .integer } ∧
    (∀ i, ∀ d ∈ (Verif.Topology.lookup i bins.ofNode).getD [],
      d ∈ (Verif.Topology.lookup i (addBinaries sets b bins).2.ofNode).getD []) ∧
    ∃ new, (addBinaries sets b bins).2.ofSet = bins.ofSet ++ new ∧ ∀ q ∈ new,
      (b.colLower.length ≤ q.2 ∧ q.2 < b.colLower.length + sets.length) ∧
      ∀ i ∈ q.1, q.2 ∈ (Verif.Topology.lookup i (addBinaries sets b bins).2.ofNode).getD [] := by
  induction sets with
  | nil => intro b bins; exact ⟨by simp [addBinaries], fun i d h => h, [], by simp [addBinaries], by simp⟩
  | cons s ss ih =>
    intro b bins
    obtain ⟨h1, h2, new, h3, h4⟩ := ih (b.addColumn 0 (.double 0 1) .integer).2
      ⟨s.foldl (fun acc i => Verif.Topology.pushEntry i b.colLower.length acc) bins.ofNode, bins.ofSet ++ [(s, b.colLower.length)]⟩
    have hc : (b.addColumn 0 (.double 0 1) .integer).1 = b.colLower.length := rfl
    have hl : (b.addColumn 0 (.double 0 1) .integer).2.colLower.length = b.colLower.length + 1 := by simp [LpBuilder.addColumn]
    refine ⟨?_, ?_, (s, b.colLower.length) :: new, ?_, ?_⟩
    · simp only [addBinaries, hc]
      rw [h1]
      simp only [LpBuilder.addColumn, List.append_assoc, List.singleton_append, List.length_cons, List.replicate_succ]
    · intro i d hd
      simp only [addBinaries, hc]
      exact h2 i d ((pushAll_lookup _ i s _).1 d hd)
    · simp only [addBinaries, hc]
      rw [h3, List.append_assoc]; rfl
    · intro q hq
      simp only [addBinaries, hc]
      rcases List.mem_cons.1 hq with rfl | hq
      · refine ⟨⟨le_refl _, by simp⟩, fun i hi => ?_⟩
        exact h2 i _ ((pushAll_lookup _ i s _).2 hi)
      · obtain ⟨h5, h6⟩ := h4 q hq
        rw [hl] at h5
        refine ⟨⟨by omega, by simp only [List.length_cons]; omega⟩, h6⟩

/-- What every program created has. -/
structure General (M : Model) (big : ℚ) (sets : List (List Nat)) (s : Built) (m : ColMap) (b : LpBuilder) (bins : Bins) : Prop where
  colMap : createColMap M.net = .ok m
  cols : m.build = some s.cols
  f64Max : b.f64Max = big
  ids : RowIds s b.rows.length
  colLower : b.colLower = List.replicate (m.colToEdges.length + sets.length) 0
  colUpper : b.colUpper = List.replicate m.colToEdges.length big ++ List.replicate sets.length 1
  colType : b.colType = List.replicate m.colToEdges.length .continuous ++ List.replicate sets.length .integer
  colObj : b.colObj.length = m.colToEdges.length + sets.length
  binary : ∀ n ∈ M.net.nodes, ∀ lo hi cols, constBounds n (M.data n.index) = some (lo, hi) →
    Verif.Topology.lookup n.index bins.ofNode = some cols → ∀ c ∈ cols, BinRows m n b lo hi c
  exclusive : ∀ a ∈ M.aggs, ∀ lo hi, a.exclusivity = some (lo, hi) →
    ∃ r, exclusivityRow bins.ofSet a.nodes Row.default = some r ∧ (r.setUpper hi).setLower lo ∈ b.fixedRows
  bins : ∀ q ∈ bins.ofSet, (m.colToEdges.length ≤ q.2 ∧ q.2 < m.colToEdges.length + sets.length) ∧
    ∀ i ∈ q.1, q.2 ∈ (Verif.Topology.lookup i bins.ofNode).getD []

theorem create_general {M : Model} {big negBig : ℚ} {sets : List (List Nat)} {s : Built} (h : create M big negBig sets = .ok s) :
    ∃ m b bins, s.lp = b.build ∧ General M big sets s m b bins := by
  unfold create at h
  cases hm : createColMap M.net with
  | error e => simp [hm] at h
  | ok m =>
    simp only [hm] at h
    obtain ⟨b1, b2, new, b3, b4⟩ := addBinaries_ok sets (addEdgeColumns m.colToEdges.length (LpBuilder.new big negBig)) ⟨[], []⟩
    rw [addEdgeColumns_ok] at b1 b4
    cases hb : addBinaries sets (addEdgeColumns m.colToEdges.length (LpBuilder.new big negBig)) ⟨[], []⟩ with
    | mk b0 bins =>
      rw [addEdgeColumns_ok] at hb h
      rw [addEdgeColumns_ok] at b3
      rw [hb] at b1 b3 b4 h
      simp only at b1 b3 b4 h
      unfold createRows at h
      cases h1 : createMassBalance m M.net.nodes b0 with
      | none => simp [h1] at h
      | some bm =>
        simp only [h1] at h
        cases h2 : createNodeRows m M.data bins.ofNode M.net.nodes bm [] with
        | none => simp [h2] at h
        | some q2 =>
          obtain ⟨bn, nodeRows⟩ := q2
          simp only [h2] at h
          cases h3 : createAggRows m M.net M.aggs bn [] with
          | none => simp [h3] at h
          | some q3 =>
            obtain ⟨ba, aggRows⟩ := q3
            simp only [h3] at h
            cases h4 : createFactorRows m M.net M.aggs 0 ba [] with
            | none => simp [h4] at h
            | some q4 =>
              obtain ⟨bf, facRows⟩ := q4
              simp only [h4] at h
              cases h5 : createVsRows m M.net M.vs bf [] with
              | none => simp [h5] at h
              | some q5 =>
                obtain ⟨bv, vsRows⟩ := q5
                simp only [h5] at h
                cases h6 : createExclusivityRows bins.ofSet M.aggs bv with
                | none => simp [h6] at h
                | some be =>
                  simp only [h6] at h
                  cases h7 : m.build with
                  | none => simp [h7] at h
                  | some cols =>
                    simp only [h7, Except.ok.injEq] at h
                    subst h
                    have a1 := createMassBalance_adds _ _ _ _ h1
                    obtain ⟨a2, i2, r2⟩ := createNodeRows_adds _ _ _ _ _ _ _ _ h2
                    obtain ⟨a3, i3⟩ := createAggRows_adds _ _ _ _ _ _ _ h3
                    obtain ⟨a4, i4⟩ := createFactorRows_adds _ _ _ _ _ _ _ _ h4
                    obtain ⟨a5, i5⟩ := createVsRows_adds _ _ _ _ _ _ _ h5
                    obtain ⟨a6, r6⟩ := createExclusivityRows_adds _ _ _ _ h6
                    have hall := ((((a1.trans a2).trans a3).trans a4).trans a5).trans a6
                    have hs := hall.same
                    rw [b1] at hs
                    have hcl : (LpBuilder.new big negBig).colLower.length = 0 := rfl
                    refine ⟨m, be, bins, rfl, hm, h7, by rw [hs]; rfl, ⟨?_, ?_, ?_, ?_⟩, ?_, ?_, ?_, ?_, ?_, r6, ?_⟩
                    · intro r hr
                      rcases i2 r hr with h | h
                      · cases h
                      · exact a6.lt (a5.lt (a4.lt (a3.lt h)))
                    · intro q hq i hi
                      rcases i4 q hq with h | h
                      · cases h
                      · exact a6.lt (a5.lt (h i hi))
                    · intro i hi
                      rcases i3 i hi with h | h
                      · cases h
                      · exact a6.lt (a5.lt (a4.lt h))
                    · intro i hi
                      rcases i5 i hi with h | h
                      · cases h
                      · exact a6.lt h
                    · rw [hs]; simp [LpBuilder.new]
                    · rw [hs]; simp [LpBuilder.new]
                    · rw [hs]; simp [LpBuilder.new]
                    · rw [hs]; simp [LpBuilder.new]
                    · intro n hn lo hi cols hb hl c hc
                      exact (r2 n hn lo hi cols hb hl c hc).mono (((a3.trans a4).trans a5).trans a6)
                    · intro q hq
                      rw [b3, List.nil_append] at hq
                      obtain ⟨g1, g2⟩ := b4 q hq
                      simp only [hcl, List.length_append, List.length_replicate, Nat.zero_add] at g1
                      exact ⟨g1, g2⟩

theorem reach_general {M : Model} {big negBig : ℚ} {sets : List (List Nat)} {s : Built} (h : Reach M big negBig sets s) :
    ∃ m b bins, General M big sets s m b bins ∧ KeepInv b s.lp := by
  induction h with
  | create s h =>
    obtain ⟨m, b, bins, h1, h2⟩ := create_general h
    exact ⟨m, b, bins, h2, by rw [h1]; exact KeepInv.build b⟩
  | step s s' st _ hs ih =>
    obtain ⟨m, b, bins, h1, h2⟩ := ih
    obtain ⟨e, k, _⟩ := step_keep h1.ids h2 hs
    refine ⟨m, b, bins, ?_, k⟩
    rw [e]
    exact ⟨h1.colMap, h1.cols, h1.f64Max, ⟨h1.ids.nodes, h1.ids.factors, h1.ids.aggs, h1.ids.vs⟩, h1.colLower, h1.colUpper,
      h1.colType, h1.colObj, h1.binary, h1.exclusive, h1.bins⟩

section
variable {M : Model} {big : ℚ} {sets : List (List Nat)} {s : Built} {m : ColMap} {b : LpBuilder} {bins : Bins}

theorem General.inv (hc : General M big sets s m b bins) (hv : M.Valid) :
    M.net.edges ≠ [] ∧ ColInv M.net m ∧ (∀ e < M.net.edges.length, ∃ c, m.edgeToCol.find e = some c) ∧
    s.cols.length = M.net.edges.length ∧ ∀ e < M.net.edges.length, s.cols[e]? = m.edgeToCol.find e := by
  have hne : M.net.edges ≠ [] := fun h0 => by
    have := hc.colMap
    rw [(C16_no_edges M.net).1 h0] at this; cases this
  obtain ⟨m', h1, hinv, hall⟩ := createColMap_ok (Created.wf hv) hne
  rw [hc.colMap] at h1; cases h1
  obtain ⟨cols, h2, h3, h4⟩ := build_ok hinv hne hall
  rw [hc.cols] at h2; cases h2
  exact ⟨hne, hinv, hall, h3, h4⟩

theorem General.colEq (hc : General M big sets s m b bins) (hv : M.Valid) (e : Nat) : s.cols.getD e 0 = colOf m e := by
  obtain ⟨_, hinv, _, hlen, hget⟩ := hc.inv hv
  rw [List.getD_eq_getElem?_getD]
  unfold Verif.Solver.colOf ColMap.col
  by_cases he : e < M.net.edges.length
  · rw [hget e he]
  · rw [List.getElem?_eq_none (by omega)]
    cases hf : m.edgeToCol.find e with
    | none => rfl
    | some c => exact absurd (hinv.bound e c hf) he

theorem General.flow (hc : General M big sets s m b bins) (hv : M.Valid) (x : Nat → ℚ) : s.flow x = via m x := by
  funext e
  unfold Built.flow
  rw [hc.colEq hv]

theorem General.colBound (hc : General M big sets s m b bins) (hv : M.Valid) (e : Nat) (he : e < M.net.edges.length) :
    colOf m e < m.colToEdges.length := by
  obtain ⟨_, hinv, hall, _, _⟩ := hc.inv hv
  obtain ⟨c, h⟩ := hall e he
  obtain ⟨es, h1, _⟩ := hinv.fwd e c h
  have : colOf m e = c := by simp [colOf, ColMap.col, h]
  rw [this]
  exact (List.getElem?_eq_some_iff.1 h1).1

theorem General.hasCols (hc : General M big sets s m b bins) (hv : M.Valid) : HasCols m M.net := by
  obtain ⟨_, _, hall, _, _⟩ := hc.inv hv
  intro n hn e he
  obtain ⟨c, h⟩ := hall e (edges_in_range (Created.wf hv) n hn e he)
  exact ⟨c, h⟩

/-- The objective of a step. -/
theorem General.objective (hc : General M big sets s m b bins) (hv : M.Valid) (hk : KeepInv b s.lp) {st : StepState} {s' : Built}
    (h : step M s st = .ok s') : ∃ cs, M.net.edges.map (edgeCost M st.metric) = cs.map some ∧
      ∀ x, s'.lp.objective x = ((M.net.edges.zip cs).map (fun p => p.2 * via m x p.1.index)).sum := by
  obtain ⟨_, _, lpO, h1, h2⟩ := step_keep hc.ids hk h
  have wf := Created.wf hv
  have hedge : ∀ e ∈ M.net.edges, e.index < M.net.edges.length := by
    intro e he
    obtain ⟨k, hk⟩ := List.mem_iff_getElem?.1 he
    rw [(wf.index k e hk).1]
    exact (List.getElem?_eq_some_iff.1 hk).1
  have hobjlen : s.lp.zeroObj.colObj.length = m.colToEdges.length + sets.length := by
    show (s.lp.colObj.map _).length = _
    rw [List.length_map, hk.colObj, hc.colObj]
  obtain ⟨ho1, _⟩ := objectiveLoop_ok M st.metric s.cols M.net.edges s.lp.zeroObj (by
    intro e he
    rw [(hc.inv hv).2.2.2.1, hc.colEq hv, hobjlen]
    exact ⟨hedge e he, Nat.lt_of_lt_of_le (hc.colBound hv _ (hedge e he)) (Nat.le_add_right _ _)⟩)
  obtain ⟨cs, obj, g1, g2, g3, g4⟩ := ho1 lpO h1
  refine ⟨cs, g1, fun x => ?_⟩
  have : s'.lp.objective x = lpO.objective x := by unfold Lp.objective; rw [h2]
  rw [this, g4, objective_zero, zero_add]
  simp only [hc.colEq hv]

/-- Solutions have non-negative flows and binary columns that are zero or one. -/
theorem General.columns (hc : General M big sets s m b bins) (hv : M.Valid) {lp : Lp} (hk : KeepInv b lp) {x : Nat → ℚ} (hx : lp.ColsHold x) :
    (∀ e < M.net.edges.length, 0 ≤ via m x e) ∧
    ∀ c, m.colToEdges.length ≤ c → c < m.colToEdges.length + sets.length → x c = 0 ∨ x c = 1 := by
  unfold Lp.ColsHold at hx
  rw [hk.colLower, hk.colUpper, hk.colType, hc.colLower, hc.colUpper, hc.colType] at hx
  refine ⟨fun e he => ?_, fun c h1 h2 => ?_⟩
  · have hb := hc.colBound hv e he
    exact (hx (colOf m e) 0 big (by rw [List.getElem?_replicate, if_pos (by omega)])
      (by rw [List.getElem?_append_left (by simpa using hb), List.getElem?_replicate, if_pos hb])).1
  · obtain ⟨g1, g2, g3⟩ := hx c 0 1 (by rw [List.getElem?_replicate, if_pos h2])
      (by rw [List.getElem?_append_right (by simpa using h1), List.getElem?_replicate, if_pos (by simp; omega)])
    obtain ⟨k, hkk⟩ := g3 (by rw [List.getElem?_append_right (by simpa using h1), List.getElem?_replicate, if_pos (by simp; omega)])
    rw [hkk] at g1 g2 ⊢
    have h1 : (0 : Int) ≤ k := by exact_mod_cast g1
    have h2 : k ≤ (1 : Int) := by exact_mod_cast g2
    have : k = 0 ∨ k = 1 := by omega
    rcases this with rfl | rfl <;> simp

end

theorem lookup_mem {κ ν : Type} [DecidableEq κ] (k : κ) (l : List (κ × ν)) (v : ν) (h : Verif.Topology.lookup k l = some v) :
    (k, v) ∈ l := by
  induction l with
  | nil => cases h
  | cons p l ih =>
    obtain ⟨a, w⟩ := p
    simp only [Verif.Topology.lookup] at h
    split_ifs at h with he
    · simp only [Option.some.injEq] at h
      subst h; subst he; simp
    · exact List.mem_cons_of_mem _ (ih h)

theorem exclusivityRow_ok (bins : List (List Nat × Nat)) (ss : List (List Nat)) : ∀ r r', r.Sorted →
    exclusivityRow bins ss r = some r' → r'.Sorted ∧ ∃ cs : List Nat, List.Forall₂ (fun s c => (s, c) ∈ bins) ss cs ∧
      ∀ x, value r'.columns x = value r.columns x + (cs.map x).sum := by
  induction ss with
  | nil =>
    intro r r' hs h
    simp only [exclusivityRow, Option.some.injEq] at h
    subst h
    exact ⟨hs, [], .nil, by simp⟩
  | cons s ss ih =>
    intro r r' hs h
    simp only [exclusivityRow] at h
    cases hl : Verif.Topology.lookup s bins with
    | none => simp [hl] at h
    | some c =>
      simp only [hl] at h
      obtain ⟨h1, cs, h2, h3⟩ := ih _ _ (r.sorted_addElement c 1 hs) h
      refine ⟨h1, c :: cs, .cons (lookup_mem _ _ _ hl) h2, fun x => ?_⟩
      rw [h3, r.value_addElement c 1 x hs]
      simp only [List.map_cons, List.sum_cons]
      ring

end Verif.Solver
