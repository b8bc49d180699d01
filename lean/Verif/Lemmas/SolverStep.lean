import Verif.Lemmas.SolverCreate

/-! # The program after a step -/

namespace Verif.Solver

open Verif.State (NodeKind Edge)
open Verif.Topology (Network TNode)

/-- What stays the same of a program from step to step: everything but the objective, the bounds of variable rows and the
coefficients of the rows in `D`. -/
structure LpInv (b : LpBuilder) (D : Nat → Prop) (lp : Lp) : Prop where
  f64Max : lp.f64Max = b.f64Max
  f64NegMax : lp.f64NegMax = b.f64NegMax
  colLower : lp.colLower = b.colLower
  colUpper : lp.colUpper = b.colUpper
  colType : lp.colType = b.colType
  colObj : lp.colObj.length = b.colObj.length
  mask : ∀ i : Nat, lp.rowMask[i]? = if i < b.rows.length then some 1 else if i < b.rows.length + b.fixedRows.length then some 0 else none
  lenMask : lp.rowMask.length = b.rows.length + b.fixedRows.length
  lenLower : lp.rowLower.length = b.rows.length + b.fixedRows.length
  lenUpper : lp.rowUpper.length = b.rows.length + b.fixedRows.length
  fixedBounds : ∀ (i : Nat) (r : Row), b.fixedRows[i]? = some r → lp.rowLower[b.rows.length + i]? = some r.lower ∧
    lp.rowUpper[b.rows.length + i]? = some (r.upper.getD b.f64Max)
  matrix : ∃ ls : List (OMap ℚ), lp.Has ls ∧ ls.length = b.rows.length + b.fixedRows.length ∧
    ∀ (i : Nat) (r : Row), (b.rows ++ b.fixedRows)[i]? = some r → ∃ l, ls[i]? = some l ∧ l.map (·.1) = r.columns.map (·.1) ∧
      (¬ (i < b.rows.length ∧ D i) → l = r.columns)

theorem LpInv.build (b : LpBuilder) (D : Nat → Prop) : LpInv b D b.build := by
  obtain ⟨_, _, _, _, _, h6, h7, h8⟩ := C19_sparse b
  have hm : b.build.rowMask.length = b.rows.length + b.fixedRows.length := by rw [b.rowsAgree.1, h6]
  refine ⟨rfl, rfl, rfl, rfl, rfl, rfl, ?_, hm, h6, h7, ?_, ?_⟩
  · intro i
    by_cases hi : i < (b.rows ++ b.fixedRows).length
    · have := (h8 i _ (List.getElem?_eq_getElem hi)).2.2.2
      rw [this]
      have hi' : i < b.rows.length + b.fixedRows.length := by simpa using hi
      by_cases h : i < b.rows.length <;> simp [h, hi']
    · have hi' : ¬ i < b.rows.length + b.fixedRows.length := by simpa using hi
      rw [if_neg (by omega), if_neg hi']
      exact List.getElem?_eq_none (by omega)
  · intro i r hr
    have := h8 (b.rows.length + i) r (by rw [List.getElem?_append_right (by omega), Nat.add_sub_cancel_left]; exact hr)
    exact ⟨this.2.1, this.2.2.1⟩
  · refine ⟨_, b.build_has, by simp, ?_⟩
    intro i r hr
    exact ⟨r.columns, by rw [List.getElem?_map, hr]; rfl, rfl, fun _ => rfl⟩

theorem LpInv.agree {b : LpBuilder} {D : Nat → Prop} {lp : Lp} (h : LpInv b D lp) : lp.RowsAgree :=
  ⟨by rw [h.lenMask, h.lenLower], by rw [h.lenLower, h.lenUpper]⟩

/-- The effect of a step on the rows: bounds `bs` and changed coefficients `P`. -/
theorem lp_step {b : LpBuilder} {D : Nat → Prop} {lp : Lp} (h : LpInv b D lp) (bs : List (Nat × ℚ × ℚ))
    (hbs : ∀ p ∈ bs, p.1 < b.rows.length) (P : List (Nat × Nat × ℚ))
    (hP : ∀ t ∈ P, D t.1 ∧ ∃ r, b.rows[t.1]? = some r ∧ r.Sorted ∧ t.2.1 ∈ r.columns.map (·.1))
    (hcov : ∀ (i : Nat) (r : Row), b.rows[i]? = some r → D i → r.Sorted ∧ ((P.filter (fun t => t.1 = i)).map (·.2.1)).Nodup ∧
      ∀ c ∈ r.columns.map (·.1), c ∈ (P.filter (fun t => t.1 = i)).map (·.2.1)) :
    ∃ lp1 lp2, lp.resetRowBounds.resetCoefficients.act bs P = some lp1 ∧ lp1.applyUpdatedCoefficients = some lp2 ∧
      LpInv b D lp2 ∧ lp2.colObj = lp.colObj ∧
      ∀ val : Nat → (Nat → ℚ) → ℚ,
        (∀ (i : Nat) (r : Row), b.rows[i]? = some r → ¬ D i → ∀ x, val i x = value r.columns x) →
        (∀ (i : Nat) (r : Row), b.rows[i]? = some r → D i → ∀ x, val i x = value ((P.filter (fun t => t.1 = i)).map (·.2)) x) →
        ∀ x, lp2.RowsHold x ↔
          (∀ i < b.rows.length, (b.f64NegMax ≤ val i x ∧ val i x ≤ b.f64Max) ∧
            ∀ l u, (i, l, u) ∈ bs → l ≤ val i x ∧ val i x ≤ u) ∧
          (∀ r ∈ b.fixedRows, r.Holds b.f64Max x) := by
  have hw := h.agree
  have hw' : lp.resetRowBounds.RowsAgree := by
    unfold Lp.RowsAgree Lp.resetRowBounds
    simp only [resetBounds_length]
    exact hw
  have hsome := (C18_total bs lp.resetRowBounds hw').2 (by
    intro p hp
    have := hbs p hp
    simp only [Lp.resetRowBounds, resetBounds_length, h.lenLower]
    omega)
  obtain ⟨lpB, hB⟩ := Option.isSome_iff_exists.1 hsome
  obtain ⟨hI1, hI2, lo1, hi1, hI3⟩ := C18_intersection lp lpB hw bs hB
  obtain ⟨_, hlen1, hlen2, _⟩ := applyBounds_spec bs _ _ hB
  simp only [Lp.resetRowBounds, resetBounds_length] at hlen1 hlen2
  obtain ⟨ls, hls1, hls2, hls3⟩ := h.matrix
  have hlp1 : lp.resetRowBounds.resetCoefficients.act bs P = some { lpB with coefficientsToUpdate := P } := by
    unfold Lp.act
    have : lp.resetRowBounds.resetCoefficients = { lp.resetRowBounds with coefficientsToUpdate := [] } := rfl
    rw [this, applyBounds_coefs, hB]
    rfl
  have hhas : ({ lpB with coefficientsToUpdate := P } : Lp).Has ls := by
    rw [hI3]; exact ⟨hls1.starts, hls1.columns, hls1.elements⟩
  obtain ⟨es, ls', ha1, ha2, ha3, ha4⟩ := Lp.Has.applyAll P _ ls hhas (by
    intro t ht
    obtain ⟨_, r, hr, hs, hc⟩ := hP t ht
    obtain ⟨l, hl, hk, _⟩ := hls3 t.1 r (by
      rw [List.getElem?_append_left (List.getElem?_eq_some_iff.1 hr).1]; exact hr)
    refine ⟨l, hl, ?_, ?_⟩
    · rw [hk]; exact hs
    · rw [hk]; exact hc)
  refine ⟨_, { lpB with elements := es, coefficientsToUpdate := [] }, hlp1, ?_, ?_, ?_, ?_⟩
  · unfold Lp.applyUpdatedCoefficients
    simp only [ha1, Option.map_some]
  · refine ⟨?_, ?_, ?_, ?_, ?_, ?_, ?_, ?_, ?_, ?_, ?_, ?_⟩
    · rw [hI3]; exact h.f64Max
    · rw [hI3]; exact h.f64NegMax
    · rw [hI3]; exact h.colLower
    · rw [hI3]; exact h.colUpper
    · rw [hI3]; exact h.colType
    · rw [hI3]; exact h.colObj
    · rw [hI3]; exact h.mask
    · rw [hI3]; exact h.lenMask
    · simp only [hlen1]; exact h.lenLower
    · simp only [hlen2]; exact h.lenUpper
    · intro i r hr
      obtain ⟨e1, e2⟩ := h.fixedBounds i r hr
      have hi : i < b.fixedRows.length := (List.getElem?_eq_some_iff.1 hr).1
      -- no bound is applied to a fixed row, so its bounds are literally unchanged
      have key : ∀ (bs : List (Nat × ℚ × ℚ)) (q q' : Lp), (∀ p ∈ bs, p.1 < b.rows.length) → q.applyBounds bs = some q' →
          ∀ j, b.rows.length ≤ j → q'.rowLower[j]? = q.rowLower[j]? ∧ q'.rowUpper[j]? = q.rowUpper[j]? := by
        intro bs
        induction bs with
        | nil => intro q q' _ hq j _; simp only [Lp.applyBounds, Option.some.injEq] at hq; subst hq; exact ⟨rfl, rfl⟩
        | cons p bs ih =>
          obtain ⟨r', l', u'⟩ := p
          intro q q' hp hq j hj
          rw [List.forall_mem_cons] at hp
          simp only [Lp.applyBounds] at hq
          cases hq1 : q.applyRowBounds r' l' u' with
          | none => simp [hq1] at hq
          | some q1 =>
            simp only [hq1, Option.bind_some] at hq
            obtain ⟨_, _, rfl⟩ := applyRowBounds_some hq1
            obtain ⟨i1, i2⟩ := ih _ _ hp.2 hq j hj
            have hne : r' ≠ j := by have := hp.1; simp only at this; omega
            refine ⟨?_, ?_⟩
            · rw [i1]; simp [hne]
            · rw [i2]; simp [hne]
      obtain ⟨k1, k2⟩ := key bs _ _ hbs hB (b.rows.length + i) (by omega)
      have hmask : lp.rowMask[b.rows.length + i]? ≠ some 1 := by
        rw [h.mask, if_neg (by omega), if_pos (by omega)]; simp
      simp only [Lp.resetRowBounds] at k1 k2
      rw [resetBounds_get _ _ _ hw.1, if_neg hmask] at k1
      rw [resetBounds_get _ _ _ (hw.1.trans hw.2), if_neg hmask] at k2
      exact ⟨k1.trans e1, k2.trans e2⟩
    · refine ⟨ls', ⟨ha2.starts, ha2.columns, ha2.elements⟩, by rw [ha3, hls2], ?_⟩
      intro i r hr
      obtain ⟨l, hl, hk, hd⟩ := hls3 i r hr
      obtain ⟨g1, g2⟩ := ha4 i l hl
      refine ⟨_, g1, g2.trans hk, fun hD => ?_⟩
      rw [rewrite_none P i l ?_, hd hD]
      intro t ht he
      obtain ⟨hDt, r', hr1, _⟩ := hP t ht
      rw [he] at hDt hr1
      exact hD ⟨(List.getElem?_eq_some_iff.1 hr1).1, hDt⟩
  · rw [hI3]
  · intro val hv1 hv2 x
    have hent : ∀ (i : Nat) (r : Row), (b.rows ++ b.fixedRows)[i]? = some r →
        (i < b.rows.length → value (({ lpB with elements := es, coefficientsToUpdate := [] } : Lp).entries i) x = val i x) ∧
        (b.rows.length ≤ i → value (({ lpB with elements := es, coefficientsToUpdate := [] } : Lp).entries i) x = value r.columns x) := by
      intro i r hr
      obtain ⟨l, hl, hk, hd⟩ := hls3 i r hr
      obtain ⟨g1, g2⟩ := ha4 i l hl
      have e : ({ lpB with elements := es, coefficientsToUpdate := [] } : Lp).entries i = rewrite P i l := ha2.entries i _ g1
      rw [e]
      refine ⟨fun hi => ?_, fun hi => ?_⟩
      · have hr' : b.rows[i]? = some r := by rw [← hr, List.getElem?_append_left hi]
        by_cases hD : D i
        · obtain ⟨hs, hnd, hco⟩ := hcov i r hr' hD
          rw [hv2 i r hr' hD x]
          have hfold : rewrite P i l = ((P.filter (fun t => t.1 = i)).map (·.2)).foldl (fun l t => OMap.insert t.1 t.2 l) l := by
            unfold rewrite; rw [List.foldl_map]
          rw [hfold]
          have hkeys : ((P.filter (fun t => t.1 = i)).map (·.2)).map (·.1) = (P.filter (fun t => t.1 = i)).map (·.2.1) := by
            rw [List.map_map]; rfl
          apply value_rewritten
          · rw [hkeys]; exact hnd
          · rw [hk]; exact hs
          · intro c
            rw [hkeys, hk]
            refine ⟨hco c, ?_⟩
            intro hc
            obtain ⟨t, ht, rfl⟩ := List.mem_map.1 hc
            obtain ⟨ht1, ht2⟩ := List.mem_filter.1 ht
            simp only [decide_eq_true_eq] at ht2
            obtain ⟨_, r', hr1, _, hm⟩ := hP t ht1
            rw [ht2, hr'] at hr1
            simp only [Option.some.injEq] at hr1
            subst hr1; exact hm
        · rw [rewrite_none P i l (fun t ht he => hD (he ▸ (hP t ht).1)), hd (fun h => hD h.2), hv1 i r hr' hD x]
      · rw [rewrite_none P i l (by
          intro t ht he
          obtain ⟨_, r', hr1, _⟩ := hP t ht
          have := (List.getElem?_eq_some_iff.1 hr1).1
          omega)]
        rw [hd (fun h => by omega)]
    have hb1 : ∀ i < b.rows.length, ∃ lo' hi', lpB.rowLower[i]? = some lo' ∧ lpB.rowUpper[i]? = some hi' ∧
        ∀ v, (lo' ≤ v ∧ v ≤ hi') ↔
          ((b.f64NegMax ≤ v ∧ v ≤ b.f64Max) ∧ ∀ l u, (i, l, u) ∈ bs → l ≤ v ∧ v ≤ u) := by
      intro i hi
      have := hI1 i (by rw [h.mask, if_pos hi])
      rw [h.f64Max, h.f64NegMax] at this
      exact this
    have hb2 : ∀ (i : Nat) (r : Row), b.fixedRows[i]? = some r → ∃ lo' hi', lpB.rowLower[b.rows.length + i]? = some lo' ∧
        lpB.rowUpper[b.rows.length + i]? = some hi' ∧ ∀ v, (lo' ≤ v ∧ v ≤ hi') ↔ (r.lower ≤ v ∧ v ≤ r.upper.getD b.f64Max) := by
      intro i r hr
      have hi : i < b.fixedRows.length := (List.getElem?_eq_some_iff.1 hr).1
      obtain ⟨e1, e2⟩ := h.fixedBounds i r hr
      exact hI2 _ _ _ (by rw [h.mask, if_neg (by omega), if_pos (by omega)]; simp)
        (fun l u hm => by have := hbs _ hm; simp only at this; omega) e1 e2
    unfold Lp.RowsHold
    simp only
    constructor
    · intro hall
      refine ⟨fun i hi => ?_, fun r hr => ?_⟩
      · obtain ⟨lo', hi', e1, e2, e3⟩ := hb1 i hi
        have := hall i lo' hi' e1 e2
        have hr := List.getElem?_eq_getElem hi
        rw [(hent i _ (by rw [List.getElem?_append_left hi]; exact hr)).1 hi] at this
        exact (e3 _).1 this
      · obtain ⟨i, hr⟩ := List.mem_iff_getElem?.1 hr
        obtain ⟨lo', hi', e1, e2, e3⟩ := hb2 i r hr
        have := hall _ lo' hi' e1 e2
        rw [(hent (b.rows.length + i) r (by
          rw [List.getElem?_append_right (by omega), Nat.add_sub_cancel_left]; exact hr)).2 (by omega)] at this
        exact (e3 _).1 this
    · rintro ⟨h1, h2⟩ i lo hi hlo hhi
      have hil : i < b.rows.length + b.fixedRows.length := by
        have := (List.getElem?_eq_some_iff.1 hlo).1
        rw [hlen1, h.lenLower] at this
        exact this
      by_cases hi' : i < b.rows.length
      · obtain ⟨lo', hi1', e1, e2, e3⟩ := hb1 i hi'
        rw [hlo] at e1; rw [hhi] at e2
        cases e1; cases e2
        have hr := List.getElem?_eq_getElem hi'
        rw [(hent i _ (by rw [List.getElem?_append_left hi']; exact hr)).1 hi']
        exact (e3 _).2 (h1 i hi')
      · obtain ⟨k, rfl⟩ := Nat.exists_eq_add_of_le (Nat.le_of_not_lt hi')
        have hk : k < b.fixedRows.length := by omega
        have hr := List.getElem?_eq_getElem hk
        obtain ⟨lo', hi1', e1, e2, e3⟩ := hb2 k _ hr
        rw [hlo] at e1; rw [hhi] at e2
        cases e1; cases e2
        rw [(hent (b.rows.length + k) _ (by
          rw [List.getElem?_append_right (by omega), Nat.add_sub_cancel_left]; exact hr)).2 (by omega)]
        exact (e3 _).2 (h2 _ (List.getElem_mem hk))

end Verif.Solver
