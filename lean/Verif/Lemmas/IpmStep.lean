import Verif.Lemmas.IpmSubst
import Mathlib.Tactic.LinearCombination

/-! # One iteration -/

namespace Verif.Ipm

open Finset

variable {K : Type} [Field K]

theorem rd_map_range (f : Nat → K) (n i : Nat) (h : i < n) : rd ((List.range n).map f) i = f i := by
  unfold rd
  rw [List.getD_eq_getElem _ _ (by simpa using h), List.getElem_map, List.getElem_range]

theorem dot_eq (x y : List K) (n : Nat) (hx : x.length = n) (hy : y.length = n ∨ n ≤ y.length) :
    dot x y = ∑ i ∈ range n, rd x i * rd y i := by
  unfold dot
  have hle : n ≤ y.length := by rcases hy with h | h <;> omega
  have : (x.zip y).map (fun p => p.1 * p.2) = (List.range n).map fun i => rd x i * rd y i := by
    apply List.ext_getElem
    · simp [hx]; exact hle
    · intro i h1 h2
      simp only [List.getElem_map, List.getElem_zip, List.getElem_range, rd]
      simp only [List.length_map, List.length_range] at h2
      rw [List.getD_eq_getElem _ _ (by omega), List.getD_eq_getElem _ _ (by omega)]
  rw [this, sum_range_list]

theorem rd_update (x d : List K) (t : K) (n i : Nat) (hx : x.length = n) (h : i < n) :
    rd (vectorUpdate x d 1 t) i = rd x i + t * rd d i := by
  unfold vectorUpdate
  rw [rd_map_range _ _ _ (by omega), one_mul]

/-- A linear map of an updated vector. -/
theorem apply_update (a : Csr K) (x d : List K) (t : K) (hx : x.length = a.ncols) (i : Nat) :
    a.apply (vectorUpdate x d 1 t) i = a.apply x i + t * a.apply d i := by
  unfold Csr.apply
  rw [mul_sum, ← sum_add_distrib]
  apply sum_congr rfl
  intro c hc
  rw [rd_update x d t a.ncols c hx (mem_range.mp hc)]
  ring

theorem applyT_update (a : Csr K) (y d : List K) (t : K) (hy : y.length = a.nrows) (c : Nat) :
    a.applyT (vectorUpdate y d 1 t) c = a.applyT y c + t * a.applyT d c := by
  unfold Csr.applyT
  rw [mul_sum, ← sum_add_distrib]
  apply sum_congr rfl
  intro i hi
  rw [rd_update y d t a.nrows i hy (mem_range.mp hi)]
  ring

variable [LinearOrder K]

/-- The directions satisfy the linearised equations. -/
structure Newton (a : Csr K) (wlen : Nat) (pt : Point K) (b c : List K) (mu : K) (dx dz dy dw : List K) : Prop where
  primal : ∀ i < a.nrows, a.apply dx i + (if i < wlen then rd dw i else 0) = violation a b pt i
  dual : ∀ j < a.ncols, rd dz j - a.applyT dy j = -dualViolation a c pt j
  compX : ∀ j < a.ncols, rd pt.z j * rd dx j + rd pt.x j * rd dz j = mu - rd pt.z j * rd pt.x j
  compW : ∀ i < wlen, rd pt.w i * rd dy i + rd pt.y i * rd dw i = mu - rd pt.w i * rd pt.y i

variable [IsStrictOrderedRing K]

theorem newton {a : Csr K} (ha : a.Ok) {wlen : Nat} {pt : Point K} (hin : Inside a wlen pt) (b c dy : List K) (mu : K)
    (hdy : ∀ i < a.nrows, ∑ j ∈ range a.nrows, normalEntry a pt i j * rd dy j = rd (normalRhs a a.transpose pt b c mu) i) :
    Newton a wlen pt b c mu (dirX a.transpose pt c dy mu) (dirZ a.transpose pt (dirX a.transpose pt c dy mu) mu) dy
      (dirW pt dy mu) := by
  have hT : a.transpose.nrows = a.ncols := rfl
  have rdx : ∀ j < a.ncols, rd (dirX a.transpose pt c dy mu) j =
      (rd c j - a.applyT pt.y j - a.applyT dy j + mu / rd pt.x j) * rd pt.x j / rd pt.z j := by
    intro j hj
    unfold dirX
    rw [rd_map_range _ _ _ (by rw [hT]; exact hj), rowDot_transpose ha _ hj, rowDot_transpose ha _ hj]
  have rdz : ∀ j < a.ncols, rd (dirZ a.transpose pt (dirX a.transpose pt c dy mu) mu) j =
      (mu - rd pt.z j * rd (dirX a.transpose pt c dy mu) j) / rd pt.x j - rd pt.z j := by
    intro j hj
    unfold dirZ
    rw [rd_map_range _ _ _ (by rw [hT]; exact hj)]
  have rdw : ∀ i < wlen, rd (dirW pt dy mu) i = (mu - rd pt.w i * rd dy i) / rd pt.y i - rd pt.w i := by
    intro i hi
    unfold dirW
    rw [rd_map_range _ _ _ (by rw [hin.w]; exact hi)]
  have rtmp : ∀ j < a.ncols, rd (rhsTmp a.transpose pt c mu) j =
      rd pt.x j * (rd c j - a.applyT pt.y j + mu / rd pt.x j) / rd pt.z j := by
    intro j hj
    unfold rhsTmp
    rw [rd_map_range _ _ _ (by rw [hT]; exact hj), rowDot_transpose ha _ hj]
  refine ⟨?_, ?_, ?_, ?_⟩
  · intro i hi
    have hn := hdy i hi
    unfold normalRhs at hn
    rw [rd_map_range _ _ _ hi, rowDot_eq ha _ hi, rowDot_eq ha _ hi, hin.w] at hn
    have hsplit : ∑ j ∈ range a.nrows, normalEntry a pt i j * rd dy j =
        (if i < wlen then rd pt.w i / rd pt.y i * rd dy i else 0) +
        ∑ k ∈ range a.ncols, a.entry i k * (rd pt.x k / rd pt.z k * a.applyT dy k) := by
      unfold normalEntry
      simp only [add_mul, sum_add_distrib]
      congr 1
      · rw [sum_eq_single i]
        · rw [hin.w]
          by_cases hw : i < wlen
          · rw [if_pos ⟨rfl, hw⟩, if_pos hw]
          · rw [if_neg (fun hh => hw hh.2), if_neg hw, zero_mul]
        · intro j _ hj
          rw [if_neg (fun hh => hj hh.1.symm), zero_mul]
        · intro hh; exact absurd (mem_range.mpr hi) hh
      · unfold Csr.applyT
        simp only [sum_mul, mul_sum]
        rw [sum_comm]
        apply sum_congr rfl
        intro k _
        apply sum_congr rfl
        intro j _
        ring
    have hdx : a.apply (dirX a.transpose pt c dy mu) i = a.apply (rhsTmp a.transpose pt c mu) i -
        ∑ k ∈ range a.ncols, a.entry i k * (rd pt.x k / rd pt.z k * a.applyT dy k) := by
      unfold Csr.apply
      rw [← sum_sub_distrib]
      apply sum_congr rfl
      intro k hk
      rw [mem_range] at hk
      rw [rdx k hk, rtmp k hk]
      ring
    unfold violation
    rw [hin.w, hdx]
    rw [hsplit] at hn
    by_cases hw : i < wlen
    · simp only [if_pos hw] at hn ⊢
      rw [rdw i hw]
      have e : (mu - rd pt.w i * rd dy i) / rd pt.y i = mu / rd pt.y i - rd pt.w i / rd pt.y i * rd dy i := by ring
      rw [e]
      linarith
    · simp only [if_neg hw] at hn ⊢
      linarith
  · intro j hj
    have hx := ne_of_gt (hin.xPos j hj)
    have hz := ne_of_gt (hin.zPos j hj)
    rw [rdz j hj, rdx j hj]
    unfold dualViolation
    field_simp
    ring
  · intro j hj
    have hx := ne_of_gt (hin.xPos j hj)
    rw [rdz j hj]
    field_simp
    ring
  · intro i hi
    have hy := ne_of_gt (hin.yPos i hi)
    rw [rdw i hi]
    field_simp
    ring

omit [Field K] [IsStrictOrderedRing K] in
theorem foldl_max (f g : Nat → K) : ∀ (l : List Nat) (t : K),
    t ≤ l.foldl (fun t r => max (max t (f r)) (g r)) t ∧
    ∀ r ∈ l, f r ≤ l.foldl (fun t r => max (max t (f r)) (g r)) t ∧ g r ≤ l.foldl (fun t r => max (max t (f r)) (g r)) t := by
  intro l
  induction l with
  | nil => intro t; exact ⟨le_refl _, fun r hr => absurd hr List.not_mem_nil⟩
  | cons q l ih =>
    intro t
    obtain ⟨h1, h2⟩ := ih (max (max t (f q)) (g q))
    simp only [List.foldl_cons]
    refine ⟨le_trans (le_trans (le_max_left _ _) (le_max_left _ _)) h1, ?_⟩
    intro r hr
    rcases List.mem_cons.mp hr with rfl | hr
    · exact ⟨le_trans (le_trans (le_max_right _ _) (le_max_left _ _)) h1, le_trans (le_max_right _ _) h1⟩
    · exact h2 r hr

/-- The step length keeps a positive variable positive. -/
theorem step_pos {x d m : K} (hx : 0 < x) (hm : 0 ≤ m) (h : -d / x ≤ m) : 0 < x + stepLength m * d := by
  have hd : -d ≤ m * x := by rwa [div_le_iff₀ hx] at h
  unfold stepLength
  by_cases h0 : m = 0
  · rw [if_pos h0, one_mul]
    rw [h0, zero_mul] at hd
    linarith
  · rw [if_neg h0]
    have hmp : 0 < m := lt_of_le_of_ne hm (Ne.symm h0)
    have ht0 : 0 ≤ min (9995 / 10000 / m) 1 := le_min (by positivity) zero_le_one
    have ht1 : min (9995 / 10000 / m) 1 * m ≤ 9995 / 10000 := by
      have := mul_le_mul_of_nonneg_right (min_le_left (9995 / 10000 / m) 1) hm
      rwa [div_mul_cancel₀ _ h0] at this
    have h1 : min (9995 / 10000 / m) 1 * -d ≤ min (9995 / 10000 / m) 1 * (m * x) := mul_le_mul_of_nonneg_left hd ht0
    have h2 : min (9995 / 10000 / m) 1 * (m * x) ≤ 9995 / 10000 * x := by
      rw [← mul_assoc]
      exact mul_le_mul_of_nonneg_right ht1 (le_of_lt hx)
    have h3 : (9995 : K) / 10000 * x < x := by
      have : (9995 : K) / 10000 < 1 := by norm_num
      calc (9995 : K) / 10000 * x < 1 * x := mul_lt_mul_of_pos_right this hx
        _ = x := one_mul x
    linarith

theorem stepLength_range {m : K} (hm : 0 ≤ m) : 0 < stepLength m ∧ stepLength m ≤ 1 := by
  unfold stepLength
  by_cases h0 : m = 0
  · rw [if_pos h0]; exact ⟨zero_lt_one, le_refl _⟩
  · rw [if_neg h0]
    have hmp : 0 < m := lt_of_le_of_ne hm (Ne.symm h0)
    exact ⟨lt_min (by positivity) zero_lt_one, min_le_right _ _⟩

omit [IsStrictOrderedRing K] in
theorem maxDecrease_nonneg (at_ : Csr K) (pt : Point K) (dx dz dy dw : List K) : 0 ≤ maxDecrease at_ pt dx dz dy dw := by
  unfold maxDecrease
  exact le_trans (foldl_max _ _ _ 0).1 (le_max_left _ _)

/-- The point after a step. -/
def moved (pt : Point K) (dx dz dy dw : List K) (t : K) : Point K :=
  ⟨vectorUpdate pt.x dx 1 t, vectorUpdate pt.z dz 1 t, vectorUpdate pt.y dy 1 t, vectorUpdate pt.w dw 1 t⟩

omit [LinearOrder K] [IsStrictOrderedRing K] in
theorem moved_sized {a : Csr K} {wlen : Nat} {pt : Point K} (hin : Sized a wlen pt) (dx dz dy dw : List K) (t : K) :
    Sized a wlen (moved pt dx dz dy dw t) := by
  refine ⟨?_, ?_, ?_, ?_, hin.slacks⟩
  · simp [moved, vectorUpdate, hin.x]
  · simp [moved, vectorUpdate, hin.z]
  · simp [moved, vectorUpdate, hin.y]
  · simp [moved, vectorUpdate, hin.w]

/-- A step stays inside. -/
theorem moved_inside {a : Csr K} {wlen : Nat} {pt : Point K} (hin : Inside a wlen pt) (dx dz dy dw : List K) :
    Inside a wlen (moved pt dx dz dy dw (stepLength (maxDecrease a.transpose pt dx dz dy dw))) := by
  have hm := maxDecrease_nonneg a.transpose pt dx dz dy dw
  have hcol : ∀ j < a.ncols, -rd dx j / rd pt.x j ≤ maxDecrease a.transpose pt dx dz dy dw ∧
      -rd dz j / rd pt.z j ≤ maxDecrease a.transpose pt dx dz dy dw := by
    intro j hj
    have h := (foldl_max (fun r => -rd dx r / rd pt.x r) (fun r => -rd dz r / rd pt.z r)
      (List.range a.transpose.nrows) 0).2 j (List.mem_range.mpr hj)
    unfold maxDecrease
    exact ⟨le_trans h.1 (le_max_left _ _), le_trans h.2 (le_max_left _ _)⟩
  have hrow : ∀ i < wlen, -rd dw i / rd pt.w i ≤ maxDecrease a.transpose pt dx dz dy dw ∧
      -rd dy i / rd pt.y i ≤ maxDecrease a.transpose pt dx dz dy dw := by
    intro i hi
    have h := (foldl_max (fun r => -rd dw r / rd pt.w r) (fun r => -rd dy r / rd pt.y r)
      (List.range pt.w.length) 0).2 i (List.mem_range.mpr (by rw [hin.w]; exact hi))
    unfold maxDecrease
    exact ⟨le_trans h.1 (le_max_right _ _), le_trans h.2 (le_max_right _ _)⟩
  refine ⟨moved_sized hin.toSized _ _ _ _ _, ?_, ?_, ?_, ?_⟩
  · intro j hj
    show 0 < rd (vectorUpdate pt.x dx 1 _) j
    rw [rd_update _ _ _ _ _ hin.x hj]
    exact step_pos (hin.xPos j hj) hm (hcol j hj).1
  · intro j hj
    show 0 < rd (vectorUpdate pt.z dz 1 _) j
    rw [rd_update _ _ _ _ _ hin.z hj]
    exact step_pos (hin.zPos j hj) hm (hcol j hj).2
  · intro i hi
    show 0 < rd (vectorUpdate pt.w dw 1 _) i
    rw [rd_update _ _ _ _ _ hin.w hi]
    exact step_pos (hin.wPos i hi) hm (hrow i hi).1
  · intro i hi
    show 0 < rd (vectorUpdate pt.y dy 1 _) i
    rw [rd_update _ _ _ _ _ hin.y (lt_of_lt_of_le hi hin.slacks)]
    exact step_pos (hin.yPos i hi) hm (hrow i hi).2

omit [LinearOrder K] [IsStrictOrderedRing K] in
theorem moved_zero {a : Csr K} {wlen : Nat} {pt : Point K} (hin : Sized a wlen pt) (dx dz dy dw : List K) :
    moved pt dx dz dy dw 0 = pt := by
  have h : ∀ x d : List K, vectorUpdate x d 1 0 = x := by
    intro x d
    unfold vectorUpdate
    apply List.ext_getElem
    · simp
    · intro i h1 h2
      simp only [List.getElem_map, List.getElem_range, rd, one_mul, zero_mul, add_zero]
      rw [List.getD_eq_getElem _ _ h2]
  cases pt
  simp only [moved, h]

/-- What a step does to the violations and the complementarity. -/
theorem moved_effect {a : Csr K} {wlen : Nat} {pt : Point K} (hin : Sized a wlen pt) {b c : List K} {mu : K}
    {dx dz dy dw : List K} (hN : Newton a wlen pt b c mu dx dz dy dw) (t : K) :
    (∀ i < a.nrows, violation a b (moved pt dx dz dy dw t) i = (1 - t) * violation a b pt i) ∧
    (∀ j < a.ncols, dualViolation a c (moved pt dx dz dy dw t) j = (1 - t) * dualViolation a c pt j) ∧
    complementarity a (moved pt dx dz dy dw t) = (1 - t) * complementarity a pt + t * (((a.ncols + wlen : Nat) : K) * mu) +
      t * t * (∑ i ∈ range a.nrows, violation a b pt i * rd dy i - ∑ j ∈ range a.ncols, dualViolation a c pt j * rd dx j) := by
  have hsz := moved_sized hin dx dz dy dw t
  refine ⟨?_, ?_, ?_⟩
  · intro i hi
    have h := hN.primal i hi
    have hv : violation a b (moved pt dx dz dy dw t) i =
        rd b i - (if i < wlen then rd pt.w i + t * rd dw i else 0) - (a.apply pt.x i + t * a.apply dx i) := by
      unfold violation
      rw [hsz.w]
      show _ - a.apply (vectorUpdate pt.x dx 1 t) i = _
      rw [apply_update a pt.x dx t hin.x]
      by_cases hw : i < wlen
      · rw [if_pos hw, if_pos hw]
        show _ - rd (vectorUpdate pt.w dw 1 t) i - _ = _
        rw [rd_update pt.w dw t wlen i hin.w hw]
      · rw [if_neg hw, if_neg hw]
    rw [hv, ← h]
    have h' := h
    unfold violation at h'
    rw [hin.w] at h'
    by_cases hw : i < wlen
    · simp only [if_pos hw] at *
      linear_combination (-1 : K) * h'
    · simp only [if_neg hw] at *
      linear_combination (-1 : K) * h'
  · intro j hj
    have h := hN.dual j hj
    have hv : dualViolation a c (moved pt dx dz dy dw t) j =
        rd pt.z j + t * rd dz j + rd c j - (a.applyT pt.y j + t * a.applyT dy j) := by
      unfold dualViolation
      show rd (vectorUpdate pt.z dz 1 t) j + _ - a.applyT (vectorUpdate pt.y dy 1 t) j = _
      rw [applyT_update a pt.y dy t hin.y, rd_update pt.z dz t a.ncols j hin.z hj]
    rw [hv]
    unfold dualViolation at h ⊢
    linear_combination t * h
  · have hx : ∀ j ∈ range a.ncols, rd (moved pt dx dz dy dw t).z j * rd (moved pt dx dz dy dw t).x j =
        (1 - t) * (rd pt.z j * rd pt.x j) + t * mu + t * t * (rd dz j * rd dx j) := by
      intro j hj
      rw [mem_range] at hj
      show rd (vectorUpdate pt.z dz 1 t) j * rd (vectorUpdate pt.x dx 1 t) j = _
      rw [rd_update pt.z dz t a.ncols j hin.z hj, rd_update pt.x dx t a.ncols j hin.x hj]
      have h := hN.compX j hj
      linear_combination t * h
    have hw : ∀ i ∈ range wlen, rd (moved pt dx dz dy dw t).w i * rd (moved pt dx dz dy dw t).y i =
        (1 - t) * (rd pt.w i * rd pt.y i) + t * mu + t * t * (rd dw i * rd dy i) := by
      intro i hi
      rw [mem_range] at hi
      show rd (vectorUpdate pt.w dw 1 t) i * rd (vectorUpdate pt.y dy 1 t) i = _
      rw [rd_update pt.w dw t wlen i hin.w hi, rd_update pt.y dy t a.nrows i hin.y (lt_of_lt_of_le hi hin.slacks)]
      have h := hN.compW i hi
      linear_combination t * h
    have hz : ∑ j ∈ range a.ncols, rd dz j * rd dx j + ∑ i ∈ range wlen, rd dw i * rd dy i =
        ∑ i ∈ range a.nrows, violation a b pt i * rd dy i - ∑ j ∈ range a.ncols, dualViolation a c pt j * rd dx j := by
      have e1 : ∑ j ∈ range a.ncols, rd dz j * rd dx j =
          ∑ j ∈ range a.ncols, a.applyT dy j * rd dx j - ∑ j ∈ range a.ncols, dualViolation a c pt j * rd dx j := by
        rw [← sum_sub_distrib]
        apply sum_congr rfl
        intro j hj
        have h := hN.dual j (mem_range.mp hj)
        linear_combination rd dx j * h
      have e2 : ∑ j ∈ range a.ncols, a.applyT dy j * rd dx j = ∑ i ∈ range a.nrows, a.apply dx i * rd dy i := by
        unfold Csr.applyT Csr.apply
        simp only [sum_mul]
        rw [sum_comm]
        apply sum_congr rfl
        intro i _
        apply sum_congr rfl
        intro j _
        ring
      have e3 : ∑ i ∈ range a.nrows, a.apply dx i * rd dy i =
          ∑ i ∈ range a.nrows, violation a b pt i * rd dy i - ∑ i ∈ range wlen, rd dw i * rd dy i := by
        have : ∑ i ∈ range wlen, rd dw i * rd dy i = ∑ i ∈ range a.nrows, (if i < wlen then rd dw i else 0) * rd dy i := by
          have hs := hin.slacks
          rw [← sum_subset (s₁ := range wlen) (s₂ := range a.nrows)]
          · exact sum_congr rfl (fun i hi => by rw [if_pos (mem_range.mp hi)])
          · intro i hi; rw [mem_range] at *; omega
          · intro i _ hi
            rw [mem_range] at hi
            rw [if_neg hi, zero_mul]
        rw [this, ← sum_sub_distrib]
        apply sum_congr rfl
        intro i hi
        have h := hN.primal i (mem_range.mp hi)
        linear_combination rd dy i * h
      rw [e1, e2, e3]; ring
    unfold complementarity
    rw [hsz.w, hin.w, sum_congr rfl hx, sum_congr rfl hw]
    simp only [sum_add_distrib, ← mul_sum, sum_const, card_range, nsmul_eq_mul]
    rw [← hz]
    push_cast
    ring

end Verif.Ipm
