import Verif.Lemmas.IpmIndices
import Verif.Lemmas.IpmSparse
import Verif.Lemmas.IpmDense

/-! # What the decomposition calculates -/

namespace Verif.Ipm

open Finset

section structure_

variable {K : Type} {a : Csr K} {n : Nat} {s : Idx}

theorem Inv.rowEnd_eq (h : Inv a n 0 s) {r : Nat} (hr : r < n) : s.rowEnd r = s.start (r + 1) := by
  unfold Idx.rowEnd Idx.start
  have := h.ptrLen
  rw [List.getD_eq_getElem _ _ (by omega), List.getD_eq_getElem _ _ (by omega)]

theorem Inv.start_succ (h : Inv a n 0 s) {r : Nat} (hr : r < n) : s.start r ≤ s.start (r + 1) := by
  rw [← h.rowEnd_eq hr]; exact h.startLe r (Nat.le_of_lt hr)

theorem Inv.start_mono (h : Inv a n 0 s) {q r : Nat} (hq : q ≤ r) (hr : r ≤ n) : s.start q ≤ s.start r := by
  induction r with
  | zero => have : q = 0 := by omega
            subst this; exact Nat.le_refl _
  | succ r ih =>
    rcases Nat.lt_or_ge q (r + 1) with h1 | h1
    · exact Nat.le_trans (ih (by omega) (by omega)) (h.start_succ (by omega))
    · have : q = r + 1 := by omega
      subst this; exact Nat.le_refl _

theorem Inv.start_last (h : Inv a n 0 s) : s.start n = s.lInd.length := by
  have h1 : s.rowEnd n = s.lInd.length := by
    unfold Idx.rowEnd
    rw [List.getD_eq_default]
    have := h.ptrLen
    omega
  have h2 := h.startLe n (Nat.le_refl _)
  rcases Nat.lt_or_ge (s.start n) s.lInd.length with h3 | h3
  · exact absurd (h.bound (s.start n) (Nat.le_refl _) h3) (Nat.not_lt_zero _)
  · omega

theorem Inv.row_of (h : Inv a n 0 s) {p : Nat} (hp : p < s.lInd.length) : ∃ r < n, s.start r ≤ p ∧ p < s.rowEnd r := by
  obtain ⟨r, hr, h1, h2⟩ := exists_row s.start n p (by rw [h.ptr0]; exact Nat.zero_le _) (by rw [h.start_last]; exact hp)
  exact ⟨r, hr, h1, by rw [h.rowEnd_eq hr]; exact h2⟩

/-- The factor passes the checks on sparse matrices. -/
theorem Inv.lower_ok (h : Inv a n 0 s) : (s.lower n).Ok where
  offLen := h.ptrLen
  off0 := h.ptr0
  offN := h.start_last
  vals := by simp [Idx.lower]
  mono := fun _ hi => h.start_succ hi
  sorted := by
    intro i hi
    apply slice_sorted
    · have := h.endLe i (Nat.le_of_lt hi)
      rw [h.rowEnd_eq hi] at this
      exact this
    · intro e e' h1 h2 h3
      exact h.sorted i (Nat.le_of_lt hi) e e' h1 h2 (by rw [h.rowEnd_eq hi]; exact h3)
  colsLt := by
    intro c hc
    obtain ⟨p, hp, he⟩ := List.mem_iff_getElem.mp (show c ∈ s.lInd from hc)
    obtain ⟨r, hr, h1, h2⟩ := h.row_of hp
    have := (h.entries r (Nat.le_of_lt hr) p h1 h2).le
    unfold Idx.col at this
    rw [List.getD_eq_getElem _ _ hp, he] at this
    exact Nat.lt_of_le_of_lt this hr

end structure_

/-- The index lists are found, and they are complete. -/
theorem fromMatrix_some {K : Type} {a : Csr K} (ha : a.Ok) (hne : ∀ i < a.nrows, a.off i < a.off (i + 1)) :
    ∃ s, Inv a a.nrows 0 s ∧ fromMatrix a = some ⟨s, (s.lower a.nrows).transpose.offsets, (s.lower a.nrows).transpose.cols,
      (s.lower a.nrows).byColumn⟩ := by
  obtain ⟨s, hs, hinv⟩ := rowLoop_inv ha hne a.nrows (Nat.le_refl _)
  refine ⟨s, hinv, ?_⟩
  unfold fromMatrix
  rw [hs]
  simp only
  rw [if_pos ((Csr.check_iff _).mpr hinv.lower_ok)]

variable {K : Type} [Field K]

/-- The number in row `r` and column `k` of the factor. -/
def lent (s : Idx) (l : List K) (r k : Nat) : K := ent s.lInd (rd l) (s.start r) (s.rowEnd r) k

theorem ent_zero (ind : List Nat) (g : Nat → K) (x y k : Nat) (h : ∀ p, x ≤ p → p < y → ind.getD p 0 ≠ k) :
    ent ind g x y k = 0 := by
  unfold ent
  apply sum_eq_zero
  intro p hp
  rw [mem_Ico] at hp
  rw [if_neg (h p hp.1 hp.2)]

theorem ent_one (ind : List Nat) (g : Nat → K) (x y e : Nat) (hx : x ≤ e) (hy : e < y)
    (h : ∀ p, x ≤ p → p < y → p ≠ e → ind.getD p 0 ≠ ind.getD e 0) : ent ind g x y (ind.getD e 0) = g e := by
  unfold ent
  rw [sum_eq_single e]
  · rw [if_pos rfl]
  · intro p hp hpe
    rw [mem_Ico] at hp
    rw [if_neg (h p hp.1 hp.2 hpe)]
  · intro hn
    exact absurd (mem_Ico.mpr ⟨hx, hy⟩) hn

theorem ent_cut (ind : List Nat) (g : Nat → K) (x y z k : Nat) (hxy : x ≤ y) (hyz : y ≤ z)
    (h : ∀ p, y ≤ p → p < z → ind.getD p 0 ≠ k) : ent ind g x y k = ent ind g x z k := by
  have h0 := ent_zero ind g y z k h
  unfold ent at *
  rw [← sum_Ico_consecutive _ hxy hyz, h0, add_zero]

/-- A sum over places is a sum over columns. -/
theorem sum_by_col (ind : List Nat) (g f : Nat → K) (x y m : Nat) (h : ∀ p, x ≤ p → p < y → ind.getD p 0 < m) :
    ∑ p ∈ Ico x y, f (ind.getD p 0) * g p = ∑ k ∈ range m, f k * ent ind g x y k := by
  unfold ent
  simp only [mul_sum]
  rw [sum_comm]
  apply sum_congr rfl
  intro p hp
  rw [mem_Ico] at hp
  rw [sum_eq_single (ind.getD p 0)]
  · rw [if_pos rfl]
  · intro k _ hk
    rw [if_neg (fun hh => hk hh.symm), mul_zero]
  · intro hn
    exact absurd (mem_range.mpr (h p hp.1 hp.2)) hn

section entries

variable {a : Csr K} {n : Nat} {s : Idx}

omit [Field K] in
theorem Inv.ne_of_row (h : Inv a n 0 s) {r e p : Nat} (hr : r < n) (h1 : s.start r ≤ e) (h2 : e < s.rowEnd r) (h3 : s.start r ≤ p)
    (h4 : p < s.rowEnd r) (hne : p ≠ e) : s.col p ≠ s.col e := by
  rcases Nat.lt_or_gt_of_ne hne with hl | hl
  · exact Nat.ne_of_lt (h.sorted r (Nat.le_of_lt hr) p e h3 hl h2)
  · exact (Nat.ne_of_lt (h.sorted r (Nat.le_of_lt hr) e p h1 hl h4)).symm

theorem Inv.lent_at (h : Inv a n 0 s) (l : List K) {r e : Nat} (hr : r < n) (h1 : s.start r ≤ e) (h2 : e < s.rowEnd r) :
    lent s l r (s.col e) = rd l e :=
  ent_one _ _ _ _ _ h1 h2 (fun _ hp1 hp2 hne => h.ne_of_row hr h1 h2 hp1 hp2 hne)

theorem Inv.lent_diag (h : Inv a n 0 s) (l : List K) {r : Nat} (hr : r < n) : lent s l r r = rd l (s.lDiag.getD r 0) := by
  obtain ⟨h1, h2, h3⟩ := h.diag r (Nat.le_of_lt hr) (fun hh => absurd hh (Nat.ne_of_lt hr))
  have h4 := h.lent_at l hr (e := s.rowEnd r - 1) (by omega) (by omega)
  rw [h3] at h4
  rw [h4, show s.lDiag.getD r 0 = s.rowEnd r - 1 by omega]

theorem Inv.lent_upper (h : Inv a n 0 s) (l : List K) {r k : Nat} (hr : r < n) (hk : r < k) : lent s l r k = 0 := by
  apply ent_zero
  intro p h1 h2
  have := (h.entries r (Nat.le_of_lt hr) p h1 h2).le
  unfold Idx.col at this
  omega

end entries

section numeric

variable [LinearOrder K] {a : Csr K} {n : Nat} {s : Idx}

/-- Only earlier entries are read. -/
theorem entryVal_congr (h : Inv a n 0 s) (sqrt : K → K) (pt : Point K) {l l' : List K} {r e : Nat} (hr : r < n)
    (h1 : s.start r ≤ e) (h2 : e < s.rowEnd r) (hl : ∀ p < e, rd l p = rd l' p) :
    entryVal sqrt a s pt l r e e = entryVal sqrt a s pt l' r e e := by
  have hE := h.entries r (Nat.le_of_lt hr) e h1 h2
  have hlen := h.endLe r (Nat.le_of_lt hr)
  have hsum : ∀ L : List K, ((List.range' (s.ldPtr.getD e 0) (s.ldPtr.getD (e + 1) 0 - s.ldPtr.getD e 0)).map fun ind =>
      rd L (s.ldI.getD ind 0) * rd L (s.ldJ.getD ind 0)).sum = ((s.prods r e).map fun t => rd L t.1 * rd L t.2.1).sum := by
    intro L
    rw [hE.ldEnd, Nat.add_sub_cancel_left]
    apply sum_positions
    intro t ht
    rw [(hE.ld t ht).1, (hE.ld t ht).2]
  have hcong : (s.prods r e).map (fun t => rd l t.1 * rd l t.2.1) = (s.prods r e).map (fun t => rd l' t.1 * rd l' t.2.1) := by
    apply List.map_congr_left
    intro t ht
    obtain ⟨_, b1, _, b2, _⟩ := common_bound _ _ _ _ _ t ht
    rw [slice_length _ _ _ (by omega)] at b1
    have hc : t.2.1 < e := by
      by_cases hcr : s.col e = r
      · rw [if_pos hcr, slice_length _ _ _ (by omega), hcr] at b2
        omega
      · have hlt : s.col e < r := by have := hE.le; omega
        have he := h.endLe (s.col e) (by omega)
        have hs := h.startLe (s.col e) (by omega)
        rw [if_neg hcr, slice_length _ _ _ he] at b2
        have hmono := h.start_mono (q := s.col e + 1) (r := r) (by omega) (by omega)
        rw [← h.rowEnd_eq (by omega)] at hmono
        omega
    rw [hl t.1 (by omega), hl t.2.1 hc]
  have hdiag : r ≠ s.col e → rd l (s.lDiag.getD (s.col e) 0) = rd l' (s.lDiag.getD (s.col e) 0) := by
    intro hcr
    have hlt : s.col e < r := by have := hE.le; omega
    obtain ⟨d1, _, _⟩ := h.diag (s.col e) (by omega) (fun hh => by omega)
    have hmono := h.start_mono (q := s.col e + 1) (r := r) (by omega) (by omega)
    rw [← h.rowEnd_eq (by omega)] at hmono
    exact hl _ (by omega)
  unfold entryVal
  simp only [hsum l, hsum l', hcong]
  by_cases hcr : r = s.lInd.getD e 0
  · rw [if_pos hcr, if_pos hcr]
  · rw [if_neg hcr, if_neg hcr]
    have := hdiag hcr
    unfold Idx.col at this
    rw [this]

omit [LinearOrder K] in
theorem rd_set (l : List K) (i j : Nat) (v : K) (hi : i < l.length) : rd (l.set i v) j = if i = j then v else rd l j := by
  unfold rd
  by_cases h : i = j
  · subst h
    rw [if_pos rfl, List.getD_eq_getElem _ _ (by simpa using hi), List.getElem_set_self]
  · rw [if_neg h]
    by_cases hj : j < l.length
    · rw [List.getD_eq_getElem _ _ (by simpa using hj), List.getD_eq_getElem _ _ hj, List.getElem_set_ne h]
    · rw [List.getD_eq_default _ _ (by simpa using hj), List.getD_eq_default _ _ (by simpa using hj)]

theorem decompRow_spec (h : Inv a n 0 s) (sqrt : K → K) (pt : Point K) {r : Nat} (hr : r < n) : ∀ (k e : Nat) (l : List K),
    s.start r ≤ e → e + k = s.rowEnd r → s.lInd.length ≤ l.length →
    ∃ l', decompRow sqrt a s pt r k e (l, e) = (l', e + k) ∧ l'.length = l.length ∧ (∀ p < e, rd l' p = rd l p) ∧
      ∀ p, e ≤ p → p < e + k → rd l' p = entryVal sqrt a s pt l' r p p := by
  intro k
  induction k with
  | zero => intro e l _ _ _; exact ⟨l, rfl, rfl, fun _ _ => rfl, fun p h1 h2 => absurd h2 (by omega)⟩
  | succ k ih =>
    intro e l h1 h2 hlen
    have hend := h.endLe r (Nat.le_of_lt hr)
    have heL : e < l.length := by omega
    obtain ⟨l', e1, e2, e3, e4⟩ := ih (e + 1) (l.set e (entryVal sqrt a s pt l r e e)) (by omega) (by omega) (by simpa using hlen)
    have hbelow : ∀ p < e, rd l' p = rd l p := by
      intro p hp
      rw [e3 p (by omega), rd_set _ _ _ _ heL, if_neg (by omega)]
    refine ⟨l', ?_, by rw [e2, List.length_set], hbelow, ?_⟩
    · rw [decompRow, e1]; congr 1; omega
    · intro p hp1 hp2
      rcases Nat.lt_or_ge e p with hlt | hge
      · exact e4 p hlt (by omega)
      · have : p = e := by omega
        subst this
        rw [e3 p (by omega), rd_set _ _ _ _ heL, if_pos rfl]
        exact entryVal_congr h sqrt pt hr h1 (by omega) (fun q hq => (hbelow q hq).symm)

theorem decompRows_spec (h : Inv a n 0 s) (sqrt : K → K) (pt : Point K) (l : List K) (hlen : s.lInd.length ≤ l.length) :
    ∀ m ≤ n, ∃ l', decompRows sqrt a s pt l m = (l', s.start m) ∧ l'.length = l.length ∧
      ∀ r < m, ∀ e, s.start r ≤ e → e < s.rowEnd r → rd l' e = entryVal sqrt a s pt l' r e e := by
  intro m
  induction m with
  | zero => intro _; exact ⟨l, by rw [h.ptr0]; rfl, rfl, fun r hr => absurd hr (Nat.not_lt_zero _)⟩
  | succ m ih =>
    intro hm
    obtain ⟨l1, e1, e2, e3⟩ := ih (by omega)
    have hse := h.startLe m (by omega)
    have hre := h.rowEnd_eq (r := m) (by omega)
    obtain ⟨l2, f1, f2, f3, f4⟩ := decompRow_spec h sqrt pt (r := m) (by omega) (s.rowEnd m - s.start m) (s.start m) l1
      (Nat.le_refl _) (by omega) (by omega)
    refine ⟨l2, ?_, by omega, ?_⟩
    · rw [decompRows, e1]
      have g1 : s.lPtr.getD (m + 1) 0 - s.lPtr.getD m 0 = s.rowEnd m - s.start m := by rw [hre]; rfl
      rw [g1, show s.lPtr.getD m 0 = s.start m from rfl, f1]
      congr 1; omega
    · intro r hr e h1 h2
      rcases Nat.lt_or_ge r m with hlt | hge
      · have hmono := h.start_mono (q := r + 1) (r := m) (by omega) (by omega)
        rw [← h.rowEnd_eq (by omega)] at hmono
        rw [f3 e (by omega), e3 r hlt e h1 h2]
        exact entryVal_congr h sqrt pt (by omega) h1 h2 (fun p hp => (f3 p (by omega)).symm)
      · have : r = m := by omega
        subst this
        exact f4 e h1 (by omega)

omit [LinearOrder K] in
/-- The sum over common columns of two rows of the matrix. -/
theorem aMatches_sum (ha : a.Ok) {i j : Nat} (hi : i < a.nrows) (hj : j < a.nrows) (d : Nat → K) :
    ((aMatches a i j).map fun t => rd a.values t.1 * rd a.values t.2.1 * d t.2.2).sum =
      ∑ c ∈ range a.ncols, a.entry i c * a.entry j c * d c := by
  have hsl : ∀ r < a.nrows, ∀ k ∈ a.rowCols r, k < a.ncols := by
    intro r hr k hk
    apply ha.colsLt
    unfold Csr.rowCols slice at hk
    exact List.mem_of_mem_take (List.mem_of_mem_drop hk)
  unfold aMatches matches_
  rw [common_sum a.ncols (rd a.values) (rd a.values) d _ _ _ _ _ (Nat.le_refl _) (ha.sorted i hi) (ha.sorted j hj) (hsl i hi)]
  apply sum_congr rfl
  intro c _
  unfold Csr.rowCols
  rw [entL_slice _ _ _ _ _ (ha.mono i hi) (ha.off_le hi), entL_slice _ _ _ _ _ (ha.mono j hj) (ha.off_le hj)]
  rfl

omit [LinearOrder K] in
theorem prods_sum (h : Inv a n 0 s) (l : List K) {r e : Nat} (hr : r < n) (h1 : s.start r ≤ e) (h2 : e < s.rowEnd r) :
    ((s.prods r e).map fun t => rd l t.1 * rd l t.2.1).sum =
      ∑ k ∈ range (s.col e), lent s l r k * lent s l (s.col e) k := by
  have hE := h.entries r (Nat.le_of_lt hr) e h1 h2
  have hlen := h.endLe r (Nat.le_of_lt hr)
  have hcn : s.col e < n := by have := hE.le; omega
  have hcend := h.endLe (s.col e) (Nat.le_of_lt hcn)
  have hcst := h.startLe (s.col e) (Nat.le_of_lt hcn)
  have hb : (if s.col e = r then e else s.rowEnd (s.col e)) ≤ s.rowEnd (s.col e) := by
    split
    · rename_i hh; rw [hh]; omega
    · exact Nat.le_refl _
  have hb2 : s.start (s.col e) ≤ (if s.col e = r then e else s.rowEnd (s.col e)) := by
    split
    · rename_i hh; rw [hh]; exact h1
    · exact hcst
  unfold Idx.prods matches_
  have hcs := common_sum (s.col e) (rd l) (rd l) (fun _ => (1 : K)) _ (slice s.lInd (s.start r) e)
    (slice s.lInd (s.start (s.col e)) (if s.col e = r then e else s.rowEnd (s.col e))) (s.start r) (s.start (s.col e))
    (Nat.le_refl _)
    (slice_sorted _ _ _ (by omega) (fun x y p1 p2 p3 => h.sorted r (Nat.le_of_lt hr) x y p1 p2 (by omega)))
    (slice_sorted _ _ _ (by omega) (fun x y p1 p2 p3 => h.sorted (s.col e) (Nat.le_of_lt hcn) x y p1 p2 (by omega)))
    (by
      intro k hk
      obtain ⟨p, p1, p2, p3⟩ := (mem_slice _ _ _ _ (by omega)).mp hk
      rw [← p3]
      exact h.sorted r (Nat.le_of_lt hr) p e p1 p2 h2)
  simp only [mul_one] at hcs
  rw [hcs]
  apply sum_congr rfl
  intro k hk
  rw [mem_range] at hk
  have hrow : ∀ p, e ≤ p → p < s.rowEnd r → s.lInd.getD p 0 ≠ k := by
    intro p p1 p2
    rcases Nat.lt_or_ge e p with hlt | hge
    · have := h.sorted r (Nat.le_of_lt hr) e p h1 hlt p2
      unfold Idx.col at this hk
      omega
    · have : p = e := by omega
      subst this
      unfold Idx.col at hk
      omega
  rw [entL_slice _ _ _ _ _ h1 (by omega), entL_slice _ _ _ _ _ hb2 (by omega)]
  unfold lent
  rw [ent_cut s.lInd (rd l) (s.start r) e (s.rowEnd r) k h1 (Nat.le_of_lt h2) hrow]
  congr 1
  by_cases hcr : s.col e = r
  · rw [if_pos hcr, hcr]
    exact ent_cut s.lInd (rd l) (s.start r) e (s.rowEnd r) k h1 (Nat.le_of_lt h2) hrow
  · rw [if_neg hcr]

/-- The value of an entry in terms of dense matrices. -/
theorem entryVal_eq (h : Inv a a.nrows 0 s) (ha : a.Ok) (sqrt : K → K) (pt : Point K) (l : List K) {r e : Nat} (hr : r < a.nrows)
    (h1 : s.start r ≤ e) (h2 : e < s.rowEnd r) :
    entryVal sqrt a s pt l r e e =
      if r = s.col e then sqrt |normalEntry a pt r (s.col e) - ∑ k ∈ range (s.col e), lent s l r k * lent s l (s.col e) k|
      else (normalEntry a pt r (s.col e) - ∑ k ∈ range (s.col e), lent s l r k * lent s l (s.col e) k) /
        lent s l (s.col e) (s.col e) := by
  have hE := h.entries r (Nat.le_of_lt hr) e h1 h2
  have hcn : s.col e < a.nrows := by have := hE.le; omega
  have hld : ((List.range' (s.ldPtr.getD e 0) (s.ldPtr.getD (e + 1) 0 - s.ldPtr.getD e 0)).map fun ind =>
      rd l (s.ldI.getD ind 0) * rd l (s.ldJ.getD ind 0)).sum =
      ∑ k ∈ range (s.col e), lent s l r k * lent s l (s.col e) k := by
    rw [← prods_sum h l hr h1 h2, hE.ldEnd, Nat.add_sub_cancel_left]
    apply sum_positions
    intro t ht
    rw [(hE.ld t ht).1, (hE.ld t ht).2]
  have han : ((List.range' (s.anPtr.getD e 0) (s.anPtr.getD (e + 1) 0 - s.anPtr.getD e 0)).map fun ind =>
      rd a.values (s.anI.getD ind 0) * rd a.values (s.anJ.getD ind 0) * rd pt.x (s.anK.getD ind 0) /
        rd pt.z (s.anK.getD ind 0)).sum =
      ∑ c ∈ range a.ncols, a.entry r c * a.entry (s.col e) c * (rd pt.x c / rd pt.z c) := by
    rw [← aMatches_sum ha hr hcn, hE.anEnd, Nat.add_sub_cancel_left]
    apply sum_positions
    intro t ht
    rw [(hE.an t ht).1, (hE.an t ht).2.1, (hE.an t ht).2.2, mul_div_assoc]
  unfold entryVal
  simp only [hld, han]
  rw [h.lent_diag l hcn]
  rfl

/-- The decomposition computes each number of the factor from those above and to the left. -/
theorem factor_dense (h : Inv a a.nrows 0 s) (ha : a.Ok) (sqrt : K → K) (pt : Point K) (l : List K)
    (hlen : s.lInd.length ≤ l.length) {r c : Nat} (hr : r < a.nrows) (hc : c ≤ r) :
    let L := lent s (decompose sqrt a s pt l)
    L r c = if r = c then sqrt |normalEntry a pt r c - ∑ k ∈ range c, L r k * L c k|
      else (normalEntry a pt r c - ∑ k ∈ range c, L r k * L c k) / L c c := by
  intro L
  obtain ⟨l', e1, _, e3⟩ := decompRows_spec h sqrt pt l hlen a.nrows (Nat.le_refl _)
  have hl' : decompose sqrt a s pt l = l' := by unfold decompose; rw [e1]
  have hL : L = lent s l' := by show lent s (decompose sqrt a s pt l) = _; rw [hl']
  rw [hL]
  by_cases hex : ∃ e, s.start r ≤ e ∧ e < s.rowEnd r ∧ s.col e = c
  · obtain ⟨e, h1, h2, h3⟩ := hex
    subst h3
    rw [h.lent_at l' hr h1 h2, e3 r hr e h1 h2, entryVal_eq h ha sqrt pt l' hr h1 h2]
  · have hno : ∀ e, s.start r ≤ e → e < s.rowEnd r → s.col e ≠ c := fun e h1 h2 h3 => hex ⟨e, h1, h2, h3⟩
    have hrc : r ≠ c := by
      intro hh
      subst hh
      obtain ⟨_, d2, d3⟩ := h.diag r (Nat.le_of_lt hr) (fun hh => by omega)
      exact hno (s.rowEnd r - 1) (by omega) (by omega) d3
    obtain ⟨g1, g2⟩ := h.absent r (Nat.le_of_lt hr) c hc (fun hh => by omega) hno
    rw [if_neg hrc]
    have z1 : lent s l' r c = 0 := ent_zero _ _ _ _ _ hno
    have z2 : ∑ k ∈ range c, lent s l' r k * lent s l' c k = 0 := by
      apply sum_eq_zero
      intro k hk
      rw [mem_range] at hk
      by_cases hk1 : ∃ e, s.start r ≤ e ∧ e < s.rowEnd r ∧ s.col e = k
      · obtain ⟨e, p1, p2, p3⟩ := hk1
        have : lent s l' c k = 0 := by
          apply ent_zero
          intro e' q1 q2 q3
          exact g2 e e' p1 p2 (by omega) q1 q2 (by rw [p3]; exact q3.symm)
        rw [this, mul_zero]
      · have : lent s l' r k = 0 := ent_zero _ _ _ _ _ (fun p p1 p2 p3 => hk1 ⟨p, p1, p2, p3⟩)
        rw [this, zero_mul]
    have z3 : normalEntry a pt r c = 0 := by
      unfold normalEntry
      rw [if_neg (fun hh => hrc hh.1), ← aMatches_sum ha hr (by omega), g1]
      simp
    rw [z1, z2, z3]; simp

end numeric

end Verif.Ipm
