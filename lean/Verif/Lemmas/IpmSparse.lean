import Verif.Lemmas.IpmIndices

/-! # Sums over sparse matrices and their transposes -/

namespace Verif.Ipm

open Finset

variable {K : Type} [Field K]

theorem sum_range_list (n : Nat) (f : Nat → K) : ((List.range n).map f).sum = ∑ i ∈ range n, f i := by
  induction n with
  | zero => simp
  | succ n ih => rw [List.range_succ, List.map_append, List.sum_append, ih, sum_range_succ]; simp

theorem sum_range'_list (f : Nat → K) : ∀ (m a : Nat), ((List.range' a m).map f).sum = ∑ i ∈ Ico a (a + m), f i := by
  intro m
  induction m with
  | zero => intro a; simp
  | succ m ih =>
    intro a
    rw [List.range'_succ, List.map_cons, List.sum_cons, ih,
      Finset.sum_eq_sum_Ico_succ_bot (show a < a + (m + 1) by omega), show a + 1 + m = a + (m + 1) by omega]

theorem sum_span (f : Nat → K) (a b : Nat) (h : a ≤ b) : ((List.range' a (b - a)).map f).sum = ∑ i ∈ Ico a b, f i := by
  rw [sum_range'_list, Nat.add_sub_of_le h]

theorem sum_filter_list (f : Nat → K) (P : Nat → Bool) (l : List Nat) :
    ((l.filter P).map f).sum = (l.map fun p => if P p then f p else 0).sum := by
  induction l with
  | nil => rfl
  | cons x l ih =>
    rw [List.filter_cons]
    by_cases h : P x
    · simp [h, ih]
    · simp [h, ih]

/-- Positions below the end of the rows lie in a row. -/
theorem exists_row (off : Nat → Nat) : ∀ (n p : Nat), off 0 ≤ p → p < off n → ∃ r < n, off r ≤ p ∧ p < off (r + 1) := by
  intro n
  induction n with
  | zero => intro p h0 h; omega
  | succ n ih =>
    intro p h0 h
    rcases Nat.lt_or_ge p (off n) with h1 | h1
    · obtain ⟨r, hr, h2⟩ := ih p h0 h1
      exact ⟨r, by omega, h2⟩
    · exact ⟨n, by omega, h1, h⟩

theorem sum_rows (off : Nat → Nat) (f : Nat → K) : ∀ n, (∀ i < n, off i ≤ off (i + 1)) → off 0 = 0 →
    ∑ p ∈ range (off n), f p = ∑ r ∈ range n, ∑ p ∈ Ico (off r) (off (r + 1)), f p := by
  intro n
  induction n with
  | zero => intro _ h0; rw [h0]; simp
  | succ n ih =>
    intro h h0
    rw [sum_range_succ, ← ih (fun i hi => h i (by omega)) h0, range_eq_Ico, range_eq_Ico,
      Finset.sum_Ico_consecutive _ (Nat.zero_le _) (h n (by omega))]

omit [Field K] in
theorem Csr.Ok.offsets_eq {a : Csr K} (h : a.Ok) : a.offsets = (List.range (a.nrows + 1)).map a.off := by
  apply List.ext_getElem
  · simp [h.offLen]
  · intro n h1 h2
    simp only [List.getElem_map, List.getElem_range, Csr.off]
    rw [List.getD_eq_getElem _ _ h1]

omit [Field K] in
theorem Csr.Ok.rowOf_eq {a : Csr K} (h : a.Ok) {r p : Nat} (hr : r < a.nrows) (h1 : a.off r ≤ p) (h2 : p < a.off (r + 1)) :
    a.rowOf p = r := by
  unfold Csr.rowOf
  rw [h.offsets_eq, List.filter_map, List.length_map]
  have hc : (List.range (a.nrows + 1)).filter ((fun x => decide (x ≤ p)) ∘ a.off) =
      (List.range (a.nrows + 1)).filter (fun q => decide (q < r + 1)) := by
    apply List.filter_congr
    intro q hq
    rw [List.mem_range] at hq
    simp only [Function.comp_apply, decide_eq_decide]
    constructor
    · intro hle
      by_contra hlt
      have := h.mono' (i := r + 1) (j := q) (by omega) (by omega)
      omega
    · intro hlt
      have := h.mono' (i := q) (j := r) (by omega) (by omega)
      omega
  rw [hc, show a.nrows + 1 = (r + 1) + (a.nrows - r) by omega, List.range_add, List.filter_append, List.length_append]
  rw [List.filter_eq_self.mpr (by intro q hq; rw [List.mem_range] at hq; simpa using hq)]
  rw [List.filter_eq_nil_iff.mpr (by intro q hq; rw [List.mem_map] at hq; obtain ⟨t, _, rfl⟩ := hq; simp; omega)]
  simp

/-- The positions of a column. -/
def Csr.ofCol (a : Csr K) (c : Nat) : List Nat := (List.range a.cols.length).filter fun p => a.cols.getD p 0 = c

omit [Field K] in
theorem filter_positions (l : List Nat) (P : Nat → Bool) :
    ((List.range l.length).filter fun p => P (l.getD p 0)).length = (l.filter P).length := by
  conv_rhs => rw [show l = (List.range l.length).map (fun p => l.getD p 0) from by
    apply List.ext_getElem
    · simp
    · intro n h1 h2
      simp only [List.getElem_map, List.getElem_range]
      rw [List.getD_eq_getElem _ _ h1]]
  rw [List.filter_map, List.length_map]
  rfl

theorem filter_lt_succ (l : List Nat) (c : Nat) :
    (l.filter (fun x => decide (x < c + 1))).length = (l.filter (fun x => decide (x < c))).length + (l.filter (fun x => decide (x = c))).length := by
  induction l with
  | nil => rfl
  | cons x l ih =>
    rw [List.filter_cons, List.filter_cons, List.filter_cons]
    rcases Nat.lt_trichotomy x c with h | h | h
    · rw [if_pos (by simp; omega), if_pos (by simpa using h), if_neg (by simp; omega), List.length_cons, List.length_cons, ih]
      omega
    · rw [if_pos (by simp; omega), if_neg (by simp; omega), if_pos (by simpa using h), List.length_cons, List.length_cons, ih]
      omega
    · rw [if_neg (by simp; omega), if_neg (by simp; omega), if_neg (by simp; omega), ih]

theorem tOff {K : Type} [Zero K] (a : Csr K) {c : Nat} (hc : c ≤ a.ncols) :
    a.transpose.off c = (a.cols.filter (fun x => decide (x < c))).length := by
  unfold Csr.off Csr.transpose
  simp only
  rw [List.getD_eq_getElem _ _ (by simp; omega)]
  simp

theorem tOff_succ {K : Type} [Zero K] (a : Csr K) {c : Nat} (hc : c < a.ncols) :
    a.transpose.off (c + 1) = a.transpose.off c + (a.ofCol c).length := by
  rw [tOff a (by omega), tOff a (by omega), filter_lt_succ]
  congr 1
  exact (filter_positions a.cols (fun x => decide (x = c))).symm

theorem byColumn_prefix {K : Type} [Zero K] (a : Csr K) : ∀ c, c ≤ a.ncols →
    ((List.range c).flatMap a.ofCol).length = a.transpose.off c := by
  intro c
  induction c with
  | zero => intro h; rw [tOff a h]; simp
  | succ c ih =>
    intro h
    rw [List.range_succ, List.flatMap_append, List.length_append, ih (by omega), tOff_succ a (by omega)]
    simp

/-- The positions of column `c` follow one another in the order of the transpose. -/
theorem byColumn_get {K : Type} [Zero K] (a : Csr K) {c : Nat} (hc : c < a.ncols) (t : Nat) (ht : t < (a.ofCol c).length) :
    a.byColumn.getD (a.transpose.off c + t) 0 = (a.ofCol c)[t] := by
  have hb : a.byColumn = ((List.range c).flatMap a.ofCol) ++ (a.ofCol c ++ ((List.range' (c + 1) (a.ncols - (c + 1))).flatMap a.ofCol)) := by
    have : List.range a.ncols = List.range c ++ ([c] ++ List.range' (c + 1) (a.ncols - (c + 1))) := by
      rw [List.range_eq_range', List.range_eq_range']
      conv_lhs => rw [show a.ncols = c + (1 + (a.ncols - (c + 1))) by omega]
      rw [← List.range'_append_1, ← List.range'_append_1]
      simp
    unfold Csr.byColumn
    rw [this, List.flatMap_append, List.flatMap_append]
    simp only [List.flatMap_cons, List.flatMap_nil, List.append_nil]
    rfl
  have hp := byColumn_prefix a c (by omega)
  rw [hb, List.getD_eq_getElem _ _ (by simp only [List.length_append]; omega), List.getElem_append_right (by omega),
    List.getElem_append_left (by omega)]
  congr 1
  omega

end Verif.Ipm
