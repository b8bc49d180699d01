import Verif.Model.IpmLp
import Verif.Spec.Ipm
import Verif.Spec.Lp
import Verif.Lemmas.IpmSparse
import Mathlib.Data.List.GetD
import Mathlib.Algebra.BigOperators.Group.List.Basic
import Mathlib.Tactic.Ring

/-! # Rows put into a sparse matrix -/

namespace Verif.IpmLp

open Finset
open Verif.Solver (value)
open Verif.Ipm (Csr rd slice)

/-- Where the rows start. -/
def starts (R : List Cols) (i : Nat) : Nat := ((R.take i).map List.length).sum

theorem starts_zero (R : List Cols) : starts R 0 = 0 := by simp [starts]

theorem starts_append_left (I E : List Cols) {i : Nat} (h : i ≤ I.length) : starts (I ++ E) i = starts I i := by
  unfold starts; rw [List.take_append_of_le_length h]

theorem starts_append_right (I E : List Cols) (i : Nat) : starts (I ++ E) (I.length + i) = starts I I.length + starts E i := by
  unfold starts; rw [List.take_length_add_append, List.take_length, List.map_append, List.sum_append]

theorem starts_succ (R : List Cols) {i : Nat} (h : i < R.length) : starts R (i + 1) = starts R i + R[i].length := by
  unfold starts
  rw [List.take_succ_eq_append_getElem h, List.map_append, List.sum_append]
  simp

/-- The matrix with given rows. -/
def ofRows (R : List Cols) : Matrix :=
  ⟨(List.range (R.length + 1)).map (starts R), R.flatMap (·.map (·.1)), R.flatMap (·.map (·.2))⟩

theorem getLastD_starts (R : List Cols) : ((List.range (R.length + 1)).map (starts R)).getLastD 0 = starts R R.length := by
  rw [List.range_succ, List.map_append]; simp

theorem addRow_ofRows (R : List Cols) (r : Cols) : (ofRows R).addRow r = ofRows (R ++ [r]) := by
  unfold Matrix.addRow ofRows
  simp only [Matrix.mk.injEq]
  refine ⟨?_, by simp, by simp⟩
  rw [getLastD_starts, List.length_append, List.length_singleton, List.range_succ (n := R.length + 1), List.map_append]
  congr 1
  · apply List.map_congr_left
    intro i hi
    rw [List.mem_range] at hi
    rw [starts_append_left _ _ (by omega)]
  · simp only [List.map_cons, List.map_nil, List.cons.injEq, and_true]
    rw [starts_append_right]
    simp [starts]

theorem foldl_addRow (E : List Cols) : ∀ I : List Cols, E.foldl Matrix.addRow (ofRows I) = ofRows (I ++ E) := by
  induction E with
  | nil => intro I; simp
  | cons r E ih => intro I; rw [List.foldl_cons, addRow_ofRows, ih]; simp

theorem foldl_default (R : List Cols) : R.foldl Matrix.addRow Matrix.default = ofRows R := by
  have h : Matrix.default = ofRows [] := by simp [Matrix.default, ofRows, starts]
  rw [h, foldl_addRow]; simp

theorem nrows_ofRows (R : List Cols) : (ofRows R).nrows = R.length := by simp [Matrix.nrows, ofRows]

/-- `get_full_matrix` puts the equalities below the inequalities. -/
theorem fullMatrix_ofRows (lp : Lp) (I E : List Cols) (hI : lp.inequality = ofRows I) (hE : lp.equality = ofRows E) :
    lp.fullMatrix = ofRows (I ++ E) := by
  unfold Lp.fullMatrix
  rw [hI, hE]
  unfold ofRows
  simp only [Matrix.mk.injEq]
  refine ⟨?_, by simp, by simp⟩
  rw [getLastD_starts, List.range_succ (n := I.length), List.map_append, List.map_singleton, List.dropLast_concat,
    List.length_append, Nat.add_assoc, List.range_add (n := I.length), List.map_append, List.map_map, List.map_map]
  congr 1
  · apply List.map_congr_left
    intro i hi
    rw [List.mem_range] at hi
    rw [starts_append_left _ _ (by omega)]
  · apply List.map_congr_left
    intro i _
    simp only [Function.comp]
    rw [starts_append_right]

/-- The sparse matrix with given rows. -/
def csrOf (R : List Cols) (n : Nat) : Csr ℚ :=
  ⟨R.length, n, (ofRows R).rowStarts, (ofRows R).columns, (ofRows R).elements⟩

theorem csr_ofRows (lp : Lp) (I E : List Cols) (hI : lp.inequality = ofRows I) (hE : lp.equality = ofRows E) :
    lp.csr = csrOf (I ++ E) lp.numCols := by
  unfold Lp.csr csrOf
  rw [fullMatrix_ofRows lp I E hI hE]
  simp [ofRows]

theorem off_csrOf (R : List Cols) (n : Nat) {i : Nat} (h : i ≤ R.length) : (csrOf R n).off i = starts R i := by
  unfold Csr.off csrOf ofRows
  simp only
  rw [List.getD_eq_getElem?_getD, List.getElem?_map, List.getElem?_range (by omega)]
  rfl

theorem flatMap_split {α : Type} (g : Cols → List α) (R : List Cols) {i : Nat} (h : i < R.length) :
    R.flatMap g = (R.take i).flatMap g ++ (g R[i] ++ (R.drop (i + 1)).flatMap g) := by
  conv_lhs => rw [← List.take_append_drop i R, List.drop_eq_getElem_cons h]
  rw [List.flatMap_append, List.flatMap_cons]

theorem take_length {α : Type} (g : Cols → List α) (hg : ∀ r, (g r).length = r.length) (R : List Cols) (i : Nat) :
    ((R.take i).flatMap g).length = starts R i := by
  unfold starts
  rw [List.length_flatMap]
  congr 1
  exact List.map_congr_left (fun r _ => hg r)

theorem flatMap_getD {α : Type} (g : Cols → List α) (hg : ∀ r, (g r).length = r.length) (d : α) (R : List Cols) {i : Nat}
    (h : i < R.length) {t : Nat} (ht : t < R[i].length) :
    (R.flatMap g).getD (starts R i + t) d = (g R[i]).getD t d := by
  rw [flatMap_split g R h, List.getD_append_right _ _ _ _ (by rw [take_length g hg]; omega), take_length g hg,
    Nat.add_sub_cancel_left, List.getD_append _ _ _ _ (by rw [hg]; exact ht)]

theorem list_sum_range {α : Type} (l : List α) (h : α → ℚ) (d : α) : (l.map h).sum = ∑ t ∈ range l.length, h (l.getD t d) := by
  induction l with
  | nil => simp
  | cons a l ih =>
    rw [List.map_cons, List.sum_cons, List.length_cons, Finset.sum_range_succ', ih]
    simp only [List.getD_cons_succ, List.getD_cons_zero]
    ring

/-- A row of the matrix times a vector is the value of the row. -/
theorem entry_sum (R : List Cols) (n : Nat) (hkeys : ∀ r ∈ R, ∀ p ∈ r, p.1 < n) {i : Nat} (h : i < R.length) (x : Nat → ℚ) :
    ∑ c ∈ range (csrOf R n).ncols, (csrOf R n).entry i c * x c = value R[i] x := by
  unfold Csr.entry
  rw [off_csrOf R n (by omega), off_csrOf R n (by omega), starts_succ R h]
  simp only [Finset.sum_mul]
  rw [Finset.sum_comm]
  rw [Finset.sum_Ico_eq_sum_range, Nat.add_sub_cancel_left]
  unfold value
  rw [list_sum_range R[i] (fun p => p.2 * x p.1) (0, 0)]
  apply Finset.sum_congr rfl
  intro t ht
  rw [Finset.mem_range] at ht
  have hc : (csrOf R n).cols.getD (starts R i + t) 0 = (R[i].getD t (0, 0)).1 := by
    show (R.flatMap (·.map (·.1))).getD _ _ = _
    rw [flatMap_getD (fun r => r.map (·.1)) (by simp) 0 R h ht]
    simp [List.getD_eq_getElem?_getD, ht]
  have hv : rd (csrOf R n).values (starts R i + t) = (R[i].getD t (0, 0)).2 := by
    show (R.flatMap (·.map (·.2))).getD _ _ = _
    rw [flatMap_getD (fun r => r.map (·.2)) (by simp) 0 R h ht]
    simp [List.getD_eq_getElem?_getD, ht]
  rw [hc, hv]
  have hlt : (R[i].getD t (0, 0)).1 < n := by
    rw [List.getD_eq_getElem _ _ ht]
    exact hkeys _ (List.getElem_mem h) _ (List.getElem_mem ht)
  rw [Finset.sum_eq_single (R[i].getD t (0, 0)).1]
  · rw [if_pos rfl]
  · intro c _ hne
    rw [if_neg (Ne.symm hne), zero_mul]
  · intro hn
    exact absurd (Finset.mem_range.2 hlt) hn

/-- The matrix is accepted. -/
theorem check_csrOf (R : List Cols) (n : Nat) (hkeys : ∀ r ∈ R, ∀ p ∈ r, p.1 < n) (hs : ∀ r ∈ R, (r.map (·.1)).Pairwise (· < ·)) :
    (csrOf R n).check = true := by
  have htot : ∀ {α : Type} (g : Cols → List α), (∀ r, (g r).length = r.length) → (R.flatMap g).length = starts R R.length := by
    intro α g hg
    have := take_length g hg R R.length
    rwa [List.take_length] at this
  unfold Csr.check
  simp only [Bool.and_eq_true, beq_iff_eq, List.all_eq_true, decide_eq_true_eq, List.mem_range]
  refine ⟨⟨⟨⟨⟨?_, ?_⟩, ?_⟩, ?_⟩, ?_⟩, ?_⟩
  · simp [csrOf, ofRows]
  · rw [off_csrOf R n (by omega), starts_zero]
  · show (csrOf R n).off R.length = _
    rw [off_csrOf R n (le_refl _)]
    exact (htot (fun r => r.map (·.1)) (by simp)).symm
  · show (R.flatMap (·.map (·.2))).length = (R.flatMap (·.map (·.1))).length
    rw [htot (fun r => r.map (·.2)) (by simp), htot (fun r => r.map (·.1)) (by simp)]
  · intro i hi
    have hi : i < R.length := hi
    refine ⟨?_, ?_⟩
    · rw [off_csrOf R n (by omega), off_csrOf R n (by omega), starts_succ R hi]; omega
    · unfold Csr.rowCols
      rw [off_csrOf R n (by omega), off_csrOf R n (by omega), starts_succ R hi]
      have : slice (csrOf R n).cols (starts R i) (starts R i + R[i].length) = R[i].map (·.1) := by
        show ((R.flatMap (·.map (·.1))).take _).drop _ = _
        rw [flatMap_split (fun r => r.map (·.1)) R hi, ← take_length (fun r => r.map (·.1)) (by simp) R i,
          List.take_length_add_append, List.drop_left, List.take_left' (by simp)]
      rw [this]
      exact hs _ (List.getElem_mem hi)
  · intro c hc
    have hc : c ∈ R.flatMap (·.map (·.1)) := hc
    rw [List.mem_flatMap] at hc
    obtain ⟨r, hr, hc⟩ := hc
    obtain ⟨p, hp, rfl⟩ := List.mem_map.1 hc
    exact hkeys r hr p hp

theorem noEmptyRow_csrOf (R : List Cols) (n : Nat) : (csrOf R n).NoEmptyRow ↔ ∀ r ∈ R, r ≠ [] := by
  unfold Csr.NoEmptyRow
  constructor
  · intro h r hr h0
    obtain ⟨i, hi, he⟩ := List.mem_iff_getElem.1 hr
    have := h i hi
    rw [off_csrOf R n (by omega), off_csrOf R n (by omega), starts_succ R hi, he, h0] at this
    simp at this
  · intro h i hi
    have hi : i < R.length := hi
    rw [off_csrOf R n (by omega), off_csrOf R n (by omega), starts_succ R hi]
    have := List.length_pos_iff.2 (h _ (List.getElem_mem hi))
    omega

end Verif.IpmLp
