import Verif.Props.Ipm
import Mathlib.Analysis.Real.Sqrt

/-! # Cases for the interior point solver

Two flows `x₀ ≤ b₀`, `x₁ ≤ b₁` that must be equal, over the real numbers. -/

namespace Verif.Ipm

open Finset

theorem real_isSqrt : IsSqrt Real.sqrt := ⟨fun _ h => Real.mul_self_sqrt h, Real.sqrt_nonneg⟩

/-- `x₀ ≤ b₀`, `x₁ ≤ b₁`, `x₀ - x₁ = b₂`. -/
noncomputable def twoFlows : Csr ℝ := ⟨3, 2, [0, 1, 2, 4], [0, 1, 0, 1], [1, 1, 1, -1]⟩

theorem twoFlows_check : twoFlows.check = true := rfl

theorem twoFlows_rows : twoFlows.NoEmptyRow := by
  intro i hi
  have hi' : i < 3 := hi
  have : i = 0 ∨ i = 1 ∨ i = 2 := by omega
  rcases this with rfl | rfl | rfl <;> decide

theorem twoFlows_entry : twoFlows.entry 0 0 = 1 ∧ twoFlows.entry 1 0 = 0 ∧ twoFlows.entry 2 0 = 1 := by
  refine ⟨?_, ?_, ?_⟩ <;> simp [Csr.entry, Csr.off, twoFlows, rd, Finset.sum_Ico_eq_sum_range, Finset.sum_range_succ]

theorem twoFlows_independent : twoFlows.Independent 2 := by
  intro v hv hA i hi
  have hi' : i < 3 := hi
  have h0 := hA 0 (by decide)
  rw [show range twoFlows.nrows = range 3 from rfl] at h0
  simp only [Finset.sum_range_succ, Finset.sum_range_zero, zero_add] at h0
  rw [hv 0 (by omega), hv 1 (by omega), twoFlows_entry.2.2] at h0
  have : i = 0 ∨ i = 1 ∨ i = 2 := by omega
  rcases this with rfl | rfl | rfl
  · exact hv 0 (by omega)
  · exact hv 1 (by omega)
  · linarith

/-- The setup exists, so all hypotheses of `C78_factor`, `C78_solves`, `C78_pivots`, `C79_inside`, `C79_step` and `C79_shrinks` can be
met, at the starting point. -/
theorem twoFlows_case : ∃ st : Setup ℝ, ∃ ln : Lane ℝ, mkSetup twoFlows (1 / 10) (1 / 10) (1 / 10) = some st ∧
    twoFlows.NoEmptyRow ∧ IsSqrt Real.sqrt ∧ twoFlows.Independent 2 ∧ Inside twoFlows 2 ln.pt ∧ Ready st ln ∧
    violation twoFlows ln.b ln.pt 0 ≠ 0 ∧ finished Real.sqrt st ln = false := by
  obtain ⟨st, hst⟩ := C78_setup twoFlows (1 / 10) (1 / 10) (1 / 10) twoFlows_check twoFlows_rows
  obtain ⟨hok, s, hs, he⟩ := mkSetup_inv hst twoFlows_rows
  let ln : Lane ℝ := ⟨[4, 5, 0], [1, 1], initPoint 3 2 2, List.replicate s.lInd.length 0, List.replicate 3 0⟩
  have hin : Inside twoFlows 2 ln.pt := init_inside twoFlows 2 (by decide)
  refine ⟨st, ln, hst, twoFlows_rows, real_isSqrt, twoFlows_independent, hin, ⟨?_, ?_⟩, ?_, ?_⟩
  · rw [he]; simp [ln, ixOf]
  · rw [he]; simp [ln, twoFlows]
  · have := twoFlows_entry.1
    simp [violation, ln, initPoint, Csr.apply, Csr.entry, Csr.off, twoFlows, rd]
    norm_num
  · by_contra hcon
    have hf : finished Real.sqrt st ln = true := by simpa using hcon
    have h3 := (finished_spec hst twoFlows_rows real_isSqrt hin.toSized hf).2.2
    -- the complementarity is four million, the right-hand side much smaller
    have e1 : complementarity twoFlows ln.pt = 4000000 := by
      simp [complementarity, ln, initPoint, twoFlows, rd, Finset.sum_range_succ]
      norm_num
    have e2 : euclid Real.sqrt twoFlows.ncols (rd ln.pt.x) ≤ 2000 := by
      unfold euclid
      apply Real.sqrt_le_iff.mpr
      refine ⟨by norm_num, ?_⟩
      simp [ln, initPoint, twoFlows, rd, Finset.sum_range_succ]
      norm_num
    have e3 : euclid Real.sqrt twoFlows.nrows (rd ln.pt.y) ≤ 2000 := by
      unfold euclid
      apply Real.sqrt_le_iff.mpr
      refine ⟨by norm_num, ?_⟩
      simp [ln, initPoint, twoFlows, rd, Finset.sum_range_succ]
      norm_num
    rw [e1] at h3
    linarith

/-- With large tolerances the solver returns the starting point at once: the hypotheses of `C80_returned`, `C81_leftovers` and of the
right side of `C81_group` can be met. -/
theorem twoFlows_solved : ∃ st : Setup ℝ, ∃ p d o : ℝ, ∃ l dy : List ℝ, mkSetup twoFlows p d o = some st ∧
    l.length = st.ix.l.lInd.length ∧ dy.length = 3 ∧
    solve Real.sqrt st 2 5 [([4, 5, 0], [1, 1], l, dy)] = some [[1000, 1000]] := by
  let pt : Point ℝ := initPoint 3 2 2
  let p := primalFeasibility Real.sqrt twoFlows pt [4, 5, 0] + 1
  let d := dualFeasibility Real.sqrt twoFlows.transpose pt [1, 1] + 1
  let o := gap pt / (1 + norm Real.sqrt pt.x + norm Real.sqrt pt.y) + 1
  obtain ⟨st, hst⟩ := C78_setup twoFlows p d o twoFlows_check twoFlows_rows
  obtain ⟨hok, s, hs, he⟩ := mkSetup_inv hst twoFlows_rows
  refine ⟨st, p, d, o, List.replicate s.lInd.length 0, List.replicate 3 0, hst, by rw [he]; simp [ixOf], by simp, ?_⟩
  rw [solve_points, List.map_cons, List.map_nil, points_single]
  have hf : finished Real.sqrt st ⟨[4, 5, 0], [1, 1], initPoint st.a.nrows st.a.ncols 2, List.replicate s.lInd.length 0,
      List.replicate 3 0⟩ = true := by
    rw [he]
    unfold finished
    simp only [Bool.and_eq_true, decide_eq_true_eq]
    exact ⟨⟨lt_add_one _, lt_add_one _⟩, lt_add_one _⟩
  rw [if_pos hf]
  rw [he]
  rfl

/-- A point without violations, for `C80_certificate` and the last part of `C79_step`. -/
example : Inside twoFlows 2 (⟨[3, 3], [1, 1], [2, 2, 0], [1, 2]⟩ : Point ℝ) ∧
    (∀ i < 3, violation twoFlows [4, 5, 0] (⟨[3, 3], [1, 1], [2, 2, 0], [1, 2]⟩ : Point ℝ) i = 0) ∧
    (∀ j < 2, dualViolation twoFlows [1, 1] (⟨[3, 3], [1, 1], [2, 2, 0], [1, 2]⟩ : Point ℝ) j = 0) := by
  refine ⟨⟨⟨rfl, rfl, rfl, rfl, by decide⟩, ?_, ?_, ?_, ?_⟩, ?_, ?_⟩
  · intro c hc
    have hc' : c < 2 := hc
    have : c = 0 ∨ c = 1 := by omega
    rcases this with rfl | rfl <;> simp [rd]
  · intro c hc
    have hc' : c < 2 := hc
    have : c = 0 ∨ c = 1 := by omega
    rcases this with rfl | rfl <;> simp [rd]
  · intro c hc
    have : c = 0 ∨ c = 1 := by omega
    rcases this with rfl | rfl <;> simp [rd]
  · intro c hc
    have : c = 0 ∨ c = 1 := by omega
    rcases this with rfl | rfl <;> simp [rd]
  · intro i hi
    have : i = 0 ∨ i = 1 ∨ i = 2 := by omega
    rcases this with rfl | rfl | rfl <;>
      simp [violation, Csr.apply, Csr.entry, Csr.off, twoFlows, rd, Finset.sum_Ico_eq_sum_range, Finset.sum_range_succ] <;> norm_num
  · intro i hi
    have : i = 0 ∨ i = 1 := by omega
    rcases this with rfl | rfl <;>
      simp [dualViolation, Csr.applyT, Csr.entry, Csr.off, twoFlows, rd, Finset.sum_Ico_eq_sum_range, Finset.sum_range_succ] <;> norm_num

end Verif.Ipm
