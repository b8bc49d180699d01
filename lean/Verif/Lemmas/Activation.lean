import Verif.Spec.Variables
import Mathlib.Tactic.Linarith
import Mathlib.Tactic.Ring
import Mathlib.Algebra.Order.Field.Basic

/-! # Activation functions -/

namespace Verif.Variables

theorem nearest_unique {lo hi x y z : ℚ} (h1 : Nearest lo hi x y) (h2 : Nearest lo hi x z) : y = z := by
  obtain ⟨⟨a, b⟩, c⟩ := h1
  obtain ⟨⟨a', b'⟩, c'⟩ := h2
  have e1 := c z a' b'
  have e2 := c' y a b
  have e : |x - y| = |x - z| := le_antisymm e1 e2
  rcases abs_eq_abs.1 e with h | h
  · linarith
  · -- the midpoint would be nearer
    have hm := c ((y + z) / 2) (by linarith) (by linarith)
    have hx : x - (y + z) / 2 = 0 := by linarith
    rw [hx, abs_zero] at hm
    have h0 : x - y = 0 := abs_eq_zero.1 (le_antisymm hm (abs_nonneg _))
    linarith

theorem clamp_nearest {lo hi : ℚ} (h : lo ≤ hi) (x : ℚ) : Nearest lo hi x (if x < lo then lo else if hi < x then hi else x) := by
  by_cases h1 : x < lo
  · rw [if_pos h1]
    refine ⟨⟨le_refl _, h⟩, fun z hz _ => ?_⟩
    rw [abs_of_nonpos (by linarith), abs_of_nonpos (by linarith)]
    linarith
  · rw [if_neg h1]
    by_cases h2 : hi < x
    · rw [if_pos h2]
      refine ⟨⟨h, le_refl _⟩, fun z _ hz => ?_⟩
      rw [abs_of_nonneg (by linarith), abs_of_nonneg (by linarith)]
      linarith
    · rw [if_neg h2]
      refine ⟨⟨not_lt.1 h1, not_lt.1 h2⟩, fun z _ _ => ?_⟩
      rw [sub_self, abs_zero]
      exact abs_nonneg _

theorem clamp_iff {lo hi x y : ℚ} : clamp x lo hi = .ok y ↔ Nearest lo hi x y := by
  unfold clamp
  by_cases h : lo ≤ hi
  · rw [if_pos h, Outcome.ok.injEq]
    constructor
    · rintro rfl; exact clamp_nearest h x
    · intro hy; exact nearest_unique (clamp_nearest h x) hy
  · rw [if_neg h]
    refine ⟨fun h' => (by cases h'), fun hy => absurd (hy.1.1.trans hy.1.2) h⟩

theorem clamp_cases (x : ℚ) {lo hi : ℚ} (h : lo ≤ hi) : clamp x lo hi = .ok (if x < lo then lo else if hi < x then hi else x) := by
  unfold clamp; rw [if_pos h]

theorem apply_iff (a : Activation) (x y : ℚ) : a.apply x = .ok y ↔ Activated a x y := by
  cases a with
  | unit min max =>
    simp only [Activation.apply, Activation.lower, Activation.upper, Activated]
    rw [← clamp_iff]
    cases clamp x min max <;> simp
  | logistic f =>
    simp only [Activation.apply, Activation.lower, Activation.upper, Activated]
    rw [clamp_cases x (by norm_num : (-6 : ℚ) ≤ 6)]
    simp only [Outcome.ok.injEq]
    constructor
    · intro h; exact ⟨_, clamp_nearest (by norm_num) x, h.symm⟩
    · rintro ⟨v, h1, h2⟩
      rw [h2, nearest_unique h1 (clamp_nearest (by norm_num) x)]
  | rectifier min max neg =>
    simp only [Activation.apply, Activation.lower, Activation.upper, Activated]
    rw [clamp_cases x (by norm_num : (-1 : ℚ) ≤ 1)]
    simp only [Outcome.ok.injEq]
    by_cases h0 : x ≤ 0
    · have : (if x < -1 then (-1 : ℚ) else if 1 < x then 1 else x) ≤ 0 := by split_ifs <;> linarith
      rw [if_pos this]
      constructor
      · rintro rfl; exact ⟨fun _ => rfl, fun h => absurd h (not_lt.2 h0), fun h => absurd h0 (by linarith)⟩
      · intro h; exact (h.1 h0).symm
    · have h0' := not_le.1 h0
      have hx : ¬ x < -1 := by linarith
      rw [if_neg hx]
      by_cases h1 : 1 < x
      · rw [if_pos h1, if_neg (by norm_num : ¬ (1 : ℚ) ≤ 0)]
        constructor
        · rintro rfl; exact ⟨fun h => absurd h h0, fun _ h => absurd h1 (not_lt.2 h), fun _ => by ring⟩
        · intro h; rw [h.2.2 h1]; ring
      · rw [if_neg h1, if_neg h0]
        constructor
        · rintro rfl; exact ⟨fun h => absurd h h0, fun _ _ => rfl, fun h => absurd h h1⟩
        · intro h; exact (h.2.1 h0' (not_lt.1 h1)).symm
  | binaryStep pos neg =>
    simp only [Activation.apply, Activation.lower, Activation.upper, Activated]
    rw [clamp_cases x (by norm_num : (-1 : ℚ) ≤ 1)]
    simp only [Outcome.ok.injEq]
    by_cases h0 : x ≤ 0
    · have : (if x < -1 then (-1 : ℚ) else if 1 < x then 1 else x) ≤ 0 := by split_ifs <;> linarith
      rw [if_pos this]
      constructor
      · rintro rfl; exact ⟨fun _ => rfl, fun h => absurd h (not_lt.2 h0)⟩
      · intro h; exact (h.1 h0).symm
    · have h0' := not_le.1 h0
      have : ¬ (if x < -1 then (-1 : ℚ) else if 1 < x then 1 else x) ≤ 0 := by split_ifs <;> linarith
      rw [if_neg this]
      constructor
      · rintro rfl; exact ⟨fun h => absurd h h0, fun _ => rfl⟩
      · intro h; exact (h.2 h0').symm

end Verif.Variables
