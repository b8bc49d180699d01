import Verif.Spec.Curves
import Mathlib.Tactic.Linarith
import Mathlib.Algebra.Order.Field.Basic
import Mathlib.Tactic.FieldSimp
import Mathlib.Tactic.Ring

/-!
# Lemmas on interpolation
-/

namespace Verif.Curves

theorem tolerance_pos : 0 < tolerance := by unfold tolerance; norm_num

theorem interpolate_low {v lb ub lv uv : ℚ} (h : v ≤ lb) : interpolate v lb ub lv uv = lv := by
  unfold interpolate; rw [if_pos h]

theorem interpolate_high {v lb ub lv uv : ℚ} (h : lb < v) (h2 : ub ≤ v) : interpolate v lb ub lv uv = uv := by
  unfold interpolate; rw [if_neg (not_le.2 h), if_pos h2]

/-- Inside, the value is the lower value or on the line. -/
theorem interpolate_mid {v lb ub lv uv : ℚ} (h : lb < v) (h2 : v < ub) :
    interpolate v lb ub lv uv = if ub - lb < tolerance then lv else line (lb, lv) (ub, uv) v := by
  unfold interpolate line
  rw [if_neg (not_le.2 h), if_neg (not_le.2 h2)]
  have : |lb - ub| = ub - lb := by rw [abs_sub_comm, abs_of_pos (by linarith)]
  rw [this]

theorem interpolate_line {v lb ub lv uv : ℚ} (hg : tolerance ≤ ub - lb) (h1 : lb ≤ v) (h2 : v ≤ ub) :
    interpolate v lb ub lv uv = line (lb, lv) (ub, uv) v := by
  have hp := tolerance_pos
  have hne : ub - lb ≠ 0 := ne_of_gt (by linarith)
  rcases lt_or_eq_of_le h1 with h | rfl
  · rcases lt_or_eq_of_le h2 with h' | rfl
    · rw [interpolate_mid h h', if_neg (not_lt.2 hg)]
    · rw [interpolate_high h le_rfl]
      unfold line
      field_simp
      ring
  · rw [interpolate_low le_rfl]
    simp [line]

/-- Weight of the upper value. -/
theorem interpolate_convex (v lb ub : ℚ) (_hb : lb < ub) :
    ∃ t, 0 ≤ t ∧ t ≤ 1 ∧ ∀ lv uv, interpolate v lb ub lv uv = lv + (uv - lv) * t := by
  by_cases h1 : v ≤ lb
  · exact ⟨0, le_rfl, by norm_num, fun lv uv => by rw [interpolate_low h1]; ring⟩
  · rw [not_le] at h1
    by_cases h2 : ub ≤ v
    · exact ⟨1, by norm_num, le_rfl, fun lv uv => by rw [interpolate_high h1 h2]; ring⟩
    · rw [not_le] at h2
      by_cases hg : ub - lb < tolerance
      · exact ⟨0, le_rfl, by norm_num, fun lv uv => by rw [interpolate_mid h1 h2, if_pos hg]; ring⟩
      · refine ⟨(v - lb) / (ub - lb), div_nonneg (by linarith) (by linarith), (div_le_one (by linarith)).2 (by linarith), fun lv uv => ?_⟩
        rw [interpolate_mid h1 h2, if_neg hg]
        unfold line
        ring

theorem convex_between {lv uv t : ℚ} (h0 : 0 ≤ t) (h1 : t ≤ 1) : Between lv uv (lv + (uv - lv) * t) := by
  unfold Between
  rcases le_total lv uv with h | h
  · rw [min_eq_left h, max_eq_right h]
    constructor <;> nlinarith
  · rw [min_eq_right h, max_eq_left h]
    constructor <;> nlinarith

theorem interpolate_between (v : ℚ) {lb ub : ℚ} (hb : lb < ub) (lv uv : ℚ) : Between lv uv (interpolate v lb ub lv uv) := by
  obtain ⟨t, h0, h1, h⟩ := interpolate_convex v lb ub hb
  rw [h]
  exact convex_between h0 h1

theorem interpolate_mono {v w lb ub lv uv : ℚ} (hb : lb < ub) (hv : lv ≤ uv) (h : v ≤ w) :
    interpolate v lb ub lv uv ≤ interpolate w lb ub lv uv := by
  have hbet := interpolate_between v hb lv uv
  have hbet' := interpolate_between w hb lv uv
  unfold Between at hbet hbet'
  rw [min_eq_left hv, max_eq_right hv] at hbet hbet'
  by_cases h1 : v ≤ lb
  · rw [interpolate_low h1]; exact hbet'.1
  · rw [not_le] at h1
    by_cases h2 : ub ≤ w
    · rw [interpolate_high (lt_of_lt_of_le h1 h) h2]; exact hbet.2
    · rw [not_le] at h2
      rw [interpolate_mid h1 (lt_of_le_of_lt h h2), interpolate_mid (lt_of_lt_of_le h1 h) h2]
      split_ifs with hg
      · exact le_rfl
      · unfold line
        have : (uv - lv) * (v - lb) / (ub - lb) ≤ (uv - lv) * (w - lb) / (ub - lb) := by
          apply div_le_div_of_nonneg_right _ (by linarith)
          nlinarith
        linarith

theorem line_slope {p q : ℚ × ℚ} {L v w : ℚ} (hb : p.1 < q.1) (hL : |q.2 - p.2| ≤ L * (q.1 - p.1)) :
    |line p q w - line p q v| ≤ L * |w - v| := by
  have hpos : 0 < q.1 - p.1 := by linarith
  have e : line p q w - line p q v = (q.2 - p.2) / (q.1 - p.1) * (w - v) := by
    unfold line
    field_simp
    ring
  rw [e, abs_mul, abs_div, abs_of_pos hpos]
  apply mul_le_mul_of_nonneg_right _ (abs_nonneg _)
  rw [div_le_iff₀ hpos]
  exact hL

/-! ## Tables -/

theorem Increasing.tail {p : ℚ × ℚ} {l : List (ℚ × ℚ)} (h : Increasing (p :: l)) : Increasing l := (List.pairwise_cons.1 h).2

theorem Increasing.head {p q : ℚ × ℚ} {l : List (ℚ × ℚ)} (h : Increasing (p :: q :: l)) : p.1 < q.1 :=
  (List.pairwise_cons.1 h).1 q (by simp)

theorem scan_segment (flag : Bool) (v : ℚ) (p q : ℚ × ℚ) (post pre : List (ℚ × ℚ)) (hi : Increasing (pre ++ p :: q :: post))
    (h1 : p.1 ≤ v) (h2 : v ≤ q.1) : scan v flag (pre ++ p :: q :: post) = .ok (interpolate v p.1 q.1 p.2 q.2) := by
  induction pre with
  | nil =>
    have := hi.head
    simp only [List.nil_append, scan]
    rw [if_neg (not_le.2 this), if_pos h2]
  | cons a pre ih =>
    have ih := ih hi.tail
    cases pre with
    | nil =>
      have hap : a.1 < p.1 := hi.head
      simp only [List.cons_append, List.nil_append, scan] at ih ⊢
      rw [if_neg (not_le.2 hap)]
      by_cases hv : v ≤ p.1
      · rw [if_pos hv, interpolate_low hv, interpolate_high (lt_of_lt_of_le hap h1) h1]
      · rw [if_neg hv]
        exact ih
    | cons b pre =>
      have hab : a.1 < b.1 := hi.head
      have hbp : b.1 < p.1 := (List.pairwise_cons.1 hi.tail).1 p (by simp)
      simp only [List.cons_append, scan] at ih ⊢
      rw [if_neg (not_le.2 hab), if_neg (by linarith)]
      exact ih

theorem Increasing.le_of_mem {p a : ℚ × ℚ} {l : List (ℚ × ℚ)} (h : Increasing (p :: l)) (ha : a ∈ p :: l) : p.1 ≤ a.1 := by
  rcases List.mem_cons.1 ha with rfl | hm
  · exact le_rfl
  · exact ((List.pairwise_cons.1 h).1 a hm).le

/-- In a segment, the interpolation is that of the segment. -/
theorem linear_segment (flag : Bool) (v : ℚ) (pts : List (ℚ × ℚ)) (hi : Increasing pts) (p q : ℚ × ℚ) (hn : Neighbours pts p q)
    (h1 : p.1 ≤ v) (h2 : v ≤ q.1) : linearInterpolation v pts flag = .ok (interpolate v p.1 q.1 p.2 q.2) := by
  obtain ⟨pre, post, rfl⟩ := hn
  have hs := scan_segment flag v p q post pre hi h1 h2
  cases pre with
  | nil =>
    simp only [List.nil_append] at hs ⊢
    simp only [linearInterpolation]
    rw [if_neg (not_lt.2 h1)]
    exact hs
  | cons a pre =>
    have hle : a.1 ≤ p.1 := hi.le_of_mem (by simp)
    cases pre with
    | nil =>
      simp only [List.cons_append, List.nil_append, linearInterpolation] at hs ⊢
      rw [if_neg (by linarith)]
      exact hs
    | cons b pre =>
      simp only [List.cons_append, linearInterpolation] at hs ⊢
      rw [if_neg (by linarith)]
      exact hs

theorem scan_last (flag : Bool) (v : ℚ) (p : ℚ × ℚ) (pre : List (ℚ × ℚ)) (hi : Increasing (pre ++ [p])) (h : p.1 < v) :
    scan v flag (pre ++ [p]) = if flag then .error .aboveUpperBounds else .ok p.2 := by
  induction pre with
  | nil => simp [scan]
  | cons a pre ih =>
    have ih := ih hi.tail
    cases pre with
    | nil =>
      have hap : a.1 < p.1 := hi.head
      simp only [List.cons_append, List.nil_append, scan] at ih ⊢
      rw [if_neg (not_le.2 hap), if_neg (by linarith)]
    | cons b pre =>
      have hab : a.1 < b.1 := hi.head
      have hbp : b.1 < p.1 := (List.pairwise_cons.1 hi.tail).1 p (by simp)
      simp only [List.cons_append, scan] at ih ⊢
      rw [if_neg (not_le.2 hab), if_neg (by linarith)]
      exact ih

/-- Scanning from a point on. -/
theorem scan_from {v : ℚ} {flag : Bool} : ∀ (l : List (ℚ × ℚ)) (p : ℚ × ℚ), Increasing (p :: l) → p.1 ≤ v → ∀ r,
    scan v flag (p :: l) = .ok r →
    ((p :: l).Pairwise (fun a b => a.2 ≤ b.2) → p.2 ≤ r) ∧
    ∀ L, (∀ a b, Neighbours (p :: l) a b → |b.2 - a.2| ≤ L * (b.1 - a.1)) → Spaced (p :: l) → 0 ≤ L → |r - p.2| ≤ L * (v - p.1) := by
  intro l
  induction l with
  | nil =>
    intro p _ hv r h
    simp only [scan] at h
    split_ifs at h with hf
    simp only [Except.ok.injEq] at h
    subst h
    refine ⟨fun _ => le_rfl, fun L _ _ hL => ?_⟩
    simp only [sub_self, abs_zero]
    exact mul_nonneg hL (by linarith)
  | cons q l ih =>
    intro p hi hv r h
    have hpq := hi.head
    simp only [scan] at h
    rw [if_neg (not_le.2 hpq)] at h
    have hn : Neighbours (p :: q :: l) p q := ⟨[], l, rfl⟩
    by_cases hvq : v ≤ q.1
    · rw [if_pos hvq] at h
      simp only [Except.ok.injEq] at h
      subst h
      refine ⟨fun hm => ?_, fun L hL hs _ => ?_⟩
      · have hpq2 : p.2 ≤ q.2 := (List.pairwise_cons.1 hm).1 q (by simp)
        have := (interpolate_between v hpq p.2 q.2).1
        rwa [min_eq_left hpq2] at this
      · rw [interpolate_line (hs p q hn) hv hvq]
        have := line_slope (v := p.1) (w := v) hpq (hL p q hn)
        have e : line (p.1, p.2) (q.1, q.2) v = line p q v := rfl
        have e2 : line p q p.1 = p.2 := by simp [line]
        rw [e2, abs_of_nonneg (by linarith : (0 : ℚ) ≤ v - p.1)] at this
        rw [e]; exact this
    · rw [if_neg hvq] at h
      rw [not_le] at hvq
      obtain ⟨h1, h2⟩ := ih q hi.tail hvq.le r h
      refine ⟨fun hm => le_trans ((List.pairwise_cons.1 hm).1 q (by simp)) (h1 (List.pairwise_cons.1 hm).2), fun L hL hs hL0 => ?_⟩
      have hup : ∀ a b, Neighbours (q :: l) a b → Neighbours (p :: q :: l) a b := by
        rintro a b ⟨pre, post, e⟩
        exact ⟨p :: pre, post, by rw [e]; rfl⟩
      have a1 := h2 L (fun a b hab => hL a b (hup a b hab)) (fun a b hab => hs a b (hup a b hab)) hL0
      have a2 := hL p q hn
      have e : r - p.2 = (r - q.2) + (q.2 - p.2) := by ring
      rw [e]
      refine le_trans (abs_add_le _ _) ?_
      linarith

theorem scan_pair {v w : ℚ} {flag : Bool} (hvw : v ≤ w) : ∀ (l : List (ℚ × ℚ)) (p : ℚ × ℚ), Increasing (p :: l) → p.1 ≤ v → ∀ r s,
    scan v flag (p :: l) = .ok r → scan w flag (p :: l) = .ok s →
    ((p :: l).Pairwise (fun a b => a.2 ≤ b.2) → r ≤ s) ∧
    ∀ L, (∀ a b, Neighbours (p :: l) a b → |b.2 - a.2| ≤ L * (b.1 - a.1)) → Spaced (p :: l) → 0 ≤ L → |s - r| ≤ L * (w - v) := by
  intro l
  induction l with
  | nil =>
    intro p _ hv r s h h'
    simp only [scan] at h h'
    split_ifs at h h' with hf
    simp only [Except.ok.injEq] at h h'
    subst h; subst h'
    refine ⟨fun _ => le_rfl, fun L _ _ hL => ?_⟩
    simp only [sub_self, abs_zero]
    exact mul_nonneg hL (by linarith)
  | cons q l ih =>
    intro p hi hv r s h h'
    have hpq := hi.head
    have hn : Neighbours (p :: q :: l) p q := ⟨[], l, rfl⟩
    have hup : ∀ a b, Neighbours (q :: l) a b → Neighbours (p :: q :: l) a b := by
      rintro a b ⟨pre, post, e⟩
      exact ⟨p :: pre, post, by rw [e]; rfl⟩
    simp only [scan] at h h'
    rw [if_neg (not_le.2 hpq)] at h h'
    by_cases hvq : v ≤ q.1
    · rw [if_pos hvq] at h
      simp only [Except.ok.injEq] at h
      subst h
      by_cases hwq : w ≤ q.1
      · rw [if_pos hwq] at h'
        simp only [Except.ok.injEq] at h'
        subst h'
        refine ⟨fun hm => interpolate_mono hpq ((List.pairwise_cons.1 hm).1 q (by simp)) hvw, fun L hL hs _ => ?_⟩
        rw [interpolate_line (hs p q hn) hv hvq, interpolate_line (hs p q hn) (le_trans hv hvw) hwq]
        have := line_slope (v := v) (w := w) hpq (hL p q hn)
        rw [abs_of_nonneg (by linarith : (0 : ℚ) ≤ w - v)] at this
        exact this
      · rw [if_neg hwq] at h'
        rw [not_le] at hwq
        obtain ⟨h1, h2⟩ := scan_from l q hi.tail hwq.le s h'
        refine ⟨fun hm => ?_, fun L hL hs hL0 => ?_⟩
        · have hpq2 : p.2 ≤ q.2 := (List.pairwise_cons.1 hm).1 q (by simp)
          have := (interpolate_between v hpq p.2 q.2).2
          rw [max_eq_right hpq2] at this
          exact le_trans this (h1 (List.pairwise_cons.1 hm).2)
        · have a1 := h2 L (fun a b hab => hL a b (hup a b hab)) (fun a b hab => hs a b (hup a b hab)) hL0
          rw [interpolate_line (hs p q hn) hv hvq]
          have a2 := line_slope (v := v) (w := q.1) hpq (hL p q hn)
          have e2 : line p q q.1 = q.2 := by
            unfold line
            have : q.1 - p.1 ≠ 0 := ne_of_gt (by linarith)
            field_simp
            ring
          rw [e2, abs_of_nonneg (by linarith : (0 : ℚ) ≤ q.1 - v)] at a2
          have e : s - line (p.1, p.2) (q.1, q.2) v = (s - q.2) + (q.2 - line p q v) := by
            show s - line p q v = _
            ring
          rw [e]
          refine le_trans (abs_add_le _ _) ?_
          linarith
    · rw [if_neg hvq] at h
      rw [not_le] at hvq
      rw [if_neg (by linarith)] at h'
      obtain ⟨h1, h2⟩ := ih q hi.tail hvq.le r s h h'
      exact ⟨fun hm => h1 (List.pairwise_cons.1 hm).2, fun L hL hs hL0 =>
        h2 L (fun a b hab => hL a b (hup a b hab)) (fun a b hab => hs a b (hup a b hab)) hL0⟩

/-- Where a scan ends. -/
theorem increasing_cases (l : List (ℚ × ℚ)) (p : ℚ × ℚ) (v : ℚ) (h : p.1 ≤ v) :
    (∃ a b, Neighbours (p :: l) a b ∧ a.1 ≤ v ∧ v ≤ b.1) ∨ (∃ pre q, p :: l = pre ++ [q] ∧ ∀ a ∈ p :: l, a.1 ≤ v) := by
  induction l generalizing p with
  | nil => exact Or.inr ⟨[], p, rfl, by simpa using h⟩
  | cons q l ih =>
    by_cases hv : v ≤ q.1
    · exact Or.inl ⟨p, q, ⟨[], l, rfl⟩, h, hv⟩
    · rw [not_le] at hv
      rcases ih q hv.le with ⟨a, b, ⟨pre, post, e⟩, h1, h2⟩ | ⟨pre, a, e, h1⟩
      · exact Or.inl ⟨a, b, ⟨p :: pre, post, by rw [e]; rfl⟩, h1, h2⟩
      · refine Or.inr ⟨p :: pre, a, by rw [e]; rfl, ?_⟩
        intro x hx
        rcases List.mem_cons.1 hx with rfl | hm
        · exact h
        · exact h1 x hm

end Verif.Curves
