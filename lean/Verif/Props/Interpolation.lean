import Verif.Lemmas.Curves

/-!
# C31: piecewise linear interpolation

`Increasing`, `Neighbours`, `line`, `Between`, `Spaced` are in `Spec/Curves.lean`.

Not true as stated in full: tables that are not increasing are only rejected when the search reaches the offending points
(`C31_rejected_iff`, `C31_lazy_refuted`), and between points closer than the tolerance the function jumps
(`C31_small_gap_refuted`).
-/

namespace Verif.Curves

/-- **C31 (exact).** At a point of the table the result is the value of the point. -/
theorem C31_exact (pts : List (ℚ × ℚ)) (flag : Bool) (hi : Increasing pts) (hl : 2 ≤ pts.length) (p : ℚ × ℚ) (hp : p ∈ pts) :
    linearInterpolation p.1 pts flag = .ok p.2 := by
  obtain ⟨pre, post, rfl⟩ := List.append_of_mem hp
  cases post with
  | cons q post =>
    have hpq : p.1 < q.1 := Increasing.head (List.pairwise_append.1 hi).2.1
    rw [linear_segment flag p.1 _ hi p q ⟨pre, post, rfl⟩ le_rfl hpq.le, interpolate_low le_rfl]
  | nil =>
    rcases List.eq_nil_or_concat pre with rfl | ⟨pre, a, rfl⟩
    · simp at hl
    · have hap : a.1 < p.1 := (List.pairwise_append.1 hi).2.2 a (by simp) p (by simp)
      rw [linear_segment flag p.1 _ hi a p ⟨pre, [], by simp⟩ hap.le le_rfl, interpolate_high hap le_rfl]

/-- **C31 (between).** Between two neighbouring points the result is between their values, and on the line through them unless
they are closer than the tolerance. -/
theorem C31_between (pts : List (ℚ × ℚ)) (flag : Bool) (hi : Increasing pts) (p q : ℚ × ℚ) (hn : Neighbours pts p q) (v : ℚ)
    (h1 : p.1 ≤ v) (h2 : v ≤ q.1) : ∃ r, linearInterpolation v pts flag = .ok r ∧ Between p.2 q.2 r ∧
      (tolerance ≤ q.1 - p.1 → r = line p q v) := by
  refine ⟨_, linear_segment flag v pts hi p q hn h1 h2, ?_, fun hg => interpolate_line hg h1 h2⟩
  obtain ⟨pre, post, rfl⟩ := hn
  exact interpolate_between v (Increasing.head (List.pairwise_append.1 hi).2.1) p.2 q.2

/-- **C31 (outside).** Outside the table the result is the value at its end, or an error if asked for. -/
theorem C31_outside (pts : List (ℚ × ℚ)) (flag : Bool) (hi : Increasing pts) (hl : 2 ≤ pts.length) (v : ℚ) :
    (∀ p, pts.head? = some p → v < p.1 → linearInterpolation v pts flag = if flag then .error .belowLowerBounds else .ok p.2) ∧
    (∀ p, pts.getLast? = some p → p.1 < v → linearInterpolation v pts flag = if flag then .error .aboveUpperBounds else .ok p.2) := by
  constructor
  · intro p hp hv
    cases pts with
    | nil => cases hp
    | cons a l =>
      simp only [List.head?_cons, Option.some.injEq] at hp
      subst hp
      cases l with
      | nil => simp at hl
      | cons b l => simp only [linearInterpolation]; rw [if_pos hv]
  · intro p hp hv
    obtain ⟨pre, rfl⟩ : ∃ pre, pts = pre ++ [p] := by
      rcases List.eq_nil_or_concat pts with rfl | ⟨pre, a, rfl⟩
      · cases hp
      · simp at hp; subst hp; exact ⟨pre, by simp⟩
    have hs := scan_last flag v p pre hi hv
    cases pre with
    | nil => simp at hl
    | cons a pre =>
      have hap : a.1 ≤ p.1 := hi.le_of_mem (by simp)
      cases pre with
      | nil =>
        simp only [List.cons_append, List.nil_append, linearInterpolation] at hs ⊢
        rw [if_neg (by linarith), hs]
      | cons b pre =>
        simp only [List.cons_append, linearInterpolation] at hs ⊢
        rw [if_neg (by linarith), hs]

/-- **C31 (total).** An increasing table with two points gives a value for every argument, unless errors are asked for outside. -/
theorem C31_total (pts : List (ℚ × ℚ)) (hi : Increasing pts) (hl : 2 ≤ pts.length) (v : ℚ) :
    ∃ r, linearInterpolation v pts false = .ok r := by
  cases pts with
  | nil => simp at hl
  | cons a l =>
    by_cases hv : v < a.1
    · exact ⟨_, (C31_outside (a :: l) false hi hl v).1 a rfl hv⟩
    · rw [not_lt] at hv
      rcases increasing_cases l a v hv with ⟨p, q, hn, h1, h2⟩ | ⟨pre, q, e, h1⟩
      · obtain ⟨r, h, _⟩ := C31_between _ false hi p q hn v h1 h2
        exact ⟨r, h⟩
      · have hq : q.1 ≤ v := h1 q (by rw [e]; simp)
        rcases lt_or_eq_of_le hq with h | h
        · exact ⟨_, (C31_outside _ false hi hl v).2 q (by rw [e]; simp) h⟩
        · exact ⟨q.2, by rw [← h]; exact C31_exact _ false hi hl q (by rw [e]; simp)⟩

/-- Results at two arguments. -/
theorem pair_results (pts : List (ℚ × ℚ)) (flag : Bool) (hi : Increasing pts) (v w r s : ℚ) (hvw : v ≤ w)
    (hr : linearInterpolation v pts flag = .ok r) (hs : linearInterpolation w pts flag = .ok s) :
    (pts.Pairwise (fun a b => a.2 ≤ b.2) → r ≤ s) ∧
    ∀ L, (∀ a b, Neighbours pts a b → |b.2 - a.2| ≤ L * (b.1 - a.1)) → Spaced pts → |s - r| ≤ L * (w - v) := by
  cases pts with
  | nil => cases hr
  | cons a l =>
    cases l with
    | nil => cases hr
    | cons b l =>
      have hab := hi.head
      simp only [linearInterpolation] at hr hs
      have hL0 : ∀ L, (∀ p q, Neighbours (a :: b :: l) p q → |q.2 - p.2| ≤ L * (q.1 - p.1)) → 0 ≤ L := by
        intro L hL
        have := le_trans (abs_nonneg _) (hL a b ⟨[], l, rfl⟩)
        by_contra hneg
        rw [not_le] at hneg
        nlinarith
      by_cases hw : w < a.1
      · rw [if_pos hw] at hs
        rw [if_pos (lt_of_le_of_lt hvw hw)] at hr
        rw [hr] at hs
        simp only [Except.ok.injEq] at hs
        subst hs
        refine ⟨fun _ => le_rfl, fun L hL _ => ?_⟩
        rw [sub_self, abs_zero]
        exact mul_nonneg (hL0 L hL) (by linarith)
      · rw [if_neg hw] at hs
        rw [not_lt] at hw
        by_cases hv : v < a.1
        · rw [if_pos hv] at hr
          split_ifs at hr
          simp only [Except.ok.injEq] at hr
          subst hr
          obtain ⟨h1, h2⟩ := scan_from (b :: l) a hi hw s hs
          refine ⟨h1, fun L hL hsp => ?_⟩
          refine le_trans (h2 L hL hsp (hL0 L hL)) ?_
          exact mul_le_mul_of_nonneg_left (by linarith) (hL0 L hL)
        · rw [if_neg hv] at hr
          rw [not_lt] at hv
          obtain ⟨h1, h2⟩ := scan_pair hvw (b :: l) a hi hv r s hr hs
          exact ⟨h1, fun L hL hsp => h2 L hL hsp (hL0 L hL)⟩

/-- **C31 (order).** If the values of the table do not decrease, neither does the function. -/
theorem C31_monotone (pts : List (ℚ × ℚ)) (flag : Bool) (hi : Increasing pts) (hm : pts.Pairwise (fun a b => a.2 ≤ b.2)) (v w r s : ℚ)
    (hvw : v ≤ w) (hr : linearInterpolation v pts flag = .ok r) (hs : linearInterpolation w pts flag = .ok s) : r ≤ s :=
  (pair_results pts flag hi v w r s hvw hr hs).1 hm

/-- **C31 (continuity).** Where points are at least the tolerance apart and no slope exceeds `L`, the function changes by at most
`L` times the change of the argument. -/
theorem C31_continuous_partial (pts : List (ℚ × ℚ)) (flag : Bool) (hi : Increasing pts) (hsp : Spaced pts) (L : ℚ)
    (hL : ∀ p q, Neighbours pts p q → |q.2 - p.2| ≤ L * (q.1 - p.1)) (v w r s : ℚ)
    (hr : linearInterpolation v pts flag = .ok r) (hs : linearInterpolation w pts flag = .ok s) : |s - r| ≤ L * |w - v| := by
  rcases le_total v w with h | h
  · rw [abs_of_nonneg (by linarith : (0 : ℚ) ≤ w - v)]
    exact (pair_results pts flag hi v w r s h hr hs).2 L hL hsp
  · rw [abs_sub_comm s r, abs_sub_comm w v, abs_of_nonneg (by linarith : (0 : ℚ) ≤ v - w)]
    exact (pair_results pts flag hi w v s r h hs hr).2 L hL hsp

/-- **C31 (too few points).** -/
theorem C31_insufficient (pts : List (ℚ × ℚ)) (flag : Bool) (v : ℚ) :
    linearInterpolation v pts flag = .error .insufficientPoints ↔ pts.length < 2 := by
  match pts with
  | [] => simp [linearInterpolation]
  | [p] => simp [linearInterpolation]
  | p :: q :: l =>
    simp only [linearInterpolation, List.length_cons]
    constructor
    · intro h
      exfalso
      have hscan : ∀ (l : List (ℚ × ℚ)) (p : ℚ × ℚ), scan v flag (p :: l) ≠ .error .insufficientPoints := by
        intro l
        induction l with
        | nil => intro p h; simp only [scan] at h; split_ifs at h; cases h
        | cons q l ih => intro p h; simp only [scan] at h; split_ifs at h <;> first | cases h | exact ih q h
      split_ifs at h
      · cases h
      · exact hscan _ _ h
    · intro h; omega

/-- **C31 (rejection).** The table is rejected as not increasing exactly when the search reaches two neighbours that do not
increase: all points before increase, and the argument is beyond them. -/
theorem C31_rejected_iff (pts : List (ℚ × ℚ)) (flag : Bool) (v : ℚ) :
    linearInterpolation v pts flag = .error .notStrictlyMonotonic ↔
      ∃ pre p q post, pts = pre ++ p :: q :: post ∧ q.1 ≤ p.1 ∧ Increasing (pre ++ [p]) ∧
        (∀ a ∈ pts.head?, a.1 ≤ v) ∧ (pre ≠ [] → p.1 < v) := by
  have hscan : ∀ (l : List (ℚ × ℚ)) (a : ℚ × ℚ), scan v flag (a :: l) = .error .notStrictlyMonotonic ↔
      ∃ pre p q post, a :: l = pre ++ p :: q :: post ∧ q.1 ≤ p.1 ∧ Increasing (pre ++ [p]) ∧ (pre ≠ [] → p.1 < v) := by
    intro l
    induction l with
    | nil =>
      intro a
      constructor
      · intro h; simp only [scan] at h; split_ifs at h; cases h
      · rintro ⟨pre, p, q, post, e, _⟩
        exfalso
        have := congrArg List.length e
        simp at this
        omega
    | cons b l ih =>
      intro a
      simp only [scan]
      by_cases hab : a.1 ≥ b.1
      · rw [if_pos hab]
        refine ⟨fun _ => ⟨[], a, b, l, rfl, hab, by simp [Increasing], by simp⟩, fun _ => rfl⟩
      · rw [if_neg hab]
        rw [ge_iff_le, not_le] at hab
        by_cases hv : v ≤ b.1
        · rw [if_pos hv]
          constructor
          · intro h; cases h
          · rintro ⟨pre, p, q, post, e, h1, h2, h3⟩
            exfalso
            cases pre with
            | nil =>
              simp only [List.nil_append, List.cons.injEq] at e
              obtain ⟨rfl, rfl, _⟩ := e
              linarith
            | cons c pre =>
              simp only [List.cons_append, List.cons.injEq] at e
              obtain ⟨rfl, e⟩ := e
              have hpv := h3 (by simp)
              cases pre with
              | nil =>
                simp only [List.nil_append, List.cons.injEq] at e
                obtain ⟨rfl, _⟩ := e
                linarith
              | cons d pre =>
                simp only [List.cons_append, List.cons.injEq] at e
                obtain ⟨rfl, _⟩ := e
                have : b.1 ≤ p.1 := Increasing.le_of_mem (p := b) (l := pre ++ [p]) h2.tail (by simp)
                linarith
        · rw [if_neg hv, ih b]
          rw [not_le] at hv
          constructor
          · rintro ⟨pre, p, q, post, e, h1, h2, h3⟩
            refine ⟨a :: pre, p, q, post, by rw [e]; rfl, h1, ?_, fun _ => ?_⟩
            · refine List.pairwise_cons.2 ⟨fun x hx => ?_, h2⟩
              have hx : x ∈ pre ++ [p] := hx
              have : b.1 ≤ x.1 := by
                cases pre with
                | nil =>
                  simp only [List.nil_append, List.cons.injEq] at e
                  simp only [List.nil_append, List.mem_singleton] at hx
                  rw [hx, ← e.1]
                | cons d pre =>
                  simp only [List.cons_append, List.cons.injEq] at e
                  obtain ⟨rfl, _⟩ := e
                  exact Increasing.le_of_mem h2 hx
              linarith
            · cases pre with
              | nil =>
                simp only [List.nil_append, List.cons.injEq] at e
                rw [← e.1]; exact hv
              | cons d pre => exact h3 (by simp)
          · rintro ⟨pre, p, q, post, e, h1, h2, h3⟩
            cases pre with
            | nil =>
              simp only [List.nil_append, List.cons.injEq] at e
              obtain ⟨rfl, rfl, _⟩ := e
              linarith
            | cons c pre =>
              simp only [List.cons_append, List.cons.injEq] at e
              exact ⟨pre, p, q, post, e.2, h1, h2.tail, fun _ => h3 (by simp)⟩
  match pts with
  | [] => simp [linearInterpolation]
  | [a] =>
    simp only [linearInterpolation]
    constructor
    · intro h; cases h
    · rintro ⟨pre, p, q, post, e, _⟩
      exfalso
      have := congrArg List.length e
      simp at this
      omega
  | a :: b :: l =>
    simp only [linearInterpolation, List.head?_cons, Option.mem_def, Option.some.injEq, forall_eq']
    by_cases hv : v < a.1
    · rw [if_pos hv]
      constructor
      · intro h; split_ifs at h; cases h
      · rintro ⟨_, _, _, _, _, _, _, h, _⟩; linarith
    · rw [if_neg hv, hscan]
      rw [not_lt] at hv
      constructor
      · rintro ⟨pre, p, q, post, e, h1, h2, h3⟩; exact ⟨pre, p, q, post, e, h1, h2, hv, h3⟩
      · rintro ⟨pre, p, q, post, e, h1, h2, _, h3⟩; exact ⟨pre, p, q, post, e, h1, h2, h3⟩

/-- A table that meets the hypotheses, with results. -/
example : Increasing [(0, 1), (1, 3), (3, 2)] ∧ linearInterpolation (1 / 2) [(0, 1), (1, 3), (3, 2)] true = .ok 2 ∧
    linearInterpolation 2 [(0, 1), (1, 3), (3, 2)] true = .ok (5 / 2) ∧
    linearInterpolation 4 [(0, 1), (1, 3), (3, 2)] false = .ok 2 ∧
    linearInterpolation 4 [(0, 1), (1, 3), (3, 2)] true = .error .aboveUpperBounds := by decide +kernel

/-- **C31, refuted.** A table that is not increasing is accepted for arguments before the fault: this table has two values at 1. -/
theorem C31_lazy_refuted : ¬ Increasing [(0, 0), (1, 1), (1, 2)] ∧
    linearInterpolation (1 / 2) [(0, 0), (1, 1), (1, 2)] true = .ok (1 / 2) ∧
    linearInterpolation 1 [(0, 0), (1, 1), (1, 2)] true = .ok 1 ∧
    linearInterpolation 2 [(0, 0), (1, 1), (1, 2)] true = .error .notStrictlyMonotonic := by decide +kernel

/-- **C31, refuted.** Between points closer than the tolerance the function is not linear but jumps at the upper point. -/
theorem C31_small_gap_refuted : Increasing [(0, 0), (1 / 2000000, 1)] ∧
    linearInterpolation (1 / 2000001) [(0, 0), (1 / 2000000, 1)] true = .ok 0 ∧
    linearInterpolation (1 / 2000000) [(0, 0), (1 / 2000000, 1)] true = .ok 1 := by decide +kernel

end Verif.Curves
