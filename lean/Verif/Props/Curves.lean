import Verif.Props.Interpolation
import Mathlib.Tactic.FieldSimp

/-!
# C30, C32, C33, C34: control curves, apportioning and Muskingum routing
-/

namespace Verif.Curves

/-! ## C32 -/

theorem indexFrom_iff (x : ℚ) (cs : List (Option ℚ)) (k i : Nat) :
    indexFrom x cs k = .ok i ↔ k ≤ i ∧ InBand x cs (i - k) := by
  induction cs generalizing k with
  | nil =>
    simp only [indexFrom, Except.ok.injEq, InBand, List.length_nil, List.getElem?_nil]
    constructor
    · rintro rfl; exact ⟨le_rfl, by omega, by omega, by simp⟩
    · rintro ⟨h1, h2, _⟩; omega
  | cons c cs ih =>
    cases c with
    | none =>
      simp only [indexFrom]
      constructor
      · intro h; cases h
      · rintro ⟨h1, _, h2, h3⟩
        rcases Nat.eq_zero_or_pos (i - k) with h0 | h0
        · rw [h0] at h3
          obtain ⟨v, hv, _⟩ := h3 none rfl
          cases hv
        · obtain ⟨v, hv, _⟩ := h2 0 h0
          simp at hv
    | some c =>
      simp only [indexFrom]
      by_cases hx : x ≥ c
      · rw [if_pos hx]
        simp only [Except.ok.injEq]
        constructor
        · rintro rfl
          refine ⟨le_rfl, by simp, by omega, ?_⟩
          intro d hd
          simp only [Nat.sub_self, List.getElem?_cons_zero, Option.some.injEq] at hd
          exact ⟨c, hd.symm, hx⟩
        · rintro ⟨h1, _, h2, _⟩
          rcases Nat.eq_zero_or_pos (i - k) with h0 | h0
          · omega
          · obtain ⟨v, hv, hlt⟩ := h2 0 h0
            simp only [List.getElem?_cons_zero, Option.some.injEq] at hv
            subst hv
            linarith
      · rw [if_neg hx, ih]
        rw [ge_iff_le, not_le] at hx
        constructor
        · rintro ⟨h1, h2, h3, h4⟩
          have e : i - k = (i - (k + 1)) + 1 := by omega
          refine ⟨by omega, by rw [e, List.length_cons]; omega, ?_, ?_⟩
          · intro j hj
            cases j with
            | zero => exact ⟨c, rfl, hx⟩
            | succ j =>
              rw [List.getElem?_cons_succ]
              exact h3 j (by omega)
          · rw [e, List.getElem?_cons_succ]; exact h4
        · rintro ⟨h1, h2, h3, h4⟩
          have hne : i ≠ k := by
            rintro rfl
            rw [Nat.sub_self] at h4
            obtain ⟨v, hv, hle⟩ := h4 (some c) rfl
            simp only [Option.some.injEq] at hv
            subst hv
            linarith
          have e : i - k = (i - (k + 1)) + 1 := by omega
          rw [e] at h2 h3 h4
          refine ⟨by omega, by simpa using h2, ?_, ?_⟩
          · intro j hj
            have := h3 (j + 1) (by omega)
            rwa [List.getElem?_cons_succ] at this
          · rw [List.getElem?_cons_succ] at h4; exact h4

/-- **C32 (index).** The index is `i` exactly when `i` is the band of the level: below every earlier curve, and at or above curve
`i` if there is one. -/
theorem C32_index_iff (x : ℚ) (curves : List (Option ℚ)) (i : Nat) :
    controlCurveIndex (some x) curves = .ok i ↔ InBand x curves i := by
  unfold controlCurveIndex
  rw [indexFrom_iff]
  simp

/-- **C32 (total).** If the curves have values there is an index, at most the number of curves. -/
theorem C32_index_total (x : ℚ) (curves : List ℚ) :
    ∃ i ≤ curves.length, controlCurveIndex (some x) (curves.map some) = .ok i := by
  have h : ∀ k, ∃ i ≤ k + curves.length, indexFrom x (curves.map some) k = .ok i := by
    induction curves with
    | nil => intro k; exact ⟨k, by simp, rfl⟩
    | cons c cs ih =>
      intro k
      simp only [List.map_cons, indexFrom]
      by_cases hx : x ≥ c
      · exact ⟨k, by omega, by rw [if_pos hx]⟩
      · obtain ⟨i, hi, h⟩ := ih (k + 1)
        exact ⟨i, by simp only [List.length_cons]; omega, by rw [if_neg hx, h]⟩
  obtain ⟨i, hi, h⟩ := h 0
  exact ⟨i, by omega, h⟩

/-- **C32 (order).** A higher level has no higher index. -/
theorem C32_index_monotone (x y : ℚ) (hxy : x ≤ y) (curves : List (Option ℚ)) (i j : Nat)
    (hi : controlCurveIndex (some x) curves = .ok i) (hj : controlCurveIndex (some y) curves = .ok j) : j ≤ i := by
  rw [C32_index_iff] at hi hj
  obtain ⟨hi1, hi2, hi3⟩ := hi
  obtain ⟨hj1, hj2, hj3⟩ := hj
  by_contra hlt
  rw [not_le] at hlt
  obtain ⟨c, hc, hyc⟩ := hj2 i hlt
  obtain ⟨v, hv, hvx⟩ := hi3 (some c) hc
  simp only [Option.some.injEq] at hv
  subst hv
  linarith

/-- **C32 (decreasing curves).** For curves that do not increase, the index is the number of curves above the level. -/
theorem C32_index_count (x : ℚ) (curves : List ℚ) (hd : curves.Pairwise (fun a b => b ≤ a)) :
    controlCurveIndex (some x) (curves.map some) = .ok (curves.filter (fun c => x < c)).length := by
  have h : ∀ k, indexFrom x (curves.map some) k = .ok (k + (curves.filter (fun c => x < c)).length) := by
    induction curves with
    | nil => intro k; rfl
    | cons c cs ih =>
      intro k
      obtain ⟨h1, h2⟩ := List.pairwise_cons.1 hd
      simp only [List.map_cons, indexFrom]
      by_cases hx : x ≥ c
      · rw [if_pos hx]
        have : (c :: cs).filter (fun c => x < c) = [] := by
          rw [List.filter_eq_nil_iff]
          intro d hd
          rcases List.mem_cons.1 hd with rfl | hm
          · simpa using hx
          · have := h1 d hm
            simp only [decide_eq_true_eq, not_lt]; linarith
        rw [this]; rfl
      · rw [if_neg hx, ih h2]
        rw [ge_iff_le, not_le] at hx
        rw [List.filter_cons_of_pos (by simpa using hx), List.length_cons]
        congr 1; omega
  have := h 0
  rw [Nat.zero_add] at this
  exact this

theorem curveFrom_band (x : ℚ) (values : List (Option ℚ)) (cs : List (Option ℚ)) (k i : Nat) (h : InBand x cs i) :
    curveFrom x values cs k =
      if i < cs.length then (match values[k + i]? with | none => .error (.outOfBounds (k + i) values.length) | some v => retrieve v)
      else (match values.getLast? with | none => .error (.outOfBounds 0 0) | some v => retrieve v) := by
  induction cs generalizing k i with
  | nil =>
    obtain ⟨h1, _⟩ := h
    rw [if_neg (by simp)]
    rfl
  | cons c cs ih =>
    obtain ⟨h1, h2, h3⟩ := h
    cases i with
    | zero =>
      obtain ⟨v, hv, hle⟩ := h3 c rfl
      subst hv
      simp only [curveFrom]
      rw [if_pos (ge_iff_le.2 hle), if_pos (by simp)]
      rfl
    | succ i =>
      obtain ⟨d, hd, hlt⟩ := h2 0 (by omega)
      simp only [List.getElem?_cons_zero, Option.some.injEq] at hd
      subst hd
      simp only [curveFrom]
      rw [if_neg (by linarith)]
      have hb : InBand x cs i := by
        refine ⟨by simpa using h1, fun j hj => ?_, ?_⟩
        · have := h2 (j + 1) (by omega)
          rwa [List.getElem?_cons_succ] at this
        · rw [List.getElem?_cons_succ] at h3; exact h3
      rw [ih (k + 1) i hb]
      have e : k + 1 + i = k + (i + 1) := by omega
      rw [e]
      by_cases hlen : i < cs.length
      · rw [if_pos hlen, if_pos (by simp only [List.length_cons]; omega)]
      · rw [if_neg hlen, if_neg (by simp only [List.length_cons]; omega)]

/-- **C32 (value).** With one value more than curves, the value of the band is returned. -/
theorem C32_value_partial (x : ℚ) (curves values : List (Option ℚ)) (hl : values.length = curves.length + 1) (i : Nat)
    (hb : InBand x curves i) : ∃ v, values[i]? = some v ∧ controlCurve (some x) curves values = retrieve v := by
  have hi : i < values.length := by have := hb.1; omega
  refine ⟨values[i], List.getElem?_eq_getElem hi, ?_⟩
  unfold controlCurve
  simp only
  rw [curveFrom_band x values curves 0 i hb]
  by_cases hlen : i < curves.length
  · rw [if_pos hlen, Nat.zero_add, List.getElem?_eq_getElem hi]
  · rw [if_neg hlen]
    have : i = values.length - 1 := by have := hb.1; omega
    subst this
    rw [List.getLast?_eq_getElem?, List.getElem?_eq_getElem hi]

/-- **C32 (value).** Whatever the number of values, when the level is at or above some curve the result is the value of the band
or an error that there is none. -/
theorem C32_value_above (x : ℚ) (curves values : List (Option ℚ)) (i : Nat) (hb : InBand x curves i) (hi : i < curves.length) :
    controlCurve (some x) curves values =
      match values[i]? with
      | some v => retrieve v
      | none => .error (.outOfBounds i values.length) := by
  unfold controlCurve
  simp only
  rw [curveFrom_band x values curves 0 i hb, if_pos hi, Nat.zero_add]
  cases values[i]? <;> rfl

/-- Two curves and a level between them. -/
example : InBand (1 / 2) [some (3 / 4), some (1 / 4)] 1 ∧
    controlCurve (some (1 / 2)) [some (3 / 4), some (1 / 4)] [some 5, some 6, some 7] = .ok 6 ∧
    controlCurveIndex (some (1 / 10)) [some (3 / 4), some (1 / 4)] = .ok 2 := by
  refine ⟨(C32_index_iff _ _ _).1 (by decide +kernel), by decide +kernel, by decide +kernel⟩

/-- **C32, refuted.** With too few or too many values, below all curves the last value is returned although it belongs to another
band or to none: the values here are for bands 0 (10) and bands 0, 1, 2. -/
theorem C32_wrong_count_refuted :
    (controlCurveIndex (some (1 / 5)) [some (1 / 2)] = .ok 1 ∧ controlCurve (some (1 / 5)) [some (1 / 2)] [some 10] = .ok 10) ∧
    controlCurve (some (1 / 5)) [some (1 / 2)] [some 10, some 20, some 30] = .ok 30 := by decide +kernel

/-! ## C33 -/

/-- The value at `x` of a table given from its highest point. -/
def descend (x : ℚ) : List (ℚ × ℚ) → ℚ
  | [] => 0
  | [p] => p.2
  | [p, q] => interpolate x q.1 p.1 q.2 p.2
  | p :: q :: rest => if x ≥ q.1 then interpolate x q.1 p.1 q.2 p.2 else descend x (q :: rest)

theorem descend_linear (x : ℚ) (rest : List (ℚ × ℚ)) : ∀ (pre : List (ℚ × ℚ)) (p q : ℚ × ℚ),
    Increasing (pre ++ p :: q :: rest).reverse → (pre ≠ [] → x < p.1) →
    linearInterpolation x (pre ++ p :: q :: rest).reverse false = .ok (descend x (p :: q :: rest)) := by
  induction rest with
  | nil =>
    intro pre p q hi hp
    simp only [descend]
    have hl : 2 ≤ (pre ++ p :: q :: []).reverse.length := by simp
    have hqp : q.1 < p.1 := by
      have := List.pairwise_append.1 (List.pairwise_reverse.1 hi)
      exact (List.pairwise_cons.1 this.2.1).1 q (by simp)
    by_cases hx : x < q.1
    · rw [(C31_outside _ false hi hl x).1 q (by simp) hx, interpolate_low hx.le]; rfl
    · rw [not_lt] at hx
      by_cases hxp : x ≤ p.1
      · rw [linear_segment false x _ hi q p ⟨[], pre.reverse, by simp⟩ hx hxp]
      · rw [not_le] at hxp
        cases pre with
        | nil => rw [(C31_outside _ false hi hl x).2 p (by simp) hxp, interpolate_high (by linarith) hxp.le]; rfl
        | cons a pre => exact absurd (hp (by simp)) (by linarith)
  | cons r rest ih =>
    intro pre p q hi hp
    simp only [descend]
    have hl : 2 ≤ (pre ++ p :: q :: r :: rest).reverse.length := by simp; omega
    have hqp : q.1 < p.1 := by
      have := List.pairwise_append.1 (List.pairwise_reverse.1 hi)
      exact (List.pairwise_cons.1 this.2.1).1 q (by simp)
    by_cases hx : x ≥ q.1
    · rw [if_pos hx]
      by_cases hxp : x ≤ p.1
      · rw [linear_segment false x _ hi q p ⟨(r :: rest).reverse, pre.reverse, by simp⟩ hx hxp]
      · rw [not_le] at hxp
        cases pre with
        | nil => rw [(C31_outside _ false hi hl x).2 p (by simp) hxp, interpolate_high (by linarith) hxp.le]; rfl
        | cons a pre => exact absurd (hp (by simp)) (by linarith)
    · rw [if_neg hx]
      rw [ge_iff_le, not_le] at hx
      have e : pre ++ p :: q :: r :: rest = (pre ++ [p]) ++ q :: r :: rest := by simp
      rw [e] at hi ⊢
      exact ih (pre ++ [p]) q r hi (fun _ => hx)

theorem interpolatedFrom_descend (x last : ℚ) (mids : List (ℚ × ℚ)) : ∀ (pre : List (Option ℚ)) (pv prev : ℚ),
    interpolatedFrom x (pre ++ some pv :: (mids.map (fun m => some m.2) ++ [some last])) (mids.map (fun m => some m.1)) pre.length prev
      = .ok (descend x ((prev, pv) :: mids ++ [(0, last)])) := by
  induction mids with
  | nil =>
    intro pre pv prev
    simp only [List.map_nil, List.nil_append, interpolatedFrom, List.cons_append, descend]
    have hlen : (pre ++ [some pv, some last]).length = pre.length + 2 := by simp
    rw [if_neg (by omega), hlen]
    unfold interpolateValues indexValue
    have h1 : (pre ++ [some pv, some last])[pre.length + 2 - 1]? = some (some last) := by
      rw [List.getElem?_append_right (by omega)]
      have : pre.length + 2 - 1 - pre.length = 1 := by omega
      rw [this]; rfl
    have h2 : (pre ++ [some pv, some last])[pre.length + 2 - 2]? = some (some pv) := by
      rw [List.getElem?_append_right (by omega)]
      have : pre.length + 2 - 2 - pre.length = 0 := by omega
      rw [this]; rfl
    rw [h1, h2]
    rfl
  | cons m mids ih =>
    intro pre pv prev
    simp only [List.map_cons, List.cons_append, interpolatedFrom]
    have hd : descend x ((prev, pv) :: m :: (mids ++ [(0, last)]))
        = if x ≥ m.1 then interpolate x m.1 prev m.2 pv else descend x (m :: (mids ++ [(0, last)])) := by
      cases mids <;> rfl
    rw [hd]
    by_cases hx : x ≥ m.1
    · rw [if_pos hx, if_pos hx]
      unfold interpolateValues indexValue
      have h1 : (pre ++ some pv :: some m.2 :: (mids.map (fun m => some m.2) ++ [some last]))[pre.length + 1]? = some (some m.2) := by
        rw [List.getElem?_append_right (by omega)]
        have : pre.length + 1 - pre.length = 1 := by omega
        rw [this]; rfl
      have h2 : (pre ++ some pv :: some m.2 :: (mids.map (fun m => some m.2) ++ [some last]))[pre.length]? = some (some pv) := by
        rw [List.getElem?_append_right (by omega), Nat.sub_self]; rfl
      rw [h1, h2]
      rfl
    · rw [if_neg hx, if_neg hx]
      have := ih (pre ++ [some pv]) m.2 m.1
      simp only [List.append_assoc, List.cons_append, List.nil_append, List.length_append, List.length_cons, List.length_nil,
        Nat.zero_add] at this
      exact this

/-- **C33 (interpolated).** With decreasing curves in (0, 1) and two values more than curves, an interpolated control curve is the
piecewise linear function through the first value at 1, a value on each curve, and the last value at 0 — at every level. -/
theorem C33_interpolated_partial (x first last : ℚ) (mids : List (ℚ × ℚ)) (hd : Increasing (table first mids last).reverse) :
    controlCurveInterpolated (some x) (mids.map (fun m => some m.1)) (some first :: (mids.map (fun m => some m.2) ++ [some last]))
      = match linearInterpolation x (table first mids last).reverse false with
        | .ok r => .ok r
        | .error _ => .error .panic := by
  unfold controlCurveInterpolated
  have h := interpolatedFrom_descend x last mids [] first 1
  simp only [List.nil_append, List.length_nil] at h
  simp only
  rw [h]
  have hlin : linearInterpolation x (table first mids last).reverse false = .ok (descend x (table first mids last)) := by
    cases hm : mids with
    | nil => exact descend_linear x [] [] (1, first) (0, last) (by rw [hm] at hd; exact hd) (by simp)
    | cons m ms => exact descend_linear x (ms ++ [(0, last)]) [] (1, first) m (by rw [hm] at hd; exact hd) (by simp)
  rw [hlin]
  rfl

/-- **C33 (on a curve).** On each curve the result is the value given for it; at 1 and above the first, at 0 and below the last. -/
theorem C33_on_curve_partial (first last : ℚ) (mids : List (ℚ × ℚ)) (hd : Increasing (table first mids last).reverse) :
    let f := fun x => controlCurveInterpolated (some x) (mids.map (fun m => some m.1))
      (some first :: (mids.map (fun m => some m.2) ++ [some last]))
    (∀ m ∈ mids, f m.1 = .ok m.2) ∧ (∀ x ≥ 1, f x = .ok first) ∧ (∀ x ≤ 0, f x = .ok last) := by
  intro f
  have hl : 2 ≤ (table first mids last).reverse.length := by simp [table]
  have hex := C31_exact _ false hd hl
  refine ⟨fun m hm => ?_, fun x hx => ?_, fun x hx => ?_⟩
  · show controlCurveInterpolated _ _ _ = _
    rw [C33_interpolated_partial _ _ _ _ hd, hex m (by simp [table, hm])]
  · show controlCurveInterpolated _ _ _ = _
    rw [C33_interpolated_partial _ _ _ _ hd]
    rcases lt_or_eq_of_le (ge_iff_le.1 hx) with h | h
    · rw [(C31_outside _ false hd hl x).2 (1, first) (by rw [List.getLast?_reverse]; rfl) h]; rfl
    · rw [← h, hex (1, first) (by simp [table])]
  · show controlCurveInterpolated _ _ _ = _
    rw [C33_interpolated_partial _ _ _ _ hd]
    rcases lt_or_eq_of_le hx with h | h
    · rw [(C31_outside _ false hd hl x).1 (0, last) (by simp [table]) h]; rfl
    · rw [h, hex (0, last) (by simp [table])]

/-- **C33 (between).** Between two neighbours of the table — curves or ends — the result is between their values. -/
theorem C33_between_partial (first last : ℚ) (mids : List (ℚ × ℚ)) (hd : Increasing (table first mids last).reverse) (p q : ℚ × ℚ)
    (hn : Neighbours (table first mids last) p q) (x : ℚ) (h1 : q.1 ≤ x) (h2 : x ≤ p.1) :
    ∃ r, controlCurveInterpolated (some x) (mids.map (fun m => some m.1))
      (some first :: (mids.map (fun m => some m.2) ++ [some last])) = .ok r ∧ Between p.2 q.2 r := by
  obtain ⟨pre, post, hp⟩ := hn
  obtain ⟨r, hr, hb, _⟩ := C31_between _ false hd q p ⟨post.reverse, pre.reverse, by rw [hp]; simp⟩ x h1 h2
  refine ⟨r, by rw [C33_interpolated_partial _ _ _ _ hd, hr], ?_⟩
  unfold Between at hb ⊢
  rwa [min_comm, max_comm]

/-- Two curves. -/
example : Increasing (table 10 [(3 / 4, 8), (1 / 4, 2)] 0).reverse ∧
    controlCurveInterpolated (some (1 / 2)) [some (3 / 4), some (1 / 4)] [some 10, some 8, some 2, some 0] = .ok 5 := by
  decide +kernel

/-- **C33, refuted.** Too few values cause a panic, or are used for the wrong band, rather than an error. -/
theorem C33_short_refuted : controlCurveInterpolated (some (3 / 4)) [some (1 / 2)] [some 1] = .error .panic ∧
    controlCurveInterpolated (some (1 / 4)) [some (1 / 2)] [some 1] = .error .panic ∧
    controlCurveInterpolated (some (1 / 4)) [some (1 / 2)] [some 10, some 6] = .ok 8 ∧
    controlCurveInterpolated (some (1 / 2)) [some (1 / 2)] [some 10, some 6] = .ok 6 := by decide +kernel

/-- **C33, refuted.** With a curve at 1 the function jumps there: the value of the curve at 1, the first value just above. -/
theorem C33_curve_at_one_refuted :
    controlCurveInterpolated (some 1) [some 1] [some 10, some 8, some 0] = .ok 8 ∧
    controlCurveInterpolated (some (101 / 100)) [some 1] [some 10, some 8, some 0] = .ok 10 := by decide +kernel

/-- The curve above position `i`. -/
def curveAbove (top : ℚ) (cs : List (Option ℚ)) : Nat → ℚ
  | 0 => top
  | j + 1 => ((cs[j]?).bind id).getD 0

theorem piecewiseFrom_band (x minimum : ℚ) (values : List (ℚ × ℚ)) (cs : List (Option ℚ)) (k i : Nat) (prev : ℚ) (h : InBand x cs i) :
    piecewiseFrom x minimum values cs k prev =
      match cs[i]? with
      | some c => (match values[k + i]? with
        | none => .error (.outOfBounds (k + i) values.length)
        | some v => .ok (interpolate x (c.getD 0) (curveAbove prev cs i) v.2 v.1))
      | none => (match values.getLast? with
        | none => .error (.outOfBounds 0 0)
        | some v => .ok (interpolate x minimum (curveAbove prev cs i) v.2 v.1)) := by
  induction cs generalizing k i prev with
  | nil =>
    obtain ⟨h1, _⟩ := h
    have : i = 0 := by simpa using h1
    subst this
    simp only [piecewiseFrom, List.getElem?_nil]
    cases values.getLast? <;> rfl
  | cons c cs ih =>
    obtain ⟨h1, h2, h3⟩ := h
    cases i with
    | zero =>
      obtain ⟨v, hv, hle⟩ := h3 c rfl
      subst hv
      simp only [piecewiseFrom, List.getElem?_cons_zero, Nat.add_zero, Option.getD_some]
      rw [if_pos (ge_iff_le.2 hle)]
      cases values[k]? <;> rfl
    | succ i =>
      obtain ⟨d, hd, hlt⟩ := h2 0 (by omega)
      simp only [List.getElem?_cons_zero, Option.some.injEq] at hd
      subst hd
      simp only [piecewiseFrom]
      rw [if_neg (by linarith)]
      have hb : InBand x cs i := by
        refine ⟨by simpa using h1, fun j hj => ?_, ?_⟩
        · have := h2 (j + 1) (by omega)
          rwa [List.getElem?_cons_succ] at this
        · rw [List.getElem?_cons_succ] at h3; exact h3
      rw [ih (k + 1) i d hb]
      have e : k + 1 + i = k + (i + 1) := by omega
      rw [e, List.getElem?_cons_succ]
      cases i <;> rfl

/-- **C33 (piecewise).** With decreasing curves strictly between the minimum and the maximum and one pair of values more than curves,
the result is between the two values of the band of the level; on the curve below the band it is the lower value, and at the minimum
or below, in the lowest band, too. -/
theorem C33_piecewise_partial (x maximum minimum : ℚ) (curves : List ℚ) (values : List (ℚ × ℚ))
    (hl : values.length = curves.length + 1) (hd : (maximum :: curves ++ [minimum]).Pairwise (fun a b => b < a)) (i : Nat)
    (hb : InBand x (curves.map some) i) : ∃ v r, values[i]? = some v ∧
      piecewise (some x) (curves.map some) values maximum minimum = .ok r ∧ Between v.2 v.1 r ∧
      (curves[i]? = some x → r = v.2) ∧ (i = curves.length → x ≤ minimum → r = v.2) ∧ (i = 0 → maximum ≤ x → r = v.1) := by
  have hlen : i ≤ curves.length := by simpa using hb.1
  have hi : i < values.length := by omega
  obtain ⟨hmax, hrest⟩ := List.pairwise_cons.1 hd
  suffices h : ∃ r, piecewise (some x) (curves.map some) values maximum minimum = .ok r ∧ Between values[i].2 values[i].1 r ∧
      (curves[i]? = some x → r = values[i].2) ∧ (i = curves.length → x ≤ minimum → r = values[i].2) ∧
      (i = 0 → maximum ≤ x → r = values[i].1) by
    obtain ⟨r, h⟩ := h
    exact ⟨values[i], r, List.getElem?_eq_getElem hi, h⟩
  unfold piecewise
  simp only
  rw [piecewiseFrom_band x minimum values (curves.map some) 0 i maximum hb]
  simp only [Nat.zero_add, List.getElem?_eq_getElem hi, List.getElem?_map]
  generalize habove : curveAbove maximum (curves.map some) i = above
  have hab : ∀ j, i = j + 1 → ∃ hj : j < curves.length, above = curves[j] := by
    rintro j rfl
    have hj : j < curves.length := by omega
    refine ⟨hj, ?_⟩
    rw [← habove]
    simp [curveAbove, List.getElem?_eq_getElem hj]
  have hab0 : i = 0 → above = maximum := by rintro rfl; rw [← habove]; rfl
  by_cases hlt : i < curves.length
  · have hlow : curves[i] < above := by
      cases i with
      | zero =>
        rw [hab0 rfl]
        exact hmax _ (List.mem_append_left _ (List.getElem_mem hlt))
      | succ j =>
        obtain ⟨hj, e⟩ := hab j rfl
        rw [e]
        exact List.pairwise_iff_getElem.1 (List.pairwise_append.1 hrest).1 j (j + 1) hj hlt (by omega)
    rw [List.getElem?_eq_getElem hlt]
    refine ⟨interpolate x curves[i] above values[i].2 values[i].1, rfl, interpolate_between x hlow _ _, ?_, ?_, ?_⟩
    · intro he
      simp only [Option.some.injEq] at he
      exact interpolate_low (le_of_eq he.symm)
    · intro h; omega
    · intro h0 hx
      have := hab0 h0
      exact interpolate_high (lt_of_lt_of_le hlow (by rw [this]; exact hx)) (by rw [this]; exact hx)
  · have hlow : minimum < above := by
      cases i with
      | zero =>
        rw [hab0 rfl]
        exact hmax _ (by simp)
      | succ j =>
        obtain ⟨hj, e⟩ := hab j rfl
        rw [e]
        exact (List.pairwise_append.1 hrest).2.2 _ (List.getElem_mem hj) _ (by simp)
    rw [List.getElem?_eq_none (by omega)]
    have hlast : values.getLast? = some values[i] := by
      have : i = values.length - 1 := by omega
      subst this
      rw [List.getLast?_eq_getElem?, List.getElem?_eq_getElem hi]
    simp only [Option.map_none, hlast]
    refine ⟨interpolate x minimum above values[i].2 values[i].1, rfl, interpolate_between x hlow _ _, ?_, ?_, ?_⟩
    · intro he; cases he
    · intro _ hx; exact interpolate_low hx
    · intro h0 hx
      have := hab0 h0
      exact interpolate_high (lt_of_lt_of_le hlow (by rw [this]; exact hx)) (by rw [this]; exact hx)

/-- One curve, two bands. -/
example : [(1 : ℚ), 1 / 2, 0].Pairwise (fun a b => b < a) ∧
    piecewise (some (1 / 4)) [some (1 / 2)] [(10, 8), (6, 2)] 1 0 = .ok 4 ∧
    piecewise (some (1 / 2)) [some (1 / 2)] [(10, 8), (6, 2)] 1 0 = .ok 8 := by decide +kernel

/-- **C33, refuted.** With too few pairs of values the pair of another band is used below the curves. -/
theorem C33_piecewise_short_refuted : piecewise (some (1 / 4)) [some (1 / 2)] [(10, 8)] 1 0 = .ok 9 := by decide +kernel

/-! ## C34 -/

/-- **C34 (apportion).** The two parts sum to the value; the lower part is a share in [0, 1] of it, equal to the curve if the curve
is in [0, 1]. -/
theorem C34_apportion (x curve : ℚ) : (apportion x curve).1 + (apportion x curve).2 = x ∧
    ∃ t, 0 ≤ t ∧ t ≤ 1 ∧ (apportion x curve).2 = t * x ∧ (0 ≤ curve → curve ≤ 1 → t = curve) ∧
      (curve ≤ 0 → t = 0) ∧ (1 ≤ curve → t = 1) := by
  unfold apportion
  refine ⟨by ring, clamp01 curve, ?_, ?_, rfl, ?_, ?_, ?_⟩ <;> unfold clamp01
  · split_ifs <;> linarith
  · split_ifs <;> linarith
  · intro h1 h2; rw [if_neg (by linarith), if_neg (by linarith)]
  · intro h
    rcases lt_or_eq_of_le h with h | rfl
    · rw [if_pos h]
    · norm_num
  · intro h
    rw [if_neg (by linarith)]
    split_ifs
    · rfl
    · linarith

/-- **C34 (parts).** Of a value that is not negative, neither part is negative. -/
theorem C34_apportion_nonneg (x curve : ℚ) (hx : 0 ≤ x) : 0 ≤ (apportion x curve).1 ∧ 0 ≤ (apportion x curve).2 := by
  obtain ⟨h1, t, h0, h2, h3, _⟩ := C34_apportion x curve
  have : 0 ≤ t * x := mul_nonneg h0 hx
  have : t * x ≤ 1 * x := mul_le_mul_of_nonneg_right h2 hx
  constructor <;> linarith

/-- **C34 (volumes).** The volumes of the bands above a curve sum to the volume above it; from the bottom, to the total. -/
theorem C34_volumes (total : ℚ) (lower : Option ℚ) (curves : List ℚ) :
    ((bandsAbove lower curves).map (fun b => volumeBetween total b.1 b.2)).sum = volumeBetween total lower none ∧
    ((bandsAbove none curves).map (fun b => volumeBetween total b.1 b.2)).sum = total := by
  have h : ∀ lower, ((bandsAbove lower curves).map (fun b => volumeBetween total b.1 b.2)).sum = volumeBetween total lower none := by
    induction curves with
    | nil => intro lower; simp [bandsAbove]
    | cons c cs ih =>
      intro lower
      simp only [bandsAbove, List.map_cons, List.sum_cons, ih]
      unfold volumeBetween
      simp only [Option.getD_some, Option.getD_none]
      ring
  refine ⟨h lower, ?_⟩
  rw [h]
  unfold volumeBetween
  simp

/-- **C34 (volumes).** The volume of a band whose curves are in order is not negative and at most the total. -/
theorem C34_volume_range (total : ℚ) (ht : 0 ≤ total) (lower upper : ℚ) (h0 : 0 ≤ lower) (h1 : lower ≤ upper) (h2 : upper ≤ 1) :
    0 ≤ volumeBetween total (some lower) (some upper) ∧ volumeBetween total (some lower) (some upper) ≤ total := by
  unfold volumeBetween
  simp only [Option.getD_some]
  constructor
  · exact mul_nonneg ht (by linarith)
  · have := mul_le_mul_of_nonneg_left (by linarith : upper - lower ≤ 1) ht
    linarith

example : (bandsAbove none [1 / 4, 1 / 2]).map (fun b => volumeBetween 100 b.1 b.2) = [25, 25, 50] ∧
    apportion 10 (1 / 4) = (15 / 2, 5 / 2) ∧ apportion 10 2 = (0, 10) := by decide +kernel

/-! ## C30 -/

/-- **C30 (later steps).** The relation imposed on a later step holds exactly when the storage of the reach changes by the average
inflow less the average outflow of the two steps. -/
theorem C30_relation (init : Initial) (w k : ℚ) (hk : denominator w k ≠ 0) (previous : ℚ × ℚ) (inflow outflow : ℚ) :
    muskingumHolds false init w k previous inflow outflow ↔
      reachStorage k w (inflow, outflow) - reachStorage k w previous
        = (previous.1 + inflow) / 2 - (previous.2 + outflow) / 2 := by
  unfold muskingumHolds muskingum inflowFactor rhs reachStorage
  simp only [Bool.false_eq_true, if_false]
  generalize hD : denominator w k = D at *
  rw [show 1 * outflow + -((1 - 2 * w * k) / D) * inflow = (D * outflow - (1 - 2 * w * k) * inflow) / D by field_simp; ring,
    ← add_div, div_left_inj' hk]
  unfold denominator at hD
  subst hD
  constructor <;> intro h <;> linarith

/-- **C30 (first step, given flows).** The flows given as initial condition take the place of a previous step. -/
theorem C30_first_specified (w k i o : ℚ) (inflow outflow : ℚ) :
    muskingumHolds true (.specified i o) w k (0, 0) inflow outflow ↔ muskingumHolds false (.specified i o) w k (i, o) inflow outflow := by
  unfold muskingumHolds muskingum
  simp

/-- **C30 (first step, steady state).** The relation holds exactly when the outflow equals the inflow. -/
theorem C30_first_steady (w k : ℚ) (hk : denominator w k ≠ 0) (previous : ℚ × ℚ) (inflow outflow : ℚ) :
    muskingumHolds true .steadyState w k previous inflow outflow ↔ outflow = inflow := by
  unfold muskingumHolds muskingum steadyInflowFactor steadyOutflowFactor
  simp only [if_true]
  have e : (1 : ℚ) - (2 * k * (1 - w) - 1) / denominator w k = 2 / denominator w k := by
    field_simp
    unfold denominator
    ring
  rw [e]
  have h2 : (2 : ℚ) / denominator w k ≠ 0 := div_ne_zero (by norm_num) hk
  rw [neg_div, div_self h2]
  constructor <;> intro h <;> linarith

theorem follows_balance (init : Initial) (w k : ℚ) (hk : denominator w k ≠ 0) (fs : List (ℚ × ℚ)) : ∀ f : ℚ × ℚ,
    Routed.Follows init w k f fs →
    reachStorage k w ((f :: fs).getLast (by simp)) - reachStorage k w f
      = halfEnds f.1 (fs.map (·.1)) - halfEnds f.2 (fs.map (·.2)) := by
  induction fs with
  | nil => intro f _; simp [halfEnds]; ring
  | cons g gs ih =>
    intro f h
    obtain ⟨h1, h2⟩ := h
    rw [C30_relation init w k hk] at h1
    have := ih g h2
    unfold halfEnds at this ⊢
    simp only [List.map_cons, List.sum_cons] at this ⊢
    have e0 : (f :: g :: gs).getLast (by simp) = (g :: gs).getLast (by simp) := List.getLast_cons _
    have e1 : (f.1 :: g.1 :: gs.map (·.1)).getLast (by simp) = (g.1 :: gs.map (·.1)).getLast (by simp) := List.getLast_cons _
    have e2 : (f.2 :: g.2 :: gs.map (·.2)).getLast (by simp) = (g.2 :: gs.map (·.2)).getLast (by simp) := List.getLast_cons _
    rw [e0, e1, e2]
    linarith

/-- **C30 (run).** Over a run the storage of the reach changes by inflow less outflow, summed by the trapezium rule. -/
theorem C30_run (init : Initial) (w k : ℚ) (hk : denominator w k ≠ 0) (f : ℚ × ℚ) (fs : List (ℚ × ℚ))
    (h : Routed init w k (f :: fs)) :
    reachStorage k w ((f :: fs).getLast (by simp)) - reachStorage k w f
      = halfEnds f.1 (fs.map (·.1)) - halfEnds f.2 (fs.map (·.2)) :=
  follows_balance init w k hk fs f h.2

/-- **C30 (constant inflow).** From steady state, a constant inflow is passed on unchanged for ever. -/
theorem C30_constant (w k : ℚ) (hk : denominator w k ≠ 0) (q : ℚ) (fs : List (ℚ × ℚ)) (h : Routed .steadyState w k fs)
    (hin : ∀ f ∈ fs, f.1 = q) : ∀ f ∈ fs, f.2 = q := by
  have hfol : ∀ (fs : List (ℚ × ℚ)) (p : ℚ × ℚ), p = (q, q) → Routed.Follows .steadyState w k p fs → (∀ f ∈ fs, f.1 = q) →
      ∀ f ∈ fs, f.2 = q := by
    intro fs
    induction fs with
    | nil => intro p _ _ _ f hf; cases hf
    | cons g gs ih =>
      intro p hp hr hq
      obtain ⟨h1, h2⟩ := hr
      rw [C30_relation .steadyState w k hk] at h1
      have hg := hq g (by simp)
      have hgo : g.2 = q := by
        rw [hp, hg] at h1
        unfold reachStorage at h1
        simp only at h1
        have : (g.2 - q) * denominator w k = 0 := by unfold denominator; linarith
        rcases mul_eq_zero.1 this with h | h
        · linarith
        · exact absurd h hk
      intro f hf
      rcases List.mem_cons.1 hf with rfl | hm
      · exact hgo
      · exact ih g (Prod.ext hg hgo) h2 (fun f hf => hq f (by simp [hf])) f hm
  cases fs with
  | nil => intro f hf; cases hf
  | cons g gs =>
    obtain ⟨h1, h2⟩ := h
    rw [C30_first_steady w k hk] at h1
    have hg := hin g (by simp)
    intro f hf
    rcases List.mem_cons.1 hf with rfl | hm
    · rw [h1, hg]
    · exact hfol gs g (Prod.ext hg (by rw [h1, hg])) h2 (fun f hf => hin f (by simp [hf])) f hm

/-- A run with travel time 1 and weight 1/4 (denominator 5/2): inflow rises from 10 to 20. -/
example : denominator (1 / 4) 1 ≠ 0 ∧ Routed .steadyState (1 / 4) 1 [(10, 10), (20, 12), (20, 92 / 5)] := by
  refine ⟨by decide +kernel, ?_⟩
  unfold Routed Routed.Follows muskingumHolds
  refine ⟨by decide +kernel, by decide +kernel, ?_⟩
  unfold Routed.Follows muskingumHolds
  refine ⟨by decide +kernel, trivial⟩

end Verif.Curves
