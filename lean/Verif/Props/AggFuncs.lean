import Verif.Model.AggFuncs
import Mathlib.Tactic.Linarith
import Mathlib.Tactic.FieldSimp
import Mathlib.Tactic.Ring
import Mathlib.Algebra.BigOperators.Group.List.Basic

/-!
# C50: aggregation functions
-/

namespace Verif.Agg

open Verif.Calendar Verif.Time

/-! ## Specification -/

/-- `m` is the least of the values. -/
def IsMin (values : List ℚ) (m : ℚ) : Prop := m ∈ values ∧ ∀ v ∈ values, m ≤ v

/-- `m` is the greatest of the values. -/
def IsMax (values : List ℚ) (m : ℚ) : Prop := m ∈ values ∧ ∀ v ∈ values, v ≤ m

/-- What the functions mean for a list of values (for the mean: all weighted equally). -/
def Means (f : AggFunc) (values : List ℚ) (r : ℚ) : Prop :=
  match f with
  | .sum => r = values.sum
  | .mean => r * values.length = values.sum
  | .product => r = values.prod
  | .min => IsMin values r
  | .max => IsMax values r
  | .countNonZero => r = (values.countP (fun v => decide (v ≠ 0)) : Nat)
  | .countFunc func => r = (values.countP func : Nat)
  | .anyNonZero tolerance => (r = 1 ∧ ∃ v ∈ values, tolerance < |v|) ∨ (r = 0 ∧ ∀ v ∈ values, |v| ≤ tolerance)

/-! ## Minimum and maximum -/

theorem foldl_min_le (vs : List ℚ) : ∀ v, vs.foldl (fun m x => if x < m then x else m) v ≤ v ∧
    (∀ x ∈ vs, vs.foldl (fun m x => if x < m then x else m) v ≤ x) ∧ vs.foldl (fun m x => if x < m then x else m) v ∈ v :: vs := by
  induction vs with
  | nil => intro v; simp
  | cons a t ih =>
    intro v
    simp only [List.foldl_cons]
    by_cases h : a < v
    · rw [if_pos h]
      obtain ⟨h1, h2, h3⟩ := ih a
      refine ⟨by linarith, fun x hx => ?_, List.mem_cons_of_mem _ h3⟩
      rcases List.mem_cons.mp hx with hx | hx
      · rw [hx]; exact h1
      · exact h2 x hx
    · rw [if_neg h]
      obtain ⟨h1, h2, h3⟩ := ih v
      refine ⟨h1, fun x hx => ?_, ?_⟩
      · rcases List.mem_cons.mp hx with hx | hx
        · rw [hx]; linarith [not_lt.mp h]
        · exact h2 x hx
      · rcases List.mem_cons.mp h3 with h3 | h3
        · rw [h3]; exact List.mem_cons_self
        · exact List.mem_cons_of_mem _ (List.mem_cons_of_mem _ h3)

theorem foldl_max_ge (vs : List ℚ) : ∀ v, v ≤ vs.foldl (fun m x => if x < m then m else x) v ∧
    (∀ x ∈ vs, x ≤ vs.foldl (fun m x => if x < m then m else x) v) ∧ vs.foldl (fun m x => if x < m then m else x) v ∈ v :: vs := by
  induction vs with
  | nil => intro v; simp
  | cons a t ih =>
    intro v
    simp only [List.foldl_cons]
    by_cases h : a < v
    · rw [if_pos h]
      obtain ⟨h1, h2, h3⟩ := ih v
      refine ⟨h1, fun x hx => ?_, ?_⟩
      · rcases List.mem_cons.mp hx with hx | hx
        · rw [hx]; linarith
        · exact h2 x hx
      · rcases List.mem_cons.mp h3 with h3 | h3
        · rw [h3]; exact List.mem_cons_self
        · exact List.mem_cons_of_mem _ (List.mem_cons_of_mem _ h3)
    · rw [if_neg h]
      obtain ⟨h1, h2, h3⟩ := ih a
      refine ⟨by linarith [not_lt.mp h], fun x hx => ?_, List.mem_cons_of_mem _ h3⟩
      rcases List.mem_cons.mp hx with hx | hx
      · rw [hx]; exact h1
      · exact h2 x hx

theorem minBy_spec {values : List ℚ} {m : ℚ} (h : minBy values = some m) : IsMin values m := by
  cases values with
  | nil => cases h
  | cons v vs =>
    simp only [minBy, Option.some.injEq] at h
    obtain ⟨h1, h2, h3⟩ := foldl_min_le vs v
    rw [h] at h1 h2 h3
    refine ⟨h3, fun x hx => ?_⟩
    rcases List.mem_cons.mp hx with hx | hx
    · rw [hx]; exact h1
    · exact h2 x hx

theorem maxBy_spec {values : List ℚ} {m : ℚ} (h : maxBy values = some m) : IsMax values m := by
  cases values with
  | nil => cases h
  | cons v vs =>
    simp only [maxBy, Option.some.injEq] at h
    obtain ⟨h1, h2, h3⟩ := foldl_max_ge vs v
    rw [h] at h1 h2 h3
    refine ⟨h3, fun x hx => ?_⟩
    rcases List.mem_cons.mp hx with hx | hx
    · rw [hx]; exact h1
    · exact h2 x hx

theorem IsMin.unique {values : List ℚ} {a b : ℚ} (ha : IsMin values a) (hb : IsMin values b) : a = b :=
  le_antisymm (ha.2 b hb.1) (hb.2 a ha.1)

theorem IsMax.unique {values : List ℚ} {a b : ℚ} (ha : IsMax values a) (hb : IsMax values b) : a = b :=
  le_antisymm (hb.2 a ha.1) (ha.2 b hb.1)

theorem foldMax_spec (vs : List ℚ) : ∀ a : ℚ, a ≤ vs.foldl (fun t v => max t v) a ∧ (∀ x ∈ vs, x ≤ vs.foldl (fun t v => max t v) a) ∧
    (vs.foldl (fun t v => max t v) a = a ∨ vs.foldl (fun t v => max t v) a ∈ vs) := by
  induction vs with
  | nil => intro a; simp
  | cons b t ih =>
    intro a
    simp only [List.foldl_cons]
    obtain ⟨h1, h2, h3⟩ := ih (max a b)
    refine ⟨le_trans (le_max_left _ _) h1, fun x hx => ?_, ?_⟩
    · rcases List.mem_cons.mp hx with hx | hx
      · rw [hx]; exact le_trans (le_max_right _ _) h1
      · exact h2 x hx
    · rcases h3 with h3 | h3
      · rcases max_choice a b with h | h
        · left; rw [h3, h]
        · right; rw [h3, h]; exact List.mem_cons_self
      · right; exact List.mem_cons_of_mem _ h3

theorem foldMin_spec (vs : List ℚ) : ∀ a : ℚ, vs.foldl (fun t v => min t v) a ≤ a ∧ (∀ x ∈ vs, vs.foldl (fun t v => min t v) a ≤ x) ∧
    (vs.foldl (fun t v => min t v) a = a ∨ vs.foldl (fun t v => min t v) a ∈ vs) := by
  induction vs with
  | nil => intro a; simp
  | cons b t ih =>
    intro a
    simp only [List.foldl_cons]
    obtain ⟨h1, h2, h3⟩ := ih (min a b)
    refine ⟨le_trans h1 (min_le_left _ _), fun x hx => ?_, ?_⟩
    · rcases List.mem_cons.mp hx with hx | hx
      · rw [hx]; exact le_trans h1 (min_le_right _ _)
      · exact h2 x hx
    · rcases h3 with h3 | h3
      · rcases min_choice a b with h | h
        · left; rw [h3, h]
        · right; rw [h3, h]; exact List.mem_cons_self
      · right; exact List.mem_cons_of_mem _ h3

theorem calcIter_max {fmax : ℚ} {values : List ℚ} (hne : values ≠ []) (hb : ∀ v ∈ values, |v| ≤ fmax) :
    IsMax values (calcIter fmax .max values) := by
  obtain ⟨h1, h2, h3⟩ := foldMax_spec values (-fmax)
  refine ⟨?_, h2⟩
  rcases h3 with h3 | h3
  · cases values with
    | nil => exact absurd rfl hne
    | cons v t =>
      have h4 := h2 v List.mem_cons_self
      have h5 := (abs_le.mp (hb v List.mem_cons_self)).1
      have : calcIter fmax .max (v :: t) = v := by
        show List.foldl (fun total v => max total v) (-fmax) (v :: t) = v
        rw [h3] at h4 ⊢
        linarith
      rw [this]
      exact List.mem_cons_self
  · exact h3

theorem calcIter_min {fmax : ℚ} {values : List ℚ} (hne : values ≠ []) (hb : ∀ v ∈ values, |v| ≤ fmax) :
    IsMin values (calcIter fmax .min values) := by
  obtain ⟨h1, h2, h3⟩ := foldMin_spec values fmax
  refine ⟨?_, h2⟩
  rcases h3 with h3 | h3
  · cases values with
    | nil => exact absurd rfl hne
    | cons v t =>
      have h4 := h2 v List.mem_cons_self
      have h5 := (abs_le.mp (hb v List.mem_cons_self)).2
      have : calcIter fmax .min (v :: t) = v := by
        show List.foldl (fun total v => min total v) fmax (v :: t) = v
        rw [h3] at h4 ⊢
        linarith
      rw [this]
      exact List.mem_cons_self
  · exact h3

/-! ## What each function computes -/

theorem any_spec (tolerance : ℚ) (values : List ℚ) :
    (asNumber (values.any (fun v => decide (tolerance < |v|))) = 1 ∧ ∃ v ∈ values, tolerance < |v|) ∨
      (asNumber (values.any (fun v => decide (tolerance < |v|))) = 0 ∧ ∀ v ∈ values, |v| ≤ tolerance) := by
  by_cases h : ∃ v ∈ values, tolerance < |v|
  · left
    refine ⟨?_, h⟩
    obtain ⟨v, hv, h⟩ := h
    have : values.any (fun v => decide (tolerance < |v|)) = true := List.any_eq_true.mpr ⟨v, hv, by simpa using h⟩
    rw [this]; rfl
  · right
    refine ⟨?_, fun v hv => not_lt.mp fun hlt => h ⟨v, hv, hlt⟩⟩
    have : values.any (fun v => decide (tolerance < |v|)) = false := by
      rw [List.any_eq_false]
      intro v hv
      simpa using fun hlt => h ⟨v, hv, hlt⟩
    rw [this]; rfl

/-- **C50** Aggregating a non-empty list of finite values computes what the name of the function says. -/
theorem C50_values (fmax : ℚ) (f : AggFunc) (values : List ℚ) (hne : values ≠ []) (hb : ∀ v ∈ values, |v| ≤ fmax) :
    Means f values (calcIter fmax f values) := by
  have hl : values.length ≠ 0 := by intro h; exact hne (List.length_eq_zero_iff.mp h)
  cases f with
  | sum => rfl
  | mean =>
    show (if values.length = 0 then 0 else values.sum / values.length) * (values.length : ℚ) = values.sum
    rw [if_neg hl]
    have : (values.length : ℚ) ≠ 0 := by exact_mod_cast hl
    field_simp
  | product => rfl
  | min => exact calcIter_min hne hb
  | max => exact calcIter_max hne hb
  | countNonZero =>
    show ((values.filter (fun v => v != 0)).length : ℚ) = (values.countP (fun v => decide (v ≠ 0)) : Nat)
    rw [List.countP_eq_length_filter]
    congr 3
    funext v
    by_cases h : v = 0 <;> simp [h]
  | countFunc func =>
    show ((values.filter func).length : ℚ) = (values.countP func : Nat)
    rw [List.countP_eq_length_filter]
  | anyNonZero tolerance => exact any_spec tolerance values

example : Means .max [3, -7, 5] (calcIter 100 .max [3, -7, 5]) ∧ calcIter 100 .max [3, -7, 5] = 5 ∧
    calcIter 100 .min [3, -7, 5] = -7 ∧ calcIter 100 .mean [3, -7, 5] = 1 / 3 :=
  ⟨C50_values 100 .max [3, -7, 5] (by decide) (by decide +kernel), by decide +kernel, by decide +kernel, by decide +kernel⟩

theorem Means.unique {f : AggFunc} {values : List ℚ} {a b : ℚ} (hne : values ≠ []) (ha : Means f values a) (hb : Means f values b) :
    a = b := by
  cases f with
  | sum => exact ha.trans hb.symm
  | mean =>
    have hl : (values.length : ℚ) ≠ 0 := by
      intro h; exact hne (List.length_eq_zero_iff.mp (by exact_mod_cast h))
    exact mul_right_cancel₀ hl (ha.trans hb.symm)
  | product => exact ha.trans hb.symm
  | min => exact IsMin.unique ha hb
  | max => exact IsMax.unique ha hb
  | countNonZero => exact ha.trans hb.symm
  | countFunc func => exact ha.trans hb.symm
  | anyNonZero tolerance =>
    rcases ha with ⟨h1, v, hv, hlt⟩ | ⟨h1, h2⟩ <;> rcases hb with ⟨h3, w, hw, hlt'⟩ | ⟨h3, h4⟩
    · rw [h1, h3]
    · exact absurd (h4 v hv) (not_le.mpr hlt)
    · exact absurd (h2 w hw) (not_le.mpr hlt')
    · rw [h1, h3]

theorem Means.perm {f : AggFunc} {values other : List ℚ} {a : ℚ} (h : values.Perm other) (ha : Means f values a) :
    Means f other a := by
  cases f with
  | sum => exact Eq.trans ha h.sum_eq
  | mean =>
    show a * (other.length : ℚ) = other.sum
    rw [← h.length_eq, ← h.sum_eq]; exact ha
  | product => exact Eq.trans ha h.prod_eq
  | min => exact ⟨h.mem_iff.mp ha.1, fun v hv => ha.2 v (h.mem_iff.mpr hv)⟩
  | max => exact ⟨h.mem_iff.mp ha.1, fun v hv => ha.2 v (h.mem_iff.mpr hv)⟩
  | countNonZero => exact Eq.trans ha (by rw [h.countP_eq])
  | countFunc func => exact Eq.trans ha (by rw [h.countP_eq])
  | anyNonZero tolerance =>
    rcases ha with ⟨h1, v, hv, hlt⟩ | ⟨h1, h2⟩
    · exact Or.inl ⟨h1, v, h.mem_iff.mp hv, hlt⟩
    · exact Or.inr ⟨h1, fun v hv => h2 v (h.mem_iff.mpr hv)⟩

/-- **C50** The order of the values does not matter. -/
theorem C50_order (fmax : ℚ) (f : AggFunc) (values other : List ℚ) (h : values.Perm other) (hb : ∀ v ∈ values, |v| ≤ fmax) :
    calcIter fmax f values = calcIter fmax f other := by
  by_cases hne : values = []
  · subst hne
    rw [List.Perm.nil_eq h]
  · have hne' : other ≠ [] := by
      intro h'; subst h'; exact hne (List.Perm.eq_nil h)
    exact Means.unique hne' ((C50_values fmax f values hne hb).perm h)
      (C50_values fmax f other hne' (fun v hv => hb v (h.mem_iff.mpr hv)))

example : [3, -7, 5].Perm [(5 : ℚ), 3, -7] := by decide

theorem sum_between (values : List ℚ) (lo hi : ℚ) (hlo : ∀ v ∈ values, lo ≤ v) (hhi : ∀ v ∈ values, v ≤ hi) :
    lo * values.length ≤ values.sum ∧ values.sum ≤ hi * values.length := by
  induction values with
  | nil => simp
  | cons v t ih =>
    obtain ⟨h1, h2⟩ := ih (fun x hx => hlo x (List.mem_cons_of_mem _ hx)) (fun x hx => hhi x (List.mem_cons_of_mem _ hx))
    have h3 := hlo v List.mem_cons_self
    have h4 := hhi v List.mem_cons_self
    rw [List.sum_cons, List.length_cons]
    push_cast
    constructor <;> linarith

/-- **C50** The mean lies between the least and the greatest value. -/
theorem C50_mean_between (fmax : ℚ) (values : List ℚ) (hne : values ≠ []) (lo hi : ℚ) (hlo : IsMin values lo) (hhi : IsMax values hi) :
    lo ≤ calcIter fmax .mean values ∧ calcIter fmax .mean values ≤ hi := by
  have hl : values.length ≠ 0 := by intro h; exact hne (List.length_eq_zero_iff.mp h)
  have hp : (0 : ℚ) < values.length := by exact_mod_cast Nat.pos_of_ne_zero hl
  obtain ⟨h1, h2⟩ := sum_between values lo hi hlo.2 hhi.2
  show lo ≤ (if values.length = 0 then 0 else values.sum / values.length) ∧ (if values.length = 0 then 0 else values.sum / values.length) ≤ hi
  rw [if_neg hl]
  exact ⟨(le_div_iff₀ hp).mpr h1, (div_le_iff₀ hp).mpr h2⟩

/-! ## Values with durations -/

theorem fractionalDays_pos {d : Int} (h : 0 < d) : 0 < fractionalDays d := by
  unfold fractionalDays
  have : (0 : ℚ) < d := by exact_mod_cast h
  exact div_pos (div_pos this (by norm_num)) (by norm_num)

/-- Number of days in a list of periods. -/
def totalDays (values : List PeriodValue) : ℚ := (values.map (fun v => fractionalDays v.duration)).sum

theorem totalDays_nonneg (values : List PeriodValue) (h : ∀ v ∈ values, 0 < v.duration) : 0 ≤ totalDays values := by
  induction values with
  | nil => exact le_refl _
  | cons v t ih =>
    have h1 := ih (fun x hx => h x (List.mem_cons_of_mem _ hx))
    have h2 := fractionalDays_pos (h v List.mem_cons_self)
    unfold totalDays at h1 ⊢
    rw [List.map_cons, List.sum_cons]
    linarith

theorem totalDays_pos (values : List PeriodValue) (hne : values ≠ []) (h : ∀ v ∈ values, 0 < v.duration) : 0 < totalDays values := by
  cases values with
  | nil => exact absurd rfl hne
  | cons v t =>
    have h1 := totalDays_nonneg t (fun x hx => h x (List.mem_cons_of_mem _ hx))
    have h2 := fractionalDays_pos (h v List.mem_cons_self)
    unfold totalDays at h1 ⊢
    rw [List.map_cons, List.sum_cons]
    linarith

theorem calcPeriod_mean (values : List PeriodValue) (hne : values ≠ []) (h : ∀ v ∈ values, 0 < v.duration) :
    calcPeriod .mean values = some ((values.map (fun v => v.value * fractionalDays v.duration)).sum / totalDays values) := by
  have := totalDays_pos values hne h
  show (if totalDays values = 0 then none else some ((values.map (fun v => v.value * fractionalDays v.duration)).sum / totalDays values)) = _
  rw [if_neg (ne_of_gt this)]

/-- **C50** Over periods of time, every function but the mean computes what it computes for the plain values; the mean
is the one weighted by the durations. -/
theorem C50_periods (f : AggFunc) (values : List PeriodValue) (hne : values ≠ []) (hd : ∀ v ∈ values, 0 < v.duration) :
    ∃ r, calcPeriod f values = some r ∧
      match f with
      | .mean => r * totalDays values = (values.map (fun v => v.value * fractionalDays v.duration)).sum
      | g => Means g (values.map (·.value)) r := by
  cases f with
  | sum => exact ⟨_, rfl, rfl⟩
  | mean =>
    refine ⟨_, calcPeriod_mean values hne hd, ?_⟩
    have := totalDays_pos values hne hd
    field_simp
  | product => exact ⟨_, rfl, rfl⟩
  | min =>
    have : ∃ m, minBy (values.map (·.value)) = some m := by
      cases values with
      | nil => exact absurd rfl hne
      | cons v t => exact ⟨_, rfl⟩
    obtain ⟨m, hm⟩ := this
    exact ⟨m, hm, minBy_spec hm⟩
  | max =>
    have : ∃ m, maxBy (values.map (·.value)) = some m := by
      cases values with
      | nil => exact absurd rfl hne
      | cons v t => exact ⟨_, rfl⟩
    obtain ⟨m, hm⟩ := this
    exact ⟨m, hm, maxBy_spec hm⟩
  | countNonZero =>
    refine ⟨_, rfl, ?_⟩
    show ((values.filter (fun v => v.value != 0)).length : ℚ) = ((values.map (·.value)).countP (fun v => decide (v ≠ 0)) : Nat)
    rw [List.countP_map, List.countP_eq_length_filter]
    congr 3
    funext v
    by_cases h : v.value = 0 <;> simp [h]
  | countFunc func =>
    refine ⟨_, rfl, ?_⟩
    show ((values.filter (fun v => func v.value)).length : ℚ) = ((values.map (·.value)).countP func : Nat)
    rw [List.countP_map, List.countP_eq_length_filter]
    rfl
  | anyNonZero tolerance =>
    refine ⟨_, rfl, ?_⟩
    have := any_spec tolerance (values.map (·.value))
    rw [List.any_map] at this
    exact this

theorem weighted_between (values : List PeriodValue) (hd : ∀ v ∈ values, 0 < v.duration) (lo hi : ℚ)
    (hlo : ∀ v ∈ values, lo ≤ v.value) (hhi : ∀ v ∈ values, v.value ≤ hi) :
    lo * totalDays values ≤ (values.map (fun v => v.value * fractionalDays v.duration)).sum ∧
      (values.map (fun v => v.value * fractionalDays v.duration)).sum ≤ hi * totalDays values := by
  induction values with
  | nil => simp [totalDays]
  | cons v t ih =>
    obtain ⟨h1, h2⟩ := ih (fun x hx => hd x (List.mem_cons_of_mem _ hx)) (fun x hx => hlo x (List.mem_cons_of_mem _ hx))
      (fun x hx => hhi x (List.mem_cons_of_mem _ hx))
    have h3 := mul_le_mul_of_nonneg_right (hlo v List.mem_cons_self) (le_of_lt (fractionalDays_pos (hd v List.mem_cons_self)))
    have h4 := mul_le_mul_of_nonneg_right (hhi v List.mem_cons_self) (le_of_lt (fractionalDays_pos (hd v List.mem_cons_self)))
    have e : totalDays (v :: t) = fractionalDays v.duration + totalDays t := by
      unfold totalDays; rw [List.map_cons, List.sum_cons]
    rw [List.map_cons, List.sum_cons, e]
    constructor <;> nlinarith

/-- **C50** The mean weighted by the durations lies between the least and the greatest value. -/
theorem C50_weighted_between (values : List PeriodValue) (hne : values ≠ []) (hd : ∀ v ∈ values, 0 < v.duration) (lo hi : ℚ)
    (hlo : IsMin (values.map (·.value)) lo) (hhi : IsMax (values.map (·.value)) hi) :
    ∃ r, calcPeriod .mean values = some r ∧ lo ≤ r ∧ r ≤ hi := by
  refine ⟨_, calcPeriod_mean values hne hd, ?_⟩
  have hp := totalDays_pos values hne hd
  obtain ⟨h1, h2⟩ := weighted_between values hd lo hi (fun v hv => hlo.2 _ (List.mem_map_of_mem hv))
    (fun v hv => hhi.2 _ (List.mem_map_of_mem hv))
  exact ⟨(le_div_iff₀ hp).mpr h1, (div_le_iff₀ hp).mpr h2⟩

theorem equal_sums (values : List PeriodValue) (d : Int) (h : ∀ v ∈ values, v.duration = d) :
    totalDays values = fractionalDays d * values.length ∧
      (values.map (fun v => v.value * fractionalDays v.duration)).sum = fractionalDays d * (values.map (·.value)).sum := by
  induction values with
  | nil => simp [totalDays]
  | cons v t ih =>
    obtain ⟨h1, h2⟩ := ih (fun x hx => h x (List.mem_cons_of_mem _ hx))
    have e : totalDays (v :: t) = fractionalDays v.duration + totalDays t := by
      unfold totalDays; rw [List.map_cons, List.sum_cons]
    rw [e, h1, List.map_cons, List.sum_cons, h2, List.map_cons, List.sum_cons, h v List.mem_cons_self, List.length_cons]
    push_cast
    constructor <;> ring

/-- **C50** With equal durations the weighted mean is the plain mean. -/
theorem C50_equal_durations (fmax : ℚ) (values : List PeriodValue) (hne : values ≠ []) (d : Int) (hd : 0 < d)
    (h : ∀ v ∈ values, v.duration = d) : calcPeriod .mean values = some (calcIter fmax .mean (values.map (·.value))) := by
  rw [calcPeriod_mean values hne (fun v hv => by rw [h v hv]; exact hd)]
  obtain ⟨h1, h2⟩ := equal_sums values d h
  have hl : values.length ≠ 0 := by intro h; exact hne (List.length_eq_zero_iff.mp h)
  have hp := fractionalDays_pos hd
  have hlq : (values.length : ℚ) ≠ 0 := by exact_mod_cast hl
  show some _ = some (if (values.map (·.value)).length = 0 then 0 else (values.map (·.value)).sum / (values.map (·.value)).length)
  rw [List.length_map, if_neg hl, h1, h2]
  congr 1
  field_simp

/-- **C50** The order of the periods does not matter. -/
theorem C50_period_order (f : AggFunc) (values other : List PeriodValue) (h : values.Perm other)
    (hd : ∀ v ∈ values, 0 < v.duration) : calcPeriod f values = calcPeriod f other := by
  by_cases hne : values = []
  · subst hne
    rw [List.Perm.nil_eq h]
  · have hne' : other ≠ [] := by
      intro h'; subst h'; exact hne (List.Perm.eq_nil h)
    have hd' : ∀ v ∈ other, 0 < v.duration := fun v hv => hd v (h.mem_iff.mpr hv)
    obtain ⟨a, ha, ha'⟩ := C50_periods f values hne hd
    obtain ⟨b, hb, hb'⟩ := C50_periods f other hne' hd'
    rw [ha, hb]
    congr 1
    have hn : other.map (·.value) ≠ [] := by
      intro h'; exact hne' (List.map_eq_nil_iff.mp h')
    have hm := h.map (·.value)
    cases f with
    | mean =>
      simp only at ha' hb'
      have ht : totalDays values = totalDays other := (h.map (fun v : PeriodValue => fractionalDays v.duration)).sum_eq
      have hs := (h.map (fun v : PeriodValue => v.value * fractionalDays v.duration)).sum_eq
      have := totalDays_pos other hne' hd'
      rw [ht, hs, ← hb'] at ha'
      exact mul_right_cancel₀ (ne_of_gt this) ha'
    | sum => exact Means.unique hn (Means.perm hm ha') hb'
    | product => exact Means.unique hn (Means.perm hm ha') hb'
    | min => exact Means.unique hn (Means.perm hm ha') hb'
    | max => exact Means.unique hn (Means.perm hm ha') hb'
    | countNonZero => exact Means.unique hn (Means.perm hm ha') hb'
    | countFunc func => exact Means.unique hn (Means.perm hm ha') hb'
    | anyNonZero tolerance => exact Means.unique hn (Means.perm hm ha') hb'

/-- Three values over one, two and one days. -/
def sampleValues : List PeriodValue :=
  [⟨⟨⟨2023, 1, 1⟩, 0⟩, nsPerDay, 2⟩, ⟨⟨⟨2023, 1, 2⟩, 0⟩, 2 * nsPerDay, 1⟩, ⟨⟨⟨2023, 1, 4⟩, 0⟩, nsPerDay, 3⟩]

example : sampleValues ≠ [] ∧ (∀ v ∈ sampleValues, 0 < v.duration) ∧ calcPeriod .mean sampleValues = some (7 / 4) ∧
    calcPeriod .sum sampleValues = some 6 ∧ calcPeriod .min sampleValues = some 1 := by decide +kernel

/-! ## Integers -/

theorem foldl_sum_u64 (values : List Nat) : ∀ a, a ≤ u64Max →
    values.foldl (fun t v => t.bind fun t => if t + v ≤ u64Max then some (t + v) else none) (some a) =
      if a + values.sum ≤ u64Max then some (a + values.sum) else none := by
  have hnone : ∀ l : List Nat, l.foldl (fun (t : Option Nat) v => t.bind fun t => if t + v ≤ u64Max then some (t + v) else none) none = none := by
    intro l
    induction l with
    | nil => rfl
    | cons v t ih => simpa using ih
  induction values with
  | nil => intro a h; simp [h]
  | cons v t ih =>
    intro a h
    rw [List.foldl_cons, List.sum_cons]
    simp only [Option.bind_some]
    by_cases hv : a + v ≤ u64Max
    · rw [if_pos hv, ih (a + v) hv, Nat.add_assoc]
    · rw [if_neg hv, hnone, if_neg (by omega)]

theorem foldl_product_u64 (values : List Nat) (hnz : ∀ v ∈ values, v ≠ 0) : ∀ a, a ≤ u64Max →
    values.foldl (fun t v => t.bind fun t => if t * v ≤ u64Max then some (t * v) else none) (some a) =
      if a * values.prod ≤ u64Max then some (a * values.prod) else none := by
  have hnone : ∀ l : List Nat, l.foldl (fun (t : Option Nat) v => t.bind fun t => if t * v ≤ u64Max then some (t * v) else none) none = none := by
    intro l
    induction l with
    | nil => rfl
    | cons v t ih => simpa using ih
  induction values with
  | nil => intro a h; simp [h]
  | cons v t ih =>
    intro a h
    rw [List.foldl_cons, List.prod_cons]
    simp only [Option.bind_some]
    by_cases hv : a * v ≤ u64Max
    · rw [if_pos hv, ih (fun x hx => hnz x (List.mem_cons_of_mem _ hx)) (a * v) hv, Nat.mul_assoc]
    · rw [if_neg hv, hnone, if_neg]
      have hp : 0 < t.prod := by
        have : ∀ l : List Nat, (∀ v ∈ l, v ≠ 0) → 0 < l.prod := by
          intro l
          induction l with
          | nil => intro _; decide
          | cons a l ih' =>
            intro hl
            rw [List.prod_cons]
            exact Nat.mul_pos (Nat.pos_of_ne_zero (hl a List.mem_cons_self)) (ih' fun x hx => hl x (List.mem_cons_of_mem _ hx))
        exact this t fun x hx => hnz x (List.mem_cons_of_mem _ hx)
      have : a * v * 1 ≤ a * v * t.prod := Nat.mul_le_mul_left _ hp
      rw [← Nat.mul_assoc]
      omega

theorem foldl_natMax (vs : List Nat) : ∀ a : Nat, vs.foldl max a ∈ a :: vs ∧ ∀ x ∈ a :: vs, x ≤ vs.foldl max a := by
  induction vs with
  | nil => intro a; simp
  | cons b t ih =>
    intro a
    rw [List.foldl_cons]
    obtain ⟨h1, h2⟩ := ih (max a b)
    have h3 := h2 (max a b) List.mem_cons_self
    constructor
    · rcases List.mem_cons.mp h1 with h | h
      · rw [h]
        rcases Nat.le_total a b with hab | hab
        · rw [Nat.max_eq_right hab]; simp
        · rw [Nat.max_eq_left hab]; simp
      · exact List.mem_cons_of_mem _ (List.mem_cons_of_mem _ h)
    · intro x hx
      simp only [List.mem_cons] at hx
      rcases hx with hx | hx | hx
      · rw [hx]; exact le_trans (Nat.le_max_left _ _) h3
      · rw [hx]; exact le_trans (Nat.le_max_right _ _) h3
      · exact h2 x (List.mem_cons_of_mem _ hx)

theorem foldl_natMin (vs : List Nat) : ∀ a : Nat, vs.foldl min a ∈ a :: vs ∧ ∀ x ∈ a :: vs, vs.foldl min a ≤ x := by
  induction vs with
  | nil => intro a; simp
  | cons b t ih =>
    intro a
    rw [List.foldl_cons]
    obtain ⟨h1, h2⟩ := ih (min a b)
    have h3 := h2 (min a b) List.mem_cons_self
    constructor
    · rcases List.mem_cons.mp h1 with h | h
      · rw [h]
        rcases Nat.le_total a b with hab | hab
        · rw [Nat.min_eq_left hab]; simp
        · rw [Nat.min_eq_right hab]; simp
      · exact List.mem_cons_of_mem _ (List.mem_cons_of_mem _ h)
    · intro x hx
      simp only [List.mem_cons] at hx
      rcases hx with hx | hx | hx
      · rw [hx]; exact le_trans h3 (Nat.min_le_left _ _)
      · rw [hx]; exact le_trans h3 (Nat.min_le_right _ _)
      · exact h2 x (List.mem_cons_of_mem _ hx)

/-- What the integer functions mean for a list of values. -/
def MeansU64 (f : AggFuncU64) (values : List Nat) (r : Nat) : Prop :=
  match f with
  | .sum => r = values.sum
  | .product => r = values.prod
  | .min => r ∈ values ∧ ∀ v ∈ values, r ≤ v
  | .max => r ∈ values ∧ ∀ v ∈ values, v ≤ r
  | .any => (r = 1 ∧ ∃ v ∈ values, v ≠ 0) ∨ (r = 0 ∧ ∀ v ∈ values, v = 0)
  | .all => (r = 1 ∧ ∀ v ∈ values, v ≠ 0) ∨ (r = 0 ∧ ∃ v ∈ values, v = 0)

/-- **C50** The integer functions compute what their names say, as long as nothing overflows. For a product no value
may be zero: see `C50_product_overflow_refuted`. -/
theorem C50_integers (f : AggFuncU64) (values : List Nat) (hne : values ≠ [])
    (hsum : f = .sum → values.sum ≤ u64Max) (hprod : f = .product → values.prod ≤ u64Max ∧ ∀ v ∈ values, v ≠ 0) :
    ∃ r, calcIterU64 f values = some r ∧ MeansU64 f values r := by
  cases f with
  | sum =>
    refine ⟨values.sum, ?_, rfl⟩
    have := foldl_sum_u64 values 0 (by decide)
    rw [Nat.zero_add, if_pos (hsum rfl)] at this
    exact this
  | product =>
    refine ⟨values.prod, ?_, rfl⟩
    have := foldl_product_u64 values (hprod rfl).2 1 (by decide)
    rw [Nat.one_mul, if_pos (hprod rfl).1] at this
    exact this
  | min =>
    cases values with
    | nil => exact absurd rfl hne
    | cons v t => exact ⟨_, rfl, foldl_natMin t v⟩
  | max =>
    cases values with
    | nil => exact absurd rfl hne
    | cons v t => exact ⟨_, rfl, foldl_natMax t v⟩
  | any =>
    refine ⟨_, rfl, ?_⟩
    show ((if values.any (· != 0) then 1 else 0) = 1 ∧ _) ∨ ((if values.any (· != 0) then 1 else 0) = 0 ∧ _)
    by_cases h : values.any (· != 0) = true
    · left
      rw [if_pos h]
      obtain ⟨v, hv, h⟩ := List.any_eq_true.mp h
      exact ⟨rfl, v, hv, by simpa using h⟩
    · right
      rw [if_neg h]
      refine ⟨rfl, fun v hv => ?_⟩
      by_contra hc
      exact h (List.any_eq_true.mpr ⟨v, hv, by simpa using hc⟩)
  | all =>
    refine ⟨_, rfl, ?_⟩
    show ((if values.all (· != 0) then 1 else 0) = 1 ∧ _) ∨ ((if values.all (· != 0) then 1 else 0) = 0 ∧ _)
    by_cases h : values.all (· != 0) = true
    · left
      rw [if_pos h]
      exact ⟨rfl, fun v hv => by simpa using List.all_eq_true.mp h v hv⟩
    · right
      rw [if_neg h]
      refine ⟨rfl, ?_⟩
      by_contra hc
      exact h (List.all_eq_true.mpr fun v hv => by simpa using fun h0 => hc ⟨v, hv, h0⟩)

example : calcIterU64 .product [3, 4, 5] = some 60 ∧ calcIterU64 .max [3, 9, 5] = some 9 ∧ calcIterU64 .all [3, 0] = some 0 := by decide

/-- **C50** A sum overflows exactly when the total does not fit, whatever the order of the values. -/
theorem C50_sum_overflow (values : List Nat) : calcIterU64 .sum values = none ↔ u64Max < values.sum := by
  have := foldl_sum_u64 values 0 (by decide)
  rw [Nat.zero_add] at this
  show (values.foldl _ (some 0)) = none ↔ _
  rw [this]
  by_cases h : values.sum ≤ u64Max
  · rw [if_pos h]
    exact ⟨fun hc => (by cases hc), fun hc => absurd h (by omega)⟩
  · rw [if_neg h]
    exact ⟨fun _ => (by omega), fun _ => rfl⟩

/-- **C50** Whether a product overflows does depend on the order of the values: with a zero at the end the intermediate
product may overflow (a panic in a build with overflow checks) although the product is zero. -/
theorem C50_product_overflow_refuted :
    [9223372036854775808, 4, 0].Perm [0, 9223372036854775808, 4] ∧ calcIterU64 .product [9223372036854775808, 4, 0] = none ∧
      calcIterU64 .product [0, 9223372036854775808, 4] = some 0 := by decide

end Verif.Agg
