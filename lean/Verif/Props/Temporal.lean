import Mathlib.Tactic.Linarith
import Verif.Model.Temporal

/-!
# Properties of parameters with memory (C25, C26, C28, C29)
-/

namespace Verif.Temporal

/-! ## C25 Delay -/

/-- Value a delay of `d` must show at time `t`: the initial value, then the source `d` steps earlier. -/
def delaySpec {α : Type} (d : Nat) (initial : α) (src : Nat → α) (t : Nat) : α :=
  if t < d then initial else src (t - d)

theorem delayGeneral_aux {α : Type} (xs : List α) : ∀ (q : List α), q ≠ [] →
    runSteps delayGeneralStep q xs = .ok ((q ++ xs).take xs.length, (q ++ xs).drop xs.length) := by
  induction xs with
  | nil => intro q _; simp [runSteps]
  | cons x xs ih =>
    intro q hq
    cases q with
    | nil => exact absurd rfl hq
    | cons v rest =>
      have := ih (rest ++ [x]) (by simp)
      simp [runSteps, delayGeneralStep, delayBefore, delayAfter, this, List.append_assoc]

theorem delaySimple_aux {α : Type} (xs : List α) : ∀ (q : List α),
    runSteps delaySimpleStep q xs = .ok ((q ++ xs).take xs.length, (q ++ xs).drop xs.length) := by
  induction xs with
  | nil => intro q; simp [runSteps]
  | cons x xs ih =>
    intro q
    cases q with
    | nil =>
      have := ih []
      simp [runSteps, delaySimpleStep, delayBefore, this]
    | cons v rest =>
      have := ih (rest ++ [x])
      simp [runSteps, delaySimpleStep, delayBefore, this, List.append_assoc]

theorem delay_take_spec {α : Type} (d : Nat) (initial : α) (src : Nat → α) (n : Nat) :
    (delaySetup d initial ++ (List.range n).map src).take n
      = (List.range n).map (delaySpec d initial src) := by
  apply List.ext_getElem
  · simp [delaySetup]
  · intro i h1 h2
    have hi : i < n := by simpa using h2
    rw [List.getElem_take]
    by_cases h : i < d
    · rw [List.getElem_append_left (by simpa [delaySetup] using h)]
      simp [delaySetup, delaySpec, h]
    · rw [List.getElem_append_right (by simpa [delaySetup] using h)]
      simp [delaySetup, delaySpec, h]

/-- C25: for every source sequence, every delay `d ≥ 1` and every number of timesteps, the end-of-step variant never
fails and shows at time `t` the initial value (`t < d`) or the source value of exactly `d` steps earlier. -/
theorem C25_delay_general {α : Type} (d : Nat) (hd : 1 ≤ d) (initial : α) (src : Nat → α) (n : Nat) :
    ∃ q, runSteps delayGeneralStep (delaySetup d initial) ((List.range n).map src)
      = .ok ((List.range n).map (delaySpec d initial src), q) := by
  have hq : delaySetup d initial ≠ [] := by
    intro h
    have := congrArg List.length h
    simp [delaySetup] at this
    omega
  refine ⟨(delaySetup d initial ++ (List.range n).map src).drop n, ?_⟩
  rw [delayGeneral_aux _ _ hq]
  have := delay_take_spec d initial src n
  simp only [List.length_map, List.length_range]
  rw [this]

/-- C25: the current-value variant shows the same sequence for every delay, including `d = 0` (the identity). -/
theorem C25_delay_simple {α : Type} (d : Nat) (initial : α) (src : Nat → α) (n : Nat) :
    ∃ q, runSteps delaySimpleStep (delaySetup d initial) ((List.range n).map src)
      = .ok ((List.range n).map (delaySpec d initial src), q) := by
  refine ⟨(delaySetup d initial ++ (List.range n).map src).drop n, ?_⟩
  rw [delaySimple_aux]
  have := delay_take_spec d initial src n
  simp only [List.length_map, List.length_range]
  rw [this]

/-- C25: a delay of zero on an end-of-step source is reported as an error on the first timestep. -/
theorem C25_delay_zero_general {α : Type} (initial : α) (x : α) (xs : List α) :
    runSteps delayGeneralStep (delaySetup 0 initial) (x :: xs) = .error .emptyQueue := by
  simp [runSteps, delayGeneralStep, delaySetup, delayBefore]

/-- The queue keeps exactly `d` values between timesteps (so it never grows). -/
theorem C25_delay_memory_bounded {α : Type} (d : Nat) (hd : 1 ≤ d) (initial : α) (xs : List α) :
    ∃ out q, runSteps delayGeneralStep (delaySetup d initial) xs = .ok (out, q) ∧ q.length = d ∧
      out.length = xs.length := by
  have hq : delaySetup d initial ≠ [] := by
    intro h
    have := congrArg List.length h
    simp [delaySetup] at this
    omega
  refine ⟨_, _, delayGeneral_aux _ _ hq, ?_, ?_⟩ <;> simp [delaySetup]

example : runSteps delayGeneralStep (delaySetup 2 (0 : Nat)) [5, 6, 7, 8] = .ok ([0, 0, 5, 6], [7, 8]) := by
  rfl
example : (List.range 4).map (delaySpec 2 0 (fun t => t + 5)) = [0, 0, 5, 6] := by decide

/-! ## C26 Rolling window -/

/-- The most recent `w` of the first `t` source values, oldest first. -/
def lastWindow {α : Type} (src : Nat → α) (w t : Nat) : List α :=
  (List.range (min w t)).map (fun k => src (t - min w t + k))

/-- Value a rolling parameter must show at time `t`. -/
def rollingSpec {α : Type} (p : Rolling α) (src : Nat → α) (t : Nat) : α :=
  if min p.windowSize t < p.minValues then p.initialValue else p.agg (lastWindow src p.windowSize t)

theorem lastWindow_succ {α : Type} (p : Rolling α) (src : Nat → α) (t : Nat) :
    p.after (lastWindow src p.windowSize t) (src t) = lastWindow src p.windowSize (t + 1) := by
  unfold Rolling.after
  by_cases h : t < p.windowSize
  · have h1 : min p.windowSize t = t := by omega
    have h2 : min p.windowSize (t + 1) = t + 1 := by omega
    simp only [lastWindow, h1, h2, List.length_append, List.length_map, List.length_range, List.length_cons,
      List.length_nil]
    rw [if_neg (by omega)]
    simp [List.range_succ]
  · have h1 : min p.windowSize t = p.windowSize := by omega
    have h2 : min p.windowSize (t + 1) = p.windowSize := by omega
    simp only [lastWindow, h1, h2, List.length_append, List.length_map, List.length_range, List.length_cons,
      List.length_nil]
    rw [if_pos (by omega)]
    apply List.ext_getElem
    · simp
    · intro i hi1 hi2
      have hi : i < p.windowSize := by simpa using hi2
      rw [List.getElem_tail]
      by_cases hl : i + 1 < p.windowSize
      · rw [List.getElem_append_left (by simpa using hl)]
        simp only [List.getElem_map, List.getElem_range]
        congr 1; omega
      · rw [List.getElem_append_right (by simpa using hl)]
        simp only [List.getElem_singleton, List.getElem_map, List.getElem_range]
        congr 1; omega

theorem rolling_aux {α : Type} (p : Rolling α) (src : Nat → α) (n : Nat) : ∀ t,
    runSteps p.step (lastWindow src p.windowSize t) ((List.range n).map (fun k => src (t + k)))
      = .ok ((List.range n).map (fun k => rollingSpec p src (t + k)), lastWindow src p.windowSize (t + n)) := by
  induction n with
  | zero => intro t; simp [runSteps]
  | succ n ih =>
    intro t
    have h := ih (t + 1)
    rw [List.range_succ_eq_map]
    simp only [List.map_cons, List.map_map, Nat.add_zero, runSteps, Rolling.step]
    rw [lastWindow_succ]
    have e1 : (fun k => src (t + k)) ∘ Nat.succ = fun k => src (t + 1 + k) := by
      funext k; simp only [Function.comp]; congr 1; omega
    have e2 : (fun k => rollingSpec p src (t + k)) ∘ Nat.succ = fun k => rollingSpec p src (t + 1 + k) := by
      funext k; simp only [Function.comp]; congr 1; omega
    rw [e1, e2, h]
    have e3 : t + 1 + n = t + (n + 1) := by omega
    have e4 : p.before (lastWindow src p.windowSize t) = rollingSpec p src t := by
      simp [Rolling.before, rollingSpec, lastWindow]
    simp [e3, e4]

/-- C26: for every source, window, minimum count and aggregation function, the value at time `t` is the initial value
while fewer than `min_values` values are inside the window, and otherwise the aggregation of exactly the most recent
`min(t, window)` values, oldest first. -/
theorem C26_rolling {α : Type} (p : Rolling α) (src : Nat → α) (n : Nat) :
    runSteps p.step [] ((List.range n).map src)
      = .ok ((List.range n).map (rollingSpec p src), lastWindow src p.windowSize n) := by
  have h := rolling_aux p src n 0
  simpa [lastWindow] using h

/-- C26: with `min_values ≤ window`, "enough values" means `min_values ≤ t`. -/
theorem C26_rolling_warm {α : Type} (p : Rolling α) (hw : p.minValues ≤ p.windowSize) (src : Nat → α) (t : Nat) :
    (p.minValues ≤ t → rollingSpec p src t = p.agg (lastWindow src p.windowSize t)) ∧
    (t < p.minValues → rollingSpec p src t = p.initialValue) := by
  constructor
  · intro h; unfold rollingSpec; rw [if_neg (by omega)]
  · intro h; unfold rollingSpec; rw [if_pos (by omega)]

/-- The window holds, for each `j < min w t`, the value observed `min w t - j` steps ago. -/
theorem C26_window_content {α : Type} (src : Nat → α) (w t j : Nat) (hj : j < min w t) :
    (lastWindow src w t)[j]? = some (src (t - (min w t - j))) := by
  unfold lastWindow
  rw [List.getElem?_map, List.getElem?_range hj]
  simp only [Option.map_some]
  congr 2; omega

/-- If `min_values` exceeds the window the parameter shows the initial value forever: the configuration is accepted but
the promised aggregation never starts. -/
theorem C26_min_exceeds_window {α : Type} (p : Rolling α) (hw : p.windowSize < p.minValues) (src : Nat → α) (t : Nat) :
    rollingSpec p src t = p.initialValue := by
  unfold rollingSpec; rw [if_pos (by omega)]

example : runSteps (Rolling.step ⟨3, 0, 2, List.sum⟩) [] [1, 2, 3, 4, 5] = .ok ([0, 0, 3, 6, 9], [3, 4, 5]) := by
  rfl

/-! ## C28 Asymmetric switch -/

/-- Temporal specification: on at `t` iff switched on at some `s ≤ t` and never switched off since. -/
def switchedOn (on off : Nat → Nat) (t : Nat) : Prop :=
  ∃ s ≤ t, 0 < on s ∧ ∀ u, s < u → u ≤ t → ¬ (on u = 0 ∧ off u = 0)

theorem switchedOn_succ (on off : Nat → Nat) (t : Nat) :
    switchedOn on off (t + 1) ↔ (0 < on (t + 1) ∨ (switchedOn on off t ∧ ¬ (on (t + 1) = 0 ∧ off (t + 1) = 0))) := by
  constructor
  · rintro ⟨s, hs, hon, hu⟩
    by_cases h : s = t + 1
    · subst h; exact Or.inl hon
    · right
      refine ⟨⟨s, by omega, hon, fun u h1 h2 => hu u h1 (by omega)⟩, hu _ (by omega) (le_refl _)⟩
  · rintro (h | ⟨⟨s, hs, hon, hu⟩, hn⟩)
    · exact ⟨t + 1, le_refl _, h, fun u h1 h2 => by omega⟩
    · refine ⟨s, by omega, hon, fun u h1 h2 => ?_⟩
      by_cases hut : u = t + 1
      · subst hut; exact hn
      · exact hu u h1 (by omega)

/-- State of the switch before timestep `t`: the indicator of the specification at `t - 1`, initially 0. -/
theorem asym_aux (on off : Nat → Nat) (n : Nat) : ∀ (t : Nat) (s : Nat),
    (s = 0 ∨ s = 1) → (t = 0 → s = 0) → (∀ k, t = k + 1 → (s = 1 ↔ switchedOn on off k)) →
    ∃ out s', runSteps asymStep s ((List.range n).map (fun k => (on (t + k), off (t + k)))) = .ok (out, s') ∧
      out.length = n ∧ ∀ k, k < n → ∃ v, out[k]? = some v ∧ (v = 0 ∨ v = 1) ∧
        (v = 1 ↔ switchedOn on off (t + k)) := by
  induction n with
  | zero => intro t s _ _ _; exact ⟨[], s, by simp [runSteps], rfl, fun k hk => by omega⟩
  | succ n ih =>
    intro t s hs h0 hsucc
    -- the new state
    obtain ⟨s1, hstep, hs1, hs1spec⟩ : ∃ s1, asymStep s (on t, off t) = .ok (s1, s1) ∧ (s1 = 0 ∨ s1 = 1) ∧
        (s1 = 1 ↔ switchedOn on off t) := by
      refine ⟨_, rfl, ?_, ?_⟩
      · rcases hs with h | h <;> subst h <;> split_ifs <;> simp
      · cases t with
        | zero =>
          have := h0 rfl
          subst this
          constructor
          · intro h
            by_cases hon : on 0 > 0
            · exact ⟨0, le_refl _, hon, fun u h1 h2 => by omega⟩
            · simp [hon] at h
          · rintro ⟨s, hs, hon, _⟩
            have : s = 0 := by omega
            subst this
            simp [hon]
        | succ k =>
          rw [switchedOn_succ]
          have hk := hsucc k rfl
          rcases hs with h | h
          · subst h
            have : ¬ switchedOn on off k := fun hh => by have := hk.2 hh; omega
            by_cases hon : on (k + 1) > 0
            · simp [hon]
            · simp [hon, this]
          · subst h
            have hsw := hk.1 rfl
            by_cases hon : on (k + 1) > 0
            · simp [hon]
            · by_cases hoff : off (k + 1) = 0
              · simp [hon, hoff, hsw]; omega
              · simp [hon, hoff, hsw]
    obtain ⟨out, s', hrun, hlen, hout⟩ := ih (t + 1) s1 hs1 (by omega) (by
      intro k hk
      have : k = t := by omega
      subst this; exact hs1spec)
    refine ⟨s1 :: out, s', ?_, by simp [hlen], ?_⟩
    · rw [List.range_succ_eq_map]
      simp only [List.map_cons, List.map_map, Nat.add_zero, runSteps, hstep]
      have e1 : (fun k => (on (t + k), off (t + k))) ∘ Nat.succ = fun k => (on (t + 1 + k), off (t + 1 + k)) := by
        funext k; simp only [Function.comp]; congr 2 <;> omega
      rw [e1, hrun]
    · intro k hk
      cases k with
      | zero => exact ⟨s1, by simp, hs1, by simpa using hs1spec⟩
      | succ k =>
        obtain ⟨v, hv1, hv2, hv3⟩ := hout k (by omega)
        refine ⟨v, by simpa using hv1, hv2, ?_⟩
        have : t + 1 + k = t + (k + 1) := by omega
        rw [← this]; exact hv3

/-- C28: for every on/off history the switch shows 0 or 1 and shows 1 at `t` iff there is a time `s ≤ t` with a positive
on-signal since which no step had both signals at zero. -/
theorem C28_asymmetric_hysteresis (on off : Nat → Nat) (n : Nat) :
    ∃ out s', runSteps asymStep 0 ((List.range n).map (fun k => (on k, off k))) = .ok (out, s') ∧
      out.length = n ∧ ∀ t, t < n → ∃ v, out[t]? = some v ∧ (v = 0 ∨ v = 1) ∧ (v = 1 ↔ switchedOn on off t) := by
  have h := asym_aux on off n 0 0 (Or.inl rfl) (fun _ => rfl) (fun k hk => by omega)
  simpa using h

example : runSteps asymStep 0 [(0, 1), (1, 0), (0, 1), (0, 0), (0, 1)] = .ok ([0, 1, 1, 0, 0], 0) := by rfl

/-! ## C29 Thresholds -/

theorem threshold_ratchet_latched (p : Threshold) (hr : p.ratchet = true) (xs : List (ℚ × ℚ)) :
    runSteps p.step true xs = .ok (xs.map (fun _ => 1), true) := by
  induction xs with
  | nil => rfl
  | cons x xs ih => simp [runSteps, Threshold.step, hr, ih]

theorem threshold_ratchet_aux (p : Threshold) (hr : p.ratchet = true) (xs : List (ℚ × ℚ)) :
    ∃ out s', runSteps p.step false xs = .ok (out, s') ∧ out.length = xs.length ∧
      ∀ t, t < xs.length → ∃ v, out[t]? = some v ∧ (v = 0 ∨ v = 1) ∧
        (v = 1 ↔ ∃ s x, s ≤ t ∧ xs[s]? = some x ∧ p.predicate.apply x.1 x.2 = true) := by
  induction xs with
  | nil => exact ⟨[], false, rfl, rfl, fun t ht => by simp at ht⟩
  | cons x xs ih =>
    by_cases hx : p.predicate.apply x.1 x.2 = true
    · refine ⟨1 :: xs.map (fun _ => 1), true, ?_, by simp, ?_⟩
      · simp [runSteps, Threshold.step, hx, threshold_ratchet_latched p hr xs]
      · intro t ht
        refine ⟨1, ?_, Or.inr rfl, ?_⟩
        · cases t with
          | zero => simp
          | succ t => simp at ht; simp [ht]
        · simp only [true_iff]; exact ⟨0, x, by omega, by simp, hx⟩
    · obtain ⟨out, s', hrun, hlen, hout⟩ := ih
      refine ⟨0 :: out, s', ?_, by simp [hlen], ?_⟩
      · simp [runSteps, Threshold.step, hx, hrun]
      · intro t ht
        cases t with
        | zero =>
          refine ⟨0, by simp, Or.inl rfl, ?_⟩
          simp only [zero_ne_one, false_iff]
          rintro ⟨s, y, hs, hy, hap⟩
          have : s = 0 := by omega
          subst this
          simp at hy; subst hy; exact hx hap
        | succ t =>
          obtain ⟨v, hv1, hv2, hv3⟩ := hout t (by simpa using ht)
          refine ⟨v, by simpa using hv1, hv2, ?_⟩
          rw [hv3]
          constructor
          · rintro ⟨s, y, hs, hy, hap⟩
            exact ⟨s + 1, y, by omega, by simpa using hy, hap⟩
          · rintro ⟨s, y, hs, hy, hap⟩
            cases s with
            | zero => simp at hy; subst hy; exact absurd hap hx
            | succ s => exact ⟨s, y, by omega, by simpa using hy, hap⟩

/-- C29: a ratcheted threshold shows 1 at `t` iff the predicate held at some time `≤ t` (0 otherwise), for every
sequence of values and thresholds. -/
theorem C29_threshold_ratchet (pred : Predicate) (xs : List (ℚ × ℚ)) :
    ∃ out s', runSteps (Threshold.step ⟨pred, true⟩) false xs = .ok (out, s') ∧ out.length = xs.length ∧
      ∀ t, t < xs.length → ∃ v, out[t]? = some v ∧ (v = 0 ∨ v = 1) ∧
        (v = 1 ↔ ∃ s x, s ≤ t ∧ xs[s]? = some x ∧ pred.apply x.1 x.2 = true) :=
  threshold_ratchet_aux ⟨pred, true⟩ rfl xs

/-- C29: without ratchet the value is the indicator of the predicate of the current step, whatever happened before. -/
theorem C29_threshold_plain (pred : Predicate) (prev : Bool) (xs : List (ℚ × ℚ)) :
    ∃ s', runSteps (Threshold.step ⟨pred, false⟩) prev xs
      = .ok (xs.map (fun x => if pred.apply x.1 x.2 then 1 else 0), s') := by
  induction xs generalizing prev with
  | nil => exact ⟨prev, rfl⟩
  | cons x xs ih =>
    by_cases hx : pred.apply x.1 x.2 = true
    · obtain ⟨s', h⟩ := ih true
      exact ⟨s', by simp [runSteps, Threshold.step, hx, h]⟩
    · obtain ⟨s', h⟩ := ih prev
      exact ⟨s', by simp [runSteps, Threshold.step, hx, h]⟩

/-- What each predicate means; equality is within an absolute tolerance of 1e-6. -/
theorem C29_predicate_meaning (v t : ℚ) :
    (Predicate.lessThan.apply v t = true ↔ v < t) ∧ (Predicate.greaterThan.apply v t = true ↔ t < v) ∧
    (Predicate.lessThanOrEqualTo.apply v t = true ↔ v ≤ t) ∧
    (Predicate.greaterThanOrEqualTo.apply v t = true ↔ t ≤ v) ∧
    (Predicate.equalTo.apply v t = true ↔ |v - t| ≤ 1 / 1000000) := by
  simp [Predicate.apply, floatEqTolerance]

/-- `multiPosition` is the position of the first active threshold, or their number when none is active. -/
theorem multiPosition_spec (p : Predicate) (v : ℚ) (ts : List ℚ) : ∀ k,
    k ≤ multiPosition p v k ts ∧ multiPosition p v k ts ≤ k + ts.length ∧
    (∀ j t, k + j < multiPosition p v k ts → ts[j]? = some t → p.apply v t = false) ∧
    (∀ j t, k + j = multiPosition p v k ts → ts[j]? = some t → p.apply v t = true) := by
  induction ts with
  | nil => intro k; simp [multiPosition]
  | cons a ts ih =>
    intro k
    by_cases ha : p.apply v a = true
    · have hm : multiPosition p v k (a :: ts) = k := by simp [multiPosition, ha]
      rw [hm]
      refine ⟨le_refl _, by omega, fun j t hj _ => by omega, fun j t hj ht => ?_⟩
      have : j = 0 := by omega
      subst this; simp at ht; subst ht; exact ha
    · have hm : multiPosition p v k (a :: ts) = multiPosition p v (k + 1) ts := by simp [multiPosition, ha]
      rw [hm]
      obtain ⟨h1, h2, h3, h4⟩ := ih (k + 1)
      refine ⟨by omega, by simp; omega, fun j t hj ht => ?_, fun j t hj ht => ?_⟩
      · cases j with
        | zero => simp at ht; subst ht; simpa using ha
        | succ j => exact h3 j t (by omega) (by simpa using ht)
      · cases j with
        | zero => exact absurd hj (by omega)
        | succ j => exact h4 j t (by omega) (by simpa using ht)

/-- C29: the position is the index of the first threshold that is met, or the number of thresholds if none is met. -/
theorem C29_multi_position (p : Predicate) (v : ℚ) (ts : List ℚ) (i : Nat) :
    multiPosition p v 0 ts = i ↔
      (i ≤ ts.length ∧ (∀ j t, j < i → ts[j]? = some t → p.apply v t = false) ∧
        (∀ t, ts[i]? = some t → p.apply v t = true)) := by
  obtain ⟨_, h2, h3, h4⟩ := multiPosition_spec p v ts 0
  constructor
  · rintro rfl
    exact ⟨by omega, fun j t hj ht => h3 j t (by omega) ht, fun t ht => h4 _ t (by omega) ht⟩
  · rintro ⟨hi, hlt, heq⟩
    rcases Nat.lt_trichotomy (multiPosition p v 0 ts) i with h | h | h
    · have hm : multiPosition p v 0 ts < ts.length := by omega
      have e := List.getElem?_eq_getElem hm
      have c1 := hlt _ _ h e
      have c2 := h4 _ _ (by omega) e
      rw [c1] at c2; cases c2
    · exact h
    · have hm : i < ts.length := by omega
      have e := List.getElem?_eq_getElem hm
      have c1 := heq _ e
      have c2 := h3 i _ (by omega) e
      rw [c1] at c2; cases c2

theorem multi_ratchet_aux (pred : Predicate) (xs : List (ℚ × List ℚ)) : ∀ prev,
    ∃ out s', runSteps (MultiThreshold.step ⟨pred, true⟩) prev xs = .ok (out, s') ∧ out.length = xs.length ∧
      ∀ t, t < xs.length → ∃ v, out[t]? = some v ∧ prev ≤ v ∧
        (∀ s x, s ≤ t → xs[s]? = some x → multiPosition pred x.1 0 x.2 ≤ v) ∧
        (v = prev ∨ ∃ s x, s ≤ t ∧ xs[s]? = some x ∧ v = multiPosition pred x.1 0 x.2) := by
  induction xs with
  | nil => intro prev; exact ⟨[], prev, rfl, rfl, fun t ht => by simp at ht⟩
  | cons x xs ih =>
    intro prev
    obtain ⟨m, hstep, hm1, hm2, hm3⟩ : ∃ m, MultiThreshold.step ⟨pred, true⟩ prev x = .ok (m, m) ∧ prev ≤ m ∧
        multiPosition pred x.1 0 x.2 ≤ m ∧ (m = prev ∨ m = multiPosition pred x.1 0 x.2) := by
      by_cases h : multiPosition pred x.1 0 x.2 > prev
      · exact ⟨_, by simp [MultiThreshold.step, h], by omega, le_refl _, Or.inr rfl⟩
      · exact ⟨prev, by simp [MultiThreshold.step, h], le_refl _, by omega, Or.inl rfl⟩
    obtain ⟨out, s', hrun, hlen, hout⟩ := ih m
    refine ⟨m :: out, s', by simp [runSteps, hstep, hrun], by simp [hlen], ?_⟩
    intro t ht
    cases t with
    | zero =>
      refine ⟨m, by simp, hm1, ?_, ?_⟩
      · intro s y hs hy
        have : s = 0 := by omega
        subst this; simp at hy; subst hy; exact hm2
      · rcases hm3 with h | h
        · exact Or.inl h
        · exact Or.inr ⟨0, x, le_refl _, by simp, h⟩
    | succ t =>
      obtain ⟨v, hv1, hv2, hv3, hv4⟩ := hout t (by simpa using ht)
      refine ⟨v, by simpa using hv1, by omega, ?_, ?_⟩
      · intro s y hs hy
        cases s with
        | zero => simp at hy; subst hy; omega
        | succ s => exact hv3 s y (by omega) (by simpa using hy)
      · rcases hv4 with h | ⟨s, y, hs, hy, h⟩
        · rcases hm3 with h' | h'
          · left; omega
          · right; exact ⟨0, x, by omega, by simp, by omega⟩
        · right; exact ⟨s + 1, y, by omega, by simpa using hy, h⟩

/-- C29: a ratcheted multi-threshold shows the greatest position reached so far: it bounds every position up to `t` and
is attained (or is the initial 0). -/
theorem C29_multi_ratchet (pred : Predicate) (xs : List (ℚ × List ℚ)) :
    ∃ out s', runSteps (MultiThreshold.step ⟨pred, true⟩) 0 xs = .ok (out, s') ∧ out.length = xs.length ∧
      ∀ t, t < xs.length → ∃ v, out[t]? = some v ∧
        (∀ s x, s ≤ t → xs[s]? = some x → multiPosition pred x.1 0 x.2 ≤ v) ∧
        (∃ s x, s ≤ t ∧ xs[s]? = some x ∧ v = multiPosition pred x.1 0 x.2) := by
  obtain ⟨out, s', h1, h2, h3⟩ := multi_ratchet_aux pred xs 0
  refine ⟨out, s', h1, h2, fun t ht => ?_⟩
  obtain ⟨v, hv1, _, hv3, hv4⟩ := h3 t ht
  refine ⟨v, hv1, hv3, ?_⟩
  rcases hv4 with h | h
  · subst h
    have hx := List.getElem?_eq_getElem ht
    refine ⟨t, _, le_refl _, hx, ?_⟩
    have := hv3 t _ (le_refl _) hx
    omega
  · exact h

/-- C29: the ratcheted output never decreases. -/
theorem C29_multi_ratchet_monotone (pred : Predicate) (xs : List (ℚ × List ℚ)) (out : List Nat) (s' : Nat)
    (h : runSteps (MultiThreshold.step ⟨pred, true⟩) 0 xs = .ok (out, s')) (t u : Nat) (htu : t ≤ u)
    (a b : Nat) (ha : out[t]? = some a) (hb : out[u]? = some b) : a ≤ b := by
  obtain ⟨out', s'', h1, h2, h3⟩ := C29_multi_ratchet pred xs
  rw [h] at h1
  cases h1
  have hu : u < xs.length := by rw [← h2]; exact (List.getElem?_eq_some_iff.1 hb).1
  obtain ⟨v, hv1, _, ⟨s, x, hs, hx, hv⟩⟩ := h3 t (by omega)
  obtain ⟨w, hw1, hw2, _⟩ := h3 u hu
  rw [ha] at hv1; rw [hb] at hw1
  cases hv1; cases hw1
  rw [hv]
  exact hw2 s x (by omega) hx

/-- C29: without ratchet the position of the current step is shown. -/
theorem C29_multi_plain (pred : Predicate) (prev : Nat) (xs : List (ℚ × List ℚ)) :
    runSteps (MultiThreshold.step ⟨pred, false⟩) prev xs
      = .ok (xs.map (fun x => multiPosition pred x.1 0 x.2), prev) := by
  induction xs with
  | nil => rfl
  | cons x xs ih => simp [runSteps, MultiThreshold.step, ih]

example : multiPosition .greaterThan (1/2) 0 [3/4, 1/2, 1/4] = 2 := by decide +kernel
example : runSteps (Threshold.step ⟨.lessThan, true⟩) false [(3, 2), (1, 2), (5, 2)] = .ok ([0, 1, 1], true) := by
  decide +kernel

end Verif.Temporal
