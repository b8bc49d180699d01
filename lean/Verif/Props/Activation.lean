import Verif.Props.Variables

/-!
# C63: activation functions keep variables within their configured range
-/

namespace Verif.Variables

/-- **C63 (what is applied).** The activation function returns `y` for `x` exactly as specified: values are moved to the nearest
one within the bounds, then transformed. -/
theorem C63_apply (a : Activation) (x y : ℚ) : a.apply x = .ok y ↔ Activated a x y := apply_iff a x y

/-- **C63 (no panic).** It panics exactly for a unit function whose minimum is above its maximum, whatever the value. -/
theorem C63_panics_iff (a : Activation) (x : ℚ) : a.apply x = .panic ↔ ∃ min max, a = .unit min max ∧ max < min := by
  cases a with
  | unit min max =>
    simp only [Activation.apply, Activation.lower, Activation.upper]
    by_cases h : min ≤ max
    · rw [clamp_cases x h]
      refine ⟨fun h' => (by cases h'), ?_⟩
      rintro ⟨m, M, h1, h2⟩
      cases h1
      exact absurd h (not_le.2 h2)
    · have hc : clamp x min max = .panic := by unfold clamp; rw [if_neg h]
      rw [hc]
      exact ⟨fun _ => ⟨min, max, rfl, not_le.1 h⟩, fun _ => rfl⟩
  | rectifier min max neg =>
    simp only [Activation.apply, Activation.lower, Activation.upper]
    rw [clamp_cases x (by norm_num : (-1 : ℚ) ≤ 1)]
    refine ⟨fun h => (by cases h), fun ⟨_, _, h, _⟩ => (by cases h)⟩
  | binaryStep pos neg =>
    simp only [Activation.apply, Activation.lower, Activation.upper]
    rw [clamp_cases x (by norm_num : (-1 : ℚ) ≤ 1)]
    refine ⟨fun h => (by cases h), fun ⟨_, _, h, _⟩ => (by cases h)⟩
  | logistic f =>
    simp only [Activation.apply, Activation.lower, Activation.upper]
    rw [clamp_cases x (by norm_num : (-6 : ℚ) ≤ 6)]
    refine ⟨fun h => (by cases h), fun ⟨_, _, h, _⟩ => (by cases h)⟩

theorem activated_range {a : Activation} {x y : ℚ} (h : Activated a x y) : InRange a y := by
  cases a with
  | unit min max => exact h.1
  | rectifier min max neg =>
    rcases le_or_gt x 0 with h0 | h0
    · exact Or.inl (h.1 h0)
    · right
      rcases le_or_gt x 1 with h1 | h1
      · rw [h.2.1 h0 h1]
        rcases le_total min max with hm | hm
        · rw [inf_eq_left.2 hm, sup_eq_right.2 hm]
          constructor
          · have := mul_nonneg h0.le (sub_nonneg.2 hm); linarith
          · have := mul_le_mul_of_nonneg_right h1 (sub_nonneg.2 hm); linarith
        · rw [inf_eq_right.2 hm, sup_eq_left.2 hm]
          constructor
          · have := mul_le_mul_of_nonneg_right h1 (sub_nonneg.2 hm); linarith
          · have := mul_nonneg h0.le (sub_nonneg.2 hm); linarith
      · rw [h.2.2 h1]
        exact ⟨inf_le_right, le_sup_right⟩
  | binaryStep pos neg =>
    rcases le_or_gt x 0 with h0 | h0
    · exact Or.inl (h.1 h0)
    · exact Or.inr (h.2 h0)
  | logistic f =>
    obtain ⟨v, h1, h2⟩ := h
    exact ⟨v, h1.1.1, h1.1.2, h2⟩

/-- **C63 (range).** Whatever value is given, what comes out lies in the range of the function. -/
theorem C63_range (a : Activation) (x y : ℚ) (h : a.apply x = .ok y) : InRange a y := activated_range ((apply_iff a x y).1 h)

/-- **C63 (all of the range).** Every value in the range comes out for some value within the advertised bounds; for the rectifier
except its minimum, which is only approached. -/
theorem C63_onto (a : Activation) (y : ℚ) (h : InRange a y)
    (hr : ∀ min max neg, a = .rectifier min max neg → y = neg ∨ y ≠ min) :
    ∃ x, a.lower ≤ x ∧ x ≤ a.upper ∧ a.apply x = .ok y := by
  simp only [apply_iff]
  cases a with
  | unit min max =>
    refine ⟨y, h.1, h.2, h, fun z _ _ => ?_⟩
    rw [sub_self, abs_zero]
    exact abs_nonneg _
  | rectifier min max neg =>
    simp only [Activation.lower, Activation.upper]
    rcases h with rfl | ⟨h1, h2⟩
    · exact ⟨-1, le_refl _, by norm_num, fun _ => rfl, fun h => by linarith, fun h => by linarith⟩
    · rcases hr min max neg rfl with rfl | hne
      · exact ⟨-1, le_refl _, by norm_num, fun _ => rfl, fun h => by linarith, fun h => by linarith⟩
      · rcases lt_trichotomy min max with hm | hm | hm
        · rw [inf_eq_left.2 hm.le] at h1
          rw [sup_eq_right.2 hm.le] at h2
          have hlt : min < y := lt_of_le_of_ne h1 (Ne.symm hne)
          have hp : 0 < max - min := sub_pos.2 hm
          have h3 : 0 < (y - min) / (max - min) := div_pos (sub_pos.2 hlt) hp
          have h4 : (y - min) / (max - min) ≤ 1 := by rw [div_le_one hp]; linarith
          refine ⟨(y - min) / (max - min), by linarith, h4, fun h => by linarith, fun _ _ => ?_, fun h => by linarith⟩
          rw [div_mul_cancel₀ _ (ne_of_gt hp)]; ring
        · subst hm
          rw [inf_idem] at h1
          rw [sup_idem] at h2
          exact absurd (le_antisymm h2 h1) hne
        · rw [inf_eq_right.2 hm.le] at h1
          rw [sup_eq_left.2 hm.le] at h2
          have hlt : y < min := lt_of_le_of_ne h2 hne
          have hp : 0 < min - max := sub_pos.2 hm
          have h3 : 0 < (min - y) / (min - max) := div_pos (sub_pos.2 hlt) hp
          have h4 : (min - y) / (min - max) ≤ 1 := by rw [div_le_one hp]; linarith
          refine ⟨(min - y) / (min - max), by linarith, h4, fun h => by linarith, fun _ _ => ?_, fun h => by linarith⟩
          have : (min - y) / (min - max) * (max - min) = -((min - y) / (min - max) * (min - max)) := by ring
          rw [this, div_mul_cancel₀ _ (ne_of_gt hp)]; ring
  | binaryStep pos neg =>
    simp only [Activation.lower, Activation.upper]
    rcases h with rfl | rfl
    · exact ⟨-1, le_refl _, by norm_num, fun _ => rfl, fun h => by linarith⟩
    · exact ⟨1, by norm_num, le_refl _, fun h => by linarith, fun _ => rfl⟩
  | logistic f =>
    obtain ⟨v, h1, h2, rfl⟩ := h
    refine ⟨v, h1, h2, v, ⟨⟨h1, h2⟩, fun z _ _ => ?_⟩, rfl⟩
    rw [sub_self, abs_zero]
    exact abs_nonneg _

theorem nearest_mono {lo hi x x' y y' : ℚ} (h : Nearest lo hi x y) (h' : Nearest lo hi x' y') (hx : x ≤ x') : y ≤ y' := by
  have hl := h.1.1.trans h.1.2
  rw [nearest_unique h (clamp_nearest hl x), nearest_unique h' (clamp_nearest hl x')]
  split_ifs <;> linarith

/-- **C63 (order).** If the values configured are in order, a larger value never gives a smaller result. -/
theorem C63_monotone (a : Activation) (ho : match a with
      | .unit .. => True
      | .rectifier min max neg => neg ≤ min ∧ min ≤ max
      | .binaryStep pos neg => neg ≤ pos
      | .logistic f => ∀ v w, v ≤ w → f v ≤ f w)
    (x x' y y' : ℚ) (hx : x ≤ x') (h : a.apply x = .ok y) (h' : a.apply x' = .ok y') : y ≤ y' := by
  rw [apply_iff] at h h'
  cases a with
  | unit min max => exact nearest_mono h h' hx
  | rectifier min max neg =>
    obtain ⟨ho1, ho2⟩ := ho
    have hd := sub_nonneg.2 ho2
    rcases le_or_gt x 0 with h0 | h0
    · rw [h.1 h0]
      rcases activated_range h' with h1 | h1
      · rw [h1]
      · exact ho1.trans (by rw [inf_eq_left.2 ho2] at h1; exact h1.1)
    · have h0' : 0 < x' := lt_of_lt_of_le h0 hx
      rcases le_or_gt x' 1 with h1' | h1'
      · rw [h.2.1 h0 (hx.trans h1'), h'.2.1 h0' h1']
        have := mul_le_mul_of_nonneg_right hx hd
        linarith
      · rw [h'.2.2 h1']
        rcases le_or_gt x 1 with h1 | h1
        · rw [h.2.1 h0 h1]
          have := mul_le_mul_of_nonneg_right h1 hd
          linarith
        · rw [h.2.2 h1]
  | binaryStep pos neg =>
    rcases le_or_gt x 0 with h0 | h0
    · rw [h.1 h0]
      rcases le_or_gt x' 0 with h1 | h1
      · rw [h'.1 h1]
      · rw [h'.2 h1]; exact ho
    · rw [h.2 h0, h'.2 (lt_of_lt_of_le h0 hx)]
  | logistic f =>
    obtain ⟨v, h1, rfl⟩ := h
    obtain ⟨w, h2, rfl⟩ := h'
    exact ho v w (nearest_mono h1 h2 hx)

theorem recorded_range {c : ℚ} {i k : Nat} {ops : List Op} {l : Last} (h : Recorded (.constant c) i k ops l) (P : ℚ → Prop)
    (hall : ∀ op ∈ ops, ∀ v cfg, op.addresses i k = some (v, cfg) → ∀ a, cfg = .activation a → ∀ y, InRange a y → P y) :
    l.f = none ∨ ∃ y, l.f = some [y] ∧ P y := by
  induction h with
  | nil => exact Or.inl rfl
  | other op _ _ ih => exact ih (fun o ho => hall o (List.mem_append_left _ ho))
  | rejected op v cfg _ _ _ ih => exact ih (fun o ho => hall o (List.mem_append_left _ ho))
  | accepted op v v' cfg _ hop ha _ =>
    right
    cases ha with
    | constant _ x y a hxy => exact ⟨y, rfl, hall op (List.mem_append_right _ (List.mem_singleton.2 rfl)) _ _ hop a rfl y (activated_range hxy)⟩

/-- **C63 (variables).** After any history of settings, successful or not, the value read for a constant is none, or one value in
the range of an activation function that was used to set it: no sequence of settings brings it out of a range that all of them
were configured with. -/
theorem C63_variables {net : List Param} {n i k : Nat} {ops : List Op} {s : List Scen} {c : ℚ} (h : Reached net n ops s)
    (hp : net[i]? = some (.constant c)) (hk : k < n) (P : ℚ → Prop)
    (hall : ∀ op ∈ ops, ∀ v cfg, op.addresses i k = some (v, cfg) → ∀ a, cfg = .activation a → ∀ y, InRange a y → P y) :
    getOne net i k .f s = .ok none ∨ ∃ y, getOne net i k .f s = .ok (some (.f [y])) ∧ P y := by
  obtain ⟨l, h1, h2⟩ := C39_read_back h hp hk (w := .f) rfl (by intro o; simp)
  rw [h2]
  rcases recorded_range h1 P hall with h3 | ⟨y, h3, h4⟩
  · left; simp [Last.read, h3]
  · right; exact ⟨y, by simp [Last.read, h3], h4⟩

/-! ## Cases -/

/-- Functions and values inside and outside of the bounds. -/
example : (Activation.unit (-10) 10).apply (-20) = .ok (-10) ∧ (Activation.rectifier (-10) 10 3).apply (1 / 2) = .ok 0 ∧
    (Activation.rectifier (-10) 10 3).apply 7 = .ok 10 ∧ (Activation.rectifier (-10) 10 3).apply (-7) = .ok 3 ∧
    (Activation.binaryStep 5 6).apply (1 / 9) = .ok 5 ∧ (Activation.unit 1 0).apply 0 = .panic ∧
    (Activation.logistic fun v => v * v).apply 9 = .ok 36 := by decide +kernel

/-- The minimum of a rectifier does not come out: the exception in `C63_onto` is needed. -/
theorem C63_onto_refuted : InRange (.rectifier 1 2 0) 1 ∧ ∀ x, (Activation.rectifier 1 2 0).apply x ≠ .ok 1 := by
  refine ⟨Or.inr ⟨by decide +kernel, by decide +kernel⟩, ?_⟩
  intro x hx
  rw [apply_iff] at hx
  rcases le_or_gt x 0 with h0 | h0
  · have := hx.1 h0; norm_num at this
  · rcases le_or_gt x 1 with h1 | h1
    · have := hx.2.1 h0 h1; linarith
    · have := hx.2.2 h1; norm_num at this

/-- A negative value above the minimum breaks the order: the condition in `C63_monotone` is needed. -/
example : (Activation.rectifier (-10) 10 3).apply 0 = .ok 3 ∧ (Activation.rectifier (-10) 10 3).apply (1 / 10) = .ok (-8) := by
  decide +kernel

/-- A constant set far out of its range, and one setting that fails. -/
example : getOne net₀ 0 1 .f (after net₀ 2 [.all 0 (.f [30]) (.activation (.unit 0 10)), .one 0 1 (.f [3, 4]) (.activation (.unit 0 10))]) =
    .ok (some (.f [10])) := by decide +kernel

end Verif.Variables
