import Verif.Model.Hydropower
import Mathlib.Tactic.Linarith
import Mathlib.Tactic.FieldSimp
import Mathlib.Tactic.Ring

/-!
# C51: hydropower
-/

namespace Verif.Hydropower

/-! ## Specification -/

/-- Power of a turbine: density times gravity times head times flow times efficiency, in the units of the model. -/
def powerOf (t : Turbine) (h q : ℚ) : ℚ :=
  t.density * (981 / 100) * h * (q * t.flowConversion) * t.efficiency * t.energyConversion

/-- Head over the turbine: the level of the water over the turbine, or the given head; never negative. -/
def headOver (t : Turbine) : ℚ :=
  if 0 ≤ (t.waterElevation.map (· - t.elevation)).getD t.elevation then (t.waterElevation.map (· - t.elevation)).getD t.elevation
  else 0

/-- Nothing by which the power is multiplied is zero. -/
def Nondegenerate (t : Turbine) : Prop :=
  t.efficiency ≠ 0 ∧ t.density ≠ 0 ∧ t.flowConversion ≠ 0 ∧ t.energyConversion ≠ 0

instance (t : Turbine) : Decidable (Nondegenerate t) := by unfold Nondegenerate; infer_instance

theorem head_eq (t : Turbine) : head t = headOver t := by
  unfold head headOver
  rcases t.waterElevation with _ | w
  · simp only [Option.map_none, Option.getD_none]
    by_cases h : 0 ≤ t.elevation
    · rw [if_pos h, max_eq_left h]
    · rw [if_neg h, max_eq_right (by linarith)]
  · simp only [Option.map_some, Option.getD_some]
    by_cases h : 0 ≤ w - t.elevation
    · rw [if_pos h, max_eq_left h]
    · rw [if_neg h, max_eq_right (by linarith)]

/-- **C51** The two calculations are inverse to each other whenever no factor is zero. -/
theorem C51_round_trip (x h e f c d : ℚ) (hh : h ≠ 0) (he : e ≠ 0) (hf : f ≠ 0) (hc : c ≠ 0) (hd : d ≠ 0) :
    calculation (inverseCalculation x h e f c d) h e f c d = x ∧ inverseCalculation (calculation x h e f c d) h e f c d = x := by
  unfold calculation inverseCalculation
  constructor <;> field_simp

example : (7 : ℚ) ≠ 0 ∧ calculation (inverseCalculation 5 7 (9 / 10) 1 (1 / 1000000) 1000) 7 (9 / 10) 1 (1 / 1000000) 1000 = 5 := by
  decide +kernel

/-- **C51** The power reported after the step is that of the hydropower equation, and zero when the head does not
exceed the minimum head. -/
theorem C51_power (t : Turbine) (q : ℚ) (hq : t.actualFlow = some q) :
    after t = .ok (if headOver t ≤ t.minHead then 0 else powerOf t (headOver t) q) := by
  unfold after
  rw [hq, head_eq]
  simp only
  by_cases h : headOver t ≤ t.minHead
  · rw [if_pos h, if_pos h]
  · rw [if_neg h, if_neg h]
    unfold calculation powerOf
    congr 1
    ring

/-- **C51** A target flow is never negative; when the head exceeds the minimum it is at least the minimum flow, and at
most the maximum flow unless the minimum flow is larger still. -/
theorem C51_limits (t : Turbine) (q : ℚ) (hq : before t = .ok q) :
    0 ≤ q ∧ (t.minHead < headOver t → ∀ m, t.minFlow = some m → m ≤ q) ∧
      (∀ m, t.maxFlow = some m → 0 ≤ m → (∀ l, t.minFlow = some l → l ≤ m) → q ≤ m) := by
  unfold before at hq
  rw [head_eq] at hq
  rcases ht : t.target with _ | p
  · simp only [ht] at hq; cases hq
  · simp only [ht] at hq
    by_cases h : headOver t ≤ t.minHead
    · rw [if_pos h] at hq
      cases hq
      exact ⟨le_refl _, fun h' => absurd h' (not_lt.mpr h), fun m _ h0 _ => h0⟩
    · rw [if_neg h] at hq
      generalize inverseCalculation p (headOver t) t.efficiency t.flowConversion t.energyConversion t.density = x at hq
      rcases hmax : t.maxFlow with _ | a <;> rcases hmin : t.minFlow with _ | b <;> simp only [hmax, hmin] at hq
      · by_cases hx : x < 0
        · rw [if_pos hx] at hq; cases hq
        · rw [if_neg hx] at hq; cases hq
          exact ⟨not_lt.mp hx, fun _ m hm => (by cases hm), fun m hm => (by cases hm)⟩
      · by_cases hx : max x b < 0
        · rw [if_pos hx] at hq; cases hq
        · rw [if_neg hx] at hq; cases hq
          exact ⟨not_lt.mp hx, fun _ m hm => (by cases hm; exact le_max_right _ _), fun m hm => (by cases hm)⟩
      · by_cases hx : min x a < 0
        · rw [if_pos hx] at hq; cases hq
        · rw [if_neg hx] at hq; cases hq
          exact ⟨not_lt.mp hx, fun _ m hm => (by cases hm), fun m hm _ _ => (by cases hm; exact min_le_right _ _)⟩
      · by_cases hx : max (min x a) b < 0
        · rw [if_pos hx] at hq; cases hq
        · rw [if_neg hx] at hq; cases hq
          refine ⟨not_lt.mp hx, fun _ m hm => (by cases hm; exact le_max_right _ _), fun m hm _ hl => ?_⟩
          cases hm
          exact max_le (min_le_right _ _) (hl b rfl)

/-- **C51** Passing the target flow through the turbine produces the target, unless a limit of the flow or the minimum
head is in the way: with a target flow strictly inside the limits the power of that flow is the target. -/
theorem C51_target_met (t : Turbine) (p q : ℚ) (hd : Nondegenerate t) (h0 : 0 ≤ t.minHead) (hh : t.minHead < headOver t)
    (hp : t.target = some p) (hq : before t = .ok q) (hmax : ∀ m, t.maxFlow = some m → q < m)
    (hmin : ∀ m, t.minFlow = some m → m < q) : powerOf t (headOver t) q = p ∧ after { t with actualFlow := some q } = .ok p := by
  obtain ⟨he, hd', hf, hc⟩ := hd
  have hne : headOver t ≠ 0 := by intro h; rw [h] at hh; linarith
  have key : powerOf t (headOver t) q = p := by
    unfold before at hq
    rw [head_eq] at hq
    simp only [hp] at hq
    rw [if_neg (not_le.mpr hh)] at hq
    have hx : powerOf t (headOver t) (inverseCalculation p (headOver t) t.efficiency t.flowConversion t.energyConversion t.density) = p := by
      unfold powerOf inverseCalculation
      have e : (9.81 : ℚ) = 981 / 100 := by norm_num
      rw [e]
      field_simp
    generalize inverseCalculation p (headOver t) t.efficiency t.flowConversion t.energyConversion t.density = x at hq hx
    suffices hqx : q = x by rw [hqx]; exact hx
    rcases ha : t.maxFlow with _ | a <;> rcases hb : t.minFlow with _ | b <;> simp only [ha, hb] at hq
    · by_cases hx : x < 0
      · rw [if_pos hx] at hq; cases hq
      · rw [if_neg hx] at hq; cases hq; rfl
    · have := hmin b hb
      by_cases hx : max x b < 0
      · rw [if_pos hx] at hq; cases hq
      · rw [if_neg hx] at hq; cases hq
        rcases max_choice x b with h | h
        · exact h
        · rw [h] at this; exact absurd this (lt_irrefl _)
    · have := hmax a ha
      by_cases hx : min x a < 0
      · rw [if_pos hx] at hq; cases hq
      · rw [if_neg hx] at hq; cases hq
        rcases min_choice x a with h | h
        · exact h
        · rw [h] at this; exact absurd this (lt_irrefl _)
    · have h1 := hmax a ha
      have h2 := hmin b hb
      by_cases hx : max (min x a) b < 0
      · rw [if_pos hx] at hq; cases hq
      · rw [if_neg hx] at hq; cases hq
        rcases max_choice (min x a) b with h | h
        · rw [h] at h1 ⊢
          rcases min_choice x a with h' | h'
          · exact h'
          · rw [h'] at h1; exact absurd h1 (lt_irrefl _)
        · rw [h] at h2; exact absurd h2 (lt_irrefl _)
  refine ⟨key, ?_⟩
  have e := C51_power { t with actualFlow := some q } q rfl
  rw [e]
  have e2 : headOver { t with actualFlow := some q } = headOver t := rfl
  rw [e2, if_neg (not_le.mpr hh)]
  exact congrArg _ key

/-- A turbine of 90 % efficiency under a head of 20. -/
def sampleTurbine : Turbine :=
  { actualFlow := none, target := some (17658 / 100000), maxFlow := some 5, minFlow := some (1 / 2), minHead := 2, elevation := 30,
    efficiency := 9 / 10, waterElevation := some 50, density := 1000, flowConversion := 1, energyConversion := 1 / 1000000 }

example : Nondegenerate sampleTurbine ∧ 0 ≤ sampleTurbine.minHead ∧ sampleTurbine.minHead < headOver sampleTurbine ∧
    before sampleTurbine = .ok 1 := by decide +kernel

/-- **C51** A parameter that has been built is evaluated only in phases for which it has what it needs: evaluating it
in those phases never gives the error for a phase that is not enabled. -/
theorem C51_phases (t : Turbine) (p : Phase) (h : buildPhase t = .ok p) :
    (p ≠ .after → before t ≠ .error .phaseNotEnabled) ∧ (p ≠ .before → ∃ q, after t = .ok q) ∧
      (p = .after → t.minFlow = none ∧ t.maxFlow = none) := by
  unfold buildPhase at h
  rcases ht : t.target with _ | x <;> rcases ha : t.actualFlow with _ | y
  · simp [ht, ha] at h
  · simp only [ht, ha, Option.isSome_none, Option.isSome_some] at h
    by_cases h1 : t.minFlow.isSome = true
    · rw [if_pos h1] at h; cases h
    · rw [if_neg h1] at h
      by_cases h2 : t.maxFlow.isSome = true
      · rw [if_pos h2] at h; cases h
      · rw [if_neg h2] at h
        cases h
        refine ⟨fun hc => absurd rfl hc, fun _ => ⟨_, C51_power t y ha⟩, fun _ => ⟨?_, ?_⟩⟩
        · rcases hm : t.minFlow with _ | m
          · rfl
          · simp [hm] at h1
        · rcases hm : t.maxFlow with _ | m
          · rfl
          · simp [hm] at h2
  · simp only [ht, ha, Option.isSome_none, Option.isSome_some] at h
    cases h
    refine ⟨fun _ hc => ?_, fun hc => absurd rfl hc, fun hc => (by cases hc)⟩
    unfold before at hc
    simp only [ht] at hc
    split_ifs at hc
    all_goals cases hc
  · simp only [ht, ha, Option.isSome_some] at h
    cases h
    refine ⟨fun _ hc => ?_, fun _ => ⟨_, C51_power t y ha⟩, fun hc => (by cases hc)⟩
    unfold before at hc
    simp only [ht] at hc
    split_ifs at hc
    all_goals cases hc

example : buildPhase sampleTurbine = .ok .before := by decide

/-- **C51** Neither limit always holds: the target flow exceeds the maximum flow when the minimum flow does, and it is
zero, below the minimum flow, when the head is too small. -/
theorem C51_limits_refuted :
    before { sampleTurbine with maxFlow := some 2, minFlow := some 3 } = .ok 3 ∧
      before { sampleTurbine with waterElevation := some 31 } = .ok 0 := by decide +kernel

end Verif.Hydropower
