import Verif.Lemmas.KindsQueue

/-!
# What switches and thresholds remember
-/

namespace Verif.Kinds

open Verif.Params

variable {W : Type}

/-- A parameter whose state at the start of each step is known. -/
theorem machine (n : Nat) (F : Nat → Inner → Option (Val × Inner)) (I : Nat → Inner) (R : Nat → Val → Prop)
    (hF : ∀ t v s, F t (I t) = some (v, s) ↔ R t v ∧ s = I (t + 1)) (value : Nat → Val) :
    (∃ st hl : Nat → Inner, st 0 = I 0 ∧ ∀ t < n, F t (st t) = some (value t, hl t) ∧ st (t + 1) = hl t) ↔
      ∀ t < n, R t (value t) := by
  constructor
  · rintro ⟨st, hl, h0, hs⟩
    have inv : ∀ t ≤ n, st t = I t := by
      intro t
      induction t with
      | zero => intro _; exact h0
      | succ t ih =>
        intro ht
        obtain ⟨h1, h2⟩ := hs t (by omega)
        rw [ih (by omega)] at h1
        rw [h2, ((hF _ _ _).1 h1).2]
    intro t ht
    have h1 := (hs t ht).1
    rw [inv t (by omega)] at h1
    exact ((hF _ _ _).1 h1).1
  · intro hr
    exact ⟨I, fun t => I (t + 1), rfl, fun t ht => ⟨(hF _ _ _).2 ⟨hr t ht, rfl⟩, rfl⟩⟩

/-! ## Asymmetric switches -/

/-- The switch is on at the start of step `t`. -/
def WasOn (on off : Nat → Nat → Prop) (t : Nat) : Prop := ∃ s, t = s + 1 ∧ IsOn on off s

theorem isOn_iff (on off : Nat → Nat → Prop) (t : Nat) :
    IsOn on off t ↔ (∃ i, on t i ∧ 0 < i) ∨ (WasOn on off t ∧ ∃ i, off t i ∧ 0 < i) := by
  constructor
  · rintro ⟨s, hs, h1, h2⟩
    rcases Nat.lt_or_eq_of_le hs with hlt | rfl
    · rcases h2 t hlt le_rfl with h3 | h3
      · exact .inl h3
      · obtain ⟨u, rfl⟩ : ∃ u, t = u + 1 := ⟨t - 1, by omega⟩
        exact .inr ⟨⟨u, rfl, s, by omega, h1, fun r h4 h5 => h2 r h4 (by omega)⟩, h3⟩
    · exact .inl h1
  · rintro (h1 | ⟨⟨u, rfl, s, hs, h1, h2⟩, h3⟩)
    · exact ⟨t, le_rfl, h1, fun r h2 h3 => by omega⟩
    · refine ⟨s, by omega, h1, fun r h4 h5 => ?_⟩
      rcases Nat.lt_or_eq_of_le h5 with h6 | rfl
      · exact h2 r h4 (by omega)
      · exact .inr h3

theorem wasOn_succ (on off : Nat → Nat → Prop) (t : Nat) : WasOn on off (t + 1) ↔ IsOn on off t := by
  constructor
  · rintro ⟨s, h1, h2⟩
    obtain rfl : t = s := by omega
    exact h2
  · exact fun h => ⟨t, rfl, h⟩

/-- The number stored by a switch. -/
noncomputable def onCount (p : Prop) : Inner := by
  classical exact .count (if p then 1 else 0)

theorem onCount_pos {p : Prop} (h : p) : onCount p = .count 1 := by simp [onCount, h]

theorem onCount_neg {p : Prop} (h : ¬ p) : onCount p = .count 0 := by simp [onCount, h]

/-- What a metric shows, as an index. -/
def shown (o : Option Val) (i : Nat) : Prop := ∃ v, o = some v ∧ i = v.idx

theorem asymmetric_step {e : Env} {a b : Source W} {t : Nat} (on off : Nat → Nat → Prop) {o1 o2 : Option Val}
    (h1 : ∀ i, on t i ↔ shown o1 i) (h2 : ∀ i, off t i ↔ shown o2 i) (v : Val) (s : Inner) :
    (Kind.asymmetric a b).calc e .before t (onCount (WasOn on off t)) [o1, o2] = some (v, s) ↔
      ((∃ i, on t i ∧ (i = 0 → WasOn on off t → ∃ j, off t j)) ∧ (IsOn on off t → Index v 1) ∧
        (¬ IsOn on off t → Index v 0)) ∧ s = onCount (WasOn on off (t + 1)) := by
  rw [wasOn_succ, isOn_iff]
  simp only [h1, h2]
  generalize WasOn on off t = p
  cases o1 with
  | none =>
    by_cases hp : p
    · simp [onCount_pos hp, Kind.calc, shown]
    · simp [onCount_neg hp, Kind.calc, shown]
  | some x =>
    have hx : ∀ i, shown (some x) i ↔ i = x.idx := by simp [shown]
    have e1 : (∃ i, shown (some x) i ∧ 0 < i) ↔ 0 < x.idx := by simp [hx]
    simp only [e1]
    by_cases hp : p
    · rw [onCount_pos hp]
      simp only [Kind.calc, hp, true_and, true_imp_iff]
      rw [if_pos (by omega)]
      by_cases hc : x.idx > 0
      · rw [if_pos hc]
        have hc' : ((0 : Nat) < x.idx ∨ ∃ i, shown o2 i ∧ 0 < i) := .inl hc
        simp only [onCount_pos trivial, Option.some_inj, Prod.mk.injEq, eq_ofU, hc', true_imp_iff, not_true, false_imp_iff,
          and_true]
        have e2 : ∃ i, shown (some x) i ∧ (i = 0 → ∃ j, shown o2 j) := ⟨x.idx, (hx _).2 rfl, fun h => by omega⟩
        simp only [e2, true_and]
        exact ⟨fun h => ⟨h.1, h.2.symm⟩, fun h => ⟨h.1, h.2.symm⟩⟩
      · rw [if_neg hc]
        have h0 : x.idx = 0 := by omega
        cases o2 with
        | none =>
          simp only [reduceCtorEq, false_iff, not_and]
          rintro ⟨⟨i, h3, h4⟩, -⟩
          obtain ⟨j, w, hw, -⟩ := h4 (by rw [(hx i).1 h3, h0])
          cases hw
        | some y =>
          have hy : ∀ i, shown (some y) i ↔ i = y.idx := by simp [shown]
          have e3 : (∃ i, shown (some y) i ∧ 0 < i) ↔ 0 < y.idx := by simp [hy]
          have e2 : ∃ i, shown (some x) i ∧ (i = 0 → ∃ j, shown (some y) j) :=
            ⟨x.idx, (hx _).2 rfl, fun _ => ⟨y.idx, (hy _).2 rfl⟩⟩
          simp only [e3, e2, true_and]
          by_cases hd : y.idx = 0
          · have hq : ¬ (0 < x.idx ∨ 0 < y.idx) := by omega
            simp only [hd, if_true, Option.some_inj, Prod.mk.injEq, eq_ofU]
            rw [hd] at hq
            simp only [onCount_neg not_false, hq, false_imp_iff, not_false_eq_true, true_imp_iff, true_and]
            exact ⟨fun h => ⟨h.1, h.2.symm⟩, fun h => ⟨h.1, h.2.symm⟩⟩
          · have hq : (0 < x.idx ∨ 0 < y.idx) := by omega
            simp only [hd, if_false, Option.some_inj, Prod.mk.injEq, eq_ofU]
            simp only [onCount_pos trivial, hq, false_imp_iff, not_true, true_imp_iff, and_true]
            exact ⟨fun h => ⟨h.1, h.2.symm⟩, fun h => ⟨h.1, h.2.symm⟩⟩
    · rw [onCount_neg hp]
      simp only [Kind.calc, hp, false_and, or_false]
      rw [if_neg (by omega)]
      have e2 : ∃ i, shown (some x) i ∧ (i = 0 → False → ∃ j, shown o2 j) := ⟨x.idx, (hx _).2 rfl, fun _ h => h.elim⟩
      simp only [e2, true_and]
      by_cases hc : x.idx > 0
      · rw [if_pos hc]
        have hc' : (0 : Nat) < x.idx := hc
        simp only [onCount_pos trivial, Option.some_inj, Prod.mk.injEq, eq_ofU, hc', true_imp_iff, not_true, false_imp_iff,
          and_true]
        exact ⟨fun h => ⟨h.1, h.2.symm⟩, fun h => ⟨h.1, h.2.symm⟩⟩
      · rw [if_neg hc]
        have hc' : ¬ (0 : Nat) < x.idx := hc
        simp only [onCount_neg not_false, Option.some_inj, Prod.mk.injEq, eq_ofU, hc', false_imp_iff, not_false_eq_true,
          true_imp_iff, true_and]
        exact ⟨fun h => ⟨h.1, h.2.symm⟩, fun h => ⟨h.1, h.2.symm⟩⟩

/-! ## Thresholds -/

theorem meets_iff (p : Temporal.Predicate) (x y : ℚ) : p.apply x y = true ↔ Meets p x y := by
  cases p <;> simp [Temporal.Predicate.apply, Meets, Temporal.floatEqTolerance]

/-- The flag stored by a threshold. -/
noncomputable def flagOf (p : Prop) : Inner := by
  classical exact .flag (decide p)

theorem flagOf_pos {p : Prop} (h : p) : flagOf p = .flag true := by simp [flagOf, h]

theorem flagOf_neg {p : Prop} (h : ¬ p) : flagOf p = .flag false := by simp [flagOf, h]

/-- The threshold is met at step `s`. -/
def Met (p : Temporal.Predicate) (x y : Nat → ℚ → Prop) (s : Nat) : Prop := ∃ a b, x s a ∧ y s b ∧ Meets p a b

theorem ever_succ {P : Nat → Prop} {t : Nat} : (∃ s < t + 1, P s) ↔ (∃ s < t, P s) ∨ P t := by
  constructor
  · rintro ⟨s, h1, h2⟩
    rcases Nat.lt_or_eq_of_le (Nat.le_of_lt_succ h1) with h3 | rfl
    · exact .inl ⟨s, h3, h2⟩
    · exact .inr h2
  · rintro (⟨s, h1, h2⟩ | h2)
    · exact ⟨s, by omega, h2⟩
    · exact ⟨t, by omega, h2⟩

theorem threshold_step {e : Env} {a b : Source W} {p : Temporal.Predicate} {ratchet : Bool} {t : Nat}
    (x y : Nat → ℚ → Prop) {o1 o2 : Option Val}
    (h1 : ∀ q, x t q ↔ ∃ v, o1 = some v ∧ q = v.num) (h2 : ∀ q, y t q ↔ ∃ v, o2 = some v ∧ q = v.num) (v : Val)
    (s : Inner) :
    (Kind.threshold a b p ratchet).calc e .before t (flagOf (∃ s < t, Met p x y s)) [o1, o2] = some (v, s) ↔
      ((ratchet = true ∧ (∃ s < t, Met p x y s) ∧ Index v 1) ∨
        (¬ (ratchet = true ∧ ∃ s < t, Met p x y s) ∧
          ∃ a b, x t a ∧ y t b ∧ (Meets p a b → Index v 1) ∧ (¬ Meets p a b → Index v 0))) ∧
      s = flagOf (∃ s < t + 1, Met p x y s) := by
  have hm : Met p x y t ↔ ∃ u w, o1 = some u ∧ o2 = some w ∧ Meets p u.num w.num := by
    unfold Met
    constructor
    · rintro ⟨a, b, ha, hb, hc⟩
      obtain ⟨u, hu, rfl⟩ := (h1 a).1 ha
      obtain ⟨w, hw, rfl⟩ := (h2 b).1 hb
      exact ⟨u, w, hu, hw, hc⟩
    · rintro ⟨u, w, hu, hw, hc⟩
      exact ⟨_, _, (h1 _).2 ⟨u, hu, rfl⟩, (h2 _).2 ⟨w, hw, rfl⟩, hc⟩
  rw [ever_succ, hm]
  simp only [h1, h2]
  generalize (∃ s < t, Met p x y s) = prev
  by_cases hr : ratchet = true ∧ prev
  · obtain ⟨rfl, hp⟩ := hr
    have hp' : (prev ∨ ∃ u w, o1 = some u ∧ o2 = some w ∧ Meets p u.num w.num) := .inl hp
    rw [flagOf_pos hp, flagOf_pos hp']
    simp only [Kind.calc, Bool.and_self, if_true, Option.some_inj, Prod.mk.injEq, eq_ofU, hp, and_self, not_true, false_and,
      or_false, true_and]
    exact ⟨fun h => ⟨h.1, h.2.symm⟩, fun h => ⟨h.1, h.2.symm⟩⟩
  · have hr' : ¬ (ratchet = true ∧ prev ∧ Index v 1) := fun h => hr ⟨h.1, h.2.1⟩
    simp only [hr, hr', false_or, not_false_eq_true, true_and]
    have hcalc : (Kind.threshold a b p ratchet).calc e .before t (flagOf prev) [o1, o2] =
        match o1, o2 with
        | some x, some y => if p.apply x.num y.num then some (ofU 1, .flag true) else some (ofU 0, flagOf prev)
        | _, _ => none := by
      by_cases hp : prev
      · have : ratchet = false := by
          cases ratchet
          · rfl
          · exact absurd ⟨rfl, hp⟩ hr
        subst this
        rw [flagOf_pos hp]
        cases o1 <;> cases o2 <;> rfl
      · rw [flagOf_neg hp]
        cases ratchet <;> cases o1 <;> cases o2 <;> rfl
    rw [hcalc]
    cases o1 with
    | none => simp
    | some u =>
      cases o2 with
      | none => simp
      | some w =>
        have e1 : (∃ u' w', some u = some u' ∧ some w = some w' ∧ Meets p u'.num w'.num) ↔ Meets p u.num w.num := by
          simp
        have e2 : (∃ a b, (∃ u', some u = some u' ∧ a = u'.num) ∧ (∃ w', some w = some w' ∧ b = w'.num) ∧
            (Meets p a b → Index v 1) ∧ (¬ Meets p a b → Index v 0)) ↔
            (Meets p u.num w.num → Index v 1) ∧ (¬ Meets p u.num w.num → Index v 0) := by
          constructor
          · rintro ⟨_, _, ⟨_, h3, rfl⟩, ⟨_, h4, rfl⟩, h5⟩
            cases h3; cases h4
            exact h5
          · exact fun h5 => ⟨_, _, ⟨_, rfl, rfl⟩, ⟨_, rfl, rfl⟩, h5⟩
        simp only [e1, e2]
        by_cases hc : Meets p u.num w.num
        · rw [if_pos ((meets_iff _ _ _).2 hc)]
          simp only [hc, Option.some_inj, Prod.mk.injEq, eq_ofU, true_imp_iff, not_true, false_imp_iff, and_true,
            or_true, flagOf_pos trivial]
          exact ⟨fun h => ⟨h.1, h.2.symm⟩, fun h => ⟨h.1, h.2.symm⟩⟩
        · rw [if_neg (fun h => hc ((meets_iff _ _ _).1 h))]
          simp only [hc, Option.some_inj, Prod.mk.injEq, eq_ofU, false_imp_iff, not_false_eq_true, true_imp_iff,
            true_and, or_false]
          exact ⟨fun h => ⟨h.1, h.2.symm⟩, fun h => ⟨h.1, h.2.symm⟩⟩

/-! ## Multiple thresholds -/

/-- The greatest of the first `t` numbers. -/
def greatest (i : Nat → Nat) : Nat → Nat
  | 0 => 0
  | t + 1 => Max.max (greatest i t) (i t)

theorem greatest_attained (i : Nat → Nat) : ∀ t, ∃ s ≤ t, greatest i (t + 1) = i s
  | 0 => ⟨0, le_rfl, by simp [greatest]⟩
  | t + 1 => by
    obtain ⟨s, h1, h2⟩ := greatest_attained i t
    rw [greatest]
    rcases le_total (greatest i (t + 1)) (i (t + 1)) with h3 | h3
    · exact ⟨t + 1, le_rfl, Nat.max_eq_right h3⟩
    · exact ⟨s, by omega, by rw [Nat.max_eq_left h3, h2]⟩

theorem le_greatest (i : Nat → Nat) : ∀ t, ∀ s < t, i s ≤ greatest i t
  | 0, _, h => by omega
  | t + 1, s, h => by
    rw [greatest]
    rcases Nat.lt_or_eq_of_le (Nat.le_of_lt_succ h) with h1 | rfl
    · exact le_trans (le_greatest i t s h1) (Nat.le_max_left _ _)
    · exact Nat.le_max_right _ _

theorem greatest_iff (i : Nat → Nat) (t m : Nat) :
    ((∃ s ≤ t, m = i s) ∧ ∀ s ≤ t, i s ≤ m) ↔ m = greatest i (t + 1) := by
  obtain ⟨s, h1, h2⟩ := greatest_attained i t
  constructor
  · rintro ⟨⟨r, h3, rfl⟩, h4⟩
    exact le_antisymm (le_greatest i (t + 1) r (by omega)) (h2 ▸ h4 s h1)
  · rintro rfl
    exact ⟨⟨s, h1, h2⟩, fun r h3 => le_greatest i (t + 1) r (by omega)⟩

theorem greatest_congr {i j : Nat → Nat} : ∀ {t : Nat}, (∀ s < t, i s = j s) → greatest i t = greatest j t
  | 0, _ => rfl
  | t + 1, h => by
    rw [greatest, greatest, greatest_congr fun s hs => h s (by omega), h t (by omega)]

/-- The position found at a step. -/
def found (p : Temporal.Predicate) : List (Option Val) → Option Nat
  | some x :: ths => position p x.num ths 0
  | _ => none

theorem multi_step {e : Env} {a : Source W} {ths : List (Source W)} {p : Temporal.Predicate} {ratchet : Bool} {t : Nat}
    (xs : Nat → List (Option Val)) (v : Val) (s : Inner) :
    (Kind.multiThreshold a ths p ratchet).calc e .before t
        (.count (if ratchet then greatest (fun s => (found p (xs s)).getD 0) t else 0)) (xs t) = some (v, s) ↔
      (∃ i, found p (xs t) = some i ∧
        Index v (if ratchet then greatest (fun s => (found p (xs s)).getD 0) (t + 1) else i)) ∧
      s = .count (if ratchet then greatest (fun s => (found p (xs s)).getD 0) (t + 1) else 0) := by
  have hg : greatest (fun s => (found p (xs s)).getD 0) (t + 1) =
      Max.max (greatest (fun s => (found p (xs s)).getD 0) t) ((found p (xs t)).getD 0) := rfl
  rw [hg]
  generalize greatest (fun s => (found p (xs s)).getD 0) t = g
  have hcalc : ∀ c, (Kind.multiThreshold a ths p ratchet).calc e .before t (.count c) (xs t) =
      match found p (xs t) with
      | none => none
      | some i =>
        if ratchet then if i > c then some (ofU i, .count i) else some (ofU c, .count c) else some (ofU i, .count c) := by
    intro c
    simp only [Kind.calc]
    generalize xs t = l
    rcases l with _ | ⟨_ | x, ys⟩
    · rfl
    · rfl
    · simp only [found]
      cases position p x.num ys 0 <;> rfl
  rw [hcalc]
  cases found p (xs t) with
  | none => simp
  | some i =>
    cases ratchet
    · simp only [Bool.false_eq_true, if_false, Option.some_inj, Prod.mk.injEq, eq_ofU, exists_eq_left']
      exact ⟨fun h => ⟨h.1, h.2.symm⟩, fun h => ⟨h.1, h.2.symm⟩⟩
    · simp only [if_true, Option.getD_some, Option.some_inj, exists_eq_left']
      by_cases hc : i > g
      · rw [if_pos hc, Nat.max_eq_right (by omega)]
        simp only [Option.some_inj, Prod.mk.injEq, eq_ofU]
        exact ⟨fun h => ⟨h.1, h.2.symm⟩, fun h => ⟨h.1, h.2.symm⟩⟩
      · rw [if_neg hc, Nat.max_eq_left (by omega)]
        simp only [Option.some_inj, Prod.mk.injEq, eq_ofU]
        exact ⟨fun h => ⟨h.1, h.2.symm⟩, fun h => ⟨h.1, h.2.symm⟩⟩

/-- The position found is that of the first threshold that is met. -/
theorem position_iff {y : Source W → ℚ → Prop} {p : Temporal.Predicate} {q : ℚ} :
    ∀ {ths : List (Source W)} {os : List (Option Val)},
      List.Forall₂ (fun s o => ∀ b, y s b ↔ ∃ v, o = some v ∧ b = v.num) ths os → ∀ k i,
      (position p q os k = some i ↔ k ≤ i ∧ First p q y ths (i - k))
  | _, _, .nil, k, i => by
    simp only [position, Option.some_inj, First, List.length_nil, List.getElem?_nil, reduceCtorEq, false_imp_iff,
      implies_true, and_true]
    omega
  | _, _, .cons (a := s) (b := o) (l₁ := ths) (l₂ := os) h1 h2, k, i => by
    cases o with
    | none =>
      simp only [position, reduceCtorEq, false_iff, not_and]
      rintro - ⟨-, h4, h5⟩
      by_cases hz : i - k = 0
      · obtain ⟨b, hb, -⟩ := h5 s (by simp [hz])
        obtain ⟨v, hv, -⟩ := (h1 b).1 hb
        cases hv
      · obtain ⟨b, hb, -⟩ := h4 0 (by omega) s (by simp)
        obtain ⟨v, hv, -⟩ := (h1 b).1 hb
        cases hv
    | some v =>
      have hy : ∀ b, y s b ↔ b = v.num := by
        intro b
        rw [h1]
        constructor
        · rintro ⟨_, h3, rfl⟩; cases h3; rfl
        · rintro rfl; exact ⟨v, rfl, rfl⟩
      simp only [position]
      by_cases hm : p.apply q v.num = true
      · rw [if_pos hm]
        have hm' := (meets_iff p q v.num).1 hm
        simp only [Option.some_inj]
        constructor
        · rintro rfl
          refine ⟨le_rfl, by omega, fun j hj => by omega, fun s' h3 => ?_⟩
          simp only [Nat.sub_self, List.getElem?_cons_zero, Option.some_inj] at h3
          subst h3
          exact ⟨_, (hy _).2 rfl, hm'⟩
        · rintro ⟨h3, h4, h5, h6⟩
          by_contra hne
          obtain ⟨b, hb, hnb⟩ := h5 0 (by omega) s (by simp)
          rw [(hy b).1 hb] at hnb
          exact hnb hm'
      · rw [if_neg hm]
        have hm' : ¬ Meets p q v.num := fun h => hm ((meets_iff p q v.num).2 h)
        rw [position_iff h2 (k + 1) i]
        constructor
        · rintro ⟨h3, h4, h5, h6⟩
          obtain ⟨d, rfl⟩ : ∃ d, i = k + 1 + d := ⟨i - (k + 1), by omega⟩
          have e1 : k + 1 + d - (k + 1) = d := by omega
          have e2 : k + 1 + d - k = d + 1 := by omega
          rw [e1] at h4 h5 h6
          rw [e2]
          refine ⟨by omega, by simpa using h4, fun j hj s' hs => ?_, fun s' hs => h6 s' (by simpa using hs)⟩
          cases j with
          | zero =>
            simp only [List.getElem?_cons_zero, Option.some_inj] at hs
            subst hs
            exact ⟨_, (hy _).2 rfl, hm'⟩
          | succ j => exact h5 j (by omega) s' (by simpa using hs)
        · rintro ⟨h3, h4, h5, h6⟩
          have hne : i ≠ k := by
            rintro rfl
            obtain ⟨b, hb, hmb⟩ := h6 s (by simp)
            rw [(hy b).1 hb] at hmb
            exact hm' hmb
          obtain ⟨d, rfl⟩ : ∃ d, i = k + 1 + d := ⟨i - (k + 1), by omega⟩
          have e1 : k + 1 + d - (k + 1) = d := by omega
          have e2 : k + 1 + d - k = d + 1 := by omega
          rw [e1]
          rw [e2] at h4 h5 h6
          exact ⟨by omega, by simpa using h4, fun j hj s' hs => h5 (j + 1) (by omega) s' (by simpa using hs),
            fun s' hs => h6 s' (by simpa using hs)⟩

end Verif.Kinds
