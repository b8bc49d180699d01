import Verif.Lemmas.Kinds

/-!
# Parameters without memory calculate what their types define
-/

namespace Verif.Kinds

open Verif.Params

variable {W : Type} {bs : List Builder} {h : Record W} {stage : Stage} {t : Nat} {e : Env}

/-- The parameters without memory, apart from offsets. -/
def Kind.Plain : Kind W → Prop
  | .offset .. => False
  | .delay .. => False
  | .delayIndex .. => False
  | .rolling .. => False
  | .rollingIndex .. => False
  | .asymmetric .. => False
  | .threshold .. => False
  | .multiThreshold .. => False
  | _ => True

theorem calc_plain {k : Kind W} (hk : k.Plain) (s : Inner) (xs : List (Option Val)) :
    k.calc e stage t s xs = (k.eval e t xs).map (·, s) := by
  cases k <;> first | exact hk.elim | rfl

theorem min_eq_if (x y : ℚ) : (if y < x then y else x) = Min.min x y := by
  split_ifs with hc
  · exact (min_eq_right hc.le).symm
  · exact (min_eq_left (not_lt.1 hc)).symm

theorem max_eq_if (x y : ℚ) : (if x < y then y else x) = Max.max x y := by
  split_ifs with hc
  · exact (max_eq_right hc.le).symm
  · exact (max_eq_left (not_lt.1 hc)).symm

theorem limited_iff {a b : ℚ} {lo hi : Option ℚ} {q : ℚ} : clampedDifference a b lo hi = q ↔ Limited (a - b) lo hi q := by
  unfold clampedDifference Limited
  generalize a - b = d
  cases lo <;> cases hi <;> grind

/-- What is calculated from the results of the metrics is what the type defines. -/
theorem eval_iff {k : Kind W} {xs : List (Option Val)} (hk : k.Plain)
    (hr : List.Forall₂ (Result bs h stage t k.phase) k.sources xs) (v : Val) :
    k.eval e t xs = some v ↔ Now bs e h stage t v k := by
  cases k with
  | constant c => simp only [Kind.eval, Now, Option.some_inj, eq_ofF]
  | scheduled f =>
    simp only [Kind.eval, Now, Option.map_eq_some_iff, eq_ofF]
  | vector values =>
    simp only [Kind.eval, Now, Option.map_eq_some_iff, eq_ofF, List.getElem?_eq_some_iff]
    constructor
    · rintro ⟨_, ⟨ht, rfl⟩, hv⟩; exact ⟨ht, hv⟩
    · rintro ⟨ht, hv⟩; exact ⟨_, ⟨ht, rfl⟩, hv⟩
  | offset => exact hk.elim
  | min s th =>
    obtain ⟨o, rfl, h1⟩ := one hr
    refine Iff.trans ?_ (one_iff (phase := .before) h1 (f := fun x => Min.min x th) (v := v))
    cases o <;> simp [Kind.eval, min_eq_if]
  | max s th =>
    obtain ⟨o, rfl, h1⟩ := one hr
    refine Iff.trans ?_ (one_iff (phase := .before) h1 (f := fun x => Max.max x th) (v := v))
    cases o <;> simp [Kind.eval, max_eq_if]
  | negative s =>
    obtain ⟨o, rfl, h1⟩ := one hr
    refine Iff.trans ?_ (one_iff (phase := .before) h1 (f := fun x => -x) (v := v))
    cases o <;> simp [Kind.eval]
  | negativeMin s th =>
    obtain ⟨o, rfl, h1⟩ := one hr
    refine Iff.trans ?_ (one_iff (phase := .before) h1 (f := fun x => Min.min (-x) th) (v := v))
    cases o <;> simp [Kind.eval, min_eq_if]
  | negativeMax s th =>
    obtain ⟨o, rfl, h1⟩ := one hr
    refine Iff.trans ?_ (one_iff (phase := .before) h1 (f := fun x => Max.max (-x) th) (v := v))
    cases o <;> simp [Kind.eval, max_eq_if]
  | polynomial s cs scale off =>
    obtain ⟨o, rfl, h1⟩ := one hr
    refine Iff.trans ?_ (one_iff (phase := .before) h1 (f := fun x => ∑ i ∈ Finset.range cs.length, cs.getD i 0 * (x * scale + off) ^ i) (v := v))
    cases o <;> simp [Kind.eval, polyFrom_eq]
  | discount s base =>
    obtain ⟨o, rfl, h1⟩ := one hr
    have n1 : ∀ x, Num bs h stage t .before s x ↔ _ := h1.num
    simp only [Now, n1]
    cases o with
    | none => simp [Kind.eval]
    | some r =>
      simp only [Kind.eval, Option.map_eq_some_iff, eq_ofF, Option.some_inj]
      unfold discountFactor
      simp only
      constructor
      · rintro ⟨q, hq, hv⟩
        by_cases h2 : e.year t - base < -32768 ∨ 32767 < e.year t - base
        · rw [if_pos h2] at hq; cases hq
        rw [if_neg h2] at hq
        by_cases h3 : 1 + r.num = 0 ∧ e.year t - base ≠ 0
        · rw [if_pos h3] at hq; cases hq
        rw [if_neg h3, Option.some_inj, one_div_powi, neg_sub] at hq
        refine ⟨r.num, ⟨r, rfl, rfl⟩, ?_, by omega, by omega, hq ▸ hv⟩
        by_cases h4 : 1 + r.num = 0
        · left
          by_contra h5
          exact h3 ⟨h4, by omega⟩
        · exact Or.inr h4
      · rintro ⟨_, ⟨x, rfl, rfl⟩, h2, h3, h4, hv⟩
        refine ⟨_, ?_, hv⟩
        rw [if_neg (by omega), if_neg, one_div_powi, neg_sub]
        rintro ⟨h5, h6⟩
        rcases h2 with h2 | h2
        · exact h6 (by omega)
        · exact h2 h5
  | division a b p =>
    obtain ⟨o, o', rfl, h1, h2⟩ := two hr
    simp only [Now]
    change _ ↔ ∃ x y, Num bs h stage t (Kind.division a b p).phase a x ∧ Num bs h stage t (Kind.division a b p).phase b y ∧ _
    simp only [h1.num, h2.num]
    cases o with
    | none => simp [Kind.eval]
    | some x =>
      cases o' with
      | none => simp [Kind.eval]
      | some y =>
        simp only [Kind.eval, Option.some_inj]
        constructor
        · intro hq
          by_cases hy : y.num = 0
          · rw [if_pos hy] at hq; cases hq
          · rw [if_neg hy, Option.some_inj, eq_ofF] at hq
            exact ⟨_, _, ⟨x, rfl, rfl⟩, ⟨y, rfl, rfl⟩, hy, hq⟩
        · rintro ⟨_, _, ⟨x', rfl, rfl⟩, ⟨y', rfl, rfl⟩, hy, hq⟩
          rw [if_neg hy, Option.some_inj, eq_ofF]
          exact hq
  | deficit a b =>
    obtain ⟨o, o', rfl, h1, h2⟩ := two hr
    simp only [Now]
    change _ ↔ ∃ x y, Num bs h stage t (Kind.deficit a b).phase a x ∧ Num bs h stage t (Kind.deficit a b).phase b y ∧ _
    simp only [h1.num, h2.num]
    cases o with
    | none => simp [Kind.eval]
    | some x =>
      cases o' with
      | none => simp [Kind.eval]
      | some y =>
        simp only [Kind.eval, Option.some_inj, max_eq_if, eq_ofF]
        constructor
        · intro hq; exact ⟨_, _, ⟨x, rfl, rfl⟩, ⟨y, rfl, rfl⟩, hq⟩
        · rintro ⟨_, _, ⟨x', rfl, rfl⟩, ⟨y', rfl, rfl⟩, hq⟩; exact hq
  | difference a b lo hi =>
    simp only [Now]
    cases hr with
    | @cons _ o _ _ h1 hr =>
    cases hr with
    | @cons _ o' _ _ h2 hr =>
    have n1 : ∀ x, Num bs h stage t .before a x ↔ _ := h1.num
    have n2 : ∀ x, Num bs h stage t .before b x ↔ _ := h2.num
    simp only [n1, n2]
    cases lo with
    | none =>
      cases hi with
      | none =>
        cases hr
        cases o <;> cases o' <;> simp [Kind.eval, Maybe, eq_ofF, ← limited_iff]
      | some u =>
        obtain ⟨o₃, rfl, h3⟩ := one hr
        have n3 : ∀ x, Num bs h stage t .before u x ↔ _ := h3.num
        cases o <;> cases o' <;> cases o₃ <;> simp [Kind.eval, Maybe, eq_ofF, ← limited_iff, n3]
    | some l =>
      cases hi with
      | none =>
        obtain ⟨o₃, rfl, h3⟩ := one hr
        have n3 : ∀ x, Num bs h stage t .before l x ↔ _ := h3.num
        cases o <;> cases o' <;> cases o₃ <;> simp [Kind.eval, Maybe, eq_ofF, ← limited_iff, n3]
      | some u =>
        obtain ⟨o₃, o₄, rfl, h3, h4⟩ := two hr
        have n3 : ∀ x, Num bs h stage t .before l x ↔ _ := h3.num
        have n4 : ∀ x, Num bs h stage t .before u x ↔ _ := h4.num
        cases o <;> cases o' <;> cases o₃ <;> cases o₄ <;> simp [Kind.eval, Maybe, eq_ofF, ← limited_iff, n3, n4]
  | volumeBetween total upper lower =>
    simp only [Now]
    cases hr with
    | @cons _ o _ _ h1 hr =>
    obtain ⟨o', o₃, rfl, h2, h3⟩ := two hr
    have n1 : ∀ x, Num bs h stage t .before total x ↔ _ := h1.num
    have n2 : ∀ x, Num bs h stage t .before upper x ↔ _ := h2.num
    have n3 : ∀ x, Num bs h stage t .before lower x ↔ _ := h3.num
    simp only [n1, n2, n3]
    cases o <;> cases o' <;> cases o₃ <;> simp [Kind.eval, eq_ofF, mul_sub]
  | indexed i ms =>
    simp only [Now]
    cases hr with
    | @cons _ o _ xs h1 hr =>
    have n1 : ∀ n, Idx bs h stage t .before i n ↔ _ := h1.idx
    simp only [n1]
    have hlen : ms.length = xs.length := hr.length_eq
    cases o with
    | none => simp [Kind.eval]
    | some j =>
      have hget : ∀ n (h1 : n < ms.length) (h2 : n < xs.length), Result bs h stage t .before ms[n] xs[n] := by
        intro n h1 h2
        exact List.forall₂_iff_get.1 hr |>.2 n h1 h2
      simp only [Kind.eval]
      cases hx : xs[j.idx]? with
      | none =>
        have : xs.length ≤ j.idx := List.getElem?_eq_none_iff.1 hx
        simp only [reduceCtorEq, false_iff]
        rintro ⟨n, ⟨j', hj, rfl⟩, hn, -⟩
        obtain rfl := Option.some.inj hj
        omega
      | some o =>
        obtain ⟨hlt, rfl⟩ := List.getElem?_eq_some_iff.1 hx
        simp only [Option.map_eq_some_iff, eq_ofF, Option.some_inj]
        have n2 := (hget j.idx (by omega) hlt).num
        constructor
        · rintro ⟨x, hx, hv⟩
          exact ⟨j.idx, ⟨j, rfl, rfl⟩, by omega, x.num, (n2 _).2 ⟨x, hx, rfl⟩, hv⟩
        · rintro ⟨_, ⟨j', rfl, rfl⟩, hn, q, hq, hv⟩
          obtain ⟨x, hx, rfl⟩ := (n2 _).1 hq
          exact ⟨x, hx, hv⟩
  | aggregated ms f p =>
    simp only [Now]
    have n1 : ∀ qs, List.Forall₂ (Num bs h stage t p) ms qs ↔ _ := collect_num hr
    simp only [n1, Kind.eval, Option.map_eq_some_iff, eq_ofF]
    constructor
    · rintro ⟨vs, h1, h2⟩; exact ⟨_, _, ⟨vs, h1, rfl⟩, agg_iff.1 rfl, h2⟩
    · rintro ⟨_, q, ⟨vs, h1, rfl⟩, h2, h3⟩; exact ⟨vs, h1, (agg_iff.2 h2).symm ▸ h3⟩
  | aggregatedIndex ms f p =>
    simp only [Now]
    have n1 : ∀ qs, List.Forall₂ (Idx bs h stage t p) ms qs ↔ _ := collect_idx hr
    simp only [n1, Kind.eval]
    cases hc : collect xs with
    | none => simp
    | some vs =>
      simp only [Option.map_eq_some_iff, eq_ofU, agg_idx_iff, Option.some_inj]
      constructor
      · rintro ⟨n, h1, h2⟩; exact ⟨_, n, ⟨vs, rfl, rfl⟩, h1, h2⟩
      · rintro ⟨_, n, ⟨vs', rfl, rfl⟩, h2, h3⟩; exact ⟨n, h2, h3⟩
  | other ms f =>
    simp only [Now, Kind.eval, Option.map_eq_some_iff, eq_ofF]
    constructor
    · rintro ⟨q, h1, h2⟩; exact ⟨xs, q, hr, h1, h2⟩
    · rintro ⟨ys, q, h1, h2, h3⟩
      refine ⟨q, ?_, h3⟩
      have : xs = ys := by
        clear h2
        have hr' : List.Forall₂ (Result bs h stage t .before) ms xs := hr
        have h1' : List.Forall₂ (Result bs h stage t .before) ms ys := h1
        clear hr h1 hk
        induction hr' generalizing ys with
        | nil => cases h1'; rfl
        | @cons s o ss xs h4 _ ih =>
          cases h1' with
          | @cons _ o' _ _ h5 h6 =>
            rw [ih _ h6]
            congr 1
            exact Option.ext fun v => by rw [h4 v, h5 v]
      rw [this]; exact h2
  | otherIndex ms f =>
    simp only [Now, Kind.eval, Option.map_eq_some_iff, eq_ofU]
    constructor
    · rintro ⟨q, h1, h2⟩; exact ⟨xs, q, hr, h1, h2⟩
    · rintro ⟨ys, q, h1, h2, h3⟩
      refine ⟨q, ?_, h3⟩
      have : xs = ys := by
        clear h2
        have hr' : List.Forall₂ (Result bs h stage t .before) ms xs := hr
        have h1' : List.Forall₂ (Result bs h stage t .before) ms ys := h1
        clear hr h1 hk
        induction hr' generalizing ys with
        | nil => cases h1'; rfl
        | @cons s o ss xs h4 _ ih =>
          cases h1' with
          | @cons _ o' _ _ h5 h6 =>
            rw [ih _ h6]
            congr 1
            exact Option.ext fun v => by rw [h4 v, h5 v]
      rw [this]; exact h2
  | delay => exact hk.elim
  | delayIndex => exact hk.elim
  | rolling => exact hk.elim
  | rollingIndex => exact hk.elim
  | asymmetric => exact hk.elim
  | threshold => exact hk.elim
  | multiThreshold => exact hk.elim

end Verif.Kinds
