import Verif.Spec.Load
import Verif.Spec.Curves

/-! # Control curves in terms of what their metrics show -/

namespace Verif.Load

open Verif.Params Verif.Kinds Verif.Curves

/-- What a metric returns is what it shows. -/
def Tells {α : Type} (N : α → ℚ → Prop) (m : α) (o : Option ℚ) : Prop := ∀ q, o = some q ↔ N m q

variable {α : Type} {N : α → ℚ → Prop}

theorem tells_at {ms : List α} {os : List (Option ℚ)} (h : List.Forall₂ (Tells N) ms os) {i : Nat} {q : ℚ}
    (hi : os[i]? = some (some q)) : ∃ m, ms[i]? = some m ∧ N m q := by
  induction h generalizing i with
  | nil => simp at hi
  | cons h1 _ ih =>
    cases i with
    | zero =>
      rw [List.getElem?_cons_zero, Option.some_inj] at hi
      exact ⟨_, rfl, (h1 q).1 hi⟩
    | succ i =>
      rw [List.getElem?_cons_succ] at hi ⊢
      exact ih hi

/-- The band of a level, with its bounds. -/
def OBand (x : ℚ) (cs : List (Option ℚ)) (bottom top : ℚ) (i : Nat) (lo hi : ℚ) : Prop :=
  InBand x cs i ∧ (i = 0 → hi = top) ∧ (∀ j, i = j + 1 → cs[j]? = some (some hi)) ∧ (i = cs.length → lo = bottom) ∧
    (i < cs.length → cs[i]? = some (some lo))

theorem OBand.nil (x bottom top : ℚ) : OBand x [] bottom top 0 bottom top := by
  refine ⟨⟨le_rfl, by omega, by simp⟩, fun _ => rfl, by omega, fun _ => rfl, by simp⟩

theorem OBand.here {x c : ℚ} (cs : List (Option ℚ)) (bottom top : ℚ) (hx : c ≤ x) : OBand x (some c :: cs) bottom top 0 c top := by
  refine ⟨⟨Nat.zero_le _, by omega, ?_⟩, fun _ => rfl, by omega, by simp, fun _ => rfl⟩
  intro o ho
  rw [List.getElem?_cons_zero, Option.some_inj] at ho
  exact ⟨c, ho.symm, hx⟩

theorem OBand.there {x c : ℚ} {cs : List (Option ℚ)} {bottom top : ℚ} {i : Nat} {lo hi : ℚ} (hx : x < c)
    (h : OBand x cs bottom c i lo hi) : OBand x (some c :: cs) bottom top (i + 1) lo hi := by
  obtain ⟨⟨h1, h2, h3⟩, h4, h5, h6, h7⟩ := h
  refine ⟨⟨by simpa using h1, fun j hj => ?_, fun o ho => ?_⟩, by omega, fun j hj => ?_, fun he => h6 (by simpa using he), fun hl => ?_⟩
  · cases j with
    | zero => exact ⟨c, rfl, hx⟩
    | succ j => rw [List.getElem?_cons_succ]; exact h2 j (by omega)
  · rw [List.getElem?_cons_succ] at ho; exact h3 o ho
  · obtain rfl : i = j := by omega
    cases i with
    | zero => rw [h4 rfl]; rfl
    | succ i => rw [List.getElem?_cons_succ]; exact h5 i rfl
  · rw [List.getElem?_cons_succ]; exact h7 (by simpa using hl)

theorem first_of_band {x : ℚ} {curves : List α} {cs : List (Option ℚ)} (ht : List.Forall₂ (Tells N) curves cs) {i : Nat}
    (h : InBand x cs i) : First .greaterThanOrEqualTo x N curves i := by
  obtain ⟨h1, h2, h3⟩ := h
  have hl := ht.length_eq
  refine ⟨by omega, fun j hj m hm => ?_, fun m hm => ?_⟩
  · obtain ⟨c, h4, h5⟩ := h2 j hj
    obtain ⟨m', h6, h7⟩ := tells_at ht h4
    rw [hm] at h6
    obtain rfl := Option.some.inj h6
    exact ⟨c, h7, not_le.2 h5⟩
  · have hi : i < cs.length := by rw [← hl]; exact (List.getElem?_eq_some_iff.1 hm).1
    obtain ⟨v, h4, h5⟩ := h3 _ (List.getElem?_eq_getElem hi)
    obtain ⟨m', h6, h7⟩ := tells_at ht (i := i) (q := v) (by rw [List.getElem?_eq_getElem hi, h4])
    rw [hm] at h6
    obtain rfl := Option.some.inj h6
    exact ⟨v, h7, h5⟩

theorem band_of {N : SMetric → ℚ → Prop} {x bottom top : ℚ} {curves : List SMetric} {cs : List (Option ℚ)}
    (ht : List.Forall₂ (Tells N) curves cs) {i : Nat} {lo hi : ℚ} (h : OBand x cs bottom top i lo hi) :
    Band N curves bottom top x i lo hi := by
  obtain ⟨h1, h2, h3, h4, h5⟩ := h
  have hl := ht.length_eq
  exact ⟨first_of_band ht h1, h2, fun j hj => tells_at ht (h3 j hj), fun he => h4 (by omega), fun hi => tells_at ht (h5 (by omega))⟩

theorem retrieve_ok {m : Option ℚ} {r : ℚ} : retrieve m = .ok r ↔ m = some r := by
  cases m <;> simp [retrieve]

theorem curveFrom_ok {x r : ℚ} {values : List (Option ℚ)} : ∀ {cs : List (Option ℚ)} {k : Nat},
    curveFrom x values cs k = .ok r → ∃ i, InBand x cs i ∧ (i < cs.length → values[k + i]? = some (some r)) ∧
      (i = cs.length → values.getLast? = some (some r))
  | [], k, h => by
    refine ⟨0, (OBand.nil x 0 0).1, by simp, fun _ => ?_⟩
    simp only [curveFrom] at h
    cases hv : values.getLast? with
    | none => rw [hv] at h; cases h
    | some v => rw [hv] at h; rw [retrieve_ok.1 h]
  | none :: _, _, h => by simp [curveFrom] at h
  | some c :: cs, k, h => by
    simp only [curveFrom] at h
    by_cases hx : x ≥ c
    · rw [if_pos hx] at h
      refine ⟨0, (OBand.here cs 0 0 hx).1, fun _ => ?_, by simp⟩
      cases hv : values[k]? with
      | none => rw [hv] at h; cases h
      | some v => rw [hv] at h; rw [retrieve_ok.1 h]
    · rw [if_neg hx] at h
      obtain ⟨i, h1, h2, h3⟩ := curveFrom_ok h
      have hlt : x < c := lt_of_not_ge hx
      refine ⟨i + 1, ⟨by simpa using h1.1, fun j hj => ?_, fun o ho => ?_⟩, fun hi => ?_, fun hi => h3 (by simpa using hi)⟩
      · cases j with
        | zero => exact ⟨c, rfl, hlt⟩
        | succ j => rw [List.getElem?_cons_succ]; exact h1.2.1 j (by omega)
      · rw [List.getElem?_cons_succ] at ho; exact h1.2.2 o ho
      · have := h2 (by simpa using hi)
        rwa [show k + (i + 1) = k + 1 + i by omega]

theorem indexValue_ok {values : List (Option ℚ)} {i : Nat} {r : ℚ} (h : indexValue values i = .ok r) : values[i]? = some (some r) := by
  unfold indexValue at h
  cases hv : values[i]? with
  | none => rw [hv] at h; cases h
  | some v => rw [hv] at h; rw [retrieve_ok.1 h]

theorem interpolateValues_ok {x lo hi r : ℚ} {values : List (Option ℚ)} {l u : Nat}
    (h : interpolateValues x lo hi values l u = .ok r) :
    ∃ a b, values[l]? = some (some a) ∧ values[u]? = some (some b) ∧ r = interpolate x lo hi a b := by
  unfold interpolateValues at h
  cases h1 : indexValue values l with
  | error e => rw [h1] at h; cases h
  | ok a =>
    rw [h1] at h
    simp only at h
    cases h2 : indexValue values u with
    | error e => rw [h2] at h; cases h
    | ok b =>
      rw [h2] at h
      exact ⟨a, b, indexValue_ok h1, indexValue_ok h2, (Except.ok.inj h).symm⟩

theorem interpolatedFrom_ok {x r : ℚ} {values : List (Option ℚ)} : ∀ {cs : List (Option ℚ)} {k : Nat} {prev : ℚ},
    interpolatedFrom x values cs k prev = .ok r → ∃ i lo hi a b, OBand x cs 0 prev i lo hi ∧
      (i < cs.length → values[k + i + 1]? = some (some a) ∧ values[k + i]? = some (some b)) ∧
      (i = cs.length → 2 ≤ values.length ∧ values[values.length - 1]? = some (some a) ∧
        values[values.length - 2]? = some (some b)) ∧ r = interpolate x lo hi a b
  | [], k, prev, h => by
    simp only [interpolatedFrom] at h
    by_cases hl : values.length < 2
    · rw [if_pos hl] at h; cases h
    · rw [if_neg hl] at h
      obtain ⟨a, b, h1, h2, h3⟩ := interpolateValues_ok h
      exact ⟨0, 0, prev, a, b, OBand.nil x 0 prev, by simp, fun _ => ⟨by omega, h1, h2⟩, h3⟩
  | none :: _, _, _, h => by simp [interpolatedFrom] at h
  | some c :: cs, k, prev, h => by
    simp only [interpolatedFrom] at h
    by_cases hx : x ≥ c
    · rw [if_pos hx] at h
      obtain ⟨a, b, h1, h2, h3⟩ := interpolateValues_ok h
      exact ⟨0, c, prev, a, b, OBand.here cs 0 prev hx, fun _ => ⟨h1, h2⟩, by simp, h3⟩
    · rw [if_neg hx] at h
      obtain ⟨i, lo, hi, a, b, h1, h2, h3, h4⟩ := interpolatedFrom_ok h
      refine ⟨i + 1, lo, hi, a, b, h1.there (lt_of_not_ge hx), fun hi => ?_, fun hi => h3 (by simpa using hi), h4⟩
      have := h2 (by simpa using hi)
      rwa [show k + 1 + i + 1 = k + (i + 1) + 1 by omega, show k + 1 + i = k + (i + 1) by omega] at this

theorem piecewiseFrom_ok {x minimum r : ℚ} {values : List (ℚ × ℚ)} : ∀ {cs : List (Option ℚ)} {k : Nat} {prev : ℚ},
    piecewiseFrom x minimum values cs k prev = .ok r → ∃ i lo hi p, OBand x cs minimum prev i lo hi ∧
      (i < cs.length → values[k + i]? = some p) ∧ (i = cs.length → values.getLast? = some p) ∧ r = interpolate x lo hi p.2 p.1
  | [], k, prev, h => by
    simp only [piecewiseFrom] at h
    cases hv : values.getLast? with
    | none => rw [hv] at h; cases h
    | some v =>
      rw [hv] at h
      exact ⟨0, minimum, prev, v, OBand.nil x minimum prev, by simp, fun _ => rfl, (Except.ok.inj h).symm⟩
  | none :: _, _, _, h => by simp [piecewiseFrom] at h
  | some c :: cs, k, prev, h => by
    simp only [piecewiseFrom] at h
    by_cases hx : x ≥ c
    · rw [if_pos hx] at h
      cases hv : values[k]? with
      | none => rw [hv] at h; cases h
      | some v =>
        rw [hv] at h
        exact ⟨0, c, prev, v, OBand.here cs minimum prev hx, fun _ => hv, by simp, (Except.ok.inj h).symm⟩
    · rw [if_neg hx] at h
      obtain ⟨i, lo, hi, p, h1, h2, h3, h4⟩ := piecewiseFrom_ok h
      refine ⟨i + 1, lo, hi, p, h1.there (lt_of_not_ge hx), fun hi => ?_, fun hi => h3 (by simpa using hi), h4⟩
      rw [show k + (i + 1) = k + 1 + i by omega]
      exact h2 (by simpa using hi)

theorem indexFrom_ok {x : ℚ} {r : Nat} : ∀ {cs : List (Option ℚ)} {k : Nat}, indexFrom x cs k = .ok r →
    ∃ i, r = k + i ∧ InBand x cs i
  | [], k, h => by
    simp only [indexFrom, Except.ok.injEq] at h
    exact ⟨0, h.symm, (OBand.nil x 0 0).1⟩
  | none :: _, _, h => by simp [indexFrom] at h
  | some c :: cs, k, h => by
    simp only [indexFrom] at h
    by_cases hx : x ≥ c
    · rw [if_pos hx] at h
      exact ⟨0, (Except.ok.inj h).symm, (OBand.here cs 0 0 hx).1⟩
    · rw [if_neg hx] at h
      obtain ⟨i, h1, h2⟩ := indexFrom_ok h
      refine ⟨i + 1, by omega, ⟨by simpa using h2.1, fun j hj => ?_, fun o ho => ?_⟩⟩
      · cases j with
        | zero => exact ⟨c, rfl, lt_of_not_ge hx⟩
        | succ j => rw [List.getElem?_cons_succ]; exact h2.2.1 j (by omega)
      · rw [List.getElem?_cons_succ] at ho; exact h2.2.2 o ho

theorem toOption_ok {ε β : Type} {e : Except ε β} {b : β} : e.toOption = some b ↔ e = .ok b := by
  cases e <;> simp [Except.toOption]

theorem pairUp_ok {N : SMetric → ℚ → Prop} : ∀ {xp fp : List SMetric} {os : List (Option Val)} {pts : List (ℚ × ℚ)},
    xp.length = fp.length →
    List.Forall₂ (fun m (o : Option Val) => Tells N m (o.map Val.num)) ((xp.zip fp).flatMap fun p => [p.1, p.2]) os →
    pairUp os = some pts → List.Forall₂ N xp (pts.map Prod.fst) ∧ List.Forall₂ N fp (pts.map Prod.snd)
  | [], [], _, _, _, h, he => by
    cases h
    obtain rfl := Option.some.inj he
    exact ⟨.nil, .nil⟩
  | x :: xp, f :: fp, os, pts, hl, h, he => by
    simp only [List.zip_cons_cons, List.flatMap_cons, List.cons_append, List.nil_append] at h
    match os, h, he with
    | some a :: some b :: os, .cons h1 (.cons h2 h), he =>
      simp only [pairUp, Option.map_eq_some_iff] at he
      obtain ⟨rest, h3, rfl⟩ := he
      obtain ⟨h4, h5⟩ := pairUp_ok (by simpa using hl) h h3
      exact ⟨.cons ((h1 _).1 rfl) h4, .cons ((h2 _).1 rfl) h5⟩
    | some a :: none :: os, _, he => simp [pairUp] at he
    | none :: b :: os, _, he => simp [pairUp] at he
  | [], _ :: _, _, _, hl, _, _ => by simp at hl
  | _ :: _, [], _, _, hl, _, _ => by simp at hl

end Verif.Load
