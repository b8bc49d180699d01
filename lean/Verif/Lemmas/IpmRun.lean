import Verif.Lemmas.IpmStep
import Mathlib.Algebra.Order.BigOperators.Ring.Finset
import Mathlib.Data.List.Forall2

/-! # Iterations, the stopping test, and groups of lanes -/

namespace Verif.Ipm

open Finset

variable {K : Type} [Field K] [LinearOrder K]

omit [LinearOrder K] in
theorem mkSetup_inv {a : Csr K} {p d o : K} {st : Setup K} (h : mkSetup a p d o = some st) (hne : a.NoEmptyRow) :
    a.Ok ∧ ∃ s, Inv a a.nrows 0 s ∧ st = ⟨a, a.transpose, ixOf s a.nrows, p, d, o⟩ := by
  unfold mkSetup at h
  by_cases hc : a.check = true
  · rw [if_pos hc] at h
    have hok := (Csr.check_iff a).mp hc
    obtain ⟨s, hs, he⟩ := fromMatrix_some hok hne
    rw [he] at h
    exact ⟨hok, s, hs, (Option.some.inj h).symm⟩
  · rw [if_neg hc] at h; exact absurd h (by simp)

omit [LinearOrder K] in
theorem gap_eq {a : Csr K} {wlen : Nat} {pt : Point K} (h : Sized a wlen pt) : gap pt = complementarity a pt := by
  unfold gap complementarity
  rw [dot_eq _ _ a.ncols h.z (Or.inl h.x), dot_eq _ _ pt.w.length rfl (Or.inr (by rw [h.w, h.y]; exact h.slacks))]

omit [LinearOrder K] in
theorem update_zero (x d : List K) : vectorUpdate x d 1 0 = x := by
  unfold vectorUpdate
  apply List.ext_getElem
  · simp
  · intro i h1 h2
    simp only [List.getElem_map, List.getElem_range, rd, one_mul, zero_mul, add_zero]
    rw [List.getD_eq_getElem _ _ h2]

/-- A finished lane does not move. -/
theorem advance_finished (sqrt : K → K) (s : Setup K) (ln : Lane K) (h : finished sqrt s ln = true) :
    (advance sqrt s ln).pt = ln.pt := by
  unfold advance
  simp only [h, if_true, update_zero]

theorem advance_bc (sqrt : K → K) (s : Setup K) (ln : Lane K) : (advance sqrt s ln).b = ln.b ∧ (advance sqrt s ln).c = ln.c :=
  ⟨rfl, rfl⟩

theorem finished_congr (sqrt : K → K) (s : Setup K) {ln ln' : Lane K} (hb : ln.b = ln'.b) (hc : ln.c = ln'.c)
    (hp : ln.pt = ln'.pt) : finished sqrt s ln = finished sqrt s ln' := by
  unfold finished; rw [hb, hc, hp]

theorem finished_stays (sqrt : K → K) (s : Setup K) (ln : Lane K) (h : finished sqrt s ln = true) :
    finished sqrt s (advance sqrt s ln) = true := by
  rw [finished_congr sqrt s (ln := advance sqrt s ln) (ln' := ln) rfl rfl (advance_finished sqrt s ln h)]; exact h

/-- The points a solution ends with. -/
def points (r : Option (List (Lane K))) : Option (List (Point K)) := r.map fun ls => ls.map (·.pt)

theorem points_single (sqrt : K → K) (s : Setup K) (n : Nat) (ln : Lane K) :
    points (solveLoop sqrt s (n + 1) [ln]) =
      if finished sqrt s ln then some [ln.pt] else points (solveLoop sqrt s n [advance sqrt s ln]) := by
  rw [solveLoop]
  simp only [List.all_cons, List.all_nil, Bool.and_true, List.map_cons, List.map_nil]
  by_cases h : finished sqrt s ln
  · rw [if_pos h, if_pos h]; rfl
  · rw [if_neg h, if_neg h]

theorem solveLoop_group (sqrt : K → K) (s : Setup K) : ∀ (n : Nat) (lanes : List (Lane K)) (pts : List (Point K)), lanes ≠ [] →
    (points (solveLoop sqrt s n lanes) = some pts ↔
      List.Forall₂ (fun ln p => points (solveLoop sqrt s n [ln]) = some [p]) lanes pts) := by
  intro n
  induction n with
  | zero =>
    intro lanes pts hne
    constructor
    · intro h; simp [solveLoop, points] at h
    · intro h
      cases h with
      | nil => exact absurd rfl hne
      | cons h1 _ => simp [solveLoop, points] at h1
  | succ n ih =>
    intro lanes pts hne
    rw [solveLoop]
    by_cases hall : lanes.all (finished sqrt s) = true
    · rw [if_pos hall]
      have hf : ∀ ln ∈ lanes, finished sqrt s ln = true := by simpa using hall
      have hone : ∀ ln ∈ lanes, ∀ p, points (solveLoop sqrt s (n + 1) [ln]) = some [p] ↔ ln.pt = p := by
        intro ln hl p
        rw [points_single, if_pos (hf ln hl)]
        simp
      have key : ∀ (ls : List (Lane K)) (ps : List (Point K)), (∀ ln ∈ ls, ∀ p,
          points (solveLoop sqrt s (n + 1) [ln]) = some [p] ↔ ln.pt = p) →
          (points (some ls) = some ps ↔
            List.Forall₂ (fun ln p => points (solveLoop sqrt s (n + 1) [ln]) = some [p]) ls ps) := by
        intro ls
        induction ls with
        | nil =>
          intro ps _
          cases ps with
          | nil => simp [points]
          | cons p ps => simp [points]
        | cons ln ls ih2 =>
          intro ps hh
          have ih3 := fun ps => ih2 ps (fun l hl => hh l (List.mem_cons_of_mem _ hl))
          cases ps with
          | nil => simp [points]
          | cons p ps =>
            rw [List.forall₂_cons, hh ln (List.mem_cons_self) p, ← ih3 ps]
            simp [points]
      exact key lanes pts hone
    · rw [if_neg hall]
      have hnf : ∃ ln ∈ lanes, finished sqrt s ln = false := by
        by_contra hcon
        apply hall
        rw [List.all_eq_true]
        intro ln hl
        by_contra hh
        exact hcon ⟨ln, hl, by simpa using hh⟩
      have hne' : lanes.map (advance sqrt s) ≠ [] := by simpa using hne
      rw [ih _ pts hne', List.forall₂_map_left_iff]
      cases n with
      | zero =>
        constructor
        · intro h
          cases h with
          | nil => exact absurd rfl hne
          | cons h1 _ => simp [solveLoop, points] at h1
        · intro h
          obtain ⟨ln, hl, hf⟩ := hnf
          exfalso
          have : ∀ (ls : List (Lane K)) (ps : List (Point K)), ln ∈ ls →
              ¬ List.Forall₂ (fun ln p => points (solveLoop sqrt s 1 [ln]) = some [p]) ls ps := by
            intro ls
            induction ls with
            | nil => intro ps hm; exact absurd hm List.not_mem_nil
            | cons l ls ih2 =>
              intro ps hm hF
              cases hF with
              | cons h1 h2 =>
                rcases List.mem_cons.mp hm with rfl | hm
                · rw [points_single, if_neg (by simp [hf])] at h1
                  simp [solveLoop, points] at h1
                · exact ih2 _ hm h2
          exact this lanes pts hl h
      | succ n =>
        have hpt : ∀ ln : Lane K, ∀ p, points (solveLoop sqrt s (n + 1) [advance sqrt s ln]) = some [p] ↔
            points (solveLoop sqrt s (n + 1 + 1) [ln]) = some [p] := by
          intro ln p
          rw [points_single sqrt s (n + 1) ln]
          by_cases hf : finished sqrt s ln = true
          · rw [if_pos hf, points_single, if_pos (finished_stays sqrt s ln hf), advance_finished sqrt s ln hf]
          · rw [if_neg hf]
        constructor
        · intro h; exact List.Forall₂.imp (fun ln p hh => (hpt ln p).mp hh) h
        · intro h; exact List.Forall₂.imp (fun ln p hh => (hpt ln p).mpr hh) h

/-- What comes out has gone through the iterations and passed the test. -/
theorem solveLoop_reached (sqrt : K → K) (s : Setup K) : ∀ (n : Nat) (ln : Lane K) (p : Point K),
    points (solveLoop sqrt s n [ln]) = some [p] →
    ∃ k < n, ((advance sqrt s)^[k] ln).pt = p ∧ finished sqrt s ((advance sqrt s)^[k] ln) = true := by
  intro n
  induction n with
  | zero => intro ln p h; simp [solveLoop, points] at h
  | succ n ih =>
    intro ln p h
    rw [points_single] at h
    by_cases hf : finished sqrt s ln = true
    · rw [if_pos hf] at h
      exact ⟨0, by omega, by simpa using h, hf⟩
    · rw [if_neg hf] at h
      obtain ⟨k, hk, h1, h2⟩ := ih _ _ h
      exact ⟨k + 1, by omega, by rw [Function.iterate_succ_apply]; exact h1, by rw [Function.iterate_succ_apply]; exact h2⟩

theorem iterate_bc (sqrt : K → K) (s : Setup K) (k : Nat) (ln : Lane K) :
    ((advance sqrt s)^[k] ln).b = ln.b ∧ ((advance sqrt s)^[k] ln).c = ln.c := by
  induction k generalizing ln with
  | zero => exact ⟨rfl, rfl⟩
  | succ k ih => rw [Function.iterate_succ_apply]; exact ih _

variable [IsStrictOrderedRing K]

/-- The solution of a positive definite system is unique. -/
theorem normal_unique {a : Csr K} {wlen : Nat} {pt : Point K} (hin : Inside a wlen pt) (hind : a.Independent wlen)
    {u v : Nat → K} (h : ∀ i < a.nrows, ∑ j ∈ range a.nrows, normalEntry a pt i j * u j = ∑ j ∈ range a.nrows, normalEntry a pt i j * v j) :
    ∀ i < a.nrows, u i = v i := by
  by_contra hcon
  push Not at hcon
  obtain ⟨i, hi, hne⟩ := hcon
  have hpos := normal_pd hin hind (fun i => u i - v i) ⟨i, hi, sub_ne_zero.mpr hne⟩
  have hz : ∑ i ∈ range a.nrows, ∑ j ∈ range a.nrows, (u i - v i) * normalEntry a pt i j * (u j - v j) = 0 := by
    apply sum_eq_zero
    intro i hi
    have hh := h i (mem_range.mp hi)
    have : ∑ j ∈ range a.nrows, (u i - v i) * normalEntry a pt i j * (u j - v j) =
        (u i - v i) * (∑ j ∈ range a.nrows, normalEntry a pt i j * u j - ∑ j ∈ range a.nrows, normalEntry a pt i j * v j) := by
      rw [← sum_sub_distrib, mul_sum]
      exact sum_congr rfl (fun j _ => by ring)
    rw [this, hh, sub_self, mul_zero]
  rw [hz] at hpos
  exact lt_irrefl _ hpos

theorem sqrt_mono {sqrt : K → K} (hs : IsSqrt sqrt) {u v : K} (hu : 0 ≤ u) (h : u ≤ v) : sqrt u ≤ sqrt v := by
  by_contra hcon
  push Not at hcon
  have h1 := hs.sq u hu
  have h2 := hs.sq v (le_trans hu h)
  have h3 := hs.nonneg v
  nlinarith [hs.nonneg u]

/-- One number is not larger than the length. -/
theorem abs_le_euclid {sqrt : K → K} (hs : IsSqrt sqrt) {n i : Nat} (hi : i < n) (f : Nat → K) : |f i| ≤ euclid sqrt n f := by
  have hsum : |f i| * |f i| ≤ ∑ i ∈ range n, f i * f i := by
    rw [abs_mul_abs_self]
    exact single_le_sum (f := fun i => f i * f i) (fun j _ => mul_self_nonneg _) (mem_range.mpr hi)
  have h0 : 0 ≤ ∑ i ∈ range n, f i * f i := sum_nonneg (fun j _ => mul_self_nonneg _)
  have h1 := hs.sq _ h0
  have h2 := hs.nonneg (∑ i ∈ range n, f i * f i)
  unfold euclid
  by_contra hcon
  push Not at hcon
  nlinarith [abs_nonneg (f i)]

omit [IsStrictOrderedRing K] in
theorem euclid_nonneg {sqrt : K → K} (hs : IsSqrt sqrt) (n : Nat) (f : Nat → K) : 0 ≤ euclid sqrt n f := hs.nonneg _

/-- The inequality of Cauchy and Schwarz. -/
theorem cauchy {sqrt : K → K} (hs : IsSqrt sqrt) (n : Nat) (f g : Nat → K) :
    ∑ i ∈ range n, f i * g i ≤ euclid sqrt n f * euclid sqrt n g := by
  have h := sum_mul_sq_le_sq_mul_sq (range n) f g
  simp only [pow_two] at h
  have hf0 : 0 ≤ ∑ i ∈ range n, f i * f i := sum_nonneg (fun j _ => mul_self_nonneg _)
  have hg0 : 0 ≤ ∑ i ∈ range n, g i * g i := sum_nonneg (fun j _ => mul_self_nonneg _)
  have hf := hs.sq _ hf0
  have hg := hs.sq _ hg0
  have e1 := euclid_nonneg hs n f
  have e2 := euclid_nonneg hs n g
  have hp : 0 ≤ euclid sqrt n f * euclid sqrt n g := mul_nonneg e1 e2
  have hsq : (∑ i ∈ range n, f i * g i) * (∑ i ∈ range n, f i * g i) ≤
      (euclid sqrt n f * euclid sqrt n g) * (euclid sqrt n f * euclid sqrt n g) := by
    have : (euclid sqrt n f * euclid sqrt n g) * (euclid sqrt n f * euclid sqrt n g) =
        (∑ i ∈ range n, f i * f i) * ∑ i ∈ range n, g i * g i := by
      unfold euclid
      rw [mul_mul_mul_comm, hf, hg]
    rw [this]; exact h
  exact le_of_sq_le hp hsq
where
  le_of_sq_le {u v : K} (hv : 0 ≤ v) (h : u * u ≤ v * v) : u ≤ v := by
    by_contra hcon
    push Not at hcon
    nlinarith

end Verif.Ipm
