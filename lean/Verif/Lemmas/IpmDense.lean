import Verif.Spec.Ipm
import Mathlib.Algebra.Order.BigOperators.Group.Finset
import Mathlib.Algebra.BigOperators.Ring.Finset
import Mathlib.Tactic.Linarith
import Mathlib.Tactic.Ring
import Mathlib.Tactic.FieldSimp

/-! # Cholesky factors of dense matrices -/

namespace Verif.Ipm

open Finset

variable {K : Type} [Field K]

/-- Triangular systems have solutions. -/
theorem exists_back (L : Nat → Nat → K) (hup : ∀ i k, i < k → L i k = 0) :
    ∀ (r : Nat) (t : Nat → K), (∀ i < r, L i i ≠ 0) → ∃ u : Nat → K, ∀ k < r, ∑ i ∈ range r, L i k * u i = t k := by
  intro r
  induction r with
  | zero => intro t _; exact ⟨fun _ => 0, fun k hk => absurd hk (Nat.not_lt_zero _)⟩
  | succ r ih =>
    intro t hd
    have hr := hd r (Nat.lt_succ_self r)
    obtain ⟨u, hu⟩ := ih (fun k => t k - L r k * (t r / L r r)) (fun i hi => hd i (by omega))
    refine ⟨fun i => if i = r then t r / L r r else u i, ?_⟩
    have hsum : ∀ k, ∑ i ∈ range r, L i k * (if i = r then t r / L r r else u i) = ∑ i ∈ range r, L i k * u i := by
      intro k
      apply sum_congr rfl
      intro i hi
      rw [mem_range] at hi
      rw [if_neg (by omega)]
    intro k hk
    rw [sum_range_succ, hsum]
    simp only [if_true]
    rcases Nat.lt_or_ge k r with h | h
    · rw [hu k h]; ring
    · have : k = r := by omega
      subst this
      rw [sum_eq_zero (fun i hi => by rw [hup i k (mem_range.mp hi), zero_mul]), zero_add]
      field_simp

variable [LinearOrder K] [IsStrictOrderedRing K]

omit [LinearOrder K] [IsStrictOrderedRing K] in
/-- The products of the rows of a factor. -/
theorem factor_sum {L N : Nat → Nat → K} (hup : ∀ i k, i < k → L i k = 0) {n : Nat}
    (h : ∀ i < n, ∀ j ≤ i, ∑ k ∈ range (j + 1), L i k * L j k = N i j) (hsym : ∀ i j, N i j = N j i) {i j : Nat} (hi : i < n)
    (hj : j < n) : ∑ k ∈ range n, L i k * L j k = N i j := by
  have aux : ∀ i j, i < n → j ≤ i → ∑ k ∈ range n, L i k * L j k = N i j := by
    intro i j hi hj
    rw [← h i hi j hj]
    symm
    apply sum_subset
    · intro k hk; rw [mem_range] at *; omega
    · intro k _ hk
      rw [mem_range] at hk
      rw [hup j k (by omega), mul_zero]
  rcases Nat.le_total j i with h1 | h1
  · exact aux i j hi h1
  · rw [hsym i j, ← aux j i hj h1]
    exact sum_congr rfl (fun k _ => mul_comm _ _)

/-- If `N` is positive definite, or positive semidefinite and no pivot is zero, numbers calculated as in the decomposition are its
factor, with positive diagonal. -/
theorem chol_main {L N : Nat → Nat → K} {sqrt : K → K} (hs : IsSqrt sqrt) (n : Nat) (hup : ∀ i k, i < k → L i k = 0)
    (hsym : ∀ i j, N i j = N j i)
    (hpd : ∀ r < n, ∀ v : Nat → K, v r ≠ 0 →
      0 < ∑ i ∈ range n, ∑ j ∈ range n, v i * N i j * v j ∨
      0 ≤ ∑ i ∈ range n, ∑ j ∈ range n, v i * N i j * v j ∧ L r r ≠ 0)
    (hd : ∀ r < n, L r r = sqrt |N r r - ∑ k ∈ range r, L r k * L r k|)
    (ho : ∀ r < n, ∀ c < r, L r c = (N r c - ∑ k ∈ range c, L r k * L c k) / L c c) :
    ∀ r < n, 0 < L r r ∧ ∀ c ≤ r, ∑ k ∈ range (c + 1), L r k * L c k = N r c := by
  intro r
  induction r using Nat.strong_induction_on with
  | _ r ih =>
    intro hr
    have hoff : ∀ c < r, ∑ k ∈ range (c + 1), L r k * L c k = N r c := by
      intro c hc
      have hpos := (ih c hc (by omega)).1
      rw [sum_range_succ, ho r hr c hc]
      field_simp
      ring
    have hpiv' : 0 < N r r - ∑ k ∈ range r, L r k * L r k ∨ 0 ≤ N r r - ∑ k ∈ range r, L r k * L r k ∧ L r r ≠ 0 := by
      obtain ⟨u, hu⟩ := exists_back L hup r (fun k => L r k) (fun i hi => ne_of_gt (ih i hi (by omega)).1)
      have hN : ∀ i < r, ∀ j < r, ∑ k ∈ range r, L i k * L j k = N i j := fun i hi j hj =>
        factor_sum hup (fun i hi j hj => (ih i hi (by omega)).2 j hj) hsym hi hj
      have hNr : ∀ i < r, ∑ k ∈ range r, L r k * L i k = N r i := by
        intro i hi
        rw [← hoff i hi]
        symm
        apply sum_subset
        · intro k hk; rw [mem_range] at *; omega
        · intro k _ hk
          rw [mem_range] at hk
          rw [hup i k (by omega), mul_zero]
      have hv := hpd r hr (fun i => if i < r then u i else if i = r then -1 else 0) (by simp)
      have hcut : ∀ f : Nat → K, (∀ i, r < i → f i = 0) → ∑ i ∈ range n, f i = ∑ i ∈ range (r + 1), f i := by
        intro f hf
        symm
        apply sum_subset
        · intro k hk; rw [mem_range] at *; omega
        · intro k _ hk
          rw [mem_range] at hk
          exact hf k (by omega)
      rw [hcut _ (fun i hi => sum_eq_zero (fun j _ => by simp [show ¬ i < r by omega, show i ≠ r by omega]))] at hv
      rw [sum_congr rfl (fun i _ => hcut _ (fun j hj => by simp [show ¬ j < r by omega, show j ≠ r by omega]))] at hv
      rw [sum_range_succ, sum_range_succ] at hv
      simp only [lt_irrefl, if_false, if_true] at hv
      have e1 : ∑ i ∈ range r, ∑ j ∈ range (r + 1), (if i < r then u i else if i = r then -1 else 0) * N i j *
          (if j < r then u j else if j = r then -1 else 0) =
          ∑ i ∈ range r, ∑ j ∈ range r, u i * N i j * u j - ∑ i ∈ range r, u i * N r i := by
        rw [← sum_sub_distrib]
        apply sum_congr rfl
        intro i hi
        rw [mem_range] at hi
        rw [sum_range_succ]
        simp only [lt_irrefl, if_false, if_true, if_pos hi]
        rw [sum_congr rfl (g := fun j => u i * N i j * u j) (fun j hj => by rw [if_pos (mem_range.mp hj)]), hsym i r]
        ring
      have e2 : ∑ j ∈ range r, -1 * N r j * (if j < r then u j else if j = r then -1 else 0) = - ∑ i ∈ range r, u i * N r i := by
        rw [← sum_neg_distrib]
        apply sum_congr rfl
        intro j hj
        rw [if_pos (mem_range.mp hj)]; ring
      have q1 : ∑ i ∈ range r, u i * N r i = ∑ k ∈ range r, L r k * L r k := by
        calc ∑ i ∈ range r, u i * N r i = ∑ i ∈ range r, ∑ k ∈ range r, u i * (L r k * L i k) := by
              apply sum_congr rfl
              intro i hi
              rw [← hNr i (mem_range.mp hi), mul_sum]
          _ = ∑ k ∈ range r, L r k * ∑ i ∈ range r, L i k * u i := by
              rw [sum_comm]
              apply sum_congr rfl
              intro k _
              rw [mul_sum]
              exact sum_congr rfl (fun i _ => by ring)
          _ = _ := sum_congr rfl (fun k hk => by rw [hu k (mem_range.mp hk)])
      have q2 : ∑ i ∈ range r, ∑ j ∈ range r, u i * N i j * u j = ∑ k ∈ range r, L r k * L r k := by
        calc ∑ i ∈ range r, ∑ j ∈ range r, u i * N i j * u j
            = ∑ i ∈ range r, ∑ j ∈ range r, ∑ k ∈ range r, (L i k * u i) * (L j k * u j) := by
              apply sum_congr rfl
              intro i hi
              apply sum_congr rfl
              intro j hj
              rw [← hN i (mem_range.mp hi) j (mem_range.mp hj), mul_sum, sum_mul]
              exact sum_congr rfl (fun k _ => by ring)
          _ = ∑ k ∈ range r, (∑ i ∈ range r, L i k * u i) * (∑ j ∈ range r, L j k * u j) := by
              rw [sum_congr rfl (fun i _ => sum_comm), sum_comm]
              apply sum_congr rfl
              intro k _
              rw [sum_mul_sum]
          _ = _ := sum_congr rfl (fun k hk => by rw [hu k (mem_range.mp hk)])
      rw [e1, e2, q1, q2] at hv
      rcases hv with hv | ⟨hv, hne⟩
      · left; linarith
      · right; exact ⟨by linarith, hne⟩
    have hpiv : 0 < N r r - ∑ k ∈ range r, L r k * L r k := by
      rcases hpiv' with h | ⟨h, hne⟩
      · exact h
      · rcases lt_or_eq_of_le h with h1 | h1
        · exact h1
        · exfalso
          apply hne
          have h2 := hd r hr
          rw [← h1, abs_zero] at h2
          have h3 := hs.sq 0 (le_refl _)
          rw [h2]
          exact mul_self_eq_zero.mp h3
    have hsq : L r r * L r r = N r r - ∑ k ∈ range r, L r k * L r k := by
      rw [hd r hr, abs_of_pos hpiv]
      exact hs.sq _ (le_of_lt hpiv)
    have hpos : 0 < L r r := by
      have h0 : 0 ≤ L r r := by rw [hd r hr]; exact hs.nonneg _
      rcases lt_or_eq_of_le h0 with h | h
      · exact h
      · rw [← h] at hsq; simp only [mul_zero] at hsq; linarith
    refine ⟨hpos, ?_⟩
    intro c hc
    rcases Nat.lt_or_ge c r with h | h
    · exact hoff c h
    · have : c = r := by omega
      subst this
      rw [sum_range_succ, hsq]; ring

omit [LinearOrder K] [IsStrictOrderedRing K] in
/-- Solving with the factor forwards and then backwards solves the system. -/
theorem chol_solves {L N : Nat → Nat → K} {n : Nat} (hup : ∀ i k, i < k → L i k = 0) (hsym : ∀ i j, N i j = N j i)
    (h : ∀ r < n, ∀ c ≤ r, ∑ k ∈ range (c + 1), L r k * L c k = N r c) {t b v : Nat → K}
    (hf : ∀ i < n, ∑ j ∈ range n, L i j * t j = b i) (hb : ∀ i < n, ∑ r ∈ range n, L r i * v r = t i) :
    ∀ i < n, ∑ j ∈ range n, N i j * v j = b i := by
  intro i hi
  rw [← hf i hi]
  calc ∑ j ∈ range n, N i j * v j = ∑ j ∈ range n, ∑ k ∈ range n, L i k * (L j k * v j) := by
        apply sum_congr rfl
        intro j hj
        rw [← factor_sum hup h hsym hi (mem_range.mp hj), sum_mul]
        exact sum_congr rfl (fun k _ => by ring)
    _ = ∑ k ∈ range n, L i k * ∑ j ∈ range n, L j k * v j := by
        rw [sum_comm]
        exact sum_congr rfl (fun k _ => by rw [mul_sum])
    _ = _ := sum_congr rfl (fun k hk => by rw [hb k (mem_range.mp hk)])

omit [LinearOrder K] [IsStrictOrderedRing K] in
/-- The quadratic form of the normal matrix. -/
theorem normal_quad {a : Csr K} {wlen : Nat} {pt : Point K} (hw : pt.w.length = wlen) (v : Nat → K) :
    ∑ i ∈ range a.nrows, ∑ j ∈ range a.nrows, v i * normalEntry a pt i j * v j =
      (∑ i ∈ range a.nrows, if i < wlen then rd pt.w i / rd pt.y i * (v i * v i) else 0) +
      ∑ c ∈ range a.ncols, rd pt.x c / rd pt.z c *
        ((∑ i ∈ range a.nrows, v i * a.entry i c) * (∑ i ∈ range a.nrows, v i * a.entry i c)) := by
  have h1 : ∀ i ∈ range a.nrows, ∑ j ∈ range a.nrows, v i * normalEntry a pt i j * v j =
      (if i < wlen then rd pt.w i / rd pt.y i * (v i * v i) else 0) +
      ∑ j ∈ range a.nrows, ∑ c ∈ range a.ncols, rd pt.x c / rd pt.z c * ((v i * a.entry i c) * (v j * a.entry j c)) := by
    intro i hi
    have h2 : ∀ j ∈ range a.nrows, v i * normalEntry a pt i j * v j =
        (if i = j then (if i < wlen then rd pt.w i / rd pt.y i * (v i * v i) else 0) else 0) +
        ∑ c ∈ range a.ncols, rd pt.x c / rd pt.z c * ((v i * a.entry i c) * (v j * a.entry j c)) := by
      intro j _
      unfold normalEntry
      rw [hw, mul_add, add_mul, mul_sum, sum_mul]
      congr 1
      · by_cases hij : i = j
        · subst hij
          by_cases hw' : i < wlen
          · simp only [hw', and_self, if_true]; ring
          · simp only [hw', and_false, if_false, if_true]; ring
        · simp only [hij, false_and, if_false]; ring
      · exact sum_congr rfl (fun c _ => by ring)
    rw [sum_congr rfl h2, sum_add_distrib]
    congr 1
    rw [sum_ite_eq, if_pos hi]
  rw [sum_congr rfl h1, sum_add_distrib]
  congr 1
  rw [sum_congr rfl (fun i _ => sum_comm), sum_comm]
  apply sum_congr rfl
  intro c _
  rw [sum_mul_sum, mul_sum]
  exact sum_congr rfl (fun i _ => by rw [mul_sum])

/-- The terms of the quadratic form are not negative. -/
theorem normal_terms {a : Csr K} {wlen : Nat} {pt : Point K} (hin : Inside a wlen pt) (v : Nat → K) :
    (∀ i ∈ range a.nrows, 0 ≤ (if i < wlen then rd pt.w i / rd pt.y i * (v i * v i) else 0)) ∧
    ∀ c ∈ range a.ncols, 0 ≤ rd pt.x c / rd pt.z c *
        ((∑ i ∈ range a.nrows, v i * a.entry i c) * (∑ i ∈ range a.nrows, v i * a.entry i c)) := by
  refine ⟨?_, ?_⟩
  · intro i _
    split
    · rename_i h
      exact mul_nonneg (le_of_lt (div_pos (hin.wPos i h) (hin.yPos i h))) (mul_self_nonneg _)
    · exact le_refl _
  · intro c hc
    rw [mem_range] at hc
    exact mul_nonneg (le_of_lt (div_pos (hin.xPos c hc) (hin.zPos c hc))) (mul_self_nonneg _)

/-- The normal matrix is positive semidefinite. -/
theorem normal_psd {a : Csr K} {wlen : Nat} {pt : Point K} (hin : Inside a wlen pt) (v : Nat → K) :
    0 ≤ ∑ i ∈ range a.nrows, ∑ j ∈ range a.nrows, v i * normalEntry a pt i j * v j := by
  obtain ⟨hA, hB⟩ := normal_terms hin v
  rw [normal_quad hin.w]
  exact add_nonneg (sum_nonneg hA) (sum_nonneg hB)

/-- The normal matrix is positive definite. -/
theorem normal_pd {a : Csr K} {wlen : Nat} {pt : Point K} (hin : Inside a wlen pt) (hind : a.Independent wlen) (v : Nat → K)
    (hv : ∃ i < a.nrows, v i ≠ 0) :
    0 < ∑ i ∈ range a.nrows, ∑ j ∈ range a.nrows, v i * normalEntry a pt i j * v j := by
  obtain ⟨hA, hB⟩ := normal_terms hin v
  rw [normal_quad hin.w]
  have sA := sum_nonneg hA
  have sB := sum_nonneg hB
  by_contra hcon
  have zA : ∑ i ∈ range a.nrows, (if i < wlen then rd pt.w i / rd pt.y i * (v i * v i) else 0) = 0 := by linarith
  have zB : ∑ c ∈ range a.ncols, rd pt.x c / rd pt.z c *
        ((∑ i ∈ range a.nrows, v i * a.entry i c) * (∑ i ∈ range a.nrows, v i * a.entry i c)) = 0 := by linarith
  rw [sum_eq_zero_iff_of_nonneg hA] at zA
  rw [sum_eq_zero_iff_of_nonneg hB] at zB
  have hz : ∀ i < a.nrows, v i = 0 := by
    apply hind v
    · intro i hi
      have h := zA i (mem_range.mpr (lt_of_lt_of_le hi hin.slacks))
      rw [if_pos hi] at h
      rcases mul_eq_zero.mp h with h1 | h1
      · exact absurd h1 (ne_of_gt (div_pos (hin.wPos i hi) (hin.yPos i hi)))
      · exact mul_self_eq_zero.mp h1
    · intro c hc
      have h := zB c (mem_range.mpr hc)
      rcases mul_eq_zero.mp h with h1 | h1
      · exact absurd h1 (ne_of_gt (div_pos (hin.xPos c hc) (hin.zPos c hc)))
      · exact mul_self_eq_zero.mp h1
  obtain ⟨i, hi, hne⟩ := hv
  exact hne (hz i hi)

omit [LinearOrder K] [IsStrictOrderedRing K] in
theorem normal_symm (a : Csr K) (pt : Point K) (i j : Nat) : normalEntry a pt i j = normalEntry a pt j i := by
  unfold normalEntry
  congr 1
  · by_cases h : i = j
    · subst h; rfl
    · rw [if_neg (fun hh => h hh.1), if_neg (fun hh => h hh.1.symm)]
  · exact sum_congr rfl (fun c _ => by ring)

end Verif.Ipm
