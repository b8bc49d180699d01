import Verif.Lemmas.SchemaLoss

/-! # Factors over several sets of nodes -/

namespace Verif.Solver

theorem zip_fst {α β : Type} (as : List α) (bs : List β) (h : as.length = bs.length) : (as.zip bs).map (·.1) = as := by
  induction as generalizing bs with
  | nil => cases bs <;> simp_all
  | cons a as ih => cases bs <;> simp_all

theorem proportion_flows {fs : List Metric} {sets : List (List Nat)} {σ : Nat → Option ℚ} {ps : List Pair} {q : Nat → ℚ}
    (h : proportional fs sets σ = .ok ps) (hp : ∀ p ∈ ps, p.Holds q) :
    ∃ vs : List ℚ, fs.map (Metric.get σ) = vs.map some ∧ (∀ v ∈ vs, 0 < v) ∧ vs.sum < 1 ∧
      List.Forall₂ (fun x v => x = v * (sets.map (setFlow q)).sum) (sets.map (setFlow q)).tail vs := by
  cases sets with
  | nil => simp [proportional] at h
  | cons n0 rest =>
    obtain ⟨hl, vs, hv, h0, hsum⟩ := (C22_proportion_accepted_iff fs n0 rest σ).1 ⟨ps, h⟩
    have hlen : rest.length = vs.length := by
      have := congrArg List.length hv
      simp only [List.length_map] at this
      omega
    have hcv : currentValues σ fs = .ok vs := (currentValues_spec σ fs vs).2 ⟨hv, h0⟩
    have h' := h
    simp only [proportional, hl, ne_eq, not_true, if_false, hcv] at h'
    rw [if_neg (by linarith)] at h'
    simp only [Except.ok.injEq] at h'
    have hpos : ∀ v ∈ vs, 0 < v := by
      intro v hvm
      have hz := zip_snd rest vs hlen
      rw [← hz] at hvm
      obtain ⟨p, hpm, rfl⟩ := List.mem_map.1 hvm
      subst h'
      obtain ⟨a, b, _, h2, _⟩ := hp _ (List.mem_map_of_mem hpm)
      unfold negDiv at h2
      by_cases hz0 : p.2 = 0
      · simp [hz0] at h2
      · exact lt_of_le_of_ne (h0 _ (hz ▸ List.mem_map_of_mem hpm)) (Ne.symm hz0)
    obtain ⟨h1, _⟩ := (C22_proportion_split fs n0 rest σ ps vs h hv hpos q).1 hp
    refine ⟨vs, hv, hpos, hsum, ?_⟩
    simp only [List.map_cons, List.tail_cons, List.sum_cons]
    rw [List.forall₂_map_left_iff, List.forall₂_iff_zip]
    refine ⟨hlen, ?_⟩
    intro a b hab
    have := h1 (a, b) hab
    have e : ((rest.zip vs).map (fun p => setFlow q p.1)) = rest.map (setFlow q) := by
      conv_rhs => rw [← zip_fst rest vs hlen]
      rw [List.map_map]
      rfl
    rw [e] at this
    exact this

theorem ratio_flows {fs : List Metric} {sets : List (List Nat)} {σ : Nat → Option ℚ} {ps : List Pair} {q : Nat → ℚ}
    (h : Solver.ratio fs sets σ = .ok ps) (hp : ∀ p ∈ ps, p.Holds q) :
    ∃ (x0 v0 : ℚ) (vs : List ℚ), fs.map (Metric.get σ) = (v0 :: vs).map some ∧ 0 ≤ v0 ∧ (sets.map (setFlow q)).head? = some x0 ∧
      (∀ v ∈ vs, v ≠ 0) ∧ List.Forall₂ (fun x v => x * v0 = x0 * v) (sets.map (setFlow q)).tail vs := by
  obtain ⟨hl, v0, vs, hv, h0⟩ := (C22_ratio_accepted_iff fs sets σ).1 ⟨ps, h⟩
  unfold Solver.ratio at h
  rw [if_neg (by simpa using hl)] at h
  cases sets with
  | nil => simp at h
  | cons n0 ns =>
    cases fs with
    | nil => simp at hl
    | cons f0 fs =>
      simp only [List.map_cons, List.cons.injEq] at hv
      simp only [hv.1, not_lt.2 h0, if_false] at h
      obtain ⟨us, h1, h2⟩ := (ratioLoop_spec σ n0 v0 (ns.zip fs) ps).1 h
      have hlen : ns.length = fs.length := by simpa using hl.symm
      have hus : us = vs := by
        have : (ns.zip fs).map (fun x => x.2.get σ) = fs.map (Metric.get σ) := by
          conv_rhs => rw [← zip_snd ns fs hlen]
          rw [List.map_map]; rfl
        rw [this, hv.2] at h1
        exact (List.map_injective_iff.2 (Option.some_injective _) h1).symm
      subst hus
      rw [zip_fst ns fs hlen] at h2
      have hlen' : ns.length = us.length := by
        have := congrArg List.length hv.2
        simp only [List.length_map] at this
        omega
      have key : ∀ p ∈ ns.zip us, p.2 ≠ 0 ∧ setFlow q p.1 * v0 = setFlow q n0 * p.2 := by
        intro p hpm
        subst h2
        obtain ⟨a, b, ha, hb, he⟩ := hp _ (List.mem_map_of_mem hpm)
        unfold negDiv at hb
        by_cases hz : p.2 = 0
        · simp [hz] at hb
        · simp only [hz, if_false, Option.some.injEq] at ha hb
          refine ⟨hz, ?_⟩
          subst ha hb
          simp only at he
          field_simp at he
          linarith
      refine ⟨setFlow q n0, v0, us, by simp [hv], h0, by simp, ?_, ?_⟩
      · intro v hvm
        rw [← zip_snd ns us hlen'] at hvm
        obtain ⟨p, hpm, rfl⟩ := List.mem_map.1 hvm
        exact (key p hpm).1
      · simp only [List.map_cons, List.tail_cons]
        rw [List.forall₂_map_left_iff, List.forall₂_iff_zip]
        exact ⟨hlen', fun {a b} hab => (key (a, b) hab).2⟩

theorem coefficients_flows {fs : List Metric} {rhs : Option Metric} {sets : List (List Nat)} {σ : Nat → Option ℚ} {ps : List Pair} {q : Nat → ℚ}
    (h : Solver.coefficients fs rhs sets σ = .ok ps) (hp : ∀ p ∈ ps, p.Holds q) :
    ∃ v0 v1 x0 x1 c : ℚ, fs.map (Metric.get σ) = [some v0, some v1] ∧ sets.map (setFlow q) = [x0, x1] ∧
      (match rhs with | none => c = 0 | some m => m.get σ = some c) ∧ v0 * x0 + v1 * x1 = c := by
  obtain ⟨n0, n1, f0, f1, v0, v1, r, rfl, rfl, h1, h2, h3, rfl⟩ := (C22_coefficients fs rhs sets σ ps).1 h
  obtain ⟨a, b, ha, hb, he⟩ := hp _ List.mem_cons_self
  simp only [Option.some.injEq] at ha hb
  subst ha hb
  exact ⟨v0, v1, setFlow q n0, setFlow q n1, r, by simp [h1, h2], rfl, by cases rhs <;> exact h3, he⟩

end Verif.Solver
