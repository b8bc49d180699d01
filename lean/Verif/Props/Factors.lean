import Verif.Spec.Factors
import Mathlib.Tactic.Linarith
import Mathlib.Tactic.Ring
import Mathlib.Tactic.FieldSimp

/-! # C22 (factors force the configured split) and C23 (constant factors), the algebra -/

namespace Verif.Solver

/-! ## Helper lemmas -/

theorem currentValues_spec (σ : Nat → Option ℚ) (fs : List Metric) (vs : List ℚ) :
    currentValues σ fs = .ok vs ↔ fs.map (Metric.get σ) = vs.map some ∧ ∀ v ∈ vs, 0 ≤ v := by
  induction fs generalizing vs with
  | nil => cases vs <;> simp [currentValues]
  | cons f fs ih =>
    simp only [currentValues]
    cases hf : f.get σ with
    | none => cases vs <;> simp [hf]
    | some v =>
      simp only
      by_cases hv : v < 0
      · rw [if_pos hv]
        cases vs with
        | nil => simp
        | cons w ws =>
          simp only [reduceCtorEq, List.map_cons, List.cons.injEq, hf, Option.some.injEq, List.forall_mem_cons, false_iff,
            not_and]
          rintro ⟨rfl, _⟩ h
          linarith
      · rw [if_neg hv]
        cases hr : currentValues σ fs with
        | error e =>
          cases vs with
          | nil => simp
          | cons w ws =>
            have := ih ws
            rw [hr] at this
            simp only [reduceCtorEq, false_iff, not_and] at this
            simp only [reduceCtorEq, List.map_cons, List.cons.injEq, List.forall_mem_cons, false_iff, not_and]
            rintro ⟨_, h⟩ _
            exact this h
        | ok us =>
          cases vs with
          | nil => simp
          | cons w ws =>
            have := ih ws
            rw [hr] at this
            simp only [Except.ok.injEq] at this
            simp only [Except.ok.injEq, List.cons.injEq, List.map_cons, hf, Option.some.injEq, List.forall_mem_cons, this]
            constructor
            · rintro ⟨rfl, h1, h2⟩; exact ⟨⟨rfl, h1⟩, by linarith, h2⟩
            · rintro ⟨⟨rfl, h1⟩, _, h2⟩; exact ⟨rfl, h1, h2⟩

theorem sum_scaled (q : List Nat → ℚ) (c : ℚ) (later : List (List Nat × ℚ)) (h : ∀ p ∈ later, q p.1 = p.2 * c) :
    (later.map (fun p => q p.1)).sum = (later.map (·.2)).sum * c := by
  induction later with
  | nil => simp
  | cons p later ih =>
    rw [List.forall_mem_cons] at h
    simp only [List.map_cons, List.sum_cons, ih h.2, h.1]
    ring

theorem zip_snd {α β : Type} (as : List α) (bs : List β) (h : as.length = bs.length) : (as.zip bs).map (·.2) = bs := by
  induction as generalizing bs with
  | nil => cases bs <;> simp_all
  | cons a as ih => cases bs <;> simp_all

/-! ## C22, proportions -/

/-- **C22 (proportions, acceptance).** Proportions are accepted exactly if there is one fewer than sets of nodes, all have a
current value, none is negative, and they sum to less than one. -/
theorem C22_proportion_accepted_iff (fs : List Metric) (n0 : List Nat) (rest : List (List Nat)) (σ : Nat → Option ℚ) :
    (∃ ps, proportional fs (n0 :: rest) σ = .ok ps) ↔
      fs.length = rest.length ∧ ∃ vs : List ℚ, fs.map (Metric.get σ) = vs.map some ∧ (∀ v ∈ vs, 0 ≤ v) ∧ vs.sum < 1 := by
  simp only [proportional]
  by_cases hl : fs.length = rest.length
  · rw [if_neg (by simpa using hl)]
    cases hv : currentValues σ fs with
    | error e =>
      simp only [reduceCtorEq, exists_false, false_iff, not_and, not_exists]
      intro _ vs h1 h2 _
      rw [(currentValues_spec σ fs vs).2 ⟨h1, h2⟩] at hv
      cases hv
    | ok vs =>
      have h := (currentValues_spec σ fs vs).1 hv
      simp only
      split_ifs with hs
      · simp only [exists_false, false_iff, not_and, not_exists]
        intro _ us h1 _ h3
        have : us = vs := by
          have h4 := h1.symm.trans h.1
          exact List.map_injective_iff.2 (Option.some_injective _) h4
        subst this
        linarith
      · exact ⟨fun _ => ⟨hl, vs, h.1, h.2, by linarith⟩, fun _ => ⟨_, rfl⟩⟩
  · rw [if_pos hl]
    simp [hl]

/-- **C22 (proportions).** If the proportions are accepted and positive, flows satisfy the relations of the pairs exactly if
every later set carries its proportion of the total and the first set carries the remainder. -/
theorem C22_proportion_split (fs : List Metric) (n0 : List Nat) (rest : List (List Nat)) (σ : Nat → Option ℚ) (ps : List Pair)
    (vs : List ℚ) (h : proportional fs (n0 :: rest) σ = .ok ps) (hv : fs.map (Metric.get σ) = vs.map some)
    (hpos : ∀ v ∈ vs, 0 < v) (q : Nat → ℚ) :
    (∀ p ∈ ps, p.Holds q) ↔ ProportionSplit q n0 (rest.zip vs) := by
  have hacc := (C22_proportion_accepted_iff fs n0 rest σ).1 ⟨ps, h⟩
  obtain ⟨hl, us, h1, _, hsum⟩ := hacc
  have hus : us = vs := List.map_injective_iff.2 (Option.some_injective _) (h1.symm.trans hv)
  subst hus
  have hlen : rest.length = us.length := by
    have := congrArg List.length hv
    simp only [List.length_map] at this
    omega
  have hcv : currentValues σ fs = .ok us := (currentValues_spec σ fs us).2 ⟨hv, fun v h => (hpos v h).le⟩
  simp only [proportional, hl, ne_eq, not_true, if_false, hcv] at h
  rw [if_neg (by linarith)] at h
  simp only [Except.ok.injEq] at h
  subst h
  have hz := zip_snd rest us hlen
  have hzpos : ∀ p ∈ rest.zip us, 0 < p.2 := fun p hp => hpos _ (by rw [← hz]; exact List.mem_map_of_mem hp)
  have hf0 : 0 < 1 - us.sum := by linarith
  have hpair : (∀ p ∈ (rest.zip us).map (fun p => (⟨n0, some 1, p.1, negDiv (1 - us.sum) p.2, 0⟩ : Pair)), p.Holds q) ↔
      ∀ p ∈ rest.zip us, setFlow q p.1 = p.2 * (setFlow q n0 / (1 - us.sum)) := by
    simp only [List.forall_mem_map]
    apply forall₂_congr
    intro p hp
    have hp2 := hzpos p hp
    simp only [Pair.Holds, negDiv, if_neg (ne_of_gt hp2), Option.some.injEq]
    constructor
    · rintro ⟨a, b, rfl, rfl, h⟩
      field_simp at h ⊢
      linarith
    · intro h
      refine ⟨1, _, rfl, rfl, ?_⟩
      rw [h]
      field_simp
      ring
  rw [hpair]
  unfold ProportionSplit
  simp only [hz]
  constructor
  · intro h
    have hs := sum_scaled (setFlow q) _ _ h
    have ht : setFlow q n0 + ((rest.zip us).map (fun p => setFlow q p.1)).sum = setFlow q n0 / (1 - us.sum) := by
      rw [hs, hz]
      field_simp
      ring
    rw [ht]
    exact ⟨h, by field_simp⟩
  · rintro ⟨h2, h3⟩ p hp
    have h4 : setFlow q n0 / (1 - us.sum) = setFlow q n0 + ((rest.zip us).map (fun p => setFlow q p.1)).sum := by
      rw [div_eq_iff (ne_of_gt hf0)]
      linarith
    rw [h4]
    exact h2 p hp

/-- Three sets with 20 % and 30 %. -/
example : proportional [.const (1/5), .dyn 0] [[0], [1], [2, 3]] (fun _ => some (3/10))
    = .ok [⟨[0], some 1, [1], some (-5/2), 0⟩, ⟨[0], some 1, [2, 3], some (-5/3), 0⟩] := by decide +kernel

/-- A flow that is split accordingly. -/
example : ProportionSplit (fun n => [5, 2, 1, 2].getD n 0) [0] ([[1], [2, 3]].zip [1/5, 3/10]) := by
  unfold ProportionSplit; decide +kernel

/-- A zero proportion is accepted although its pair has no finite coefficient: negative **or zero** factors should be
rejected. -/
theorem C22_zero_proportion_accepted_refuted :
    ∃ ps, proportional [.dyn 0] [[0], [1]] (fun _ => some 0) = .ok ps ∧ ps.map (·.f1) = [none] :=
  ⟨[⟨[0], some 1, [1], none, 0⟩], by decide +kernel, by decide +kernel⟩

/-! ## C22, ratios -/

theorem ratioLoop_spec (σ : Nat → Option ℚ) (n0 : List Nat) (f0 : ℚ) (xs : List (List Nat × Metric)) (ps : List Pair) :
    ratioLoop σ n0 f0 xs = .ok ps ↔ ∃ vs : List ℚ, xs.map (fun x => x.2.get σ) = vs.map some ∧
      ps = ((xs.map (·.1)).zip vs).map (fun p => ⟨n0, some 1, p.1, negDiv f0 p.2, 0⟩) := by
  induction xs generalizing ps with
  | nil =>
    simp only [ratioLoop, Except.ok.injEq, List.map_nil, List.zip_nil_left]
    constructor
    · rintro rfl; exact ⟨[], rfl, rfl⟩
    · rintro ⟨_, _, rfl⟩; rfl
  | cons x xs ih =>
    obtain ⟨n1, f1⟩ := x
    simp only [ratioLoop]
    cases hf : f1.get σ with
    | none =>
      simp only [reduceCtorEq, false_iff, not_exists, not_and]
      intro vs h
      cases vs <;> simp [hf] at h
    | some v1 =>
      cases hr : ratioLoop σ n0 f0 xs with
      | error e =>
        simp only [reduceCtorEq, false_iff, not_exists, not_and]
        intro vs h _
        cases vs with
        | nil => simp at h
        | cons w ws =>
          simp only [List.map_cons, List.cons.injEq] at h
          have := (ih _).2 ⟨ws, h.2, rfl⟩
          rw [hr] at this; cases this
      | ok us =>
        obtain ⟨vs, h1, h2⟩ := (ih us).1 hr
        simp only [Except.ok.injEq]
        constructor
        · rintro rfl
          exact ⟨v1 :: vs, by simp [hf, h1], by simp [h2]⟩
        · rintro ⟨ws, h3, h4⟩
          cases ws with
          | nil => simp at h3
          | cons w ws =>
            simp only [List.map_cons, List.cons.injEq, hf, Option.some.injEq] at h3
            obtain ⟨rfl, h3⟩ := h3
            have hvw : vs = ws := List.map_injective_iff.2 (Option.some_injective _) (h1.symm.trans h3)
            subst hvw
            simp [h4, h2]

/-- **C22 (ratios, acceptance).** Ratios are accepted exactly if there is one for each set, there is at least one, all have a
current value, and the first is not negative. -/
theorem C22_ratio_accepted_iff (fs : List Metric) (nodes : List (List Nat)) (σ : Nat → Option ℚ) :
    (∃ ps, Solver.ratio fs nodes σ = .ok ps) ↔
      fs.length = nodes.length ∧ ∃ (v : ℚ) (vs : List ℚ), fs.map (Metric.get σ) = (v :: vs).map some ∧ 0 ≤ v := by
  unfold Solver.ratio
  by_cases hl : fs.length = nodes.length
  · rw [if_neg (by simpa using hl)]
    cases nodes with
    | nil =>
      have : fs = [] := List.length_eq_zero_iff.1 (by simpa using hl)
      subst this
      simp
    | cons n0 ns =>
      cases fs with
      | nil => simp at hl
      | cons f0 fs =>
        simp only [List.length_cons, Nat.add_right_cancel_iff] at hl
        have hz1 : (ns.zip fs).map (fun x => x.2.get σ) = fs.map (Metric.get σ) := by
          have := zip_snd ns fs hl.symm
          calc (ns.zip fs).map (fun x => x.2.get σ) = ((ns.zip fs).map (·.2)).map (Metric.get σ) := by
                rw [List.map_map]; rfl
            _ = _ := by rw [this]
        simp only
        cases hf : f0.get σ with
        | none =>
          simp only [reduceCtorEq, exists_false, false_iff, not_and, not_exists]
          intro _ v vs h
          simp [hf] at h
        | some v0 =>
          simp only
          split_ifs with hneg
          · simp only [exists_false, false_iff, not_and, not_exists]
            intro _ v vs h h2
            simp only [List.map_cons, List.cons.injEq, hf, Option.some.injEq] at h
            rw [← h.1] at h2
            linarith
          · simp only [ratioLoop_spec, hz1, List.map_cons, List.cons.injEq, hf, Option.some.injEq]
            constructor
            · rintro ⟨ps, vs, h1, h2⟩
              exact ⟨by simpa using hl, v0, vs, ⟨rfl, h1⟩, by linarith⟩
            · rintro ⟨_, v, vs, ⟨rfl, h1⟩, _⟩
              exact ⟨_, vs, h1, rfl⟩
  · rw [if_pos hl]
    simp [hl]

/-- **C22 (ratios).** If the ratios are accepted and positive, flows satisfy the relations of the pairs exactly if any two sets
carry flow in the ratio of their factors. -/
theorem C22_ratio_split (fs : List Metric) (nodes : List (List Nat)) (σ : Nat → Option ℚ) (ps : List Pair) (vs : List ℚ)
    (h : Solver.ratio fs nodes σ = .ok ps) (hv : fs.map (Metric.get σ) = vs.map some) (hpos : ∀ v ∈ vs, 0 < v) (q : Nat → ℚ) :
    (∀ p ∈ ps, p.Holds q) ↔ RatioSplit q (nodes.zip vs) := by
  obtain ⟨hl, _⟩ := (C22_ratio_accepted_iff fs nodes σ).1 ⟨ps, h⟩
  unfold Solver.ratio at h
  rw [if_neg (by simpa using hl)] at h
  cases nodes with
  | nil => simp at h
  | cons n0 ns =>
    cases fs with
    | nil => simp at hl
    | cons f0 fs =>
      cases vs with
      | nil => simp at hv
      | cons v0 vs =>
        simp only [List.map_cons, List.cons.injEq] at hv
        simp only [List.length_cons, Nat.add_right_cancel_iff] at hl
        have hlen : ns.length = vs.length := by
          have := congrArg List.length hv.2
          simp only [List.length_map] at this
          omega
        have hz1 : (ns.zip fs).map (fun x => x.2.get σ) = fs.map (Metric.get σ) := by
          have := zip_snd ns fs hl.symm
          calc (ns.zip fs).map (fun x => x.2.get σ) = ((ns.zip fs).map (·.2)).map (Metric.get σ) := by
                rw [List.map_map]; rfl
            _ = _ := by rw [this]
        have hzf : (ns.zip fs).map (·.1) = ns := by
          rw [List.map_fst_zip]; omega
        have hv0 : 0 < v0 := hpos v0 (by simp)
        simp only [hv.1] at h
        rw [if_neg (by linarith)] at h
        obtain ⟨us, h1, rfl⟩ := (ratioLoop_spec σ n0 v0 _ ps).1 h
        rw [hz1] at h1
        have hus : us = vs := List.map_injective_iff.2 (Option.some_injective _) (h1.symm.trans hv.2)
        subst hus
        rw [hzf]
        have hz := zip_snd ns us hlen
        have hzpos : ∀ p ∈ ns.zip us, 0 < p.2 := fun p hp =>
          hpos _ (List.mem_cons_of_mem _ (by rw [← hz]; exact List.mem_map_of_mem hp))
        have hpair : (∀ p ∈ (ns.zip us).map (fun p => (⟨n0, some 1, p.1, negDiv v0 p.2, 0⟩ : Pair)), p.Holds q) ↔
            ∀ p ∈ ns.zip us, setFlow q n0 * p.2 = setFlow q p.1 * v0 := by
          simp only [List.forall_mem_map]
          apply forall₂_congr
          intro p hp
          have hp2 := hzpos p hp
          simp only [Pair.Holds, negDiv, if_neg (ne_of_gt hp2), Option.some.injEq]
          constructor
          · rintro ⟨a, b, rfl, rfl, h⟩
            field_simp at h
            linarith
          · intro h
            refine ⟨1, _, rfl, rfl, ?_⟩
            field_simp
            linarith
        rw [hpair]
        unfold RatioSplit
        simp only [List.zip_cons_cons, List.forall_mem_cons]
        constructor
        · intro h
          refine ⟨⟨trivial, h⟩, fun a ha => ⟨(h a ha).symm, fun b hb => ?_⟩⟩
          have h1 := h a ha
          have h2 := h b hb
          have : (setFlow q a.1 * b.2) * v0 = (setFlow q b.1 * a.2) * v0 := by
            calc (setFlow q a.1 * b.2) * v0 = (setFlow q a.1 * v0) * b.2 := by ring
              _ = (setFlow q n0 * a.2) * b.2 := by rw [h1]
              _ = (setFlow q n0 * b.2) * a.2 := by ring
              _ = (setFlow q b.1 * v0) * a.2 := by rw [h2]
              _ = (setFlow q b.1 * a.2) * v0 := by ring
          exact mul_right_cancel₀ (ne_of_gt hv0) this
        · rintro ⟨⟨_, h⟩, _⟩
          exact h

example : Solver.ratio [.const 2, .const 1, .dyn 0] [[0], [1], [2]] (fun _ => some 3)
    = .ok [⟨[0], some 1, [1], some (-2), 0⟩, ⟨[0], some 1, [2], some (-2/3), 0⟩] := by decide +kernel

/-- With a zero first ratio, which is accepted, the ratio of the other sets is not enforced. -/
theorem C22_zero_first_ratio_refuted :
    ∃ ps, Solver.ratio [.const 0, .const 1, .const 1] [[0], [1], [2]] (fun _ => none) = .ok ps ∧
      ∃ q : Nat → ℚ, (∀ p ∈ ps, p.Holds q) ∧ ¬ RatioSplit q ([[0], [1], [2]].zip [0, 1, 1]) := by
  refine ⟨[⟨[0], some 1, [1], some 0, 0⟩, ⟨[0], some 1, [2], some 0, 0⟩], by decide +kernel,
    fun n => if n = 0 then 0 else n, ?_, ?_⟩
  · simp [Pair.Holds, setFlow]
  · unfold RatioSplit
    simp [setFlow]

/-- A negative later ratio is accepted when it varies in time, and then demands flows of opposite sign. -/
theorem C22_negative_ratio_accepted_refuted :
    Solver.ratio [.const 1, .dyn 0] [[0], [1]] (fun _ => some (-1)) = .ok [⟨[0], some 1, [1], some 1, 0⟩] ∧
    constRatio [.const 1, .const (-1)] [[0], [1]] = .error (.negative (-1)) :=
  ⟨by decide +kernel, by decide +kernel⟩

/-! ## C22, coefficients -/

/-- **C22 (coefficients).** Coefficients are accepted exactly for two sets of nodes with a current value for everything; the
pair then demands `f₀ q₀ + f₁ q₁ = rhs`. -/
theorem C22_coefficients (fs : List Metric) (rhs : Option Metric) (nodes : List (List Nat)) (σ : Nat → Option ℚ) (ps : List Pair) :
    Solver.coefficients fs rhs nodes σ = .ok ps ↔
      ∃ n0 n1 f0 f1 v0 v1 r, nodes = [n0, n1] ∧ fs = [f0, f1] ∧ f0.get σ = some v0 ∧ f1.get σ = some v1 ∧
        (match rhs with | none => r = 0 | some m => m.get σ = some r) ∧ ps = [⟨n0, some v0, n1, some v1, r⟩] := by
  unfold Solver.coefficients
  by_cases hl : fs.length = nodes.length
  · rw [if_neg (by simpa using hl)]
    split
    · rename_i n0 n1 f0 f1
      cases h0 : f0.get σ with
      | none =>
        simp only [reduceCtorEq, false_iff, not_exists, not_and]
        rintro a b c d v0 v1 r _ h h' _
        simp only [List.cons.injEq, and_true] at h
        rw [← h.1, h0] at h'; cases h'
      | some v0 =>
        cases h1 : f1.get σ with
        | none =>
          simp only [reduceCtorEq, false_iff, not_exists, not_and]
          rintro a b c d v0 v1 r _ h _ h' _
          simp only [List.cons.injEq, and_true] at h
          rw [← h.2, h1] at h'; cases h'
        | some v1 =>
          cases rhs with
          | none =>
            simp only [Except.ok.injEq]
            constructor
            · rintro rfl; exact ⟨n0, n1, f0, f1, v0, v1, 0, rfl, rfl, h0, h1, rfl, rfl⟩
            · rintro ⟨a, b, c, d, w0, w1, r, ha, hb, hc, hd, rfl, rfl⟩
              simp only [List.cons.injEq, and_true] at ha hb
              obtain ⟨rfl, rfl⟩ := ha
              obtain ⟨rfl, rfl⟩ := hb
              rw [h0] at hc; rw [h1] at hd
              simp only [Option.some.injEq] at hc hd
              rw [hc, hd]
          | some m =>
            cases hm : m.get σ with
            | none =>
              simp only [hm, reduceCtorEq, false_iff, not_exists, false_and, and_false, not_false_eq_true, implies_true]
            | some r =>
              simp only [hm, Except.ok.injEq]
              constructor
              · rintro rfl; exact ⟨n0, n1, f0, f1, v0, v1, r, rfl, rfl, h0, h1, rfl, rfl⟩
              · rintro ⟨a, b, c, d, w0, w1, r', ha, hb, hc, hd, he, rfl⟩
                simp only [List.cons.injEq, and_true] at ha hb
                obtain ⟨rfl, rfl⟩ := ha
                obtain ⟨rfl, rfl⟩ := hb
                rw [h0] at hc; rw [h1] at hd
                simp only [Option.some.injEq] at hc hd he
                rw [hc, hd, he]
    · rename_i hno
      simp only [reduceCtorEq, false_iff, not_exists, not_and]
      rintro a b c d v0 v1 r rfl rfl
      exact absurd rfl (hno a b c d rfl)
  · rw [if_pos hl]
    simp only [reduceCtorEq, false_iff, not_exists, not_and]
    rintro a b c d v0 v1 r rfl rfl
    simp at hl

/-! ## C23 -/

/-- A pair whose factors are known. -/
def Pair.toConst (p : Pair) : CPair := ⟨p.nodes0, some p.f0, p.nodes1, some p.f1, p.rhs⟩

theorem constValues_const (fs : List Metric) (hc : fs.all (fun m => m.const?.isSome) = true) (vs : List (Option ℚ))
    (h : constValues fs = .ok vs) (σ : Nat → Option ℚ) : ∃ us, currentValues σ fs = .ok us ∧ vs = us.map some := by
  induction fs generalizing vs with
  | nil => simp only [constValues, Except.ok.injEq] at h; subst h; exact ⟨[], rfl, rfl⟩
  | cons f fs ih =>
    simp only [List.all_cons, Bool.and_eq_true] at hc
    cases f with
    | dyn k => simp [Metric.const?] at hc
    | const v =>
      simp only [constValues, Metric.const?] at h
      simp only [currentValues, Metric.get]
      split_ifs at h ⊢ with hv
      cases hr : constValues fs with
      | error e => simp [hr] at h
      | ok ws =>
        simp only [hr, Except.ok.injEq] at h
        obtain ⟨us, h1, h2⟩ := ih hc.2 ws hr
        rw [h1]
        exact ⟨v :: us, rfl, by rw [← h, h2]; rfl⟩

theorem constRatioLoop_const (n0 : List Nat) (v0 : ℚ) (xs : List (List Nat × Metric))
    (hc : ∀ x ∈ xs, x.2.const?.isSome = true) (cps : List CPair) (h : constRatioLoop n0 (some v0) xs = .ok cps)
    (σ : Nat → Option ℚ) : ∃ ps, ratioLoop σ n0 v0 xs = .ok ps ∧ cps = ps.map Pair.toConst := by
  induction xs generalizing cps with
  | nil => simp only [constRatioLoop, Except.ok.injEq] at h; subst h; exact ⟨[], rfl, rfl⟩
  | cons x xs ih =>
    obtain ⟨n1, f1⟩ := x
    rw [List.forall_mem_cons] at hc
    cases f1 with
    | dyn k => simp [Metric.const?] at hc
    | const v =>
      simp only [constRatioLoop, Metric.const?] at h
      split_ifs at h
      cases hr : constRatioLoop n0 (some v0) xs with
      | error e => simp [hr] at h
      | ok ws =>
        simp only [hr, Except.ok.injEq] at h
        obtain ⟨us, h1, h2⟩ := ih hc.2 ws hr
        simp only [ratioLoop, Metric.get, h1]
        exact ⟨_, rfl, by rw [← h, h2]; rfl⟩

/-- **C23 (agreement).** If all factors are constant and accepted at setup, the pairs computed at setup are complete and equal
to the pairs computed in any later state. -/
theorem C23_constant_pairs_agree (f : Factors) (nodes : List (List Nat)) (hc : f.isConstant = true) (cps : List CPair)
    (h : f.constPairs nodes = .ok cps) (σ : Nat → Option ℚ) : ∃ ps, f.pairs nodes σ = .ok ps ∧ cps = ps.map Pair.toConst := by
  cases f with
  | proportion fs =>
    simp only [Factors.isConstant] at hc
    simp only [Factors.constPairs, constProportional] at h
    simp only [Factors.pairs, proportional]
    cases nodes with
    | nil => simp at h
    | cons n0 rest =>
      simp only at h ⊢
      split_ifs at h ⊢ with hl
      cases hv : constValues fs with
      | error e => simp [hv] at h
      | ok vs =>
        obtain ⟨us, h1, rfl⟩ := constValues_const fs hc vs hv σ
        simp only [hv, List.any_map] at h
        have hany : (us.any (Option.isNone ∘ some)) = false := by simp
        rw [hany] at h
        simp only [Bool.false_eq_true, if_false, List.filterMap_map] at h
        have hfm : us.filterMap (id ∘ some) = us := by simp
        rw [hfm] at h
        rw [h1]
        simp only
        split_ifs at h ⊢ with hs
        simp only [Except.ok.injEq] at h
        refine ⟨_, rfl, ?_⟩
        rw [← h, List.map_map, List.zip_map_right, List.map_map]
        rfl
  | ratio fs =>
    simp only [Factors.isConstant] at hc
    simp only [Factors.constPairs, constRatio] at h
    simp only [Factors.pairs, Solver.ratio]
    split_ifs at h ⊢ with hl
    cases nodes with
    | nil => simp at h
    | cons n0 ns =>
      cases fs with
      | nil => simp at h
      | cons f0 fs =>
        simp only [List.all_cons, Bool.and_eq_true] at hc
        cases f0 with
        | dyn k => simp [Metric.const?] at hc
        | const v0 =>
          simp only [Metric.const?, Metric.get] at h ⊢
          split_ifs at h ⊢
          exact constRatioLoop_const n0 v0 _
            (fun x hx => List.all_eq_true.1 hc.2 x.2 (List.of_mem_zip hx).2) cps h σ
  | coefficients fs rhs =>
    simp only [Factors.isConstant, Bool.and_eq_true] at hc
    simp only [Factors.constPairs, constCoefficients] at h
    simp only [Factors.pairs, Solver.coefficients]
    split_ifs at h ⊢ with hl
    split at h
    · rename_i n0 n1 f0 f1
      simp only [List.all_cons, List.all_nil, Bool.and_true, Bool.and_eq_true] at hc
      simp only [Except.ok.injEq] at h
      cases f0 with
      | dyn k => simp [Metric.const?] at hc
      | const v0 =>
        cases f1 with
        | dyn k => simp [Metric.const?] at hc
        | const v1 =>
          cases rhs with
          | none => exact ⟨_, rfl, h.symm⟩
          | some m =>
            cases m with
            | dyn k => simp [Metric.const?] at hc
            | const r => exact ⟨_, rfl, h.symm⟩
    · simp at h

example : (Factors.ratio [.const 2, .const 1]).constPairs [[0], [1]]
    = .ok [⟨[0], some (some 1), [1], some (some (-2)), 0⟩] := by decide +kernel

/-- **C23 (setup and step).** Whatever is known of the factors at setup is what every later step computes; a pair known in full
also has the right-hand side of the step, provided a varying right-hand side comes with a varying factor. -/
theorem C23_pairs_agree (f : Factors) (nodes : List (List Nat)) (σ : Nat → Option ℚ) (cps : List CPair) (ps : List Pair)
    (hc : f.constPairs nodes = .ok cps) (hp : f.pairs nodes σ = .ok ps) (hr : f.RhsSeen) : List.Forall₂ Agree cps ps := by
  have hget : ∀ (m : Metric) (v : ℚ), m.const? = some v → m.get σ = some v := by
    intro m v h
    cases m with
    | const w => exact h
    | dyn k => cases h
  cases f with
  | proportion fs =>
    simp only [Factors.constPairs, constProportional] at hc
    simp only [Factors.pairs, proportional] at hp
    cases nodes with
    | nil => simp at hc
    | cons n0 rest =>
      simp only at hc hp
      split_ifs at hc hp with hl
      cases hcv : constValues fs with
      | error e => simp [hcv] at hc
      | ok vs =>
        cases hpv : currentValues σ fs with
        | error e => simp [hpv] at hp
        | ok us =>
          simp only [hcv] at hc
          simp only [hpv] at hp
          have hspec := (currentValues_spec σ fs us).1 hpv
          have hvs : vs = fs.map Metric.const? := by
            clear hc hp hl hpv hspec hr
            induction fs generalizing vs with
            | nil => simp only [constValues, Except.ok.injEq] at hcv; subst hcv; rfl
            | cons f fs ih =>
              simp only [constValues] at hcv
              cases hf : f.const? with
              | none =>
                simp only [hf] at hcv
                cases hr : constValues fs with
                | error e => simp [hr] at hcv
                | ok ws =>
                  simp only [hr, Except.ok.injEq] at hcv
                  subst hcv
                  rw [List.map_cons, hf, ih ws hr]
              | some v =>
                simp only [hf] at hcv
                split_ifs at hcv
                cases hr : constValues fs with
                | error e => simp [hr] at hcv
                | ok ws =>
                  simp only [hr, Except.ok.injEq] at hcv
                  subst hcv
                  rw [List.map_cons, hf, ih ws hr]
          have hlv : us.length = fs.length := by
            have := congrArg List.length hspec.1
            simpa using this.symm
          by_cases hany : vs.any Option.isNone = true
          · rw [if_pos hany] at hc
            split_ifs at hp
            simp only [Except.ok.injEq] at hc hp
            subst hc hp
            rw [List.forall₂_map_left_iff, List.forall₂_map_right_iff, List.forall₂_iff_get]
            have h1 : (rest.zip vs).length = rest.length := by simp only [List.length_zip, hvs, List.length_map]; omega
            have h2 : (rest.zip us).length = rest.length := by simp only [List.length_zip]; omega
            refine ⟨by rw [h1, h2], ?_⟩
            intro i hi1 hi2
            refine ⟨rfl, ?_, ?_, ?_, ?_⟩
            · simp
            · intro x hx; simp only [Option.some.injEq] at hx; exact hx
            · intro x hx; simp at hx
            · intro _ hx; simp at hx
          · rw [if_neg hany] at hc
            have heq : vs = us.map some := by
              have hall : ∀ f ∈ fs, ∃ v, f.const? = some v := by
                intro f hf
                by_contra hcon
                apply hany
                rw [hvs, List.any_eq_true]
                refine ⟨f.const?, List.mem_map_of_mem hf, ?_⟩
                cases h : f.const? with
                | none => rfl
                | some v => exact absurd ⟨v, h⟩ hcon
              rw [hvs, ← hspec.1]
              apply List.map_congr_left
              intro f hf
              obtain ⟨v, hv⟩ := hall f hf
              rw [hv, hget f v hv]
            have hsum : (vs.filterMap id).sum = us.sum := by
              rw [heq, List.filterMap_map]
              simp
            simp only [hsum] at hc
            split_ifs at hc hp
            simp only [Except.ok.injEq] at hc hp
            subst hc hp
            rw [heq, List.forall₂_map_left_iff, List.forall₂_map_right_iff, List.forall₂_iff_get]
            have h1 : (rest.zip (us.map some)).length = rest.length := by simp only [List.length_zip, List.length_map]; omega
            have h2 : (rest.zip us).length = rest.length := by simp only [List.length_zip]; omega
            refine ⟨by rw [h1, h2], ?_⟩
            intro i hi1 hi2
            refine ⟨rfl, ?_, ?_, ?_, ?_⟩
            · simp
            · intro x hx; simp only [Option.some.injEq] at hx; exact hx
            · intro x hx; simpa using hx
            · intro _ _; rfl
  | ratio fs =>
    simp only [Factors.constPairs, constRatio] at hc
    simp only [Factors.pairs, Solver.ratio] at hp
    split_ifs at hc hp
    have key : ∀ (n0 : List Nat) (o : Option ℚ) (v0 : ℚ) (ho : ∀ w, o = some w → w = v0) (xs : List (List Nat × Metric))
        (cps : List CPair) (ps : List Pair), constRatioLoop n0 o xs = .ok cps → ratioLoop σ n0 v0 xs = .ok ps →
        List.Forall₂ Agree cps ps := by
      intro n0 o v0 ho xs
      induction xs with
      | nil =>
        intro cps ps h1 h2
        simp only [constRatioLoop, ratioLoop, Except.ok.injEq] at h1 h2
        subst h1 h2; exact .nil
      | cons x xs ih =>
        obtain ⟨n1, f1⟩ := x
        intro cps ps h1 h2
        simp only [constRatioLoop, ratioLoop] at h1 h2
        cases hg : f1.get σ with
        | none => simp [hg] at h2
        | some v1 =>
          simp only [hg] at h2
          cases hr2 : ratioLoop σ n0 v0 xs with
          | error e => simp [hr2] at h2
          | ok ps' =>
            simp only [hr2, Except.ok.injEq] at h2
            subst h2
            cases hcst : f1.const? with
            | none =>
              simp only [hcst] at h1
              cases hr1 : constRatioLoop n0 o xs with
              | error e => simp [hr1] at h1
              | ok cps' =>
                simp only [hr1, Except.ok.injEq] at h1
                subst h1
                exact .cons ⟨rfl, rfl, fun x hx => by simpa using hx, fun x hx => by simp at hx, fun _ _ => rfl⟩ (ih _ _ hr1 hr2)
            | some w =>
              simp only [hcst] at h1
              have hw : w = v1 := by
                have := hget f1 w hcst
                rw [hg] at this
                simpa using this.symm
              split_ifs at h1
              cases hr1 : constRatioLoop n0 o xs with
              | error e => simp [hr1] at h1
              | ok cps' =>
                simp only [hr1, Except.ok.injEq] at h1
                subst h1
                refine .cons ⟨rfl, rfl, fun x hx => by simpa using hx, fun x hx => ?_, fun _ _ => rfl⟩ (ih _ _ hr1 hr2)
                cases o with
                | none => simp at hx
                | some o =>
                  simp only [Option.map_some, Option.some.injEq] at hx
                  rw [← hx, ho o rfl, hw]
    cases nodes with
    | nil => simp at hc
    | cons n0 ns =>
      cases fs with
      | nil => simp at hc
      | cons f0 fs =>
        simp only at hc hp
        cases hg : f0.get σ with
        | none => simp [hg] at hp
        | some v0 =>
          simp only [hg] at hp
          split_ifs at hp
          cases hcst : f0.const? with
          | none => simp only [hcst] at hc; exact key n0 none v0 (by simp) _ _ _ hc hp
          | some w =>
            simp only [hcst] at hc
            split_ifs at hc
            have hw : w = v0 := by
              have := hget f0 w hcst
              rw [hg] at this
              simpa using this.symm
            exact key n0 (some w) v0 (fun w' h => by rw [← hw]; simpa using h.symm) _ _ _ hc hp
  | coefficients fs rhs =>
    obtain ⟨n0, n1, f0, f1, v0, v1, r, rfl, rfl, h0, h1, hrhs, rfl⟩ := (C22_coefficients fs rhs nodes σ ps).1 hp
    simp only [Factors.constPairs, constCoefficients, List.length_cons, List.length_nil, ne_eq, not_true_eq_false, if_false,
      Except.ok.injEq] at hc
    subst hc
    refine .cons ⟨rfl, rfl, ?_, ?_, ?_⟩ .nil
    · intro x hx
      cases hcst : f0.const? with
      | none => simp [hcst] at hx
      | some w =>
        have := hget f0 w hcst
        rw [h0] at this
        simp only [hcst, Option.map_some, Option.some.injEq] at hx this
        rw [← hx, this]
    · intro x hx
      cases hcst : f1.const? with
      | none => simp [hcst] at hx
      | some w =>
        have := hget f1 w hcst
        rw [h1] at this
        simp only [hcst, Option.map_some, Option.some.injEq] at hx this
        rw [← hx, this]
    · intro k0 k1
      cases rhs with
      | none => simpa using hrhs.symm
      | some m =>
        cases m with
        | const w => simpa [Metric.get, Metric.const?] using hrhs
        | dyn k =>
          obtain ⟨f, hf, hn⟩ := hr
          simp only [Option.isSome_map] at k0 k1
          simp only [List.mem_cons, List.not_mem_nil, or_false] at hf
          rcases hf with rfl | rfl
          · rw [hn] at k0; simp at k0
          · rw [hn] at k1; simp at k1

/-- Constant coefficients with a right-hand side that varies in time: the pair computed at setup is complete, so its row is
fixed, but its right-hand side is zero and not the current value. -/
theorem C23_varying_rhs_ignored_refuted :
    (Factors.coefficients [.const 1, .const 1] (some (.dyn 0))).constPairs [[0], [1]]
      = .ok [⟨[0], some (some 1), [1], some (some 1), 0⟩] ∧
    (Factors.coefficients [.const 1, .const 1] (some (.dyn 0))).pairs [[0], [1]] (fun _ => some 7)
      = .ok [⟨[0], some 1, [1], some 1, 7⟩] :=
  ⟨by decide +kernel, by decide +kernel⟩

end Verif.Solver
