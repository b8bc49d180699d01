import Verif.Spec.Kinds
import Verif.Lemmas.ParamRunStage
import Mathlib.Tactic.Linarith
import Mathlib.Tactic.Ring
import Mathlib.Tactic.FieldSimp

/-!
# What metrics return is what they show
-/

namespace Verif.Kinds

open Verif.Params

variable {W : Type} {bs : List Builder} {h : Record W}

/-- The result of a metric is what it shows. -/
def Result (bs : List Builder) (h : Record W) (stage : Stage) (t : Nat) (phase : Phase) (s : Source W)
    (o : Option Val) : Prop := ∀ v, o = some v ↔ Shows bs h stage t phase s v

theorem Means.unique' (hn : (bs.map Builder.name).Nodup) {stage : Stage} {t : Nat} {u : Use} {v v' : Val}
    (h1 : Means bs h ⟨0, 0⟩ stage t u v) (h2 : Means bs h ⟨0, 0⟩ stage t u v') : v = v' := by
  obtain ⟨m, sh, ht, hg, rfl⟩ := h1
  obtain ⟨m', sh', ht', hg', rfl⟩ := h2
  rw [ht] at ht'
  obtain rfl := Option.some.inj ht'
  rw [hg.unique hn hg']

/-- The references to parameters among the metrics. -/
def usesOf (ss : List (Source W)) (phase : Phase) : List Use := ss.map fun s => ⟨s.ref, phase⟩

theorem fetch_param {w : Option W} {r : Ref} (hr : r.target.isSome) (ss : List (Source W)) (v : Val) (vs : List Val) :
    fetch w (.param r :: ss) (v :: vs) = some v :: fetch w ss vs := by
  cases r <;> simp_all [Ref.target, fetch]

theorem fetch_param_none {w : Option W} {r : Ref} (hr : r.target = none) (ss : List (Source W)) (vs : List Val) :
    fetch w (.param r :: ss) vs = none :: fetch w ss vs := by
  cases r <;> simp_all [Ref.target, fetch]

/-- What is fetched with the values of the references is what the metrics show. -/
theorem fetch_result (hn : (bs.map Builder.name).Nodup) {stage : Stage} {t : Nat} {phase : Phase} :
    ∀ (ss : List (Source W)) (vs : List Val), Given bs h ⟨0, 0⟩ stage t (usesOf ss phase) vs →
      List.Forall₂ (Result bs h stage t phase) ss (fetch (visible h stage t) ss vs)
  | [], vs, _ => by simp [fetch]
  | .lit x :: ss, vs, hg => by
    have hg' : Given bs h ⟨0, 0⟩ stage t (usesOf ss phase) vs := by
      simpa [Given, usesOf, Source.ref, Ref.target] using hg
    rw [fetch]
    refine .cons (fun v => ?_) (fetch_result hn ss vs hg')
    simp only [Shows, Option.some_inj]
    exact ⟨fun e => e.symm, fun e => e.symm⟩
  | .node f :: ss, vs, hg => by
    have hg' : Given bs h ⟨0, 0⟩ stage t (usesOf ss phase) vs := by
      simpa [Given, usesOf, Source.ref, Ref.target] using hg
    rw [fetch]
    refine .cons (fun v => ?_) (fetch_result hn ss vs hg')
    simp only [Shows, Option.bind_eq_some_iff]
  | .param r :: ss, vs, hg => by
    cases hr : r.target with
    | none =>
      have hg' : Given bs h ⟨0, 0⟩ stage t (usesOf ss phase) vs := by
        simpa [Given, usesOf, Source.ref, hr] using hg
      rw [fetch_param_none hr]
      refine .cons (fun v => ?_) (fetch_result hn ss vs hg')
      simp only [Shows, Means, hr, reduceCtorEq, false_and, exists_false]
    | some m =>
      have hg' : List.Forall₂ (Means bs h ⟨0, 0⟩ stage t)
          (⟨r, phase⟩ :: (usesOf ss phase).filter fun u => u.ref.target.isSome) vs := by
        simpa [Given, usesOf, Source.ref, hr] using hg
      cases hg' with
      | @cons _ v _ vs' h1 h2 =>
        rw [fetch_param (by simp [hr])]
        refine .cons (fun v' => ?_) (fetch_result hn ss vs' h2)
        simp only [Shows, Option.some_inj]
        exact ⟨fun e => e ▸ h1, fun e => Means.unique' hn h1 e⟩

/-- When all references lead to a value, the values exist. -/
theorem given_exists {stage : Stage} {t : Nat} :
    ∀ (us : List Use), (∀ u ∈ us, u.ref.target.isSome → ∃ sh, Gives bs u sh) → ∃ vs, Given bs h ⟨0, 0⟩ stage t us vs
  | [], _ => ⟨[], by simp [Given]⟩
  | u :: us, hu => by
    obtain ⟨vs, hv⟩ := given_exists us fun u hm => hu u (List.mem_cons_of_mem _ hm)
    cases hr : u.ref.target with
    | none => exact ⟨vs, by simpa [Given, hr] using hv⟩
    | some m =>
      obtain ⟨sh, hg⟩ := hu u List.mem_cons_self (by simp [hr])
      refine ⟨h.meaning ⟨0, 0⟩ stage t m sh :: vs, ?_⟩
      unfold Given
      rw [List.filter_cons_of_pos (by simp [hr])]
      exact .cons ⟨m, sh, hr, hg, rfl⟩ hv

/-- The references of a parameter that can be calculated lead to values. -/
theorem Takes.gives {b : Builder} {form : Form} (ht : Takes bs b form) (u : Use) (hu : u ∈ b.uses)
    (hr : u.ref.target.isSome) : ∃ sh, Gives bs u sh := by
  obtain ⟨shapes, h1, -⟩ := ht
  obtain ⟨sh, h2⟩ : ∃ sh, (u.ref = .literal ∧ sh = .literal) ∨ (u.ref = .component ∧ sh = .component) ∨ Gives bs u sh := by
    generalize b.uses = us at h1 hu
    induction h1 with
    | nil => cases hu
    | @cons a sh _ _ h3 _ ih =>
      rcases List.mem_cons.1 hu with rfl | hm
      · exact ⟨sh, h3⟩
      · exact ih hm
  rcases h2 with ⟨h3, -⟩ | ⟨h3, -⟩ | h3
  · rw [h3] at hr; cases hr
  · rw [h3] at hr; cases hr
  · exact ⟨sh, h3⟩

section Results

variable {stage : Stage} {t : Nat} {phase : Phase}

theorem Result.num {s : Source W} {o : Option Val} (hr : Result bs h stage t phase s o) (q : ℚ) :
    Num bs h stage t phase s q ↔ ∃ v, o = some v ∧ q = v.num := by
  simp only [Num, hr _]

theorem Result.idx {s : Source W} {o : Option Val} (hr : Result bs h stage t phase s o) (n : Nat) :
    Idx bs h stage t phase s n ↔ ∃ v, o = some v ∧ n = v.idx := by
  simp only [Idx, hr _]

theorem eq_ofF {v : Val} {q : ℚ} : ofF q = v ↔ Number v q := by
  obtain ⟨a, b⟩ := v
  simp only [ofF, Number, Val.mk.injEq]
  exact ⟨fun h => ⟨h.1.symm, h.2.symm⟩, fun h => ⟨h.1.symm, h.2.symm⟩⟩

theorem eq_ofU {v : Val} {n : Nat} : ofU n = v ↔ Index v n := by
  obtain ⟨a, b⟩ := v
  simp only [ofU, Index, Val.mk.injEq]
  exact ⟨fun h => ⟨h.2.symm, h.1.symm⟩, fun h => ⟨h.2.symm, h.1.symm⟩⟩

theorem one {s : Source W} {xs : List (Option Val)} (h1 : List.Forall₂ (Result bs h stage t phase) [s] xs) :
    ∃ o, xs = [o] ∧ Result bs h stage t phase s o := by
  cases h1 with
  | cons a b => cases b; exact ⟨_, rfl, a⟩

theorem two {s s' : Source W} {xs : List (Option Val)} (h1 : List.Forall₂ (Result bs h stage t phase) [s, s'] xs) :
    ∃ o o', xs = [o, o'] ∧ Result bs h stage t phase s o ∧ Result bs h stage t phase s' o' := by
  cases h1 with
  | cons a b =>
    obtain ⟨o', rfl, h2⟩ := one b
    exact ⟨_, _, rfl, a, h2⟩

/-- A calculation from one number. -/
theorem one_iff {s : Source W} {o : Option Val} (hr : Result bs h stage t phase s o) {f : ℚ → ℚ} {v : Val} :
    o.map (fun x => ofF (f x.num)) = some v ↔ ∃ x, Num bs h stage t phase s x ∧ Number v (f x) := by
  simp only [hr.num, Option.map_eq_some_iff, eq_ofF]
  constructor
  · rintro ⟨x, hx, hv⟩; exact ⟨_, ⟨x, hx, rfl⟩, hv⟩
  · rintro ⟨_, ⟨x, hx, rfl⟩, hv⟩; exact ⟨x, hx, hv⟩

theorem collect_iff {xs : List (Option Val)} {vs : List Val} : collect xs = some vs ↔ xs = vs.map some := by
  induction xs generalizing vs with
  | nil => cases vs <;> simp [collect]
  | cons o xs ih =>
    cases o with
    | none => cases vs <;> simp [collect]
    | some v =>
      simp only [collect, Option.map_eq_some_iff, ih]
      cases vs with
      | nil => simp
      | cons v' vs => simp [and_comm]

theorem collect_num {ss : List (Source W)} {xs : List (Option Val)}
    (hr : List.Forall₂ (Result bs h stage t phase) ss xs) (qs : List ℚ) :
    List.Forall₂ (Num bs h stage t phase) ss qs ↔ ∃ vs, collect xs = some vs ∧ qs = vs.map Val.num := by
  induction hr generalizing qs with
  | nil => cases qs <;> simp [collect]
  | @cons s o ss xs h1 _ ih =>
    constructor
    · intro hq
      cases hq with
      | cons h2 h3 =>
        obtain ⟨v, rfl, rfl⟩ := (h1.num _).1 h2
        obtain ⟨vs, h4, rfl⟩ := (ih _).1 h3
        exact ⟨v :: vs, by simp [collect, h4], rfl⟩
    · rintro ⟨vs, h2, rfl⟩
      cases o with
      | none => cases h2
      | some v =>
        obtain ⟨vs', h3, rfl⟩ := Option.map_eq_some_iff.1 h2
        exact .cons ((h1.num _).2 ⟨v, rfl, rfl⟩) ((ih _).2 ⟨vs', h3, rfl⟩)

theorem collect_idx {ss : List (Source W)} {xs : List (Option Val)}
    (hr : List.Forall₂ (Result bs h stage t phase) ss xs) (ns : List Nat) :
    List.Forall₂ (Idx bs h stage t phase) ss ns ↔ ∃ vs, collect xs = some vs ∧ ns = vs.map Val.idx := by
  induction hr generalizing ns with
  | nil => cases ns <;> simp [collect]
  | @cons s o ss xs h1 _ ih =>
    constructor
    · intro hq
      cases hq with
      | cons h2 h3 =>
        obtain ⟨v, rfl, rfl⟩ := (h1.idx _).1 h2
        obtain ⟨vs, h4, rfl⟩ := (ih _).1 h3
        exact ⟨v :: vs, by simp [collect, h4], rfl⟩
    · rintro ⟨vs, h2, rfl⟩
      cases o with
      | none => cases h2
      | some v =>
        obtain ⟨vs', h3, rfl⟩ := Option.map_eq_some_iff.1 h2
        exact .cons ((h1.idx _).2 ⟨v, rfl, rfl⟩) ((ih _).2 ⟨vs', h3, rfl⟩)

end Results

/-! ## Aggregates -/

theorem foldl_max (qs : List ℚ) (a q : ℚ) :
    qs.foldl (fun total v => Max.max total v) a = q ↔ q ∈ a :: qs ∧ ∀ x ∈ a :: qs, x ≤ q := by
  induction qs generalizing a with
  | nil =>
    simp only [List.foldl_nil, List.mem_singleton, forall_eq]
    exact ⟨fun h => ⟨h.symm, h.le⟩, fun h => h.1.symm⟩
  | cons b qs ih =>
    rw [List.foldl_cons, ih]
    rcases le_total a b with hab | hab
    · rw [max_eq_right hab]
      simp only [List.mem_cons, forall_eq_or_imp]
      constructor
      · rintro ⟨h1, h2, h3⟩; exact ⟨Or.inr h1, hab.trans h2, h2, h3⟩
      · rintro ⟨h1, h2, h3, h4⟩
        refine ⟨?_, h3, h4⟩
        rcases h1 with rfl | h1
        · exact Or.inl (le_antisymm hab h3)
        · exact h1
    · rw [max_eq_left hab]
      simp only [List.mem_cons, forall_eq_or_imp]
      constructor
      · rintro ⟨h1, h2, h3⟩
        exact ⟨h1.imp_right Or.inr, h2, hab.trans h2, h3⟩
      · rintro ⟨h1, h2, h3, h4⟩
        refine ⟨?_, h2, h4⟩
        rcases h1 with rfl | rfl | h1
        · exact Or.inl rfl
        · exact Or.inl (le_antisymm hab h2)
        · exact Or.inr h1

theorem foldl_min (qs : List ℚ) (a q : ℚ) :
    qs.foldl (fun total v => Min.min total v) a = q ↔ q ∈ a :: qs ∧ ∀ x ∈ a :: qs, q ≤ x := by
  induction qs generalizing a with
  | nil =>
    simp only [List.foldl_nil, List.mem_singleton, forall_eq]
    exact ⟨fun h => ⟨h.symm, h.ge⟩, fun h => h.1.symm⟩
  | cons b qs ih =>
    rw [List.foldl_cons, ih]
    rcases le_total a b with hab | hab
    · rw [min_eq_left hab]
      simp only [List.mem_cons, forall_eq_or_imp]
      constructor
      · rintro ⟨h1, h2, h3⟩
        exact ⟨h1.imp_right Or.inr, h2, h2.trans hab, h3⟩
      · rintro ⟨h1, h2, h3, h4⟩
        refine ⟨?_, h2, h4⟩
        rcases h1 with rfl | rfl | h1
        · exact Or.inl rfl
        · exact Or.inl (le_antisymm h2 hab)
        · exact Or.inr h1
    · rw [min_eq_right hab]
      simp only [List.mem_cons, forall_eq_or_imp]
      constructor
      · rintro ⟨h1, h2, h3⟩; exact ⟨Or.inr h1, h2.trans hab, h2, h3⟩
      · rintro ⟨h1, h2, h3, h4⟩
        refine ⟨?_, h3, h4⟩
        rcases h1 with rfl | h1
        · exact Or.inl (le_antisymm h3 hab)
        · exact h1

theorem agg_iff {fmax : ℚ} {f : Agg.AggFunc} {qs : List ℚ} {q : ℚ} :
    Agg.calcIter fmax f qs = q ↔ AggIs fmax f qs q := by
  cases f with
  | sum => exact eq_comm
  | mean =>
    simp only [Agg.calcIter, AggIs]
    cases qs with
    | nil => simp; exact eq_comm
    | cons x xs =>
      have hpos : ((x :: xs).length : ℚ) ≠ 0 := by
        rw [Nat.cast_ne_zero]; simp
      rw [if_neg (by simp)]
      rw [div_eq_iff hpos]
      simp only [reduceCtorEq, false_imp_iff, true_and]
      exact eq_comm
  | product => exact eq_comm
  | min => exact foldl_min qs fmax q
  | max => exact foldl_max qs (-fmax) q
  | countNonZero =>
    simp only [Agg.calcIter, AggIs, List.countP_eq_length_filter, ne_eq]
    constructor
    · intro h; rw [← h]; congr 2; apply List.filter_congr; intro x _; exact Bool.eq_iff_iff.2 (by simp)
    · intro h; rw [h]; congr 2; apply List.filter_congr; intro x _; exact Bool.eq_iff_iff.2 (by simp)
  | countFunc func =>
    simp only [Agg.calcIter, AggIs, List.countP_eq_length_filter]
    exact eq_comm
  | anyNonZero tol =>
    simp only [Agg.calcIter, AggIs, Agg.asNumber]
    by_cases hx : ∃ x ∈ qs, tol < |x|
    · have : qs.any (fun v => decide (tol < |v|)) = true := by
        rw [List.any_eq_true]; obtain ⟨x, h1, h2⟩ := hx; exact ⟨x, h1, by simpa using h2⟩
      rw [if_pos this]
      constructor
      · intro h; exact Or.inl ⟨hx, h.symm⟩
      · rintro (⟨-, h⟩ | ⟨h, -⟩)
        · exact h.symm
        · obtain ⟨x, h1, h2⟩ := hx; exact absurd (h x h1) (not_le.2 h2)
    · have : ¬ qs.any (fun v => decide (tol < |v|)) = true := by
        rw [List.any_eq_true]; rintro ⟨x, h1, h2⟩; exact hx ⟨x, h1, by simpa using h2⟩
      rw [if_neg this]
      constructor
      · intro h; exact Or.inr ⟨fun x h1 => not_lt.1 fun h2 => hx ⟨x, h1, h2⟩, h.symm⟩
      · rintro (⟨h, -⟩ | ⟨-, h⟩)
        · exact absurd h hx
        · exact h.symm

theorem sum_iff (ns : List Nat) (a : Nat) (ha : a ≤ Agg.u64Max) (n : Nat) :
    ns.foldl (fun t v => t.bind fun t => if t + v ≤ Agg.u64Max then some (t + v) else none) (some a) = some n ↔
      n = a + ns.sum ∧ n ≤ Agg.u64Max := by
  induction ns generalizing a with
  | nil =>
    simp only [List.foldl_nil, Option.some_inj, List.sum_nil, Nat.add_zero]
    exact ⟨fun h => ⟨h.symm, h ▸ ha⟩, fun h => h.1.symm⟩
  | cons b ns ih =>
    rw [List.foldl_cons]
    simp only [Option.bind_some]
    by_cases hb : a + b ≤ Agg.u64Max
    · rw [if_pos hb, ih _ hb, List.sum_cons, Nat.add_assoc]
    · rw [if_neg hb]
      have hnone : ∀ ns : List Nat, ns.foldl (fun t v => t.bind fun t => if t + v ≤ Agg.u64Max then some (t + v) else none)
          (none : Option Nat) = none := by
        intro ns; induction ns with
        | nil => rfl
        | cons c ns ih => rw [List.foldl_cons]; exact ih
      rw [hnone]
      simp only [reduceCtorEq, List.sum_cons, false_iff, not_and]
      omega

theorem prod_iff (ns : List Nat) (a : Nat) (ha : a ≤ Agg.u64Max) (n : Nat) :
    ns.foldl (fun t v => t.bind fun t => if t * v ≤ Agg.u64Max then some (t * v) else none) (some a) = some n ↔
      n = a * ns.prod ∧ ∀ i ≤ ns.length, a * (ns.take i).prod ≤ Agg.u64Max := by
  induction ns generalizing a with
  | nil =>
    simp only [List.foldl_nil, Option.some_inj, List.prod_nil, Nat.mul_one, List.length_nil, List.take_nil]
    exact ⟨fun h => ⟨h.symm, fun _ _ => ha⟩, fun h => h.1.symm⟩
  | cons b ns ih =>
    rw [List.foldl_cons]
    simp only [Option.bind_some]
    by_cases hb : a * b ≤ Agg.u64Max
    · rw [if_pos hb, ih _ hb, List.prod_cons, Nat.mul_assoc]
      refine and_congr_right fun _ => ⟨fun h1 i hi => ?_, fun h1 i hi => ?_⟩
      · cases i with
        | zero => simpa using ha
        | succ i =>
          rw [List.take_succ_cons, List.prod_cons, ← Nat.mul_assoc]
          exact h1 i (by simpa using hi)
      · have := h1 (i + 1) (by simpa using hi)
        rwa [List.take_succ_cons, List.prod_cons, ← Nat.mul_assoc] at this
    · rw [if_neg hb]
      have hnone : ∀ ns : List Nat, ns.foldl (fun t v => t.bind fun t => if t * v ≤ Agg.u64Max then some (t * v) else none)
          (none : Option Nat) = none := by
        intro ns; induction ns with
        | nil => rfl
        | cons c ns ih => rw [List.foldl_cons]; exact ih
      rw [hnone]
      simp only [reduceCtorEq, false_iff, not_and]
      intro _ h1
      have := h1 1 (by simp)
      simp at this
      omega

theorem foldl_max_nat (ns : List Nat) (a n : Nat) :
    ns.foldl Max.max a = n ↔ n ∈ a :: ns ∧ ∀ x ∈ a :: ns, x ≤ n := by
  induction ns generalizing a with
  | nil =>
    simp only [List.foldl_nil, List.mem_singleton, forall_eq]
    exact ⟨fun h => ⟨h.symm, h.le⟩, fun h => h.1.symm⟩
  | cons b ns ih =>
    rw [List.foldl_cons, ih]
    rcases le_total a b with hab | hab
    · rw [max_eq_right hab]
      simp only [List.mem_cons, forall_eq_or_imp]
      constructor
      · rintro ⟨h1, h2, h3⟩; exact ⟨Or.inr h1, hab.trans h2, h2, h3⟩
      · rintro ⟨h1, h2, h3, h4⟩
        refine ⟨?_, h3, h4⟩
        rcases h1 with rfl | h1
        · exact Or.inl (le_antisymm hab h3)
        · exact h1
    · rw [max_eq_left hab]
      simp only [List.mem_cons, forall_eq_or_imp]
      constructor
      · rintro ⟨h1, h2, h3⟩
        exact ⟨h1.imp_right Or.inr, h2, hab.trans h2, h3⟩
      · rintro ⟨h1, h2, h3, h4⟩
        refine ⟨?_, h2, h4⟩
        rcases h1 with rfl | rfl | h1
        · exact Or.inl rfl
        · exact Or.inl (le_antisymm hab h2)
        · exact Or.inr h1

theorem foldl_min_nat (ns : List Nat) (a n : Nat) :
    ns.foldl Min.min a = n ↔ n ∈ a :: ns ∧ ∀ x ∈ a :: ns, n ≤ x := by
  induction ns generalizing a with
  | nil =>
    simp only [List.foldl_nil, List.mem_singleton, forall_eq]
    exact ⟨fun h => ⟨h.symm, h.ge⟩, fun h => h.1.symm⟩
  | cons b ns ih =>
    rw [List.foldl_cons, ih]
    rcases le_total a b with hab | hab
    · rw [min_eq_left hab]
      simp only [List.mem_cons, forall_eq_or_imp]
      constructor
      · rintro ⟨h1, h2, h3⟩
        exact ⟨h1.imp_right Or.inr, h2, h2.trans hab, h3⟩
      · rintro ⟨h1, h2, h3, h4⟩
        refine ⟨?_, h2, h4⟩
        rcases h1 with rfl | rfl | h1
        · exact Or.inl rfl
        · exact Or.inl (le_antisymm h2 hab)
        · exact Or.inr h1
    · rw [min_eq_right hab]
      simp only [List.mem_cons, forall_eq_or_imp]
      constructor
      · rintro ⟨h1, h2, h3⟩; exact ⟨Or.inr h1, h2.trans hab, h2, h3⟩
      · rintro ⟨h1, h2, h3, h4⟩
        refine ⟨?_, h3, h4⟩
        rcases h1 with rfl | h1
        · exact Or.inl (le_antisymm h3 hab)
        · exact h1

theorem agg_idx_iff {f : Agg.AggFuncU64} {ns : List Nat} {n : Nat} :
    Agg.calcIterU64 f ns = some n ↔ AggIdx f ns n := by
  have hmax : Agg.u64Max = 2 ^ 64 - 1 := by decide
  cases f with
  | sum =>
    simp only [Agg.calcIterU64, AggIdx]
    rw [sum_iff ns 0 (Nat.zero_le _) n, Nat.zero_add, hmax]
  | product =>
    simp only [Agg.calcIterU64, AggIdx]
    rw [prod_iff ns 1 (by decide) n, Nat.one_mul]
    simp only [Nat.one_mul, hmax]
  | min =>
    cases ns with
    | nil => simp [Agg.calcIterU64, AggIdx, hmax, eq_comm]
    | cons a ns =>
      simp only [Agg.calcIterU64, AggIdx, Option.some_inj, foldl_min_nat, reduceCtorEq, false_and, false_or]
  | max =>
    cases ns with
    | nil => simp [Agg.calcIterU64, AggIdx, eq_comm]
    | cons a ns =>
      simp only [Agg.calcIterU64, AggIdx, Option.some_inj, foldl_max_nat, reduceCtorEq, false_and, false_or]
  | any =>
    simp only [Agg.calcIterU64, AggIdx, Option.some_inj]
    by_cases hx : ∃ x ∈ ns, x ≠ 0
    · have : ns.any (· != 0) = true := by simpa using hx
      rw [if_pos this]
      constructor
      · intro h; exact Or.inl ⟨hx, h.symm⟩
      · rintro (⟨-, h⟩ | ⟨h, -⟩)
        · exact h.symm
        · obtain ⟨x, h1, h2⟩ := hx; exact absurd (h x h1) h2
    · have : ¬ ns.any (· != 0) = true := by simpa using hx
      rw [if_neg this]
      constructor
      · intro h; exact Or.inr ⟨fun x h1 => by_contra fun h2 => hx ⟨x, h1, h2⟩, h.symm⟩
      · rintro (⟨h, -⟩ | ⟨-, h⟩)
        · exact absurd h hx
        · exact h.symm
  | all =>
    simp only [Agg.calcIterU64, AggIdx, Option.some_inj]
    by_cases hx : ∀ x ∈ ns, x ≠ 0
    · have : ns.all (· != 0) = true := by simpa using hx
      rw [if_pos this]
      constructor
      · intro h; exact Or.inl ⟨hx, h.symm⟩
      · rintro (⟨-, h⟩ | ⟨⟨x, h1, h2⟩, -⟩)
        · exact h.symm
        · exact absurd h2 (hx x h1)
    · have hneg : ¬ ns.all (· != 0) = true := by simpa using hx
      rw [if_neg hneg]
      have hx' : ∃ x ∈ ns, x = 0 := by simpa using hx
      constructor
      · intro h; exact Or.inr ⟨hx', h.symm⟩
      · rintro (⟨h, -⟩ | ⟨-, h⟩)
        · exact absurd h hx
        · exact h.symm

/-! ## Powers -/

theorem polyFrom_eq (x : ℚ) (cs : List ℚ) (i : Nat) (y : ℚ) :
    polyFrom x cs i y = y + ∑ j ∈ Finset.range cs.length, cs.getD j 0 * x ^ (i + j) := by
  induction cs generalizing i y with
  | nil => simp [polyFrom]
  | cons c cs ih =>
    rw [polyFrom, ih, List.length_cons, Finset.sum_range_succ']
    simp only [List.getD_cons_succ, List.getD_cons_zero, Nat.add_zero]
    have : ∀ j, i + 1 + j = i + (j + 1) := fun j => by omega
    simp only [this]
    ring

theorem one_div_powi (x : ℚ) (n : Int) : 1 / powi x n = x ^ (-n) := by
  unfold powi
  split_ifs with hn
  · obtain ⟨m, rfl⟩ := Int.eq_ofNat_of_zero_le hn
    simp
  · obtain ⟨m, hm⟩ := Int.eq_ofNat_of_zero_le (a := -n) (by omega)
    rw [hm]
    simp

end Verif.Kinds
