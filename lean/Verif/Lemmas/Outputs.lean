import Verif.Spec.Outputs

/-!
# The periods recorded depend on dates only
-/

namespace Verif.Agg

open Verif.Calendar Verif.Time

theorem Same.refl (a : PeriodValue) : Same a a := ⟨rfl, rfl⟩

theorem Same.symm {a b : PeriodValue} (h : Same a b) : Same b a := ⟨h.1.symm, h.2.symm⟩

theorem Same.trans {a b c : PeriodValue} (h : Same a b) (k : Same b c) : Same a c := ⟨h.1.trans k.1, h.2.trans k.2⟩

abbrev SameList := List.Forall₂ Same

theorem SameList.refl : ∀ xs : List PeriodValue, SameList xs xs
  | [] => .nil
  | x :: xs => .cons (Same.refl x) (SameList.refl xs)

theorem SameList.symm {xs ys : List PeriodValue} (h : SameList xs ys) : SameList ys xs := by
  induction h with
  | nil => exact .nil
  | cons h _ ih => exact .cons h.symm ih

theorem SameList.trans {xs ys zs : List PeriodValue} (h : SameList xs ys) (k : SameList ys zs) : SameList xs zs := by
  induction h generalizing zs with
  | nil => cases k; exact .nil
  | cons h _ ih => cases k with | cons k ks => exact .cons (h.trans k) (ih ks)

theorem SameList.append {xs ys us vs : List PeriodValue} (h : SameList xs ys) (k : SameList us vs) : SameList (xs ++ us) (ys ++ vs) := by
  induction h with
  | nil => exact k
  | cons h _ ih => exact .cons h ih

theorem minBy_isSome (xs : List ℚ) : (minBy xs).isSome = !xs.isEmpty := by cases xs <;> rfl

theorem maxBy_isSome (xs : List ℚ) : (maxBy xs).isSome = !xs.isEmpty := by cases xs <;> rfl

theorem same_days {xs ys : List PeriodValue} (h : SameList xs ys) :
    xs.map (fun v => fractionalDays v.duration) = ys.map fun v => fractionalDays v.duration := by
  induction h with
  | nil => rfl
  | cons h _ ih => simp [ih, h.2]

theorem same_isEmpty {xs ys : List PeriodValue} (h : SameList xs ys) : xs.isEmpty = ys.isEmpty := by cases h <;> rfl

theorem calcPeriod_same (f : AggFunc) {xs ys : List PeriodValue} (h : SameList xs ys) :
    (calcPeriod f xs).isSome = (calcPeriod f ys).isSome := by
  cases f <;> simp only [calcPeriod, minBy_isSome, maxBy_isSome, Option.isSome_some]
  · simp only [same_days h]; split <;> rfl
  · cases h <;> rfl
  · cases h <;> rfl

theorem splitLoop_same (f : Frequency) (v w : ℚ) (stop : DateTime) : ∀ (fuel : Nat) (current : DateTime),
    Option.Rel SameList (splitLoop f v stop fuel current) (splitLoop f w stop fuel current) := by
  intro fuel
  induction fuel with
  | zero => intro c; exact .none
  | succ n ih =>
    intro c
    simp only [splitLoop]
    split
    · exact .some .nil
    · have := ih (nextPeriod f c)
      revert this
      generalize splitLoop f v stop n (nextPeriod f c) = a
      generalize splitLoop f w stop n (nextPeriod f c) = b
      intro hab
      cases hab with
      | none => exact .none
      | some h => exact .some (.cons ⟨rfl, rfl⟩ h)

theorem split_same (f : Frequency) {v w : PeriodValue} (h : Same v w) : Option.Rel SameList (split f v) (split f w) := by
  obtain ⟨h1, h2⟩ := h
  unfold split
  rw [h1, h2]
  exact splitLoop_same ..

/-- Two results, of a state and a value, that agree but for numbers. -/
abbrev SameOut {α β : Type} (R : α → β → Prop) (a : α × Option PeriodValue) (b : β × Option PeriodValue) : Prop :=
  R a.1 b.1 ∧ Option.Rel Same a.2 b.2

theorem emit_same {f : AggFunc} {xs ys : List PeriodValue} (h : SameList xs ys) (s : DateTime) (d : Int) :
    Option.Rel Same (match calcPeriod f xs with
      | some a => some { start := s, duration := d, value := a : PeriodValue }
      | none => none) (match calcPeriod f ys with
      | some a => some { start := s, duration := d, value := a : PeriodValue }
      | none => none) := by
  have := calcPeriod_same f h
  revert this
  cases calcPeriod f xs <;> cases calcPeriod f ys <;> intro h <;> simp at h
  · exact .none
  · exact .some ⟨rfl, rfl⟩

theorem processPiece_same (f : Frequency) (func : AggFunc) {s t : List PeriodValue} {v w : PeriodValue} (hs : SameList s t)
    (hv : Same v w) : SameOut SameList (processPiece f func s v) (processPiece f func t w) := by
  cases hs with
  | nil => exact ⟨.cons hv .nil, .none⟩
  | @cons a b l m hab hlm =>
    simp only [processPiece]
    rw [← hab.1, ← hv.1]
    split
    · exact ⟨.cons hab (SameList.append hlm (.cons hv .nil)), .none⟩
    · exact ⟨.cons hv .nil, emit_same (.cons hab hlm) _ _⟩

theorem processPieces_same (f : Frequency) (func : AggFunc) {ps qs : List PeriodValue} (hp : SameList ps qs) :
    ∀ {s t : List PeriodValue} {a b : Option PeriodValue}, SameList s t → Option.Rel Same a b →
      Option.Rel (SameOut SameList) (processPieces f func s a ps) (processPieces f func t b qs) := by
  induction hp with
  | nil => intro s t a b hs ha; exact .some ⟨hs, ha⟩
  | @cons p q ps qs hpq _ ih =>
    intro s t a b hs ha
    have h := processPiece_same f func hs hpq
    simp only [processPieces]
    revert h
    generalize processPiece f func s p = x
    generalize processPiece f func t q = y
    obtain ⟨x, u⟩ := x
    obtain ⟨y, w⟩ := y
    rintro ⟨h1, h2⟩
    simp only at h1 h2
    cases h2 with
    | none => exact ih h1 ha
    | some h =>
      cases ha with
      | none => exact ih h1 (.some h)
      | some _ => exact .none

theorem processValue_same (l : Level) {s t : List PeriodValue} {v w : PeriodValue} (hs : SameList s t) (hv : Same v w) :
    Option.Rel (SameOut SameList) (processValue l s v) (processValue l t w) := by
  unfold processValue
  cases l.frequency with
  | none => exact .some ⟨SameList.append hs (.cons hv .nil), .none⟩
  | some f =>
    simp only
    have h := split_same f hv
    revert h
    generalize split f v = a
    generalize split f w = b
    intro h
    cases h with
    | none => exact .none
    | some h => exact processPieces_same f l.function h hs .none

abbrev SameStates := List.Forall₂ SameList

theorem append_same (levels : List Level) : ∀ {s t : List (List PeriodValue)} {v w : PeriodValue}, SameStates s t → Same v w →
    Option.Rel (SameOut SameStates) (append levels s v) (append levels t w) := by
  induction levels with
  | nil =>
    intro s t v w hs hv
    cases hs with
    | nil => exact .some ⟨.nil, .some hv⟩
    | cons _ _ => exact .none
  | cons l levels ih =>
    intro s t v w hs hv
    cases hs with
    | nil => exact .none
    | @cons a b s t hab hst =>
      simp only [append]
      have h := ih hst hv
      revert h
      generalize append levels s v = x
      generalize append levels t w = y
      intro h
      cases h with
      | none => exact .none
      | @some x y h =>
        obtain ⟨x, u⟩ := x
        obtain ⟨y, z⟩ := y
        obtain ⟨h1, h2⟩ := h
        simp only at h1 h2
        cases h2 with
        | none => exact .some ⟨.cons hab h1, .none⟩
        | some h2 =>
          simp only
          have k := processValue_same l hab h2
          revert k
          generalize processValue l a _ = p
          generalize processValue l b _ = q
          intro k
          cases k with
          | none => exact .none
          | some k => exact .some ⟨.cons k.1 h1, k.2⟩

theorem getLast_same {xs ys : List PeriodValue} (h : SameList xs ys) (hx : xs ≠ []) (hy : ys ≠ []) :
    Same (xs.getLast hx) (ys.getLast hy) := by
  induction h with
  | nil => exact absurd rfl hx
  | @cons a b l m hab hlm ih =>
    cases hlm with
    | nil => exact hab
    | cons h1 h2 =>
      rw [List.getLast_cons (List.cons_ne_nil _ _), List.getLast_cons (List.cons_ne_nil _ _)]
      exact ih (by simp) (by simp)

theorem calcAggregation_same (f : AggFunc) {s t : List PeriodValue} (h : SameList s t) :
    Option.Rel Same (calcAggregation f s) (calcAggregation f t) := by
  cases h with
  | nil => exact .none
  | @cons a b l m hab hlm =>
    simp only [calcAggregation]
    have hl := getLast_same (.cons hab hlm) (by simp) (by simp)
    rw [← hab.1, ← hl.1]
    exact emit_same (.cons hab hlm) _ _

theorem finalise_same (levels : List Level) : ∀ {s t : List (List PeriodValue)}, SameStates s t →
    Option.Rel (SameOut SameStates) (finalise levels s) (finalise levels t) := by
  induction levels with
  | nil =>
    intro s t hs
    cases hs with
    | nil => exact .some ⟨.nil, .none⟩
    | cons _ _ => exact .none
  | cons l levels ih =>
    intro s t hs
    cases hs with
    | nil => exact .none
    | @cons a b s t hab hst =>
      simp only [finalise]
      have h := ih hst
      revert h
      generalize finalise levels s = x
      generalize finalise levels t = y
      intro h
      cases h with
      | none => exact .none
      | @some x y h =>
        obtain ⟨x, u⟩ := x
        obtain ⟨y, z⟩ := y
        obtain ⟨h1, h2⟩ := h
        simp only at h1 h2
        cases h2 with
        | none => exact .some ⟨.cons hab h1, calcAggregation_same _ hab⟩
        | some h2 =>
          simp only
          have k := processValue_same l hab h2
          revert k
          generalize processValue l a _ = p
          generalize processValue l b _ = q
          intro k
          cases k with
          | none => exact .none
          | some k => exact .some ⟨.cons k.1 h1, calcAggregation_same _ k.1⟩

theorem sameStates_refl : ∀ s : List (List PeriodValue), SameStates s s
  | [] => .nil
  | x :: xs => .cons (SameList.refl x) (sameStates_refl xs)

theorem sameStates_symm {s t : List (List PeriodValue)} (h : SameStates s t) : SameStates t s := by
  induction h with
  | nil => exact .nil
  | cons h _ ih => exact .cons (SameList.symm h) ih

theorem sameStates_trans {s t u : List (List PeriodValue)} (h : SameStates s t) (k : SameStates t u) : SameStates s u := by
  induction h generalizing u with
  | nil => cases k; exact .nil
  | cons h _ ih => cases k with | cons k ks => exact .cons (SameList.trans h k) (ih ks)

/-! ## What one metric yields, step by step -/

/-- The values an aggregator yields at the remaining steps and at the end. -/
def yields (levels : List Level) : List (List PeriodValue) → List PeriodValue → Option (List (Option PeriodValue))
  | s, [] => (finalise levels s).map fun x => [x.2]
  | s, v :: vs =>
    match append levels s v with
    | none => none
    | some (s, o) => (yields levels s vs).map (o :: ·)

theorem yields_run_from (levels : List Level) : ∀ (xs : List PeriodValue) (s : List (List PeriodValue)),
    (match appendAll levels s xs with
      | none => none
      | some (s, out) =>
        match finalise levels s with
        | none => none
        | some (_, o) => some (out ++ o.toList)) = (yields levels s xs).map fun os => os.filterMap id := by
  intro xs
  induction xs with
  | nil =>
    intro s
    simp only [appendAll, yields]
    cases finalise levels s with
    | none => rfl
    | some x => obtain ⟨_, o⟩ := x; cases o <;> simp
  | cons v vs ih =>
    intro s
    simp only [appendAll, yields]
    cases append levels s v with
    | none => rfl
    | some x =>
      obtain ⟨s, o⟩ := x
      simp only
      have h := ih s
      cases h1 : appendAll levels s vs with
      | none =>
        rw [h1] at h
        cases hy : yields levels s vs with
        | none => rfl
        | some _ => rw [hy] at h; simp at h
      | some y =>
        obtain ⟨s', out⟩ := y
        rw [h1] at h
        simp only at h ⊢
        cases h2 : finalise levels s' with
        | none =>
          rw [h2] at h
          cases hy : yields levels s vs with
          | none => rfl
          | some _ => rw [hy] at h; simp at h
        | some z =>
          obtain ⟨_, e⟩ := z
          rw [h2] at h
          simp only at h ⊢
          cases hy : yields levels s vs with
          | none => rw [hy] at h; simp at h
          | some os =>
            rw [hy] at h
            simp only [Option.map_some, Option.some.injEq] at h ⊢
            cases o <;> simp [h]

theorem yields_run (levels : List Level) (xs : List PeriodValue) :
    Agg.run levels xs = (yields levels (setup levels) xs).map fun os => os.filterMap id :=
  yields_run_from levels xs (setup levels)

theorem yields_same (levels : List Level) {xs ys : List PeriodValue} (h : SameList xs ys) :
    ∀ {s t : List (List PeriodValue)}, SameStates s t →
      Option.Rel (List.Forall₂ (Option.Rel Same)) (yields levels s xs) (yields levels t ys) := by
  induction h with
  | nil =>
    intro s t hs
    simp only [yields]
    have h := finalise_same levels hs
    revert h
    generalize finalise levels s = x
    generalize finalise levels t = y
    intro h
    cases h with
    | none => exact .none
    | some h => exact .some (.cons h.2 .nil)
  | @cons a b xs ys hab _ ih =>
    intro s t hs
    simp only [yields]
    have h := append_same levels hs hab
    revert h
    generalize append levels s a = x
    generalize append levels t b = y
    intro h
    cases h with
    | none => exact .none
    | @some x y h =>
      obtain ⟨x, u⟩ := x
      obtain ⟨y, z⟩ := y
      have k := ih h.1
      simp only at k ⊢
      revert k
      generalize yields levels x xs = p
      generalize yields levels y ys = q
      intro k
      cases k with
      | none => exact .none
      | some k => exact .some (.cons h.2 k)

end Verif.Agg
