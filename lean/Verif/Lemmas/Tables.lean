import Verif.Spec.Tables
import Mathlib.Data.List.Basic
import Mathlib.Tactic.Ring

/-!
# Lemmas about data tables
-/

namespace Verif.Tables

/-- The last value there is. -/
def lastSome {α : Type} : List (Option α) → Option α
  | [] => none
  | a :: l => (lastSome l).or a

theorem lastSome_append {α : Type} (l₁ l₂ : List (Option α)) : lastSome (l₁ ++ l₂) = (lastSome l₂).or (lastSome l₁) := by
  induction l₁ with
  | nil => simp [lastSome]
  | cons a l ih => simp [lastSome, ih, Option.or_assoc]

theorem lastSome_none {α : Type} {l : List (Option α)} : lastSome l = none ↔ ∀ (n : Nat) (a : α), l[n]? ≠ some (some a) := by
  induction l with
  | nil => simp [lastSome]
  | cons a l ih =>
    rw [lastSome, Option.or_eq_none_iff, ih]
    constructor
    · rintro ⟨h1, h2⟩ n b
      cases n with
      | zero => simp [h2]
      | succ n => simpa using h1 n b
    · intro h
      refine ⟨fun n b => by simpa using h (n + 1) b, ?_⟩
      cases a with
      | none => rfl
      | some a => exact absurd rfl (h 0 a)

theorem lastSome_some {α : Type} {l : List (Option α)} {v : α} :
    lastSome l = some v ↔ ∃ n : Nat, l[n]? = some (some v) ∧ ∀ n', n < n' → ∀ w, l[n']? ≠ some (some w) := by
  induction l with
  | nil => simp [lastSome]
  | cons a l ih =>
    rw [lastSome, Option.or_eq_some_iff, ih, lastSome_none]
    constructor
    · rintro (⟨n, h1, h2⟩ | ⟨h1, h2⟩)
      · refine ⟨n + 1, by simpa using h1, ?_⟩
        intro n' hn w
        obtain ⟨m, rfl⟩ : ∃ m, n' = m + 1 := ⟨n' - 1, by omega⟩
        simpa using h2 m (by omega) w
      · refine ⟨0, by simp [h2], ?_⟩
        intro n' hn w
        obtain ⟨m, rfl⟩ : ∃ m, n' = m + 1 := ⟨n' - 1, by omega⟩
        simpa using h1 m w
    · rintro ⟨n, h1, h2⟩
      cases n with
      | zero =>
        right
        refine ⟨fun m w => by simpa using h2 (m + 1) (by omega) w, by simpa using h1⟩
      | succ n =>
        left
        exact ⟨n, by simpa using h1, fun n' hn w => by simpa using h2 (n' + 1) (by omega) w⟩

theorem lastSome_flatMap {α β : Type} (f : α → List (Option β)) (l : List α) :
    lastSome (l.flatMap f) = lastSome (l.map fun a => lastSome (f a)) := by
  induction l with
  | nil => rfl
  | cons a l ih => rw [List.flatMap_cons, lastSome_append, ih, List.map_cons, lastSome]

theorem lastSome_filterMap {α β γ : Type} (f : α → Option β) (g : β → Option γ) (l : List α) :
    lastSome ((l.filterMap f).map g) = lastSome (l.map fun a => (f a).bind g) := by
  induction l with
  | nil => rfl
  | cons a l ih =>
    rw [List.filterMap_cons]
    cases h : f a with
    | none => simp [ih, lastSome, h]
    | some b => simp [ih, lastSome, h]

/-- What a list of insertions says about a key. -/
def pick {V : Type} (k : Key) (e : Key × V) : Option V := if e.1 = k then some e.2 else none

theorem insertAll_eq {V : Type} (l : List (Key × V)) (m : Key → Option V) (k : Key) :
    insertAll l m k = (lastSome (l.map (pick k))).or (m k) := by
  induction l generalizing m with
  | nil => simp [insertAll, lastSome]
  | cons e l ih =>
    obtain ⟨k', v⟩ := e
    rw [insertAll, ih, List.map_cons, lastSome, Option.or_assoc]
    congr 1
    unfold pick
    by_cases h : k = k'
    · simp [h]
    · simp [h, Ne.symm h]

theorem insertAll_nil {V : Type} (l : List (Key × V)) (k : Key) :
    insertAll l (fun _ => none) k = lastSome (l.map (pick k)) := by
  rw [insertAll_eq, Option.or_none]

theorem collect_ok {α : Type} {l : List (Except Err α)} {as : List α} : collect l = .ok as ↔ l = as.map .ok := by
  induction l generalizing as with
  | nil =>
    simp only [collect, Except.ok.injEq]
    constructor
    · rintro rfl; rfl
    · intro h; exact ((List.map_eq_nil_iff).1 h.symm).symm
  | cons a l ih =>
    cases a with
    | error e =>
      simp only [collect, reduceCtorEq, false_iff]
      intro h
      cases as with
      | nil => cases h
      | cons b as => simp at h
    | ok a =>
      rw [collect]
      cases hc : collect l with
      | error e =>
        simp only [reduceCtorEq, false_iff]
        intro h
        cases as with
        | nil => cases h
        | cons b as =>
          simp only [List.map_cons, List.cons.injEq] at h
          rw [ih.2 h.2] at hc
          cases hc
      | ok bs =>
        simp only [Except.ok.injEq]
        cases as with
        | nil => simp
        | cons b as =>
          simp only [List.map_cons, List.cons.injEq, Except.ok.injEq]
          rw [← ih, hc, Except.ok.injEq]

theorem collect_map {α β : Type} {f : α → Except Err β} {cond : α → Prop} {g : α → β}
    (hf : ∀ a b, f a = .ok b ↔ cond a ∧ b = g a) (l : List α) (bs : List β) :
    collect (l.map f) = .ok bs ↔ (∀ a ∈ l, cond a) ∧ bs = l.map g := by
  rw [collect_ok]
  induction l generalizing bs with
  | nil => simp [eq_comm]
  | cons a l ih =>
    cases bs with
    | nil => simp
    | cons b bs =>
      simp only [List.map_cons, List.cons.injEq, hf, ih, List.forall_mem_cons]
      tauto

theorem readRecord_ok {w : Nat} {r r' : Record} : readRecord w r = .ok r' ↔ r.length = w ∧ r' = r := by
  unfold readRecord
  split
  · rename_i h; simp [h, eq_comm]
  · rename_i h; simp [h]

theorem rowEntry_ok {num : String → Option ℚ} {n w : Nat} (r : Record) (e : Key × Option ℚ) :
    rowEntry num n w r = .ok e ↔ (r.length = w ∧ w = n + 1) ∧ e = (r.take n, num (r.getD n "")) := by
  unfold rowEntry readRecord
  split
  · rename_i h
    split at h
    · cases h
    · rename_i hw; simp [hw]
  · rename_i r' h
    split at h
    · rename_i hw
      cases h
      split
      · simp only [reduceCtorEq, false_iff]; omega
      · rename_i hn
        split
        · rename_i hd
          have := congrArg List.length hd
          simp at this
          simp only [reduceCtorEq, false_iff]; omega
        · rename_i v hd
          have hl := congrArg List.length hd
          simp only [List.length_map, List.length_drop, List.length_cons, List.length_nil] at hl
          have h0 : ((r.drop n).map num)[0]? = some v := by rw [hd]; rfl
          have hn' : n < r.length := by omega
          rw [List.getElem?_map, List.getElem?_drop, Nat.add_zero, List.getElem?_eq_getElem hn'] at h0
          have : num (r.getD n "") = v := by
            rw [List.getD_eq_getElem?_getD, List.getElem?_eq_getElem hn']
            exact Option.some.inj h0
          rw [this]
          have h3 : w = n + 1 := by omega
          simp only [Except.ok.injEq, hw, h3, and_self, true_and]
          exact eq_comm
        · rename_i vs h1 h2
          have : (r.drop n).length ≠ 1 := by
            intro hh
            obtain ⟨a, ha⟩ := List.length_eq_one_iff.1 hh
            exact h2 (num a) (by rw [ha]; rfl)
          simp at this
          simp only [reduceCtorEq, false_iff]; omega
    · cases h

theorem bothEntry_ok {num : String → Option ℚ} {c w : Nat} (r : Record) (e : Key × List (Option ℚ)) :
    bothEntry num c w r = .ok e ↔ (r.length = w ∧ c ≤ w) ∧ e = (r.take c, (r.drop c).map num) := by
  unfold bothEntry readRecord
  split
  · rename_i h
    split at h
    · cases h
    · rename_i hw; simp [hw]
  · rename_i r' h
    split at h
    · rename_i hw
      cases h
      split
      · simp only [reduceCtorEq, false_iff]; omega
      · have : c ≤ w := by omega
        simp only [Except.ok.injEq, hw, this, and_self, true_and]
        exact eq_comm
    · cases h

theorem colEntry_ok {num : String → Option ℚ} {w : Nat} (r : Record) (e : List (Option ℚ)) :
    colEntry num w r = .ok e ↔ r.length = w ∧ e = r.map num := by
  unfold colEntry readRecord
  split
  · rename_i h
    split at h
    · cases h
    · rename_i hw; simp [hw]
  · rename_i r' h
    split at h
    · rename_i hw
      cases h
      simp only [Except.ok.injEq, hw, true_and]
      exact eq_comm
    · cases h

theorem parseAll_some {num : String → Option ℚ} {l : List String} {vs : List ℚ} :
    parseAll num l = some vs ↔ l.map num = vs.map some := by
  induction l generalizing vs with
  | nil =>
    simp only [parseAll, Option.some.injEq, List.map_nil]
    constructor
    · rintro rfl; rfl
    · intro h; exact ((List.map_eq_nil_iff).1 h.symm).symm
  | cons s l ih =>
    rw [parseAll]
    cases hs : num s with
    | none => cases vs <;> simp [hs]
    | some v =>
      cases hl : parseAll num l with
      | none =>
        simp only [reduceCtorEq, false_iff]
        intro h
        cases vs with
        | nil => cases h
        | cons w ws =>
          simp only [List.map_cons, List.cons.injEq] at h
          rw [ih.2 h.2] at hl
          cases hl
      | some ws =>
        cases vs with
        | nil => simp
        | cons u us =>
          simp only [Option.some.injEq, List.cons.injEq, List.map_cons, hs, ← ih, hl]

/-- The numbers of a list of texts. -/
def numbers (num : String → Option ℚ) (l : List String) : List ℚ := l.map fun s => (num s).getD 0

theorem parseAll_eq {num : String → Option ℚ} {l : List String} {vs : List ℚ} :
    parseAll num l = some vs ↔ (∀ s ∈ l, (num s).isSome) ∧ vs = numbers num l := by
  rw [parseAll_some]
  induction l generalizing vs with
  | nil => cases vs <;> simp [numbers]
  | cons s l ih =>
    cases vs with
    | nil => simp [numbers]
    | cons v vs =>
      simp only [List.map_cons, List.cons.injEq, ih, List.forall_mem_cons, numbers]
      constructor
      · rintro ⟨h1, h2, h3⟩; simp [h1, h3]; exact h2
      · rintro ⟨⟨h1, h2⟩, h3, h4⟩
        refine ⟨?_, h2, h4⟩
        rw [h3]; obtain ⟨x, hx⟩ := Option.isSome_iff_exists.1 h1; simp [hx]

theorem rowVecEntry_ok {num : String → Option ℚ} {n w : Nat} (r : Record) (e : Key × List ℚ) :
    rowVecEntry num n w r = .ok e ↔
      (r.length = w ∧ n ≤ w ∧ ∀ s ∈ r.drop n, (num s).isSome) ∧ e = (r.take n, numbers num (r.drop n)) := by
  unfold rowVecEntry readRecord
  split
  · rename_i h
    split at h
    · cases h
    · rename_i hw; simp [hw]
  · rename_i r' h
    split at h
    · rename_i hw
      cases h
      split
      · simp only [reduceCtorEq, false_iff]; omega
      · have hn : n ≤ w := by omega
        cases hp : parseAll num (r.drop n) with
        | none =>
          simp only [reduceCtorEq, false_iff]
          rintro ⟨⟨-, -, h⟩, -⟩
          rw [parseAll_eq.2 ⟨h, rfl⟩] at hp
          cases hp
        | some vs =>
          obtain ⟨h1, rfl⟩ := parseAll_eq.1 hp
          simp only [Except.ok.injEq, hw, hn, true_and]
          rw [eq_comm]
          exact ⟨fun h => ⟨h1, h⟩, fun h => h.2⟩
    · cases h

theorem colVecEntry_ok {num : String → Option ℚ} {w m : Nat} (r : Record) (e : List ℚ) :
    colVecEntry num w m r = .ok e ↔ (r.length = w ∧ w = m ∧ ∀ s ∈ r, (num s).isSome) ∧ e = numbers num r := by
  unfold colVecEntry readRecord
  split
  · rename_i h
    split at h
    · cases h
    · rename_i hw; simp [hw]
  · rename_i r' h
    split at h
    · rename_i hw
      cases h
      cases hp : parseAll num r with
      | none =>
        simp only [reduceCtorEq, false_iff]
        rintro ⟨⟨-, -, h⟩, -⟩
        rw [parseAll_eq.2 ⟨h, rfl⟩] at hp
        cases hp
      | some vs =>
        obtain ⟨h1, rfl⟩ := parseAll_eq.1 hp
        have hl : (numbers num r).length = r.length := by simp [numbers]
        simp only [hl]
        by_cases hm : r.length = m
        · rw [if_pos hm]
          simp only [Except.ok.injEq, hw, true_and]
          rw [eq_comm]
          exact ⟨fun h => ⟨⟨by omega, h1⟩, h⟩, fun h => h.2⟩
        · rw [if_neg hm]
          simp only [reduceCtorEq, false_iff]
          rintro ⟨⟨-, h, -⟩, -⟩
          omega
    · cases h

theorem moreHeaders_ok {w skip : Nat} (k : Nat) : ∀ (hs : List Key) (recs : List Record) (out : List Key × List Record),
    hs.length = w - skip →
    (moreHeaders w skip k hs recs = .ok out ↔ (k ≤ recs.length ∧ ∀ r ∈ recs.take k, r.length = w) ∧
      out = (hs.mapIdx fun j h => h ++ (recs.take k).map fun r => r.getD (skip + j) "", recs.drop k)) := by
  induction k with
  | zero =>
    intro hs recs out _
    have : hs.mapIdx (fun _ h => h) = hs := by
      apply List.ext_getElem?; intro j; rw [List.getElem?_mapIdx]; simp
    simp [moreHeaders, eq_comm, this]
  | succ k ih =>
    intro hs recs out hl
    cases recs with
    | nil => simp [moreHeaders]
    | cons r recs =>
      rw [moreHeaders]
      unfold readRecord
      by_cases hw : r.length = w
      · rw [if_pos hw]
        simp only
        rw [ih _ _ _ (by simp [hl, hw])]
        simp only [List.length_cons, Nat.add_le_add_iff_right, List.take_succ_cons, List.forall_mem_cons, hw, true_and,
          List.drop_succ_cons, List.map_cons]
        have : (List.zipWith (fun h s => h ++ [s]) hs (List.drop skip r)).mapIdx
              (fun j h => h ++ (recs.take k).map fun r => r.getD (skip + j) "") =
            hs.mapIdx fun j h => h ++ r.getD (skip + j) "" :: (recs.take k).map fun r => r.getD (skip + j) "" := by
          apply List.ext_getElem?
          intro j
          simp only [List.getElem?_mapIdx, List.getElem?_zipWith, List.getElem?_drop]
          cases hj : hs[j]? with
          | none => rfl
          | some h =>
            have hlt : j < hs.length := (List.getElem?_eq_some_iff.1 hj).1
            have hlt' : skip + j < r.length := by omega
            rw [List.getElem?_eq_getElem hlt']
            simp [List.getD_eq_getElem?_getD, List.getElem?_eq_getElem hlt']
        rw [this]
      · rw [if_neg hw]
        simp [hw]

/-- The labels of columns, in order. -/
theorem headers_ok {n skip : Nat} (hn : 1 ≤ n) (file : List Record) (out : List Key × List Record) :
    headers n skip file = .ok out ↔ ((n ≤ file.length ∨ n = 1) ∧ ∀ r ∈ file.take n, r.length = (file.headD []).length) ∧
      out = ((List.range ((file.headD []).length - skip)).map fun j => (file.take n).map fun r => r.getD (skip + j) "", file.drop n) := by
  unfold headers
  simp only
  rw [moreHeaders_ok _ _ _ _ (by simp)]
  obtain ⟨m, rfl⟩ : ∃ m, n = m + 1 := ⟨n - 1, by omega⟩
  cases file with
  | nil =>
    simp
  | cons hdr recs =>
    simp only [Nat.add_sub_cancel, List.tail_cons, List.headD_cons, List.length_cons, List.take_succ_cons, List.forall_mem_cons,
      true_and, List.drop_succ_cons, List.map_cons]
    have : (List.map (fun s => [s]) (List.drop skip hdr)).mapIdx
          (fun j h => h ++ (recs.take m).map fun r => r.getD (skip + j) "") =
        (List.range (hdr.length - skip)).map fun j => hdr.getD (skip + j) "" :: (recs.take m).map fun r => r.getD (skip + j) "" := by
      apply List.ext_getElem?
      intro j
      simp only [List.getElem?_mapIdx, List.getElem?_map, List.getElem?_drop]
      by_cases hj : skip + j < hdr.length
      · rw [List.getElem?_eq_getElem hj, List.getElem?_range (by omega)]
        simp [List.getD_eq_getElem?_getD, List.getElem?_eq_getElem hj]
      · rw [List.getElem?_eq_none (by omega), List.getElem?_eq_none (by simp; omega)]
        rfl
    rw [this]
    constructor
    · rintro ⟨⟨h1, h2⟩, h3⟩
      exact ⟨⟨Or.inl (by omega), h2⟩, h3⟩
    · rintro ⟨⟨h1, h2⟩, h3⟩
      exact ⟨⟨by omega, h2⟩, h3⟩

end Verif.Tables
