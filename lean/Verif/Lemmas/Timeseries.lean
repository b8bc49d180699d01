import Verif.Spec.Timeseries
import Mathlib.Data.List.Basic
import Mathlib.Tactic.Linarith
import Mathlib.Tactic.Ring

/-!
# Lemmas about time series
-/

namespace Verif.Timeseries

theorem insertRow_perm (r : Row) : ∀ l, (insertRow r l).Perm (r :: l) := by
  intro l
  induction l with
  | nil => exact List.Perm.refl _
  | cons a l ih =>
    rw [insertRow]
    by_cases h : r.time ≤ a.time
    · rw [if_pos h]
    · rw [if_neg h]
      exact (ih.cons a).trans (List.Perm.swap r a l)

theorem sortRows_perm : ∀ l, (sortRows l).Perm l := by
  intro l
  induction l with
  | nil => exact List.Perm.refl _
  | cons r l ih => exact (insertRow_perm r _).trans (ih.cons r)

theorem insertRow_sorted (r : Row) : ∀ l, l.Pairwise (fun a b : Row => a.time ≤ b.time) → (insertRow r l).Pairwise fun a b => a.time ≤ b.time := by
  intro l
  induction l with
  | nil => intro _; simp [insertRow]
  | cons a l ih =>
    intro h
    rw [insertRow]
    by_cases hr : r.time ≤ a.time
    · rw [if_pos hr]
      refine List.pairwise_cons.2 ⟨?_, h⟩
      intro b hb
      rcases List.mem_cons.1 hb with rfl | hb
      · exact hr
      · exact le_trans hr ((List.pairwise_cons.1 h).1 b hb)
    · rw [if_neg hr]
      refine List.pairwise_cons.2 ⟨?_, ih (List.pairwise_cons.1 h).2⟩
      intro b hb
      rcases List.mem_cons.1 ((insertRow_perm r l).mem_iff.1 hb) with rfl | hb
      · omega
      · exact (List.pairwise_cons.1 h).1 b hb

theorem sortRows_sorted : ∀ l, (sortRows l).Pairwise fun a b => a.time ≤ b.time := by
  intro l
  induction l with
  | nil => simp [sortRows]
  | cons r l ih => exact insertRow_sorted r _ ih

/-- The rows from the first step on, in order. -/
def ordered (rows : List Row) (start : Int) : List Row := (sortRows rows).filter fun r => decide (start ≤ r.time)

theorem ordered_perm (rows : List Row) (start : Int) : (ordered rows start).Perm (since rows start) :=
  (sortRows_perm rows).filter _

theorem ordered_sorted (rows : List Row) (start : Int) : (ordered rows start).Pairwise fun a b => a.time ≤ b.time :=
  (sortRows_sorted rows).sublist List.filter_sublist

/-- Times that go up by `g`. -/
def Grid (l : List Row) (first g : Int) : Prop := ∀ (i : Nat) r, l[i]? = some r → r.time = first + i * g

theorem Grid.tail {r : Row} {l : List Row} {first g : Int} (h : Grid (r :: l) first g) : Grid l (first + g) g := by
  intro i x hx
  have := h (i + 1) x (by simpa using hx)
  push_cast at this
  linarith

theorem Grid.cons {r : Row} {l : List Row} {first g : Int} (h : Grid l (first + g) g) (hr : r.time = first) : Grid (r :: l) first g := by
  intro i x hx
  cases i with
  | zero => simp at hx; subst hx; simp [hr]
  | succ i =>
    have := h i x (by simpa using hx)
    push_cast
    linarith

theorem grid_map {l : List Row} {first g : Int} : Grid l first g ↔ l.map (·.time) = (List.range l.length).map fun (i : Nat) => first + i * g := by
  constructor
  · intro h
    apply List.ext_getElem?
    intro i
    rw [List.getElem?_map, List.getElem?_map]
    by_cases hi : i < l.length
    · rw [List.getElem?_range hi, List.getElem?_eq_getElem hi]
      simp only [Option.map_some, Option.some.injEq]
      exact h i _ (List.getElem?_eq_getElem hi)
    · rw [List.getElem?_eq_none (by omega), List.getElem?_eq_none (by rw [List.length_range]; omega)]
      rfl
  · intro h i r hr
    have hi : i < l.length := (List.getElem?_eq_some_iff.1 hr).1
    have := congrArg (fun x : List Int => x[i]?) h
    simp only [List.getElem?_map, hr, Option.map_some] at this
    rw [List.getElem?_range hi] at this
    simpa using this

theorem diffs_grid {g : Int} : ∀ (l : List Row) (r : Row), (∀ x ∈ diffs (r :: l), x = g) ↔ Grid (r :: l) r.time g := by
  intro l
  induction l with
  | nil =>
    intro r
    simp only [diffs, List.not_mem_nil, false_imp_iff, implies_true, true_iff]
    exact Grid.cons (fun i x h => by simp at h) rfl
  | cons b l ih =>
    intro r
    rw [diffs]
    simp only [List.forall_mem_cons, ih b]
    constructor
    · rintro ⟨h1, h2⟩
      refine Grid.cons ?_ rfl
      rw [show r.time + g = b.time by omega]
      exact h2
    · intro h
      have hb := h 1 b rfl
      push_cast at hb
      refine ⟨by linarith, ?_⟩
      have := h.tail
      rwa [show r.time + g = b.time by linarith] at this

theorem diffs_length : ∀ (l : List Row), (diffs l).length = l.length - 1 := by
  intro l
  match l with
  | [] => rfl
  | [a] => rfl
  | a :: b :: l =>
    rw [diffs, List.length_cons, diffs_length (b :: l)]
    simp

theorem gap_ok {l : List Row} {g : Int} : gap l = .ok g ↔ 2 ≤ l.length ∧ ∃ first, Grid l first g := by
  unfold gap
  have hlen := diffs_length l
  match l with
  | [] => simp [diffs]
  | [a] => simp [diffs]
  | a :: b :: l =>
    have key := diffs_grid (g := g) (b :: l) a
    have hfirst : (∃ first, Grid (a :: b :: l) first g) ↔ Grid (a :: b :: l) a.time g := by
      constructor
      · rintro ⟨f, h⟩
        have := h 0 a rfl
        simp at this
        rw [this]; exact h
      · exact fun h => ⟨_, h⟩
    rw [hfirst, ← key]
    rw [diffs]
    simp only [List.length_cons, List.forall_mem_cons]
    constructor
    · intro h
      split at h
      · rename_i hall
        cases h
        refine ⟨by omega, rfl, ?_⟩
        intro x hx
        have := List.all_eq_true.1 hall x hx
        simpa using this
      · cases h
    · rintro ⟨-, rfl, h⟩
      rw [if_pos]
      rw [List.all_eq_true]
      intro x hx
      simpa using h x hx

theorem gap_error {l : List Row} {e : Err} : gap l = .error e ↔
    (l.length < 2 ∧ e = .durationNotFound) ∨ (2 ≤ l.length ∧ e = .panic ∧ ∀ first g, ¬ Grid l first g) := by
  have h1 := @gap_ok l
  cases hg : gap l with
  | ok g =>
    rw [hg] at h1
    simp only [reduceCtorEq, false_iff]
    obtain ⟨h2, f, h3⟩ := (h1 (g := g)).1 rfl
    rintro (⟨h, -⟩ | ⟨-, -, h⟩)
    · omega
    · exact h f g h3
  | error e' =>
    simp only [Except.error.injEq]
    rw [hg] at h1
    have hno : 2 ≤ l.length → ∀ f g, ¬ Grid l f g := by
      intro h f g hgr
      have := (h1 (g := g)).2 ⟨h, f, hgr⟩
      cases this
    unfold gap at hg
    match l with
    | [] => simp [diffs] at hg; subst hg; simp [eq_comm]
    | [a] => simp [diffs] at hg; subst hg; simp [eq_comm]
    | a :: b :: l =>
      rw [diffs] at hg
      simp only at hg
      split at hg
      · cases hg
      · cases hg
        constructor
        · rintro rfl; exact Or.inr ⟨by simp, rfl, hno (by simp)⟩
        · rintro (⟨h, -⟩ | ⟨-, h, -⟩)
          · simp only [List.length_cons] at h; omega
          · exact h.symm

theorem lastTime_grid {l : List Row} {first g : Int} (h : Grid l first g) (hl : 0 < l.length) : lastTime l = first + ((l.length - 1 : Nat) : Int) * g := by
  have hi : l.getLast? = some l[l.length - 1] := by
    rw [List.getLast?_eq_getElem?, List.getElem?_eq_getElem (by omega)]
  rw [lastTime, hi]
  exact h _ _ (List.getElem?_eq_getElem (by omega))

/-- A row lies in every window between the first and the last row. -/
theorem window_row {first g d : Int} (hd : 0 < d) (hg : 0 ≤ g) (hgd : g ≤ d) {m k : Nat} (hm : 0 < m)
    (hk : (k : Int) * d ≤ ((m - 1 : Nat) : Int) * g) :
    ∃ i : Nat, i < m ∧ first + k * d ≤ first + (i : Int) * g ∧ first + (i : Int) * g < first + k * d + d := by
  rcases hg.eq_or_lt with rfl | hg
  · have : (k : Int) * d = 0 := le_antisymm (by linarith) (by positivity)
    exact ⟨0, hm, by simp [this], by simp [this, hd]⟩
  · -- the first row that is not before the window
    have hex : ∃ i : Nat, (k : Int) * d ≤ i * g := ⟨m - 1, hk⟩
    obtain ⟨i, h1, h2⟩ : ∃ i : Nat, (k : Int) * d ≤ i * g ∧ ∀ j < i, ¬ (k : Int) * d ≤ j * g := by
      classical
      exact ⟨Nat.find hex, Nat.find_spec hex, fun j hj => Nat.find_min hex hj⟩
    have hle : i ≤ m - 1 := by
      by_contra hc
      exact h2 (m - 1) (by omega) hk
    refine ⟨i, by omega, by linarith, ?_⟩
    cases i with
    | zero =>
      have : (0 : Int) ≤ k * d := by positivity
      push_cast
      linarith
    | succ i =>
      have := h2 i (by omega)
      push Not at this
      push_cast
      linarith

/-- The windows of a series with a gap up to the length of the windows. -/
theorem downsample_eq {l : List Row} {first g d : Int} (h : Grid l first g) (hl : 0 < l.length) (hg : 0 ≤ g) (hd : 0 < d) (hgd : g ≤ d) :
    downsample d l = (List.range ((((l.length - 1 : Nat) : Int) * g / d).toNat + 1)).map fun (k : Nat) =>
      ⟨first + k * d, mean ((l.filter fun x => decide (first + k * d ≤ x.time) && decide (x.time < first + k * d + d)).map (·.value))⟩ := by
  match l, hl with
  | r :: l, hl =>
    have hr : r.time = first := by simpa using h 0 r rfl
    rw [downsample, lastTime_grid h hl, hr, show first + (((r :: l).length - 1 : Nat) : Int) * g - first = (((r :: l).length - 1 : Nat) : Int) * g by ring]
    refine (List.filterMap_congr fun k hk => ?_).trans (congrFun List.filterMap_eq_map _)
    rw [List.mem_range] at hk
    have hkd : (k : Int) * d ≤ (((r :: l).length - 1 : Nat) : Int) * g := by
      have h1 : (k : Int) ≤ (((r :: l).length - 1 : Nat) : Int) * g / d := by
        have : (0 : Int) ≤ (((r :: l).length - 1 : Nat) : Int) * g / d := Int.ediv_nonneg (by positivity) hd.le
        omega
      calc (k : Int) * d ≤ ((((r :: l).length - 1 : Nat) : Int) * g / d) * d := by gcongr
        _ ≤ _ := Int.ediv_mul_le _ (by omega)
    obtain ⟨i, hi, h1, h2⟩ := window_row (first := first) hd hg hgd hl hkd
    have hx := h i _ (List.getElem?_eq_getElem hi)
    have hmem : (r :: l)[i] ∈ (r :: l).filter fun x => decide (first + k * d ≤ x.time) && decide (x.time < first + k * d + d) := by
      rw [List.mem_filter]
      refine ⟨List.getElem_mem _, ?_⟩
      rw [hx]
      simp only [Bool.and_eq_true, decide_eq_true_eq]
      exact ⟨h1, h2⟩
    simp only [Function.comp]
    split
    · rename_i hnil; rw [hnil] at hmem; cases hmem
    · rfl

theorem fill_length : ∀ (l : List Row) (p : Option ℚ), (fill p l).length = l.length := by
  intro l
  induction l with
  | nil => intro p; rfl
  | cons r l ih => intro p; simp [fill, ih]

theorem fill_time : ∀ (l : List Row) (p : Option ℚ), (fill p l).map (·.time) = l.map (·.time) := by
  intro l
  induction l with
  | nil => intro p; rfl
  | cons r l ih => intro p; simp [fill, ih]

/-- What is filled in: the last number up to here. -/
theorem fill_value : ∀ (l : List Row) (p : Option ℚ) (k : Nat) (r : Row), (fill p l)[k]? = some r →
    (r.value = none ∧ p = none ∧ ∀ (j : Nat) x, j ≤ k → l[j]? = some x → x.value = none) ∨
    (∃ v, r.value = some v ∧ p = some v ∧ ∀ (j : Nat) x, j ≤ k → l[j]? = some x → x.value = none) ∨
    (∃ (v : ℚ) (j : Nat) (x : Row), r.value = some v ∧ j ≤ k ∧ l[j]? = some x ∧ x.value = some v ∧
      ∀ (j' : Nat) y, j < j' → j' ≤ k → l[j']? = some y → y.value = none) := by
  intro l
  induction l with
  | nil => intro p k r h; simp [fill] at h
  | cons a l ih =>
    intro p k r h
    rw [fill] at h
    cases k with
    | zero =>
      simp only [List.getElem?_cons_zero, Option.some.injEq] at h
      subst h
      cases hv : a.value with
      | none =>
        have hall : ∀ (j : Nat) x, j ≤ 0 → (a :: l)[j]? = some x → x.value = none := by
          intro j x hj hx
          obtain rfl : j = 0 := by omega
          simp at hx; rw [← hx]; exact hv
        cases p with
        | none => exact Or.inl ⟨by simp, rfl, hall⟩
        | some v => exact Or.inr (Or.inl ⟨v, by simp, rfl, hall⟩)
      | some v =>
        refine Or.inr (Or.inr ⟨v, 0, a, by simp, le_refl _, rfl, hv, ?_⟩)
        intro j' y h1 h2; omega
    | succ k =>
      simp only [List.getElem?_cons_succ] at h
      have hshift : ∀ (j : Nat) x, j ≤ k + 1 → a.value = none → (∀ (j : Nat) x, j ≤ k → l[j]? = some x → x.value = none) →
          (a :: l)[j]? = some x → x.value = none := by
        intro j x hj ha hl hx
        cases j with
        | zero => simp at hx; rw [← hx]; exact ha
        | succ j => exact hl j x (by omega) (by simpa using hx)
      rcases ih _ k r h with ⟨h1, h2, h3⟩ | ⟨v, h1, h2, h3⟩ | ⟨v, j, x, h1, h2, h3, h4, h5⟩
      · cases hv : a.value with
        | none =>
          rw [hv] at h2
          exact Or.inl ⟨h1, by simpa using h2, fun j x hj hx => hshift j x hj hv h3 hx⟩
        | some w => rw [hv] at h2; simp at h2
      · cases hv : a.value with
        | none =>
          rw [hv] at h2
          exact Or.inr (Or.inl ⟨v, h1, by simpa using h2, fun j x hj hx => hshift j x hj hv h3 hx⟩)
        | some w =>
          rw [hv] at h2
          have hwv : w = v := by simpa using h2
          subst hwv
          refine Or.inr (Or.inr ⟨w, 0, a, h1, by omega, rfl, hv, ?_⟩)
          intro j' y hj hk hy
          obtain ⟨j', rfl⟩ : ∃ i, j' = i + 1 := ⟨j' - 1, by omega⟩
          exact h3 j' y (by omega) (by simpa using hy)
      · refine Or.inr (Or.inr ⟨v, j + 1, x, h1, by omega, by simpa using h3, h4, ?_⟩)
        intro j' y hj hk hy
        obtain ⟨j', rfl⟩ : ∃ i, j' = i + 1 := ⟨j' - 1, by omega⟩
        exact h5 j' y (by omega) (by omega) (by simpa using hy)

/-- The rows before filling. -/
def joined (d first : Int) (m : Nat) (l : List Row) : List Row :=
  (List.range m).map fun (k : Nat) => ⟨first + k * d, (l.find? fun x => x.time == first + k * d).bind (·.value)⟩

theorem upsample_eq {l : List Row} {first g d : Int} (h : Grid l first g) (hl : 0 < l.length) :
    upsample d l = fill none (joined d first ((((l.length - 1 : Nat) : Int) * g / d).toNat + 1) l) := by
  match l, hl with
  | r :: l, hl =>
    have hr : r.time = first := by simpa using h 0 r rfl
    rw [upsample, lastTime_grid h hl, hr, show first + (((r :: l).length - 1 : Nat) : Int) * g - first = (((r :: l).length - 1 : Nat) : Int) * g by ring]
    rfl

/-- The frame after resampling. -/
def resample (d g : Int) (l : List Row) : List Row := if g < d then downsample d l else if d < g then upsample d l else l

theorem range_grid {f : Nat → Row} {first d : Int} {m : Nat} (hf : ∀ k, (f k).time = first + k * d) : Grid ((List.range m).map f) first d := by
  intro i r hr
  rw [List.getElem?_map] at hr
  by_cases hi : i < m
  · rw [List.getElem?_range hi] at hr
    simp only [Option.map_some, Option.some.injEq] at hr
    rw [← hr]; exact hf i
  · rw [List.getElem?_eq_none (by rw [List.length_range]; omega)] at hr
    cases hr

/-- However the series is brought to the steps, its rows are as far apart as the steps and go from the first to the last row. -/
theorem resample_grid {l : List Row} {first g d : Int} (h : Grid l first g) (hl : 0 < l.length) (hg : 0 ≤ g) (hd : 0 < d) :
    Grid (resample d g l) first d ∧ (resample d g l).length = (((l.length - 1 : Nat) : Int) * g / d).toNat + 1 := by
  unfold resample
  by_cases h1 : g < d
  · rw [if_pos h1, downsample_eq h hl hg hd h1.le]
    exact ⟨range_grid fun k => rfl, by simp⟩
  · rw [if_neg h1]
    by_cases h2 : d < g
    · rw [if_pos h2, upsample_eq h hl]
      refine ⟨?_, by simp [fill_length, joined]⟩
      rw [grid_map, fill_time, fill_length, ← grid_map]
      exact range_grid fun k => rfl
    · rw [if_neg h2]
      obtain rfl : g = d := by omega
      refine ⟨h, ?_⟩
      rw [Int.mul_ediv_cancel _ (by omega)]
      simp only [Int.toNat_natCast]
      omega

theorem slice_eq {l : List Row} {start d : Int} (h : Grid l start d) (hd : 0 < d) {n : Nat} (hn : 0 < n) :
    l.filter (fun r => decide (r.time ≤ start + ((n - 1 : Nat) : Int) * d)) = l.take n := by
  conv_lhs => rw [← List.take_append_drop n l]
  rw [List.filter_append]
  have h1 : (l.drop n).filter (fun r => decide (r.time ≤ start + ((n - 1 : Nat) : Int) * d)) = [] := by
    rw [List.filter_eq_nil_iff]
    intro x hx
    obtain ⟨i, hi⟩ := List.mem_iff_getElem?.1 hx
    rw [List.getElem?_drop] at hi
    have := h _ _ hi
    simp only [decide_eq_true_eq, not_le]
    have e : ((n - 1 : Nat) : Int) = n - 1 := by omega
    push_cast at this
    rw [e]
    have : (0 : Int) ≤ i * d := by positivity
    nlinarith
  have h2 : (l.take n).filter (fun r => decide (r.time ≤ start + ((n - 1 : Nat) : Int) * d)) = l.take n := by
    rw [List.filter_eq_self]
    intro x hx
    obtain ⟨i, hi⟩ := List.mem_iff_getElem?.1 hx
    have hin : i < n := by
      have := (List.getElem?_eq_some_iff.1 hi).1
      rw [List.length_take] at this; omega
    rw [List.getElem?_take_of_lt hin] at hi
    have := h _ _ hi
    simp only [decide_eq_true_eq]
    rw [this]
    have : (i : Int) ≤ ((n - 1 : Nat) : Int) := by omega
    have := mul_le_mul_of_nonneg_right this hd.le
    linarith
  rw [h1, h2, List.append_nil]

/-- Cutting off the rows after the last step. -/
theorem slice_end {l : List Row} {first start d : Int} (h : Grid l first d) (hd : 0 < d) (hs : start ≤ first) {n : Nat} (hn : 0 < n) :
    (l.filter fun r => decide (r.time ≤ start + ((n - 1 : Nat) : Int) * d)).length = n ↔ first = start ∧ n ≤ l.length := by
  constructor
  · intro hlen
    have hfirst : first = start := by
      by_contra hne
      have hlt : start < first := lt_of_le_of_ne hs (Ne.symm hne)
      have hsplit : l.filter (fun r => decide (r.time ≤ start + ((n - 1 : Nat) : Int) * d)) =
          (l.take (n - 1)).filter fun r => decide (r.time ≤ start + ((n - 1 : Nat) : Int) * d) := by
        conv_lhs => rw [← List.take_append_drop (n - 1) l]
        rw [List.filter_append]
        have : (l.drop (n - 1)).filter (fun r => decide (r.time ≤ start + ((n - 1 : Nat) : Int) * d)) = [] := by
          rw [List.filter_eq_nil_iff]
          intro x hx
          obtain ⟨i, hi⟩ := List.mem_iff_getElem?.1 hx
          rw [List.getElem?_drop] at hi
          have := h _ _ hi
          simp only [decide_eq_true_eq, not_le]
          push_cast at this ⊢
          have : (0 : Int) ≤ i * d := by positivity
          nlinarith
        rw [this, List.append_nil]
      rw [hsplit] at hlen
      have := (List.length_filter_le (fun r => decide (r.time ≤ start + ((n - 1 : Nat) : Int) * d)) (l.take (n - 1)))
      rw [hlen, List.length_take] at this
      omega
    refine ⟨hfirst, ?_⟩
    rw [← hlen]
    exact List.length_filter_le _ _
  · rintro ⟨rfl, hl⟩
    rw [slice_eq h hd hn, List.length_take]
    omega

theorem slice_take {l : List Row} {start d : Int} (h : Grid l start d) (hd : 0 < d) {n : Nat} (hn : 0 < n) (k : Nat) (hk : k < n) (r : Row) :
    (l.filter fun r => decide (r.time ≤ start + ((n - 1 : Nat) : Int) * d))[k]? = some r ↔ l[k]? = some r := by
  rw [slice_eq h hd hn, List.getElem?_take_of_lt hk]

end Verif.Timeseries
