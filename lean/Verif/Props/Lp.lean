import Verif.Lemmas.Lp
import Mathlib.Tactic.IntervalCases

/-! # Linear program builder: C18 (bounds of rows) and C19 (sparse matrix) -/

namespace Verif.Solver

/-! ## C19 -/

/-- **C19 (coefficients).** Adding elements one by one gives a row that evaluates, at every point, to the sum of all
elements added, whatever the order and however often a column is repeated; columns appear once, in increasing order. -/
theorem C19_accumulate (els : List (Nat × ℚ)) :
    ((els.foldl (fun r p => r.addElement p.1 p.2) Row.default).columns.map (·.1)).Pairwise (· < ·) ∧
    (∀ x, value (els.foldl (fun r p => r.addElement p.1 p.2) Row.default).columns x = value els x) ∧
    (∀ c, c ∈ (els.foldl (fun r p => r.addElement p.1 p.2) Row.default).columns.map (·.1) ↔ c ∈ els.map (·.1)) := by
  have gen : ∀ (els : List (Nat × ℚ)) (r : Row), r.Sorted →
      ((els.foldl (fun r p => r.addElement p.1 p.2) r).Sorted) ∧
      (∀ x, value (els.foldl (fun r p => r.addElement p.1 p.2) r).columns x = value r.columns x + value els x) ∧
      (∀ c, c ∈ (els.foldl (fun r p => r.addElement p.1 p.2) r).columns.map (·.1) ↔
        c ∈ r.columns.map (·.1) ∨ c ∈ els.map (·.1)) := by
    intro els
    induction els with
    | nil => intro r hr; exact ⟨hr, fun x => by simp [value], fun c => by simp⟩
    | cons p els ih =>
      intro r hr
      obtain ⟨h1, h2, h3⟩ := ih (r.addElement p.1 p.2) (r.sorted_addElement _ _ hr)
      refine ⟨h1, fun x => ?_, fun c => ?_⟩
      · rw [List.foldl_cons, h2 x, r.value_addElement _ _ _ hr]
        simp only [value, List.map_cons, List.sum_cons]
        ring
      · rw [List.foldl_cons, h3 c]
        unfold Row.addElement
        simp only
        rw [keys_insert]
        simp only [List.map_cons, List.mem_cons]
        tauto
  obtain ⟨h1, h2, h3⟩ := gen els Row.default Row.sorted_default
  refine ⟨h1, fun x => ?_, fun c => ?_⟩
  · rw [h2 x]; simp [Row.default, value]
  · rw [h3 c]; simp [Row.default]

/-- **C19 (sparse form).** In the program built, row `i` is the `i`-th row of the builder (variable rows first), with its
entries, bounds and mask; the row starts begin at zero, never decrease, end at the number of entries, and there is one
more of them than rows. -/
theorem C19_sparse (b : LpBuilder) :
    b.build.rowStarts.length = b.rows.length + b.fixedRows.length + 1 ∧
    b.build.rowStarts.head? = some 0 ∧
    b.build.rowStarts.Pairwise (· ≤ ·) ∧
    b.build.rowStarts.getLast? = some b.build.columns.length ∧
    b.build.columns.length = b.build.elements.length ∧
    b.build.rowLower.length = b.rows.length + b.fixedRows.length ∧
    b.build.rowUpper.length = b.rows.length + b.fixedRows.length ∧
    ∀ (i : Nat) (r : Row), (b.rows ++ b.fixedRows)[i]? = some r →
      b.build.entries i = r.columns ∧
      b.build.rowLower[i]? = some r.lower ∧
      b.build.rowUpper[i]? = some (r.upper.getD b.f64Max) ∧
      b.build.rowMask[i]? = some (if i < b.rows.length then 1 else 0) := by
  have hg := b.build_good
  have hlen : b.allRows.length = b.rows.length + b.fixedRows.length := by simp [LpBuilder.allRows]
  have h1 := hg.starts
  have h2 := hg.columns
  have h3 := hg.elements
  have h4 := hg.lower
  have h5 := hg.upper
  have h6 := hg.mask
  simp only at h1 h2 h3 h4 h5 h6
  refine ⟨?_, ?_, ?_, ?_, ?_, ?_, ?_, ?_⟩
  · rw [h1]; simp [hlen]
  · rw [h1, List.range_succ_eq_map]; simp
  · rw [h1, List.pairwise_map]
    apply List.Pairwise.imp_of_mem _ (List.pairwise_lt_range)
    intro i j _ _ hij
    have hp : (b.allRows.take i).Sublist (b.allRows.take j) := (List.take_prefix_take_left hij.le).sublist
    have : ∀ (l l' : List (Row × Nat)), l.Sublist l' →
        (l.map (·.1.columns.length)).sum ≤ (l'.map (·.1.columns.length)).sum := by
      intro l l' hs
      induction hs with
      | slnil => simp
      | cons a _ ih => simp only [List.map_cons, List.sum_cons]; omega
      | cons_cons a _ ih => simp only [List.map_cons, List.sum_cons]; omega
    exact this _ _ hp
  · rw [h1, h2, List.range_succ, List.map_append, List.map_singleton]
    simp only [List.getLast?_append, List.getLast?_singleton, Option.some_or, List.take_length,
      List.length_flatMap, List.length_map]
  · rw [h2, h3]; simp [List.length_flatMap]
  · rw [h4]; simp [hlen]
  · rw [h5]; simp [hlen]
  · intro i r hr
    have hall : b.allRows[i]? = some (r, if i < b.rows.length then 1 else 0) := by
      unfold LpBuilder.allRows
      by_cases hi : i < b.rows.length
      · rw [List.getElem?_append_left (by simpa using hi)]
        rw [List.getElem?_append_left hi] at hr
        rw [List.getElem?_map, hr, if_pos hi]; rfl
      · rw [List.getElem?_append_right (by simpa using hi)]
        rw [List.getElem?_append_right (by omega)] at hr
        simp [hr, hi]
    refine ⟨b.build_entries i _ hall, ?_, ?_, ?_⟩
    · rw [h4, List.getElem?_map, hall]; rfl
    · rw [h5, List.getElem?_map, hall]; rfl
    · rw [h6, List.getElem?_map, hall]; rfl

/-- **C19 (row ids).** The id returned when a variable row is added refers, in the final program, to a row with exactly
that row's entries, bounds and a mask of one, whatever columns and rows are added before and after. -/
theorem C19_row_ids (b : LpBuilder) (ops : List Op) (r : Row) (i : Nat) (h : (r, i) ∈ (b.run ops).2) :
    (b.run ops).1.build.entries i = r.columns ∧
    (b.run ops).1.build.rowLower[i]? = some r.lower ∧
    (b.run ops).1.build.rowUpper[i]? = some (r.upper.getD (b.run ops).1.f64Max) ∧
    (b.run ops).1.build.rowMask[i]? = some 1 := by
  have h1 := run_ids ops b r i h
  have hlt : i < (b.run ops).1.rows.length := (List.getElem?_eq_some_iff.1 h1).1
  have := (C19_sparse (b.run ops).1).2.2.2.2.2.2.2 i r (by rw [List.getElem?_append_left hlt]; exact h1)
  simpa [hlt] using this

/-- Two equal variable rows share an id; a row with entries added out of order and a repeated column. -/
def row1 : Row := ((Row.default.addElement 3 1).addElement 1 2).addElement 3 4
def row2 : Row := (Row.default.addElement 0 1).setUpper 7
def opsW : List Op := [.column 0 (.lower 0) .continuous, .fixedRow row2, .variableRow row1, .fixedRow row1,
  .variableRow row2, .variableRow row1]

example : ((LpBuilder.new 100 (-100)).run opsW).2 = [(row1, 0), (row2, 1), (row1, 0)] := by decide +kernel
example : ((LpBuilder.new 100 (-100)).run opsW).1.build.rowStarts = [0, 2, 3, 4, 6] := by decide +kernel
example : ((LpBuilder.new 100 (-100)).run opsW).1.build.entries 0 = [(1, 2), (3, 5)] := by decide +kernel

/-! ## C18 -/

/-- The lengths of the arrays of rows agree. -/
def Lp.RowsAgree (lp : Lp) : Prop := lp.rowMask.length = lp.rowLower.length ∧ lp.rowLower.length = lp.rowUpper.length

theorem LpBuilder.rowsAgree (b : LpBuilder) : b.build.RowsAgree := by
  have hg := b.build_good
  have h4 := hg.lower
  have h5 := hg.upper
  have h6 := hg.mask
  simp only at h4 h5 h6
  constructor
  · rw [h4, h6]; simp
  · rw [h4, h5]; simp

theorem applyRowBounds_some {lp lp' : Lp} {r : Nat} {l u : ℚ} (h : lp.applyRowBounds r l u = some lp') :
    r < lp.rowLower.length ∧ r < lp.rowUpper.length ∧
    lp' = { lp with rowLower := lp.rowLower.modify r (fun x => max x l)
                    rowUpper := lp.rowUpper.modify r (fun x => min x u) } := by
  unfold Lp.applyRowBounds at h
  split_ifs at h with hc
  simp only [Option.some.injEq] at h
  exact ⟨hc.1, hc.2, h.symm⟩

/-- Bounds applied one after the other: a value lies within the final bounds of a row exactly if it lies within the first
bounds and within every bound applied to that row; nothing else is changed. -/
theorem applyBounds_spec (bs : List (Nat × ℚ × ℚ)) : ∀ (lp lp' : Lp), lp.applyBounds bs = some lp' →
    (∃ lo hi, lp' = { lp with rowLower := lo, rowUpper := hi }) ∧
    lp'.rowLower.length = lp.rowLower.length ∧ lp'.rowUpper.length = lp.rowUpper.length ∧
    ∀ (i : Nat) (lo hi : ℚ), lp.rowLower[i]? = some lo → lp.rowUpper[i]? = some hi →
      ∃ lo' hi', lp'.rowLower[i]? = some lo' ∧ lp'.rowUpper[i]? = some hi' ∧
        ∀ v, (lo' ≤ v ∧ v ≤ hi') ↔ ((lo ≤ v ∧ v ≤ hi) ∧ ∀ l u, (i, l, u) ∈ bs → l ≤ v ∧ v ≤ u) := by
  induction bs with
  | nil =>
    intro lp lp' h
    simp only [Lp.applyBounds, Option.some.injEq] at h
    subst h
    exact ⟨⟨_, _, rfl⟩, rfl, rfl, fun i lo hi h1 h2 => ⟨lo, hi, h1, h2, fun v => by simp⟩⟩
  | cons b bs ih =>
    obtain ⟨r, l, u⟩ := b
    intro lp lp' h
    simp only [Lp.applyBounds] at h
    cases h1 : lp.applyRowBounds r l u with
    | none => simp [h1] at h
    | some lp1 =>
      simp only [h1, Option.bind_some] at h
      obtain ⟨hr1, hr2, rfl⟩ := applyRowBounds_some h1
      obtain ⟨⟨lo1, hi1, e⟩, hl1, hl2, hspec⟩ := ih _ _ h
      refine ⟨⟨lo1, hi1, e⟩, by simpa using hl1, by simpa using hl2, ?_⟩
      intro i lo hi hlo hhi
      by_cases hir : r = i
      · subst hir
        obtain ⟨lo', hi', a, b, c⟩ := hspec r (max lo l) (min hi u)
          (by simp [hlo]) (by simp [hhi])
        refine ⟨lo', hi', a, b, fun v => ?_⟩
        rw [c v]
        simp only [max_le_iff, le_min_iff, List.mem_cons, Prod.mk.injEq, true_and]
        constructor
        · rintro ⟨⟨⟨h1, h2⟩, h3, h4⟩, h5⟩
          refine ⟨⟨h1, h3⟩, ?_⟩
          rintro l' u' (⟨rfl, rfl⟩ | hm)
          · exact ⟨h2, h4⟩
          · exact h5 l' u' hm
        · rintro ⟨⟨h1, h2⟩, h3⟩
          have := h3 l u (Or.inl ⟨rfl, rfl⟩)
          exact ⟨⟨⟨h1, this.1⟩, h2, this.2⟩, fun l' u' hm => h3 l' u' (Or.inr hm)⟩
      · obtain ⟨lo', hi', a, b, c⟩ := hspec i lo hi (by simp [hir, hlo]) (by simp [hir, hhi])
        refine ⟨lo', hi', a, b, fun v => ?_⟩
        rw [c v]
        simp only [List.mem_cons, Prod.mk.injEq]
        constructor
        · rintro ⟨h1, h2⟩
          refine ⟨h1, ?_⟩
          rintro l' u' (⟨rfl, _⟩ | hm)
          · exact absurd rfl hir
          · exact h2 l' u' hm
        · rintro ⟨h1, h2⟩
          exact ⟨h1, fun l' u' hm => h2 l' u' (Or.inr hm)⟩

/-- **C18 (intersection).** After the reset and any list of bounds, the row of a variable constraint admits exactly the
values which meet every bound applied to it (and the solver's largest numbers); a fixed row to which no bound is applied
keeps its own bounds; no other part of the program changes. -/
theorem C18_intersection (lp lp' : Lp) (hw : lp.RowsAgree) (bs : List (Nat × ℚ × ℚ))
    (h : lp.resetRowBounds.applyBounds bs = some lp') :
    (∀ i, lp.rowMask[i]? = some 1 → ∃ lo' hi', lp'.rowLower[i]? = some lo' ∧ lp'.rowUpper[i]? = some hi' ∧
      ∀ v, (lo' ≤ v ∧ v ≤ hi') ↔
        ((lp.f64NegMax ≤ v ∧ v ≤ lp.f64Max) ∧ ∀ l u, (i, l, u) ∈ bs → l ≤ v ∧ v ≤ u)) ∧
    (∀ i lo hi, lp.rowMask[i]? ≠ some 1 → (∀ l u, (i, l, u) ∉ bs) → lp.rowLower[i]? = some lo → lp.rowUpper[i]? = some hi →
      ∃ lo' hi', lp'.rowLower[i]? = some lo' ∧ lp'.rowUpper[i]? = some hi' ∧ ∀ v, (lo' ≤ v ∧ v ≤ hi') ↔ (lo ≤ v ∧ v ≤ hi)) ∧
    (∃ lo hi, lp' = { lp with rowLower := lo, rowUpper := hi }) := by
  obtain ⟨⟨lo1, hi1, e⟩, _, _, hspec⟩ := applyBounds_spec bs _ _ h
  refine ⟨?_, ?_, ⟨lo1, hi1, by rw [e]; rfl⟩⟩
  · intro i hi
    exact hspec i lp.f64NegMax lp.f64Max
      (by simp only [Lp.resetRowBounds]; rw [resetBounds_get _ _ _ hw.1, if_pos hi])
      (by simp only [Lp.resetRowBounds]; rw [resetBounds_get _ _ _ (hw.1.trans hw.2), if_pos hi])
  · intro i lo hi hm hno h1 h2
    obtain ⟨lo', hi', a, b, c⟩ := hspec i lo hi
      (by simp only [Lp.resetRowBounds]; rw [resetBounds_get _ _ _ hw.1, if_neg hm]; exact h1)
      (by simp only [Lp.resetRowBounds]; rw [resetBounds_get _ _ _ (hw.1.trans hw.2), if_neg hm]; exact h2)
    refine ⟨lo', hi', a, b, fun v => ?_⟩
    rw [c v]
    exact ⟨fun h => h.1, fun h => ⟨h, fun l u hlu => absurd hlu (hno l u)⟩⟩

/-- **C18 (total).** Applying bounds succeeds exactly if all rows named exist. -/
theorem C18_total (bs : List (Nat × ℚ × ℚ)) : ∀ (lp : Lp), lp.RowsAgree →
    ((lp.applyBounds bs).isSome = true ↔ ∀ p ∈ bs, p.1 < lp.rowLower.length) := by
  induction bs with
  | nil => intro lp _; simp [Lp.applyBounds]
  | cons b bs ih =>
    obtain ⟨r, l, u⟩ := b
    intro lp hw
    simp only [Lp.applyBounds, List.forall_mem_cons]
    cases h1 : lp.applyRowBounds r l u with
    | none =>
      simp only [Option.bind_none, Option.isSome_none, Bool.false_eq_true, false_iff, not_and]
      intro hr
      unfold Lp.applyRowBounds at h1
      rw [if_pos ⟨hr, hw.2 ▸ hr⟩] at h1
      cases h1
    | some lp1 =>
      obtain ⟨hr1, _, rfl⟩ := applyRowBounds_some h1
      simp only [Option.bind_some]
      rw [ih _ (by unfold Lp.RowsAgree at hw ⊢; simpa using hw)]
      simp [hr1]

/-- **C18 (order).** The order in which the bounds are applied does not matter. -/
theorem C18_order (bs bs' : List (Nat × ℚ × ℚ)) (hp : bs.Perm bs') : ∀ lp : Lp, lp.applyBounds bs = lp.applyBounds bs' := by
  induction hp with
  | nil => intro lp; rfl
  | cons b _ ih =>
    intro lp
    obtain ⟨r, l, u⟩ := b
    simp only [Lp.applyBounds]
    cases lp.applyRowBounds r l u with
    | none => rfl
    | some lp1 => exact ih lp1
  | swap b b' t =>
    intro lp
    obtain ⟨r, l, u⟩ := b
    obtain ⟨r', l', u'⟩ := b'
    have hcomm : ∀ (xs : List ℚ) (f g : ℚ → ℚ), (∀ x, f (g x) = g (f x)) →
        (xs.modify r' g).modify r f = (xs.modify r f).modify r' g := by
      intro xs f g hfg
      apply List.ext_getElem?
      intro i
      simp only [List.getElem?_modify]
      by_cases h1 : r = i <;> by_cases h2 : r' = i <;> cases xs[i]? <;> simp [h1, h2, hfg]
    simp only [Lp.applyBounds]
    by_cases h1 : r < lp.rowLower.length ∧ r < lp.rowUpper.length
    · by_cases h2 : r' < lp.rowLower.length ∧ r' < lp.rowUpper.length
      · unfold Lp.applyRowBounds
        simp only [h1, h2, and_self, if_true, Option.bind_some, List.length_modify]
        rw [hcomm lp.rowLower (fun x => max x l) (fun x => max x l') (fun x => by rw [max_assoc, max_comm l', ← max_assoc]),
          hcomm lp.rowUpper (fun x => min x u) (fun x => min x u') (fun x => by rw [min_assoc, min_comm u', ← min_assoc])]
      · unfold Lp.applyRowBounds
        simp [h1, h2]
    · unfold Lp.applyRowBounds
      by_cases h2 : r' < lp.rowLower.length ∧ r' < lp.rowUpper.length <;> simp [h1, h2]
  | trans _ _ ih1 ih2 => intro lp; rw [ih1, ih2]

/-- **C18 (no memory).** Bounds applied to variable rows in an earlier step leave nothing behind: after the reset the
program is the same as if they had never been applied. -/
theorem C18_no_memory (bs : List (Nat × ℚ × ℚ)) (lp lp' : Lp) (hw : lp.RowsAgree)
    (hm : ∀ p ∈ bs, lp.rowMask[p.1]? = some 1) (h : lp.applyBounds bs = some lp') :
    lp'.resetRowBounds = lp.resetRowBounds := by
  induction bs generalizing lp with
  | nil => simp only [Lp.applyBounds, Option.some.injEq] at h; rw [h]
  | cons b bs ih =>
    obtain ⟨r, l, u⟩ := b
    simp only [Lp.applyBounds] at h
    cases h1 : lp.applyRowBounds r l u with
    | none => simp [h1] at h
    | some lp1 =>
      simp only [h1, Option.bind_some] at h
      obtain ⟨_, _, rfl⟩ := applyRowBounds_some h1
      have hr := hm (r, l, u) (by simp)
      have hm' : ∀ p ∈ bs, lp.rowMask[p.1]? = some 1 := fun p hp => hm p (List.mem_cons_of_mem _ hp)
      rw [ih _ (by unfold Lp.RowsAgree at hw ⊢; simpa using hw) (by simpa using hm') h]
      have : ∀ (v : ℚ) (xs : List ℚ) (f : ℚ → ℚ), lp.rowMask.length = xs.length →
          resetBounds v lp.rowMask (xs.modify r f) = resetBounds v lp.rowMask xs := by
        intro v xs f hl
        apply List.ext_getElem?
        intro i
        rw [resetBounds_get _ _ _ (by simpa using hl), resetBounds_get _ _ _ hl]
        by_cases hi : r = i
        · subst hi; rw [if_pos hr, if_pos hr]
        · simp [hi]
      simp only [Lp.resetRowBounds]
      rw [this _ _ _ hw.1, this _ _ _ (hw.1.trans hw.2)]

/-- A program with a variable and a fixed row; the variable row has stale bounds. -/
def lpW : Lp := ((LpBuilder.new 100 (-100)).run [.variableRow row1, .fixedRow row2]).1.build

example : lpW.RowsAgree := LpBuilder.rowsAgree _
example : (lpW.resetRowBounds.applyBounds [(0, 1, 50), (0, -3, 20), (0, 2, 30)]).map (fun l => (l.rowLower, l.rowUpper))
    = some ([2, 0], [20, 7]) := by decide +kernel
example : lpW.rowMask = [1, 0] := by decide +kernel

end Verif.Solver
