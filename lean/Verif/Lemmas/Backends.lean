import Verif.Spec.Backends
import Verif.Lemmas.SolverKeep
import Verif.Lemmas.Matrix

/-! # Lemmas on the programs held by solver libraries -/

namespace Verif.Backends

open Verif.Solver

/-! ## Rows handed over -/

theorem slice_entries (lp : Lp) (i : Nat) :
    slice lp.columns lp.elements (lp.rowStarts.getD i 0) (lp.rowStarts.getD (i + 1) 0) = lp.entries i := by
  unfold slice Lp.entries
  rw [List.drop_take]

theorem sparseRows_eq (columns : List Nat) (elements : List ℚ) : ∀ (n : Nat) (starts : List Nat), starts.length = n + 1 →
    sparseRows n starts columns elements
      = (List.range n).map (fun i => slice columns elements (starts.getD i 0) (starts.getD (i + 1) 0)) := by
  intro n
  induction n with
  | zero => intro starts _; simp [sparseRows]
  | succ n ih =>
    intro starts h
    match starts, h with
    | s :: e :: rest, h =>
      rw [sparseRows, ih (e :: rest) (by simpa using h), List.range_succ_eq_map, List.map_cons, List.map_map]
      rfl

theorem Has.rows {lp : Lp} {ls : List (OMap ℚ)} (h : lp.Has ls) : (List.range ls.length).map lp.entries = ls := by
  apply List.ext_getElem?
  intro i
  rw [List.getElem?_map]
  by_cases hi : i < ls.length
  · rw [List.getElem?_range hi, Option.map_some, h.entries i ls[i] (List.getElem?_eq_getElem hi), List.getElem?_eq_getElem hi]
  · rw [List.getElem?_eq_none (by simpa using hi), List.getElem?_eq_none (by omega)]
    rfl

theorem Has.starts_length {lp : Lp} {ls : List (OMap ℚ)} (h : lp.Has ls) : lp.rowStarts.length = ls.length + 1 := by
  rw [h.starts]; simp

theorem Has.sparseRows {lp : Lp} {ls : List (OMap ℚ)} (h : lp.Has ls) :
    sparseRows ls.length lp.rowStarts lp.columns lp.elements = ls := by
  rw [sparseRows_eq _ _ _ _ (Has.starts_length h)]
  simp only [slice_entries]
  exact Has.rows h

/-! ## Changing a coefficient -/

theorem setEntry_found (c : Nat) (v : ℚ) : ∀ (l : List (Nat × ℚ)) (p : Nat), colPosition c (l.map (·.1)) = some p →
    (setEntry c v l).map (·.1) = l.map (·.1) ∧ (setEntry c v l).map (·.2) = (l.map (·.2)).set p v ∧ p < l.length := by
  intro l
  induction l with
  | nil => intro p h; cases h
  | cons a l ih =>
    obtain ⟨k, w⟩ := a
    intro p h
    simp only [List.map_cons, colPosition] at h
    simp only [setEntry]
    by_cases hk : k = c
    · rw [if_pos hk] at h ⊢
      simp only [Option.some.injEq] at h
      subst h
      exact ⟨by simp [hk], by simp, by simp⟩
    · rw [if_neg hk] at h ⊢
      obtain ⟨q, h1, rfl⟩ := Option.map_eq_some_iff.1 h
      obtain ⟨e1, e2, e3⟩ := ih q h1
      exact ⟨by simp [e1], by simp [e2], by simpa using e3⟩

theorem modify_set {α : Type} (f : α → α) (ls : List α) (r : Nat) (l : α) (h : ls[r]? = some l) : ls.modify r f = ls.set r (f l) := by
  apply List.ext_getElem?
  intro j
  rw [List.getElem?_modify, List.getElem?_set]
  by_cases hj : r = j
  · subst hj
    rw [if_pos rfl, if_pos (List.getElem?_eq_some_iff.1 h).1, h]
    simp
  · rw [if_neg hj]
    cases ls[j]? <;> simp [hj]

theorem Has.modify {lp lp' : Lp} {ls : List (OMap ℚ)} (h : lp.Has ls) {r c : Nat} {v : ℚ}
    (he : lp.applyCoefficient r c v = some lp') :
    lp' = { lp with elements := lp'.elements } ∧ lp'.Has (ls.modify r (setEntry c v)) := by
  have hlen := Has.starts_length h
  unfold Lp.applyCoefficient at he
  cases h1 : lp.rowStarts[r]? with
  | none => simp [h1] at he
  | some s =>
    cases h2 : lp.rowStarts[r + 1]? with
    | none => simp [h1, h2] at he
    | some e =>
      simp only [h1, h2] at he
      have hr : r < ls.length := by
        have := (List.getElem?_eq_some_iff.1 h2).1
        omega
      have hl : ls[r]? = some ls[r] := List.getElem?_eq_getElem hr
      generalize ls[r] = l at hl
      obtain ⟨A, B, a1, a2, a3⟩ := flatMap_split (fun l : List (Nat × ℚ) => l.map (·.1)) (by simp) ls r l hl
      obtain ⟨A', B', b1, b2, b3⟩ := flatMap_split (fun l : List (Nat × ℚ) => l.map (·.2)) (by simp) ls r l hl
      have hs := h.start r hr.le
      have hs' := h.start (r + 1) hr
      rw [h1] at hs
      rw [h2, sum_take_succ ls r l hl] at hs'
      simp only [Option.some.injEq] at hs hs'
      have hcols : (lp.columns.take e).drop s = l.map (·.1) := by
        rw [h.columns, a1, hs', hs, ← a2]
        have := slice_append A (l.map (·.1)) B
        simpa using this
      rw [hcols] at he
      cases hp : colPosition c (l.map (·.1)) with
      | none => simp [hp] at he
      | some p =>
        simp only [hp, Option.some.injEq] at he
        obtain ⟨e1, e2, e3⟩ := setEntry_found c v l p hp
        have hlen' : (setEntry c v l).length = l.length := by
          have := congrArg List.length e1
          simpa using this
        subst he
        refine ⟨rfl, ?_⟩
        rw [modify_set _ _ _ _ hl]
        refine ⟨?_, ?_, ?_⟩
        · simp only [h.starts, List.length_set]
          apply List.map_congr_left
          intro i _
          congr 1
          rw [List.map_take, List.map_take]
          congr 1
          apply List.ext_getElem?
          intro j
          rw [List.getElem?_map, List.getElem?_map, List.getElem?_set]
          by_cases hj : r = j
          · subst hj; rw [hl, if_pos rfl, if_pos hr, Option.map_some, Option.map_some, hlen']
          · simp [hj]
        · simp only [h.columns]
          rw [a1, a3, e1]
        · simp only [h.elements]
          rw [b1, b3, e2, hs, ← b2, List.append_assoc, List.set_append_right _ _ (by omega), Nat.add_sub_cancel_left,
            List.set_append_left _ _ (by simpa using e3), List.append_assoc]

/-- Changing all of them. -/
theorem Has.modifyAll (P : List (Nat × Nat × ℚ)) : ∀ (lp lp' : Lp) (h : Held), lp.Has h.rows → lp.applyAll P = some lp' →
    lp' = { lp with elements := lp'.elements } ∧
    ∃ rows, P.foldl (fun h t => h.modify t.1 t.2.1 t.2.2) h = { h with rows := rows } ∧ lp'.Has rows := by
  induction P with
  | nil =>
    intro lp lp' h hh he
    simp only [Lp.applyAll, Option.some.injEq] at he
    subst he
    exact ⟨rfl, h.rows, rfl, hh⟩
  | cons t P ih =>
    obtain ⟨r, c, v⟩ := t
    intro lp lp' h hh he
    simp only [Lp.applyAll] at he
    cases h1 : lp.applyCoefficient r c v with
    | none => simp [h1] at he
    | some lp1 =>
      simp only [h1] at he
      obtain ⟨e1, e2⟩ := Has.modify hh h1
      obtain ⟨e3, rows, e4, e5⟩ := ih lp1 lp' (h.modify r c v) e2 he
      refine ⟨?_, rows, ?_, e5⟩
      · rw [e3, e1]
      · rw [List.foldl_cons, e4]
        rfl

theorem foldl_clamp (P : List (Nat × Nat × ℚ)) (hP : ∀ t ∈ P, |t.2.2| ≤ 10000000000) : ∀ h : Held,
    P.foldl (fun h t => h.modify t.1 t.2.1 (clamp t.2.2)) h = P.foldl (fun h t => h.modify t.1 t.2.1 t.2.2) h := by
  induction P with
  | nil => intro h; rfl
  | cons t P ih =>
    intro h
    have ht := abs_le.1 (hP t (by simp))
    have : clamp t.2.2 = t.2.2 := by
      unfold clamp
      rw [min_eq_left ht.2, max_eq_right ht.1]
    rw [List.foldl_cons, List.foldl_cons, this]
    exact ih (fun t ht => hP t (by simp [ht])) _

/-! ## Arrays -/

theorem overwrite_eq : ∀ (o n : List ℚ), o.length = n.length → overwrite o n = n := by
  intro o
  induction o with
  | nil => intro n h; cases n <;> simp_all [overwrite]
  | cons a o ih =>
    intro n h
    cases n with
    | nil => simp at h
    | cons b n => rw [overwrite, ih n (by simpa using h)]

theorem overwriteMasked_eq : ∀ (m : List Nat) (o n : List ℚ), o.length = n.length → m.length = o.length →
    (∀ i : Nat, m[i]? = some 0 → o[i]? = n[i]?) → overwriteMasked m o n = n := by
  intro m
  induction m with
  | nil =>
    intro o n h1 h2 _
    cases o with
    | nil => cases n <;> simp_all [overwriteMasked]
    | cons a o => simp at h2
  | cons k m ih =>
    intro o n h1 h2 h3
    cases o with
    | nil => simp at h2
    | cons a o =>
      cases n with
      | nil => simp at h1
      | cons b n =>
        rw [overwriteMasked, ih o n (by simpa using h1) (by simpa using h2) (fun i hi => by simpa using h3 (i + 1) (by simpa using hi))]
        congr 1
        split_ifs with hk
        · simpa using h3 0 (by simp [hk])
        · rfl

theorem setEach_from {α : Type} (new : List α) : ∀ (k : Nat) (old : List α), old.length = k + new.length →
    (new.zipIdx k).foldl (fun l p => l.set p.2 p.1) old = old.take k ++ new := by
  induction new with
  | nil => intro k old h; simp at h; simp [← h]
  | cons a new ih =>
    intro k old h
    rw [List.zipIdx_cons, List.foldl_cons, ih (k + 1) _ (by simp at h ⊢; omega)]
    simp only [List.length_cons] at h
    rw [List.take_add_one, List.take_set_of_le (by omega), List.getElem?_set_self (by omega)]
    simp

theorem setEach_eq (new old : List ℚ) (h : old.length = new.length) : setEach new old = new := by
  have := setEach_from new 0 old (by simpa using h)
  simpa [setEach] using this

end Verif.Backends
