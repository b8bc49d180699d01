import Verif.Lemmas.Lp
import Mathlib.Data.List.Nodup

/-! # Lemmas on changing coefficients of the sparse matrix -/

namespace Verif.Solver

/-- The matrix of the program has the rows `ls`. -/
structure Lp.Has (lp : Lp) (ls : List (OMap ℚ)) : Prop where
  starts : lp.rowStarts = (List.range (ls.length + 1)).map (fun i => ((ls.take i).map List.length).sum)
  columns : lp.columns = ls.flatMap (fun l => l.map (·.1))
  elements : lp.elements = ls.flatMap (fun l => l.map (·.2))

theorem LpBuilder.build_has (b : LpBuilder) : b.build.Has ((b.rows ++ b.fixedRows).map (·.columns)) := by
  have hg := b.build_good
  have e : b.allRows.map (·.1.columns) = (b.rows ++ b.fixedRows).map (·.columns) := by
    simp only [LpBuilder.allRows, List.map_append, List.map_map]
    rfl
  have e' : b.allRows.length = (b.rows ++ b.fixedRows).length := by simp [LpBuilder.allRows]
  refine ⟨?_, ?_, ?_⟩
  · have := hg.starts
    simp only at this
    rw [this, ← e, List.length_map]
    apply List.map_congr_left
    intro i _
    rw [← List.map_take, List.map_map]
    rfl
  · have := hg.columns
    simp only at this
    rw [this, ← e, List.flatMap_map]
  · have := hg.elements
    simp only at this
    rw [this, ← e, List.flatMap_map]

theorem Lp.Has.start {lp : Lp} {ls : List (OMap ℚ)} (h : lp.Has ls) (i : Nat) (hi : i ≤ ls.length) :
    lp.rowStarts[i]? = some ((ls.take i).map List.length).sum := by
  rw [h.starts, List.getElem?_map, List.getElem?_range (by omega)]
  rfl

theorem flatMap_split {α β : Type} (f : List α → List β) (hf : ∀ l, (f l).length = l.length) (ls : List (List α)) (r : Nat)
    (l : List α) (h : ls[r]? = some l) :
    ∃ A B, ls.flatMap f = A ++ f l ++ B ∧ A.length = ((ls.take r).map List.length).sum ∧
      ∀ l', (ls.set r l').flatMap f = A ++ f l' ++ B := by
  have hr := (List.getElem?_eq_some_iff.1 h).1
  refine ⟨(ls.take r).flatMap f, (ls.drop (r + 1)).flatMap f, ?_, ?_, ?_⟩
  · conv_lhs => rw [← List.take_append_drop r ls]
    rw [List.flatMap_append, List.drop_eq_getElem_cons hr, List.flatMap_cons, (List.getElem?_eq_some_iff.1 h).2,
      List.append_assoc]
  · simp [List.length_flatMap, hf]
  · intro l'
    rw [List.set_eq_take_append_cons_drop, if_pos hr, List.flatMap_append, List.flatMap_cons, List.append_assoc]

theorem slice_append {β : Type} (A l B : List β) : ((A ++ l ++ B).take (A.length + l.length)).drop A.length = l := by
  rw [show A.length + l.length = (A ++ l).length by simp, List.take_left', List.drop_left'] <;> rfl

theorem sum_take_succ (ls : List (OMap ℚ)) (r : Nat) (l : OMap ℚ) (h : ls[r]? = some l) :
    ((ls.take (r + 1)).map List.length).sum = ((ls.take r).map List.length).sum + l.length := by
  rw [List.take_add_one, h, List.map_append, List.sum_append]
  simp

theorem Lp.Has.entries {lp : Lp} {ls : List (OMap ℚ)} (h : lp.Has ls) (i : Nat) (l : OMap ℚ) (hl : ls[i]? = some l) :
    lp.entries i = l := by
  have hi := (List.getElem?_eq_some_iff.1 hl).1
  unfold Lp.entries
  have hz : ∀ ls : List (OMap ℚ), (ls.flatMap (fun l => l.map (·.1))).zip (ls.flatMap (fun l => l.map (·.2))) = ls.flatMap (fun l => l) := by
    intro ls
    induction ls with
    | nil => rfl
    | cons l ls ih =>
      rw [List.flatMap_cons, List.flatMap_cons, List.flatMap_cons, List.zip_append (by simp), ih]
      congr 1
      induction l with
      | nil => rfl
      | cons a l ih2 => simp [ih2]
  rw [h.columns, h.elements, hz, List.getD_eq_getElem?_getD, List.getD_eq_getElem?_getD, h.start i hi.le, h.start (i + 1) hi,
    Option.getD_some, Option.getD_some, sum_take_succ ls i l hl]
  obtain ⟨A, B, h1, h2, _⟩ := flatMap_split (fun l : List (Nat × ℚ) => l) (fun _ => rfl) ls i l hl
  rw [h1, ← h2]
  exact slice_append A l B

theorem colPosition_insert (c : Nat) (v : ℚ) (l : OMap ℚ) (hl : (l.map (·.1)).Pairwise (· < ·)) (hc : c ∈ l.map (·.1)) :
    ∃ p, colPosition c (l.map (·.1)) = some p ∧ p < l.length ∧ (OMap.insert c v l).map (·.1) = l.map (·.1) ∧
      (OMap.insert c v l).map (·.2) = (l.map (·.2)).set p v := by
  induction l with
  | nil => simp at hc
  | cons a l ih =>
    obtain ⟨k, w⟩ := a
    simp only [List.map_cons, List.pairwise_cons, List.mem_cons] at hl hc
    simp only [List.map_cons, colPosition, OMap.insert]
    by_cases hk : k = c
    · subst hk
      refine ⟨0, by simp, by simp, ?_, ?_⟩ <;> simp
    · have hc' : c ∈ l.map (·.1) := by
        rcases hc with h | h
        · exact absurd h.symm hk
        · exact h
      have hlt : k < c := hl.1 c hc'
      obtain ⟨p, h1, h2, h3, h4⟩ := ih hl.2 hc'
      refine ⟨p + 1, by simp [hk, h1], by simp [h2], ?_, ?_⟩
      · rw [if_neg (by omega), if_neg (by omega), List.map_cons, h3]
      · rw [if_neg (by omega), if_neg (by omega), List.map_cons, h4, List.set_cons_succ]

/-- Changing one coefficient. -/
theorem Lp.Has.applyCoefficient {lp : Lp} {ls : List (OMap ℚ)} (h : lp.Has ls) (r c : Nat) (v : ℚ) (l : OMap ℚ)
    (hl : ls[r]? = some l) (hs : (l.map (·.1)).Pairwise (· < ·)) (hc : c ∈ l.map (·.1)) :
    ∃ es, lp.applyCoefficient r c v = some { lp with elements := es } ∧
      ({ lp with elements := es } : Lp).Has (ls.set r (OMap.insert c v l)) := by
  have hr := (List.getElem?_eq_some_iff.1 hl).1
  obtain ⟨p, h1, h2, h3, h4⟩ := colPosition_insert c v l hs hc
  have hlen : (OMap.insert c v l).length = l.length := by
    have := congrArg List.length h3
    simpa using this
  obtain ⟨A, B, a1, a2, a3⟩ := flatMap_split (fun l : List (Nat × ℚ) => l.map (·.1)) (by simp) ls r l hl
  obtain ⟨A', B', b1, b2, b3⟩ := flatMap_split (fun l : List (Nat × ℚ) => l.map (·.2)) (by simp) ls r l hl
  refine ⟨lp.elements.set (((ls.take r).map List.length).sum + p) v, ?_, ?_, ?_, ?_⟩
  · unfold Lp.applyCoefficient
    rw [h.start r hr.le, h.start (r + 1) hr]
    simp only
    have : (lp.columns.take ((ls.take (r + 1)).map List.length).sum).drop ((ls.take r).map List.length).sum = l.map (·.1) := by
      rw [h.columns, a1, sum_take_succ ls r l hl, ← a2]
      have := slice_append A (l.map (·.1)) B
      simpa using this
    rw [this, h1]
  · simp only [h.starts, List.length_set]
    apply List.map_congr_left
    intro i _
    congr 1
    rw [List.map_take, List.map_take]
    congr 1
    apply List.ext_getElem?
    intro j
    rw [List.getElem?_map, List.getElem?_map, List.getElem?_set]
    by_cases hj : r = j
    · subst hj; rw [hl, if_pos rfl, if_pos hr, Option.map_some, Option.map_some, hlen]
    · simp [hj]
  · simp only [h.columns]
    rw [a1, a3, h3]
  · simp only [h.elements]
    rw [b1, b3, h4, ← b2, List.append_assoc, List.set_append_right _ _ (by omega), Nat.add_sub_cancel_left,
      List.set_append_left _ _ (by simpa using h2), List.append_assoc]

/-- Row `r` after the changes. -/
def rewrite (P : List (Nat × Nat × ℚ)) (r : Nat) (l : OMap ℚ) : OMap ℚ :=
  (P.filter (fun t => t.1 = r)).foldl (fun l t => OMap.insert t.2.1 t.2.2 l) l

theorem keys_insert_mem (c : Nat) (v : ℚ) (l : OMap ℚ) (hl : (l.map (·.1)).Pairwise (· < ·)) (hc : c ∈ l.map (·.1)) :
    (OMap.insert c v l).map (·.1) = l.map (·.1) := (colPosition_insert c v l hl hc).choose_spec.2.2.1

/-- Changing many coefficients: each row of the matrix is rewritten on its own, columns are kept. -/
theorem Lp.Has.applyAll (P : List (Nat × Nat × ℚ)) : ∀ (lp : Lp) (ls : List (OMap ℚ)), lp.Has ls →
    (∀ t ∈ P, ∃ l, ls[t.1]? = some l ∧ (l.map (·.1)).Pairwise (· < ·) ∧ t.2.1 ∈ l.map (·.1)) →
    ∃ es ls', lp.applyAll P = some { lp with elements := es } ∧ ({ lp with elements := es } : Lp).Has ls' ∧
      ls'.length = ls.length ∧
      ∀ i l, ls[i]? = some l → ls'[i]? = some (rewrite P i l) ∧ (rewrite P i l).map (·.1) = l.map (·.1) := by
  induction P with
  | nil =>
    intro lp ls h _
    exact ⟨lp.elements, ls, rfl, h, rfl, fun i l hl => ⟨by simpa [rewrite] using hl, rfl⟩⟩
  | cons t P ih =>
    obtain ⟨r, c, v⟩ := t
    intro lp ls h hP
    rw [List.forall_mem_cons] at hP
    obtain ⟨⟨l, hl, hls, hc⟩, hP⟩ := hP
    have hr := (List.getElem?_eq_some_iff.1 hl).1
    obtain ⟨es1, h1, h2⟩ := h.applyCoefficient r c v l hl hls hc
    have hget : ∀ j, (ls.set r (OMap.insert c v l))[j]? = if r = j then some (OMap.insert c v l) else ls[j]? := by
      intro j
      rw [List.getElem?_set]
      by_cases hj : r = j
      · subst hj; simp [hr]
      · simp [hj]
    obtain ⟨es, ls', g1, g2, g3, g4⟩ := ih _ _ h2 (by
      intro t ht
      obtain ⟨l', hl', hs', hc'⟩ := hP t ht
      by_cases hrt : r = t.1
      · refine ⟨OMap.insert c v l, by rw [hget, if_pos hrt], ?_, ?_⟩
        · rw [keys_insert_mem c v l hls hc]; exact hls
        · rw [keys_insert_mem c v l hls hc]
          rw [← hrt, hl] at hl'
          simp only [Option.some.injEq] at hl'
          subst hl'; exact hc'
      · exact ⟨l', by rw [hget, if_neg hrt]; exact hl', hs', hc'⟩)
    refine ⟨es, ls', ?_, g2, by rw [g3, List.length_set], ?_⟩
    · simp only [Lp.applyAll, h1]
      exact g1
    · intro i l' hl'
      by_cases hri : r = i
      · subst hri
        rw [hl] at hl'
        simp only [Option.some.injEq] at hl'
        subst hl'
        have := g4 r (OMap.insert c v l) (by rw [hget, if_pos rfl])
        have e : rewrite ((r, c, v) :: P) r l = rewrite P r (OMap.insert c v l) := by simp [rewrite]
        rw [e]
        exact ⟨this.1, this.2.trans (keys_insert_mem c v l hls hc)⟩
      · have := g4 i l' (by rw [hget, if_neg hri]; exact hl')
        have e : rewrite ((r, c, v) :: P) i l' = rewrite P i l' := by simp [rewrite, hri]
        rw [e]; exact this

theorem rewrite_none (P : List (Nat × Nat × ℚ)) (r : Nat) (l : OMap ℚ) (h : ∀ t ∈ P, t.1 ≠ r) : rewrite P r l = l := by
  unfold rewrite
  rw [List.filter_eq_nil_iff.2 (by simpa using h)]
  rfl

theorem value_find (l : OMap ℚ) (hl : (l.map (·.1)).Pairwise (· < ·)) (x : Nat → ℚ) :
    value l x = ((l.map (·.1)).map (fun k => (l.find k).getD 0 * x k)).sum := by
  induction l with
  | nil => simp [value]
  | cons a l ih =>
    obtain ⟨k, w⟩ := a
    simp only [List.map_cons, List.pairwise_cons] at hl
    have hv : value ((k, w) :: l) x = w * x k + value l x := by simp [value]
    rw [hv, ih hl.2]
    simp only [List.map_cons, List.sum_cons, OMap.find, if_true, Option.getD_some, List.map_map]
    congr 2
    apply List.map_congr_left
    intro b hb
    have : k ≠ b.1 := by
      have := hl.1 b.1 (List.mem_map_of_mem hb)
      omega
    simp [this]

/-- If every entry of a row is rewritten exactly once, its value is that of the new coefficients. -/
theorem value_rewritten (Q : List (Nat × ℚ)) (hQ : (Q.map (·.1)).Nodup) : ∀ (l : OMap ℚ), (l.map (·.1)).Pairwise (· < ·) →
    (∀ c, c ∈ l.map (·.1) ↔ c ∈ Q.map (·.1)) → ∀ x,
    value (Q.foldl (fun l t => OMap.insert t.1 t.2 l) l) x = value Q x := by
  have step : ∀ (Q : List (Nat × ℚ)), (Q.map (·.1)).Nodup → ∀ (l : OMap ℚ), (l.map (·.1)).Pairwise (· < ·) → ∀ x,
      value (Q.foldl (fun l t => OMap.insert t.1 t.2 l) l) x
        = value l x + value Q x - ((Q.map (·.1)).map (fun k => (l.find k).getD 0 * x k)).sum := by
    intro Q
    induction Q with
    | nil => intro _ l _ x; simp [value]
    | cons q Q ih =>
      obtain ⟨c, v⟩ := q
      intro hQ l hl x
      simp only [List.map_cons, List.nodup_cons] at hQ
      rw [List.foldl_cons, ih hQ.2 _ (sorted_insert _ _ _ hl), value_insert _ _ _ _ hl]
      have hv : value ((c, v) :: Q) x = v * x c + value Q x := by simp [value]
      have e : (Q.map (·.1)).map (fun k => ((OMap.insert c v l).find k).getD 0 * x k)
          = (Q.map (·.1)).map (fun k => (l.find k).getD 0 * x k) := by
        apply List.map_congr_left
        intro k hk
        have : k ≠ c := fun h => hQ.1 (h ▸ hk)
        rw [find_insert _ _ _ _ hl, if_neg this]
      rw [hv, e, List.map_cons, List.map_cons, List.sum_cons]
      ring
  intro l hl hk x
  rw [step Q hQ l hl x]
  have hnd : (l.map (·.1)).Nodup := hl.imp (fun h => by omega)
  have hp : (l.map (·.1)).Perm (Q.map (·.1)) := (List.perm_ext_iff_of_nodup hnd hQ).2 hk
  have := (hp.map (fun k => (l.find k).getD 0 * x k)).sum_eq
  rw [← this, ← value_find l hl x]
  ring

end Verif.Solver
