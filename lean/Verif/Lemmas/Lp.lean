import Mathlib.Data.List.Basic
import Mathlib.Tactic.Linarith
import Mathlib.Tactic.Ring
import Verif.Spec.Lp

/-! # Lemmas about the linear program builder -/

namespace Verif.Solver

/-! ## Sorted maps -/

theorem find_insert {α : Type} (k j : Nat) (v : α) (m : OMap α) (hm : (m.map (·.1)).Pairwise (· < ·)) :
    (OMap.insert k v m).find j = if j = k then some v else m.find j := by
  induction m with
  | nil =>
    simp only [OMap.insert, OMap.find]
    by_cases h : k = j
    · simp [h]
    · rw [if_neg h, if_neg (fun e => h e.symm)]
  | cons x xs ih =>
    obtain ⟨k', v'⟩ := x
    simp only [List.map_cons, List.pairwise_cons] at hm
    simp only [OMap.insert]
    by_cases h1 : k < k'
    · rw [if_pos h1]
      simp only [OMap.find]
      by_cases h3 : j = k
      · rw [if_pos h3.symm, if_pos h3]
      · rw [if_neg (fun e => h3 e.symm), if_neg h3]
    · rw [if_neg h1]
      by_cases h2 : k = k'
      · subst h2
        rw [if_pos rfl]
        simp only [OMap.find]
        by_cases h3 : j = k
        · rw [if_pos h3.symm, if_pos h3]
        · rw [if_neg (fun e => h3 e.symm), if_neg h3, if_neg (fun e => h3 e.symm)]
      · rw [if_neg h2]
        simp only [OMap.find, ih hm.2]
        by_cases h3 : j = k
        · subst h3
          rw [if_neg (fun e => h2 e.symm), if_pos rfl, if_pos rfl]
        · simp only [if_neg h3]

theorem keys_insert {α : Type} (k j : Nat) (v : α) (m : OMap α) :
    j ∈ (OMap.insert k v m).map (·.1) ↔ j = k ∨ j ∈ m.map (·.1) := by
  induction m with
  | nil => simp [OMap.insert]
  | cons x xs ih =>
    obtain ⟨k', v'⟩ := x
    simp only [OMap.insert]
    split_ifs with h1 h2
    · simp
    · subst h2; simp
    · simp only [List.map_cons, List.mem_cons, ih]; tauto

theorem sorted_insert {α : Type} (k : Nat) (v : α) (m : OMap α) (hm : (m.map (·.1)).Pairwise (· < ·)) :
    ((OMap.insert k v m).map (·.1)).Pairwise (· < ·) := by
  induction m with
  | nil => simp [OMap.insert]
  | cons x xs ih =>
    obtain ⟨k', v'⟩ := x
    have hm' := hm
    simp only [List.map_cons, List.pairwise_cons] at hm
    simp only [OMap.insert]
    split_ifs with h1 h2
    · simp only [List.map_cons, List.pairwise_cons, List.mem_cons]
      refine ⟨?_, hm⟩
      rintro j (rfl | hj)
      · exact h1
      · exact lt_trans h1 (hm.1 j hj)
    · subst h2; simpa using hm'
    · simp only [List.map_cons, List.pairwise_cons]
      refine ⟨fun j hj => ?_, ih hm.2⟩
      rcases (keys_insert k j v xs).1 hj with rfl | hj
      · omega
      · exact hm.1 j hj

theorem find_isSome {α : Type} (k : Nat) (m : OMap α) : (m.find k).isSome = true ↔ k ∈ m.map (·.1) := by
  induction m with
  | nil => simp [OMap.find]
  | cons x xs ih =>
    obtain ⟨k', v'⟩ := x
    simp only [OMap.find, List.map_cons, List.mem_cons]
    split_ifs with h
    · simp [h]
    · rw [ih]
      exact ⟨Or.inr, fun h' => h'.resolve_left (fun e => h e.symm)⟩

/-- Value of a map with sorted keys after an insertion. -/
theorem value_insert (k : Nat) (v : ℚ) (m : OMap ℚ) (x : Nat → ℚ) (hm : (m.map (·.1)).Pairwise (· < ·)) :
    value (OMap.insert k v m) x = value m x + (v - (m.find k).getD 0) * x k := by
  induction m with
  | nil => simp [OMap.insert, OMap.find, value]
  | cons y ys ih =>
    obtain ⟨k', v'⟩ := y
    simp only [List.map_cons, List.pairwise_cons] at hm
    simp only [OMap.insert]
    split_ifs with h1 h2
    · have hnone : OMap.find k ((k', v') :: ys) = none := by
        cases hf : OMap.find k ((k', v') :: ys) with
        | none => rfl
        | some w =>
          have := (find_isSome k ((k', v') :: ys)).1 (by rw [hf]; rfl)
          simp only [List.map_cons, List.mem_cons] at this
          rcases this with h | h
          · omega
          · have := hm.1 k h; omega
      rw [hnone]
      simp only [value, List.map_cons, List.sum_cons, Option.getD_none, sub_zero]
      ring
    · subst h2
      simp only [value, List.map_cons, List.sum_cons, OMap.find, if_true, Option.getD_some]
      ring
    · have := ih hm.2
      simp only [value, List.map_cons, List.sum_cons, OMap.find] at this ⊢
      rw [if_neg (fun e => h2 e.symm), this]
      ring

/-! ## Rows -/

/-- The keys of the row are sorted (hence not repeated). -/
def Row.Sorted (r : Row) : Prop := (r.columns.map (·.1)).Pairwise (· < ·)

theorem Row.sorted_default : Row.default.Sorted := by simp [Row.Sorted, Row.default]

theorem Row.sorted_addElement (r : Row) (c : Nat) (v : ℚ) (h : r.Sorted) : (r.addElement c v).Sorted :=
  sorted_insert _ _ _ h

theorem Row.value_addElement (r : Row) (c : Nat) (v : ℚ) (x : Nat → ℚ) (h : r.Sorted) :
    value (r.addElement c v).columns x = value r.columns x + v * x c := by
  unfold Row.addElement
  rw [value_insert _ _ _ _ h]
  ring

/-! ## Building the sparse form -/

theorem getLastD_append (l : List Nat) (a d : Nat) : (l ++ [a]).getLastD d = a := by
  simp [List.getLastD_eq_getLast?]

/-- What the arrays hold after some rows were pushed. -/
structure Arrays.Good (a : Arrays) (big : ℚ) (rs : List (Row × Nat)) : Prop where
  lower : a.rowLower = rs.map (·.1.lower)
  upper : a.rowUpper = rs.map (fun p => p.1.upper.getD big)
  mask : a.rowMask = rs.map (·.2)
  starts : a.rowStarts = (List.range (rs.length + 1)).map (fun i => ((rs.take i).map (·.1.columns.length)).sum)
  columns : a.columns = rs.flatMap (fun p => p.1.columns.map (·.1))
  elements : a.elements = rs.flatMap (fun p => p.1.columns.map (·.2))

theorem Arrays.good_push (a : Arrays) (big : ℚ) (rs : List (Row × Nat)) (h : a.Good big rs) (m : Nat) (r : Row) :
    (a.push big m r).Good big (rs ++ [(r, m)]) := by
  constructor
  · simp [Arrays.push, h.lower]
  · simp [Arrays.push, h.upper]
  · simp [Arrays.push, h.mask]
  · simp only [Arrays.push, h.starts]
    rw [List.length_append, List.length_singleton, List.range_succ (n := rs.length + 1), List.map_append]
    congr 1
    · apply List.map_congr_left
      intro i hi
      rw [List.mem_range] at hi
      rw [List.take_append_of_le_length (by omega)]
    · rw [List.range_succ, List.map_append, List.map_singleton, getLastD_append]
      simp only [List.map_cons, List.map_nil, List.take_length]
      rw [List.take_of_length_le (by simp)]
      simp
  · simp [Arrays.push, h.columns]
  · simp [Arrays.push, h.elements]

theorem Arrays.good_foldl (big : ℚ) (m : Nat) (rows : List Row) : ∀ (a : Arrays) (rs : List (Row × Nat)), a.Good big rs →
    (rows.foldl (fun a r => a.push big m r) a).Good big (rs ++ rows.map (fun r => (r, m))) := by
  induction rows with
  | nil => intro a rs h; simpa using h
  | cons r rows ih =>
    intro a rs h
    have := ih _ _ (Arrays.good_push a big rs h m r)
    simpa using this

/-- All rows of a builder with their masks: variable rows first. -/
def LpBuilder.allRows (b : LpBuilder) : List (Row × Nat) := b.rows.map (fun r => (r, 1)) ++ b.fixedRows.map (fun r => (r, 0))

theorem LpBuilder.build_good (b : LpBuilder) :
    (Arrays.mk b.build.rowLower b.build.rowUpper b.build.rowMask b.build.rowStarts b.build.columns b.build.elements).Good
      b.f64Max b.allRows := by
  have h0 : (Arrays.mk [] [] [] [0] [] []).Good b.f64Max [] := by constructor <;> simp
  have h1 := Arrays.good_foldl b.f64Max 1 b.rows _ _ h0
  have h2 := Arrays.good_foldl b.f64Max 0 b.fixedRows _ _ h1
  simpa [LpBuilder.build, LpBuilder.allRows] using h2

theorem flatMap_zip (rs : List (Row × Nat)) :
    (rs.flatMap (fun p => p.1.columns.map (·.1))).zip (rs.flatMap (fun p => p.1.columns.map (·.2)))
      = rs.flatMap (fun p => p.1.columns) := by
  induction rs with
  | nil => simp
  | cons r rs ih =>
    simp only [List.flatMap_cons]
    rw [List.zip_append (by simp), ih]
    congr 1
    rw [List.zip_map']
    simp

theorem take_drop_flatMap (rs : List (Row × Nat)) (i : Nat) (p : Row × Nat) (h : rs[i]? = some p) :
    ((rs.flatMap (fun p => p.1.columns)).take ((rs.take (i + 1)).map (·.1.columns.length)).sum).drop
      ((rs.take i).map (·.1.columns.length)).sum = p.1.columns := by
  induction rs generalizing i with
  | nil => simp at h
  | cons r rs ih =>
    cases i with
    | zero =>
      simp only [List.getElem?_cons_zero, Option.some.injEq] at h
      subst h
      simp
    | succ i =>
      have := ih i (by simpa using h)
      simp only [List.take_succ_cons, List.map_cons, List.sum_cons, List.flatMap_cons]
      rw [List.take_append, List.take_of_length_le (Nat.le_add_right _ _), Nat.add_sub_cancel_left,
        List.drop_append, List.drop_eq_nil_of_le (Nat.le_add_right _ _), Nat.add_sub_cancel_left, List.nil_append]
      exact this

theorem LpBuilder.build_entries (b : LpBuilder) (i : Nat) (p : Row × Nat) (h : b.allRows[i]? = some p) :
    b.build.entries i = p.1.columns := by
  have hg := b.build_good
  have hi : i < b.allRows.length := (List.getElem?_eq_some_iff.1 h).1
  have hst : ∀ j, j ≤ b.allRows.length →
      b.build.rowStarts.getD j 0 = ((b.allRows.take j).map (·.1.columns.length)).sum := by
    intro j hj
    have := hg.starts
    simp only at this
    rw [this, List.getD_eq_getElem?_getD, List.getElem?_map, List.getElem?_range (by omega)]
    rfl
  unfold Lp.entries
  rw [hst _ hi, hst _ (by omega)]
  have hc := hg.columns
  have he := hg.elements
  simp only at hc he
  rw [hc, he, flatMap_zip, take_drop_flatMap _ _ _ h]

/-! ## Row ids -/

theorem rowPosition_some (r : Row) (l : List Row) (i : Nat) (h : rowPosition r l = some i) : l[i]? = some r := by
  induction l generalizing i with
  | nil => simp [rowPosition] at h
  | cons x xs ih =>
    simp only [rowPosition] at h
    split_ifs at h with hx
    · simp only [Option.some.injEq] at h; subst h; simp [hx]
    · cases hp : rowPosition r xs with
      | none => simp [hp] at h
      | some j => simp only [hp, Option.map_some, Option.some.injEq] at h; subst h; simpa using ih j hp

theorem addVariableRow_spec (b : LpBuilder) (r : Row) :
    (b.addVariableRow r).2.rows[(b.addVariableRow r).1]? = some r ∧
    (∃ new, (b.addVariableRow r).2.rows = b.rows ++ new) := by
  unfold LpBuilder.addVariableRow
  cases h : rowPosition r b.rows with
  | some i => exact ⟨rowPosition_some _ _ _ h, [], by simp⟩
  | none => exact ⟨by simp, [r], rfl⟩

theorem run_prefix (ops : List Op) : ∀ b : LpBuilder, ∃ new, (b.run ops).1.rows = b.rows ++ new := by
  induction ops with
  | nil => intro b; exact ⟨[], by simp [LpBuilder.run]⟩
  | cons op ops ih =>
    intro b
    cases op with
    | column o bd t =>
      simp only [LpBuilder.run]
      obtain ⟨new, h⟩ := ih (b.addColumn o bd t).2
      refine ⟨new, h.trans ?_⟩
      cases bd <;> rfl
    | fixedRow r => exact ih (b.addFixedRow r)
    | variableRow r =>
      simp only [LpBuilder.run]
      obtain ⟨n1, h1⟩ := (addVariableRow_spec b r).2
      obtain ⟨n2, h2⟩ := ih (b.addVariableRow r).2
      exact ⟨n1 ++ n2, by rw [h2, h1, List.append_assoc]⟩

theorem run_ids (ops : List Op) : ∀ (b : LpBuilder) (r : Row) (i : Nat), (r, i) ∈ (b.run ops).2 →
    (b.run ops).1.rows[i]? = some r := by
  induction ops with
  | nil => intro b r i h; simp [LpBuilder.run] at h
  | cons op ops ih =>
    intro b r i h
    cases op with
    | column o bd t => exact ih _ r i h
    | fixedRow r' => exact ih _ r i h
    | variableRow r' =>
      simp only [LpBuilder.run, List.mem_cons, Prod.mk.injEq] at h ⊢
      rcases h with ⟨rfl, rfl⟩ | h
      · obtain ⟨new, hn⟩ := run_prefix ops (b.addVariableRow r).2
        have h1 := (addVariableRow_spec b r).1
        rw [hn, List.getElem?_append_left (List.getElem?_eq_some_iff.1 h1).1]
        exact h1
      · exact ih _ r i h

/-! ## Bounds -/

theorem resetBounds_get (v : ℚ) (ms : List Nat) (bs : List ℚ) (h : ms.length = bs.length) (i : Nat) :
    (resetBounds v ms bs)[i]? = if ms[i]? = some 1 then some v else bs[i]? := by
  induction ms generalizing bs i with
  | nil => cases bs <;> simp_all [resetBounds]
  | cons m ms ih =>
    cases bs with
    | nil => simp at h
    | cons b bs =>
      simp only [resetBounds]
      cases i with
      | zero => by_cases hm : m = 1 <;> simp [hm]
      | succ i => simpa using ih bs (by simpa using h) i

theorem resetBounds_length (v : ℚ) (ms : List Nat) (bs : List ℚ) : (resetBounds v ms bs).length = bs.length := by
  induction ms generalizing bs with
  | nil => simp [resetBounds]
  | cons m ms ih => cases bs <;> simp [resetBounds, ih]

end Verif.Solver
