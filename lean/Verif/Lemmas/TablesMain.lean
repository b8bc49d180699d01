import Verif.Lemmas.Tables

/-!
# The contents of loaded tables
-/

namespace Verif.Tables

theorem mem_getD {file : List Record} {i : Nat} (hi : i < file.length) : file.getD i [] ∈ file := by
  rw [List.getD_eq_getElem?_getD, List.getElem?_eq_getElem hi]; simp

theorem field_lt {file : List Record} {i j : Nat} {s : String} (h : field file i j = some s) : i < file.length := by
  by_contra hc
  have : file.getD i [] = [] := by
    rw [List.getD_eq_getElem?_getD, List.getElem?_eq_none (by omega)]; rfl
  rw [field, this] at h
  simp at h

theorem field_some {file : List Record} {i j : Nat} {s : String} (h : field file i j = some s) :
    j < (file.getD i []).length ∧ (file.getD i []).getD j "" = s := by
  unfold field at h
  refine ⟨(List.getElem?_eq_some_iff.1 h).1, ?_⟩
  rw [List.getD_eq_getElem?_getD, h]; rfl

theorem field_of_lt {file : List Record} {i j : Nat} (h : j < (file.getD i []).length) :
    field file i j = some ((file.getD i []).getD j "") := by
  unfold field
  rw [List.getElem?_eq_getElem h, List.getD_eq_getElem?_getD (l := file.getD i []), List.getElem?_eq_getElem h]; rfl

/-- All rows after the first `n` have the same length as the first. -/
theorem rect_split {file : List Record} (n : Nat) :
    Rectangular file ↔ (∀ r ∈ file.take n, r.length = (file.headD []).length) ∧
      ∀ r ∈ file.drop n, r.length = (file.headD []).length := by
  unfold Rectangular
  have : ∀ r, r ∈ file ↔ r ∈ file.take n ∨ r ∈ file.drop n := by
    intro r
    rw [← List.mem_append, List.take_append_drop]
  constructor
  · exact fun h => ⟨fun r hr => h r ((this r).2 (Or.inl hr)), fun r hr => h r ((this r).2 (Or.inr hr))⟩
  · rintro ⟨h1, h2⟩ r hr
    rcases (this r).1 hr with hr | hr
    · exact h1 r hr
    · exact h2 r hr

theorem rect_tail {file : List Record} : Rectangular file ↔ ∀ r ∈ file.tail, r.length = (file.headD []).length := by
  cases file with
  | nil => simp [Rectangular]
  | cons h l => simp [Rectangular]

/-- `load_csv_rows_scalar_table`. -/
theorem loadRows_ok {num : String → Option ℚ} {n : Nat} {file : List Record} {m : Key → Option ℚ} :
    loadRows num n file = .ok m ↔ Fits (.row n) file ∧
      m = fun k => (lastSome (file.tail.map fun r => pick k (r.take n, num (r.getD n "")))).join := by
  unfold loadRows
  cases file with
  | nil =>
    simp only [Except.ok.injEq, List.tail_nil, List.map_nil, Fits]
    constructor
    · rintro rfl; exact ⟨⟨by simp [Rectangular], Or.inl (by simp)⟩, rfl⟩
    · rintro ⟨-, rfl⟩; rfl
  | cons hdr recs =>
    simp only [List.tail_cons]
    have key := collect_map (f := rowEntry num n hdr.length) rowEntry_ok recs
    have hfit : Fits (.row n) (hdr :: recs) ↔ ∀ a ∈ recs, a.length = hdr.length ∧ hdr.length = n + 1 := by
      unfold Fits
      rw [rect_tail]
      simp only [List.tail_cons, List.headD_cons, List.length_cons]
      cases recs with
      | nil => simp
      | cons r recs =>
        constructor
        · rintro ⟨h1, h2 | h2⟩ a ha
          · simp at h2
          · exact ⟨h1 a ha, h2⟩
        · intro h
          exact ⟨fun r hr => (h r hr).1, Or.inr (h r (by simp)).2⟩
    rw [hfit]
    cases hc : collect (recs.map (rowEntry num n hdr.length)) with
    | error e =>
      simp only [reduceCtorEq, false_iff]
      rintro ⟨h, -⟩
      rw [(key _).2 ⟨h, rfl⟩] at hc
      cases hc
    | ok es =>
      obtain ⟨h1, rfl⟩ := (key _).1 hc
      simp only [Except.ok.injEq, insertAll_nil, List.map_map]
      constructor
      · rintro rfl; exact ⟨h1, rfl⟩
      · rintro ⟨-, rfl⟩; rfl

/-- The entries of a column of labels in a row. -/
theorem loadBoth_ok {num : String → Option ℚ} {r c : Nat} (hr : 1 ≤ r) {file : List Record} {m : Key → Option ℚ} :
    loadBoth num r c file = .ok m ↔ Fits (.both r c) file ∧
      m = fun k => lastSome ((file.drop r).map fun row => lastSome
        (((List.range ((file.headD []).length - c)).zip ((row.drop c).map num)).map fun p =>
          p.2.bind fun v => pick k (row.take c ++ colLabels ⟨r, r, c⟩ file (c + p.1), v))) := by
  unfold loadBoth
  have key := collect_map (f := bothEntry num c (file.headD []).length) bothEntry_ok (file.drop r)
  have hh := headers_ok (skip := c) hr file
  have hfit : Fits (.both r c) file ↔ ((r ≤ file.length ∨ r = 1) ∧ ∀ x ∈ file.take r, x.length = (file.headD []).length) ∧
      ∀ a ∈ file.drop r, a.length = (file.headD []).length ∧ c ≤ (file.headD []).length := by
    unfold Fits
    rw [rect_split r]
    simp only
    constructor
    · rintro ⟨⟨h1, h2⟩, h3, h4⟩
      refine ⟨⟨h3, h1⟩, fun a ha => ⟨h2 a ha, ?_⟩⟩
      rcases h4 with h4 | h4
      · rw [List.drop_eq_nil_of_le h4] at ha; simp at ha
      · exact h4
    · rintro ⟨⟨h1, h2⟩, h3⟩
      refine ⟨⟨h2, fun a ha => (h3 a ha).1⟩, h1, ?_⟩
      by_cases h : file.length ≤ r
      · exact Or.inl h
      · right
        have : file.drop r ≠ [] := by simp; omega
        obtain ⟨a, ha⟩ := List.exists_mem_of_ne_nil _ this
        exact (h3 a ha).2
  rw [hfit]
  cases hc : headers r c file with
  | error e =>
    simp only [reduceCtorEq, false_iff]
    rintro ⟨⟨h, -⟩, -⟩
    rw [(hh _).2 ⟨h, rfl⟩] at hc
    cases hc
  | ok out =>
    obtain ⟨h1, rfl⟩ := (hh _).1 hc
    simp only
    cases hc2 : collect ((file.drop r).map (bothEntry num c (file.headD []).length)) with
    | error e =>
      simp only [reduceCtorEq, false_iff]
      rintro ⟨⟨-, h⟩, -⟩
      rw [(key _).2 ⟨h, rfl⟩] at hc2
      cases hc2
    | ok rows =>
      obtain ⟨h2, rfl⟩ := (key _).1 hc2
      simp only [Except.ok.injEq]
      have hval : ∀ k, insertAll (((file.drop r).map fun row => (row.take c, (row.drop c).map num)).flatMap fun row =>
            ((List.map (fun j => (file.take r).map fun x => x.getD (c + j) "") (List.range ((file.headD []).length - c))).zip row.2).filterMap
              fun p => p.2.map fun v => (row.1 ++ p.1, v)) (fun _ => none) k =
          lastSome ((file.drop r).map fun row => lastSome
            (((List.range ((file.headD []).length - c)).zip ((row.drop c).map num)).map fun p =>
              p.2.bind fun v => pick k (row.take c ++ colLabels ⟨r, r, c⟩ file (c + p.1), v))) := by
        intro k
        rw [insertAll_nil, List.map_flatMap, lastSome_flatMap, List.map_map]
        congr 1
        apply List.map_congr_left
        intro row _
        simp only [Function.comp]
        rw [lastSome_filterMap, List.zip_map_left, List.map_map]
        congr 1
        apply List.map_congr_left
        rintro ⟨j, v⟩ _
        cases v <;> rfl
      constructor
      · rintro rfl
        exact ⟨⟨h1, h2⟩, funext hval⟩
      · rintro ⟨-, rfl⟩
        exact funext hval

/-- `load_csv_cols_scalar_table`. -/
theorem loadCols_ok {num : String → Option ℚ} {n : Nat} (hn : 1 ≤ n) {file : List Record} {m : Key → Option ℚ} :
    loadCols num n file = .ok m ↔ Fits (.col n) file ∧
      m = fun k => lastSome (((List.range (file.headD []).length).zip ((file.getD n []).map num)).map fun p =>
          p.2.bind fun v => pick k (colLabels ⟨n, n, 0⟩ file p.1, v)) := by
  unfold loadCols
  have key := collect_map (f := colEntry num (file.headD []).length) colEntry_ok (file.drop n)
  have hh := headers_ok (skip := 0) hn file
  cases hc : headers n 0 file with
  | error e =>
    simp only [reduceCtorEq, false_iff]
    rintro ⟨⟨h1, h2⟩, -⟩
    simp only at h2
    rw [(hh _).2 ⟨⟨Or.inl (by omega), ((rect_split n).1 h1).1⟩, rfl⟩] at hc
    cases hc
  | ok out =>
    obtain ⟨h1, rfl⟩ := (hh _).1 hc
    simp only
    cases hc2 : collect ((file.drop n).map (colEntry num (file.headD []).length)) with
    | error e =>
      simp only [reduceCtorEq, false_iff]
      rintro ⟨⟨h, -⟩, -⟩
      rw [(key _).2 ⟨((rect_split n).1 h).2, rfl⟩] at hc2
      cases hc2
    | ok rows =>
      obtain ⟨h2, rfl⟩ := (key _).1 hc2
      have hrect : Rectangular file := (rect_split n).2 ⟨h1.2, h2⟩
      simp only
      cases hd : file.drop n with
      | nil =>
        simp only [List.map_nil, reduceCtorEq, false_iff]
        rintro ⟨⟨-, h⟩, -⟩
        simp only at h
        have := congrArg List.length hd
        simp at this
        omega
      | cons row rest =>
        have hlen := congrArg List.length hd
        simp only [List.length_drop, List.length_cons] at hlen
        cases rest with
        | cons b rest =>
          simp only [List.map_cons, reduceCtorEq, false_iff]
          rintro ⟨⟨-, h⟩, -⟩
          simp only [List.length_cons] at h hlen
          omega
        | nil =>
          simp only [List.length_nil] at hlen
          have hrow : file.getD n [] = row := by
            have : (file.drop n)[0]? = some row := by rw [hd]; rfl
            rw [List.getElem?_drop, Nat.add_zero] at this
            rw [List.getD_eq_getElem?_getD, this]; rfl
          simp only [List.map_cons, List.map_nil, Except.ok.injEq, hrow]
          have hval : ∀ k, insertAll (((List.map (fun j => (file.take n).map fun x => x.getD (0 + j) "")
                (List.range ((file.headD []).length - 0))).zip (row.map num)).filterMap fun p => p.2.map fun v => (p.1, v)) (fun _ => none) k =
              lastSome (((List.range (file.headD []).length).zip (row.map num)).map fun p =>
                p.2.bind fun v => pick k (colLabels ⟨n, n, 0⟩ file p.1, v)) := by
            intro k
            rw [insertAll_nil, lastSome_filterMap, List.zip_map_left, List.map_map, Nat.sub_zero]
            congr 1
            apply List.map_congr_left
            rintro ⟨j, v⟩ _
            simp only [Function.comp, Prod.map, id, Nat.zero_add]
            cases v <;> rfl
          constructor
          · rintro rfl
            exact ⟨⟨hrect, by simp only; omega⟩, funext hval⟩
          · rintro ⟨-, rfl⟩
            exact funext hval

theorem pick_some {V : Type} {k : Key} {e : Key × V} {v : V} : pick k e = some v ↔ e.1 = k ∧ e.2 = v := by
  unfold pick
  split
  · rename_i h; simp [h]
  · rename_i h; simp [h]

/-- What the entries for a row say about a key. -/
theorem entry_some {num : String → Option ℚ} {k : Key} {w c : Nat} {row : Record} (hw : row.length = w) (hc : c ≤ w)
    (lab : Nat → Key) (j : Nat) (v : ℚ) :
    (((List.range (w - c)).zip ((row.drop c).map num)).map fun p => p.2.bind fun v => pick k (lab p.1, v))[j]? = some (some v) ↔
      ∃ s, row[c + j]? = some s ∧ num s = some v ∧ lab j = k := by
  rw [List.getElem?_map]
  by_cases hj : c + j < w
  · have h1 : ((List.range (w - c)).zip ((row.drop c).map num))[j]? = some (j, num row[c + j]) := by
      rw [List.getElem?_zip_eq_some]
      refine ⟨List.getElem?_range (by omega), ?_⟩
      rw [List.getElem?_map, List.getElem?_drop, List.getElem?_eq_getElem (by omega)]; rfl
    rw [h1, List.getElem?_eq_getElem (by omega)]
    simp only [Option.map_some, Option.some.injEq, Option.bind_eq_some_iff, pick_some]
    constructor
    · rintro ⟨a, h2, h3, rfl⟩; exact ⟨_, rfl, h2, h3⟩
    · rintro ⟨s, rfl, h2, h3⟩; exact ⟨v, h2, h3, rfl⟩
  · rw [List.getElem?_eq_none (by simp; omega), List.getElem?_eq_none (by omega)]
    simp

/-- All data are numbers, row by row. -/
theorem cells_iff {num : String → Option ℚ} {L : Layout} {file : List Record} :
    (∀ i j s, Cell L file i j s → (num s).isSome) ↔ ∀ r ∈ file.drop L.header, ∀ s ∈ r.drop L.cols, (num s).isSome := by
  constructor
  · intro h r hr s hs
    obtain ⟨i, hi⟩ := List.mem_iff_getElem?.1 hr
    obtain ⟨j, hj⟩ := List.mem_iff_getElem?.1 hs
    rw [List.getElem?_drop] at hi hj
    refine h (L.header + i) (L.cols + j) s ⟨by omega, by omega, ?_⟩
    rw [field, List.getD_eq_getElem?_getD, hi]
    exact hj
  · intro h i j s hc
    have hi := field_lt hc.text
    refine h (file.getD i []) ?_ s ?_
    · rw [List.mem_iff_getElem?]
      have := hc.below
      refine ⟨i - L.header, ?_⟩
      rw [List.getElem?_drop, show L.header + (i - L.header) = i by omega, List.getD_eq_getElem?_getD, List.getElem?_eq_getElem hi]
      rfl
    · rw [List.mem_iff_getElem?]
      have := hc.right
      refine ⟨j - L.cols, ?_⟩
      rw [List.getElem?_drop, show L.cols + (j - L.cols) = j by omega]
      exact hc.text

theorem numbers_eq {num : String → Option ℚ} {l : List String} (h : ∀ s ∈ l, (num s).isSome) (vs : List ℚ) :
    numbers num l = vs ↔ l.map num = vs.map some := by
  rw [← parseAll_some, parseAll_eq]
  exact ⟨fun e => ⟨h, e.symm⟩, fun e => e.2.symm⟩

/-- `load_csv_row_vec_table`. -/
theorem loadRowVec_ok {num : String → Option ℚ} {n : Nat} {file : List Record} {m : Key → Option (List ℚ)} :
    loadRowVec num n file = .ok m ↔ FitsArray num (.row n) file ∧
      m = fun k => lastSome (file.tail.map fun r => pick k (r.take n, numbers num (r.drop n))) := by
  unfold loadRowVec FitsArray
  rw [cells_iff]
  simp only [Lookup.layout, List.drop_one]
  cases file with
  | nil =>
    simp only [Except.ok.injEq, List.tail_nil, List.map_nil]
    constructor
    · rintro rfl; exact ⟨⟨by simp [Rectangular], by simp, Or.inl (by simp)⟩, rfl⟩
    · rintro ⟨-, rfl⟩; rfl
  | cons hdr recs =>
    simp only [List.tail_cons]
    have key := collect_map (f := rowVecEntry num n hdr.length) rowVecEntry_ok recs
    rw [rect_tail]
    have hfit : ((∀ r ∈ (hdr :: recs).tail, r.length = ((hdr :: recs).headD []).length) ∧
        (∀ r ∈ recs, ∀ s ∈ r.drop n, (num s).isSome) ∧ ((hdr :: recs).length ≤ 1 ∨ n ≤ ((hdr :: recs).headD []).length)) ↔
        ∀ a ∈ recs, a.length = hdr.length ∧ n ≤ hdr.length ∧ ∀ s ∈ a.drop n, (num s).isSome := by
      simp only [List.tail_cons, List.headD_cons, List.length_cons]
      cases recs with
      | nil => simp
      | cons r recs =>
        constructor
        · rintro ⟨h1, h3, h2 | h2⟩ a ha
          · simp at h2
          · exact ⟨h1 a ha, h2, h3 a ha⟩
        · intro h
          exact ⟨fun r hr => (h r hr).1, fun r hr => (h r hr).2.2, Or.inr (h r (by simp)).2.1⟩
    rw [hfit]
    cases hc : collect (recs.map (rowVecEntry num n hdr.length)) with
    | error e =>
      simp only [reduceCtorEq, false_iff]
      rintro ⟨h, -⟩
      rw [(key _).2 ⟨h, rfl⟩] at hc
      cases hc
    | ok es =>
      obtain ⟨h1, rfl⟩ := (key _).1 hc
      simp only [Except.ok.injEq]
      have : ∀ k, insertAll (recs.map fun r => (r.take n, numbers num (r.drop n))) (fun _ => none) k =
          lastSome (recs.map fun r => pick k (r.take n, numbers num (r.drop n))) := by
        intro k; rw [insertAll_nil, List.map_map]; rfl
      constructor
      · rintro rfl; exact ⟨h1, funext this⟩
      · rintro ⟨-, rfl⟩; exact funext this

/-- `load_csv_col_vec_table`. -/
theorem loadColVec_ok {num : String → Option ℚ} {n : Nat} (hn : 1 ≤ n) {file : List Record} {m : Key → Option (List ℚ)} :
    loadColVec num n file = .ok m ↔ FitsArray num (.col n) file ∧
      m = fun k => lastSome ((List.range (file.headD []).length).map fun j =>
        pick k (colLabels ⟨n, n, 0⟩ file j, (file.drop n).map fun r => (num (r.getD j "")).getD 0)) := by
  unfold loadColVec FitsArray
  rw [cells_iff]
  simp only [Lookup.layout, List.drop_zero]
  have key := fun w => collect_map (f := colVecEntry num (file.headD []).length w) colVecEntry_ok (file.drop n)
  have hh := headers_ok (skip := 0) hn file
  cases hc : headers n 0 file with
  | error e =>
    simp only [reduceCtorEq, false_iff]
    rintro ⟨⟨h1, -, h2⟩, -⟩
    rw [(hh _).2 ⟨⟨h2, ((rect_split n).1 h1).1⟩, rfl⟩] at hc
    cases hc
  | ok out =>
    obtain ⟨h1, rfl⟩ := (hh _).1 hc
    simp only [List.length_map, List.length_range, Nat.sub_zero, Nat.zero_add]
    cases hc2 : collect ((file.drop n).map (colVecEntry num (file.headD []).length (file.headD []).length)) with
    | error e =>
      simp only [reduceCtorEq, false_iff]
      rintro ⟨⟨h, h', -⟩, -⟩
      rw [(key _ _).2 ⟨fun a ha => ⟨((rect_split n).1 h).2 a ha, rfl, h' a ha⟩, rfl⟩] at hc2
      cases hc2
    | ok rows =>
      obtain ⟨h2, rfl⟩ := (key _ _).1 hc2
      have hrect : Rectangular file := (rect_split n).2 ⟨h1.2, fun a ha => (h2 a ha).1⟩
      simp only [Except.ok.injEq]
      have hval : ∀ k, insertAll (((List.range (file.headD []).length).map fun j => (file.take n).map fun r => r.getD j "").mapIdx
            fun i h => (h, ((file.drop n).map (numbers num)).map fun r => r.getD i 0)) (fun _ => none) k =
          lastSome ((List.range (file.headD []).length).map fun j =>
            pick k (colLabels ⟨n, n, 0⟩ file j, (file.drop n).map fun r => (num (r.getD j "")).getD 0)) := by
        intro k
        rw [insertAll_nil]
        congr 1
        apply List.ext_getElem?
        intro j
        simp only [List.getElem?_map, List.getElem?_mapIdx]
        by_cases hj : j < (file.headD []).length
        · rw [List.getElem?_range hj]
          simp only [Option.map_some, List.map_map, colLabels]
          congr 3
          apply List.map_congr_left
          intro r hr
          have hl := (h2 r hr).1
          simp only [Function.comp, numbers, List.getD_eq_getElem?_getD, List.getElem?_map]
          rw [List.getElem?_eq_getElem (by omega)]
          rfl
        · rw [List.getElem?_eq_none (by rw [List.length_range]; omega)]
          rfl
      constructor
      · rintro rfl
        exact ⟨⟨hrect, fun a ha => (h2 a ha).2.2, h1.1⟩, funext hval⟩
      · rintro ⟨-, rfl⟩
        exact funext hval

end Verif.Tables
