import Verif.Lemmas.TablesMain

/-!
# C84: data tables

A reference to a data table gives the cell of the file with the labels of the reference. The theorems about single values ending in `_partial`
are for up to two labels of each kind, because the code refuses three and four (`C84_labels_refuted`); `C84_index_partial` is for numbers
below 2^64.
-/

namespace Verif.Tables

variable {num : String → Option ℚ}

/-- What is loaded for a table of single values. -/
theorem load_scalar {d : Def} (ha : d.array = false) (hw : d.lookup.Works) {t : Loaded} :
    d.load num = .ok t ↔ Fits d.lookup d.file ∧ ∃ m, t = .scalar ⟨d.lookup.layout.rows + d.lookup.layout.cols, m⟩ ∧
      match d.lookup with
      | .row n => loadRows num n d.file = .ok m
      | .col n => loadCols num n d.file = .ok m
      | .both r c => loadBoth num r c d.file = .ok m := by
  obtain ⟨name, arr, lk, file⟩ := d
  simp only at ha hw ⊢
  subst ha
  have key : ∀ (n : Nat) (r : Except Err (Key → Option ℚ)) (P : Prop) (hP : ∀ m, r = .ok m → P),
      (scalarOf n r).map Loaded.scalar = .ok t ↔ P ∧ ∃ m, t = .scalar ⟨n, m⟩ ∧ r = .ok m := by
    intro n r P hP
    cases r with
    | error e => simp [scalarOf, Except.map]
    | ok m =>
      simp only [scalarOf, Except.map, Except.ok.injEq]
      constructor
      · rintro rfl; exact ⟨hP m rfl, m, rfl, rfl⟩
      · rintro ⟨-, m', rfl, rfl⟩; rfl
  cases lk with
  | row n =>
    rcases hw with rfl | rfl
    · exact key 1 _ _ fun m h => (loadRows_ok.1 h).1
    · exact key 2 _ _ fun m h => (loadRows_ok.1 h).1
  | col n =>
    rcases hw with rfl | rfl
    · exact key 1 _ _ fun m h => ((loadCols_ok (by omega)).1 h).1
    · exact key 2 _ _ fun m h => ((loadCols_ok (by omega)).1 h).1
  | both r c =>
    rcases hw with ⟨rfl | rfl, rfl | rfl⟩
    · exact key 2 _ _ fun m h => ((loadBoth_ok (by omega)).1 h).1
    · exact key 3 _ _ fun m h => ((loadBoth_ok (by omega)).1 h).1
    · exact key 3 _ _ fun m h => ((loadBoth_ok (by omega)).1 h).1
    · exact key 4 _ _ fun m h => ((loadBoth_ok (by omega)).1 h).1

/-- **C84 (files).** A table of single values is loaded exactly when its file has the right shape. -/
theorem C84_loads_partial (d : Def) (ha : d.array = false) (hw : d.lookup.Works) :
    (∃ t, d.load num = .ok t) ↔ Fits d.lookup d.file := by
  constructor
  · rintro ⟨t, h⟩; exact ((load_scalar ha hw).1 h).1
  · intro hf
    obtain ⟨name, arr, lk, file⟩ := d
    simp only at hw hf
    cases lk with
    | row n => exact ⟨_, (load_scalar ha hw).2 ⟨hf, _, rfl, loadRows_ok.2 ⟨hf, rfl⟩⟩⟩
    | col n => exact ⟨_, (load_scalar ha hw).2 ⟨hf, _, rfl, (loadCols_ok (by rcases hw with h | h <;> omega)).2 ⟨hf, rfl⟩⟩⟩
    | both r c => exact ⟨_, (load_scalar ha hw).2 ⟨hf, _, rfl, (loadBoth_ok (by rcases hw with ⟨h | h, -⟩ <;> omega)).2 ⟨hf, rfl⟩⟩⟩

/-- Labels have as many parts as the layout says. -/
theorem labels_length {k : Lookup} (hw : k.Works) {file : List Record} (hf : Fits k file) {key : Key} {i j : Nat}
    (h : Labelled k.layout file key i j) : key.length = k.layout.rows + k.layout.cols := by
  obtain ⟨⟨s, hc⟩, rfl⟩ := h
  have hi := field_lt hc.text
  have hj := (field_some hc.text).1
  have h1 := hc.below
  have h2 := hc.right
  rw [List.length_append, rowLabels, colLabels, List.length_take, List.length_map, List.length_take]
  cases k with
  | row n => simp only [Lookup.layout] at *; omega
  | col n => simp only [Lookup.layout] at *; omega
  | both r c => simp only [Lookup.layout] at *; omega

/-- A later cell replaces the value: in a table with labels of rows any later row with these labels, otherwise any later number. -/
def Replaced (num : String → Option ℚ) (k : Lookup) (file : List Record) (key : Key) (i j : Nat) : Prop :=
  match k with
  | .row _ => ∃ i' j', i < i' ∧ Labelled k.layout file key i' j'
  | _ => ∃ i' j' v', (i < i' ∨ i = i' ∧ j < j') ∧ Number num k.layout file key i' j' v'

theorem rows_value {n : Nat} {file : List Record} (hf : Fits (.row n) file) (key : Key) (v : ℚ) :
    (lastSome (file.tail.map fun r => pick key (r.take n, num (r.getD n "")))).join = some v ↔
      ∃ i j, Number num (Lookup.layout (.row n)) file key i j v ∧ ¬ Replaced num (.row n) file key i j := by
  obtain ⟨hrect, hshape⟩ := hf
  simp only at hshape
  have hlen : ∀ i, 1 ≤ i → i < file.length → (file.getD i []).length = n + 1 := by
    intro i h1 h2
    rw [hrect _ (mem_getD h2)]
    rcases hshape with h | h
    · omega
    · exact h
  have hcol : colLabels (Lookup.layout (.row n)) file = fun _ => [] := by
    funext j; simp [colLabels, Lookup.layout]
  have hlab : ∀ i j, Labelled (Lookup.layout (.row n)) file key i j ↔ 1 ≤ i ∧ i < file.length ∧ j = n ∧ (file.getD i []).take n = key := by
    intro i j
    constructor
    · rintro ⟨⟨s, hc⟩, h⟩
      have hi := field_lt hc.text
      have hb : 1 ≤ i := hc.below
      have hr : n ≤ j := hc.right
      have := hlen i hb hi
      have hj := (field_some hc.text).1
      refine ⟨hb, hi, by omega, ?_⟩
      rw [hcol, List.append_nil] at h
      exact h
    · rintro ⟨h1, h2, rfl, h3⟩
      have := hlen i h1 h2
      refine ⟨⟨_, ⟨h1, le_refl _, field_of_lt (by omega)⟩⟩, ?_⟩
      rw [hcol, List.append_nil]
      exact h3
  have htail : ∀ (m : Nat) (x : Option ℚ), (file.tail.map fun r => pick key (r.take n, num (r.getD n "")))[m]? = some (some x) ↔
      m + 1 < file.length ∧ (file.getD (m + 1) []).take n = key ∧ num ((file.getD (m + 1) []).getD n "") = x := by
    intro m x
    rw [List.getElem?_map, List.getElem?_tail]
    by_cases hm : m + 1 < file.length
    · rw [List.getD_eq_getElem?_getD (l := file), List.getElem?_eq_getElem hm]
      simp only [Option.map_some, Option.some.injEq, pick_some, hm, true_and, Option.getD_some]
    · rw [List.getElem?_eq_none (by omega)]
      simp [hm]
  rw [Option.join_eq_some_iff, lastSome_some]
  constructor
  · rintro ⟨m, h1, h2⟩
    obtain ⟨h3, h4, h5⟩ := (htail m _).1 h1
    have hl := (hlab (m + 1) n).2 ⟨by omega, h3, rfl, h4⟩
    refine ⟨m + 1, n, ⟨hl, _, field_of_lt (by have := hlen (m + 1) (by omega) h3; omega), h5⟩, ?_⟩
    rintro ⟨i', j', hi, hl'⟩
    obtain ⟨g1, g2, -, g4⟩ := (hlab i' j').1 hl'
    obtain ⟨m', rfl⟩ : ∃ m', i' = m' + 1 := ⟨i' - 1, by omega⟩
    exact h2 m' (by omega) _ ((htail m' _).2 ⟨g2, g4, rfl⟩)
  · rintro ⟨i, j, ⟨hl, s, h1, h2⟩, h3⟩
    obtain ⟨g1, g2, rfl, g4⟩ := (hlab i j).1 hl
    obtain ⟨m, rfl⟩ : ∃ m, i = m + 1 := ⟨i - 1, by omega⟩
    refine ⟨m, (htail m _).2 ⟨g2, g4, ?_⟩, ?_⟩
    · rw [(field_some h1).2]; exact h2
    · intro m' hm' x hx
      obtain ⟨f1, f2, f3⟩ := (htail m' x).1 hx
      exact h3 ⟨m' + 1, j, by omega, (hlab _ _).2 ⟨by omega, f1, rfl, f2⟩⟩

theorem both_value {r c : Nat} {file : List Record} (hf : Fits (.both r c) file) (key : Key) (v : ℚ) :
    lastSome ((file.drop r).map fun row => lastSome
        (((List.range ((file.headD []).length - c)).zip ((row.drop c).map num)).map fun p =>
          p.2.bind fun v => pick key (row.take c ++ colLabels ⟨r, r, c⟩ file (c + p.1), v))) = some v ↔
      ∃ i j, Number num ⟨r, r, c⟩ file key i j v ∧
        ¬ ∃ i' j' v', (i < i' ∨ i = i' ∧ j < j') ∧ Number num ⟨r, r, c⟩ file key i' j' v' := by
  obtain ⟨hrect, hshape⟩ := hf
  simp only at hshape
  have hnum : ∀ i j (x : ℚ), Number num ⟨r, r, c⟩ file key (r + i) (c + j) x ↔
      ∃ s, (file.getD (r + i) [])[c + j]? = some s ∧ num s = some x ∧
        (file.getD (r + i) []).take c ++ colLabels ⟨r, r, c⟩ file (c + j) = key := by
    intro i j x
    constructor
    · rintro ⟨⟨-, h1⟩, s, h2, h3⟩; exact ⟨s, h2, h3, h1⟩
    · rintro ⟨s, h1, h2, h3⟩
      exact ⟨⟨⟨s, by simp, by simp, h1⟩, h3⟩, s, h1, h2⟩
  have hrow : ∀ i, r + i < file.length → ∀ j (x : ℚ),
      (((List.range ((file.headD []).length - c)).zip (((file.getD (r + i) []).drop c).map num)).map fun p =>
          p.2.bind fun v => pick key ((file.getD (r + i) []).take c ++ colLabels ⟨r, r, c⟩ file (c + p.1), v))[j]? = some (some x) ↔
        Number num ⟨r, r, c⟩ file key (r + i) (c + j) x := by
    intro i hi j x
    rw [entry_some (hrect _ (mem_getD hi)) (by omega) (fun j => (file.getD (r + i) []).take c ++ colLabels ⟨r, r, c⟩ file (c + j)), hnum]
  have hat : ∀ i (x : ℚ), ((file.drop r).map fun row => lastSome
        (((List.range ((file.headD []).length - c)).zip ((row.drop c).map num)).map fun p =>
          p.2.bind fun v => pick key (row.take c ++ colLabels ⟨r, r, c⟩ file (c + p.1), v)))[i]? = some (some x) ↔
      ∃ j, Number num ⟨r, r, c⟩ file key (r + i) (c + j) x ∧ ∀ j' x', j < j' → ¬ Number num ⟨r, r, c⟩ file key (r + i) (c + j') x' := by
    intro i x
    rw [List.getElem?_map, List.getElem?_drop]
    by_cases hi : r + i < file.length
    · have hg : file[r + i]? = some (file.getD (r + i) []) := by
        rw [List.getD_eq_getElem?_getD, List.getElem?_eq_getElem hi]; rfl
      rw [hg, Option.map_some, Option.some.injEq, lastSome_some]
      constructor
      · rintro ⟨j, h1, h2⟩
        exact ⟨j, (hrow i hi j x).1 h1, fun j' x' hj h => h2 j' hj x' ((hrow i hi j' x').2 h)⟩
      · rintro ⟨j, h1, h2⟩
        exact ⟨j, (hrow i hi j x).2 h1, fun j' hj x' h => h2 j' x' hj ((hrow i hi j' x').1 h)⟩
    · rw [List.getElem?_eq_none (by omega)]
      simp only [Option.map_none, reduceCtorEq, false_iff]
      rintro ⟨j, ⟨-, s, h, -⟩, -⟩
      exact hi (field_lt h)
  have hat' : ∀ i j (x : ℚ), Number num ⟨r, r, c⟩ file key (r + i) (c + j) x →
      ∃ y, ((file.drop r).map fun row => lastSome
        (((List.range ((file.headD []).length - c)).zip ((row.drop c).map num)).map fun p =>
          p.2.bind fun v => pick key (row.take c ++ colLabels ⟨r, r, c⟩ file (c + p.1), v)))[i]? = some (some y) := by
    intro i j x h
    have hi : r + i < file.length := by obtain ⟨-, s, h, -⟩ := h; exact field_lt h
    have hg : file[r + i]? = some (file.getD (r + i) []) := by
      rw [List.getD_eq_getElem?_getD, List.getElem?_eq_getElem hi]; rfl
    rw [List.getElem?_map, List.getElem?_drop, hg, Option.map_some]
    cases hl : lastSome
        (((List.range ((file.headD []).length - c)).zip (((file.getD (r + i) []).drop c).map num)).map fun p =>
          p.2.bind fun v => pick key ((file.getD (r + i) []).take c ++ colLabels ⟨r, r, c⟩ file (c + p.1), v)) with
    | none => exact absurd ((hrow i hi j x).2 h) (lastSome_none.1 hl j x)
    | some y => exact ⟨y, rfl⟩
  have hpos : ∀ i j x, Number num ⟨r, r, c⟩ file key i j x → ∃ i' j', i = r + i' ∧ j = c + j' := by
    rintro i j x ⟨⟨⟨s, hc⟩, -⟩, -⟩
    have h1 : r ≤ i := hc.below
    have h2 : c ≤ j := hc.right
    exact ⟨i - r, j - c, by omega, by omega⟩
  rw [lastSome_some]
  constructor
  · rintro ⟨i, h1, h2⟩
    obtain ⟨j, h3, h4⟩ := (hat i v).1 h1
    refine ⟨r + i, c + j, h3, ?_⟩
    rintro ⟨i', j', v', ho, hn⟩
    obtain ⟨a, b, rfl, rfl⟩ := hpos _ _ _ hn
    rcases ho with ho | ⟨ho1, ho2⟩
    · obtain ⟨y, hy⟩ := hat' a b v' hn
      exact h2 a (by omega) y hy
    · obtain rfl : a = i := by omega
      exact h4 b v' (by omega) hn
  · rintro ⟨i, j, h1, h2⟩
    obtain ⟨a, b, rfl, rfl⟩ := hpos _ _ _ h1
    refine ⟨a, (hat a v).2 ⟨b, h1, fun j' x' hj hx => h2 ⟨_, _, x', Or.inr ⟨rfl, by omega⟩, hx⟩⟩, ?_⟩
    intro a' ha' w hw
    obtain ⟨j', h3, -⟩ := (hat a' w).1 hw
    exact h2 ⟨_, _, w, Or.inl (by omega), h3⟩

theorem cols_value {n : Nat} {file : List Record} (hf : Fits (.col n) file) (key : Key) (v : ℚ) :
    lastSome (((List.range (file.headD []).length).zip ((file.getD n []).map num)).map fun p =>
          p.2.bind fun v => pick key (colLabels ⟨n, n, 0⟩ file p.1, v)) = some v ↔
      ∃ i j, Number num ⟨n, n, 0⟩ file key i j v ∧
        ¬ ∃ i' j' v', (i < i' ∨ i = i' ∧ j < j') ∧ Number num ⟨n, n, 0⟩ file key i' j' v' := by
  obtain ⟨hrect, hshape⟩ := hf
  simp only at hshape
  have hlen : (file.getD n []).length = (file.headD []).length := hrect _ (mem_getD (by omega))
  have hnum : ∀ i j (x : ℚ), Number num ⟨n, n, 0⟩ file key i j x ↔ i = n ∧
      ∃ s, (file.getD n [])[0 + j]? = some s ∧ num s = some x ∧ colLabels ⟨n, n, 0⟩ file j = key := by
    intro i j x
    rw [Nat.zero_add]
    constructor
    · rintro ⟨⟨⟨t, hc⟩, h1⟩, s, h2, h3⟩
      have hi := field_lt h2
      have hb : n ≤ i := hc.below
      obtain rfl : i = n := by omega
      rw [show rowLabels ⟨i, i, 0⟩ file i = [] by simp [rowLabels], List.nil_append] at h1
      exact ⟨rfl, s, h2, h3, h1⟩
    · rintro ⟨rfl, s, h1, h2, h3⟩
      refine ⟨⟨⟨s, le_refl _, by simp, h1⟩, ?_⟩, s, h1, h2⟩
      rw [show rowLabels ⟨i, i, 0⟩ file i = [] by simp [rowLabels], List.nil_append, h3]
  have hat := fun j x => entry_some (num := num) (k := key) hlen (Nat.zero_le _) (colLabels ⟨n, n, 0⟩ file) j x
  simp only [Nat.sub_zero, List.drop_zero] at hat
  rw [lastSome_some]
  constructor
  · rintro ⟨j, h1, h2⟩
    refine ⟨n, j, (hnum _ _ _).2 ⟨rfl, (hat j v).1 h1⟩, ?_⟩
    rintro ⟨i', j', v', ho, hn⟩
    obtain ⟨rfl, h3⟩ := (hnum _ _ _).1 hn
    exact h2 j' (by omega) v' ((hat j' v').2 h3)
  · rintro ⟨i, j, h1, h2⟩
    obtain ⟨rfl, h3⟩ := (hnum _ _ _).1 h1
    refine ⟨j, (hat j v).2 h3, ?_⟩
    intro j' hj w hw
    exact h2 ⟨i, j', w, Or.inr ⟨rfl, hj⟩, (hnum _ _ _).2 ⟨rfl, (hat j' w).1 hw⟩⟩

/-- **C84 (single values).** The value for a key is the number in a cell with these labels that no later cell replaces. -/
theorem C84_repeated_partial (d : Def) (ha : d.array = false) (hw : d.lookup.Works) {t : Loaded} (hl : d.load num = .ok t) (key : Key) (v : ℚ) :
    t.getScalar key = .ok v ↔
      ∃ i j, Number num d.lookup.layout d.file key i j v ∧ ¬ Replaced num d.lookup d.file key i j := by
  obtain ⟨hf, m, rfl, hm⟩ := (load_scalar ha hw).1 hl
  have key1 : m key = some v ↔ ∃ i j, Number num d.lookup.layout d.file key i j v ∧ ¬ Replaced num d.lookup d.file key i j := by
    obtain ⟨name, arr, lk, file⟩ := d
    simp only at hm hf hw ⊢
    cases lk with
    | row n =>
      obtain ⟨-, rfl⟩ := loadRows_ok.1 hm
      exact rows_value hf key v
    | col n =>
      obtain ⟨-, rfl⟩ := (loadCols_ok (by rcases hw with h | h <;> omega)).1 hm
      exact cols_value hf key v
    | both r c =>
      obtain ⟨-, rfl⟩ := (loadBoth_ok (by rcases hw with ⟨h | h, -⟩ <;> omega)).1 hm
      exact both_value hf key v
  rw [← key1]
  simp only [Loaded.getScalar, Scalar.get]
  by_cases hk : key.length = d.lookup.layout.rows + d.lookup.layout.cols
  · rw [if_pos hk]
    cases hv : m key with
    | none => simp
    | some x => simp
  · rw [if_neg hk]
    simp only [reduceCtorEq, false_iff, key1]
    rintro ⟨i, j, h, -⟩
    exact hk (labels_length hw hf h.1)

/-- **C84.** If no two cells have the same labels, the value for a key is the number in the cell with these labels. -/
theorem C84_scalar_partial (d : Def) (ha : d.array = false) (hw : d.lookup.Works) {t : Loaded} (hl : d.load num = .ok t)
    (hd : Distinct d.lookup.layout d.file) (key : Key) (v : ℚ) :
    t.getScalar key = .ok v ↔ ∃ i j, Number num d.lookup.layout d.file key i j v := by
  rw [C84_repeated_partial d ha hw hl]
  constructor
  · rintro ⟨i, j, h, -⟩; exact ⟨i, j, h⟩
  · rintro ⟨i, j, h⟩
    refine ⟨i, j, h, ?_⟩
    intro hr
    cases hk : d.lookup with
    | row n =>
      rw [hk] at hr h hd
      obtain ⟨i', j', hi, hl'⟩ := hr
      have := hd key _ _ _ _ h.1 hl'
      omega
    | col n =>
      rw [hk] at hr h hd
      obtain ⟨i', j', v', ho, hn⟩ := hr
      have := hd key _ _ _ _ h.1 hn.1
      omega
    | both r c =>
      rw [hk] at hr h hd
      obtain ⟨i', j', v', ho, hn⟩ := hr
      have := hd key _ _ _ _ h.1 hn.1
      omega

/-- **C84 (refusals).** A look-up is refused for a wrong number of labels, or if no number has these labels. -/
theorem C84_refused_partial (d : Def) (ha : d.array = false) (hw : d.lookup.Works) {t : Loaded} (hl : d.load num = .ok t)
    (hd : Distinct d.lookup.layout d.file) (key : Key) (e : Err) :
    t.getScalar key = .error e ↔
      if key.length = d.lookup.layout.rows + d.lookup.layout.cols then
        e = .entryNotFound ∧ ∀ i j v, ¬ Number num d.lookup.layout d.file key i j v
      else e = .wrongKeySize (d.lookup.layout.rows + d.lookup.layout.cols) key.length := by
  have hs := C84_scalar_partial d ha hw hl hd key
  obtain ⟨hf, m, rfl, hm⟩ := (load_scalar ha hw).1 hl
  simp only [Loaded.getScalar, Scalar.get] at hs ⊢
  by_cases hk : key.length = d.lookup.layout.rows + d.lookup.layout.cols
  · simp only [if_pos hk] at hs ⊢
    cases hv : m key with
    | none =>
      rw [hv] at hs
      simp only [Except.error.injEq]
      constructor
      · rintro rfl
        exact ⟨rfl, fun i j v h => by have := (hs v).2 ⟨i, j, h⟩; cases this⟩
      · rintro ⟨rfl, -⟩; rfl
    | some x =>
      rw [hv] at hs
      simp only [reduceCtorEq, false_iff]
      rintro ⟨-, h⟩
      obtain ⟨i, j, hn⟩ := (hs x).1 rfl
      exact h i j x hn
  · simp only [if_neg hk, Except.error.injEq]
    exact eq_comm

/-- **C84 (references).** A reference with the right numbers of row and column labels means the cells in the rows and columns with these
labels. -/
theorem C84_reference (k : Lookup) (file : List Record) (r : Ref)
    (h1 : (Index.parts r.row).length = k.layout.cols) (i j : Nat) :
    Labelled k.layout file r.key i j ↔ (∃ s, Cell k.layout file i j s) ∧ rowLabels k.layout file i = Index.parts r.row ∧
      colLabels k.layout file j = Index.parts r.column := by
  unfold Labelled Ref.key
  constructor
  · rintro ⟨⟨s, hc⟩, h⟩
    refine ⟨⟨s, hc⟩, ?_⟩
    apply List.append_inj h
    rw [h1, rowLabels, List.length_take]
    have hi := field_lt hc.text
    have := hc.right
    have := (field_some hc.text).1
    omega
  · rintro ⟨h2, h3, h4⟩
    exact ⟨h2, by rw [h3, h4]⟩

/-- **C84 (indices).** A whole number below 2⁶⁴ is given as an index; other numbers are refused. -/
theorem C84_index_partial (t : Loaded) (key : Key) (hb : ∀ v, t.getScalar key = .ok v → v < 2 ^ 64) (n : Nat) :
    t.getIndex key = .ok n ↔ t.getScalar key = .ok (n : ℚ) := by
  cases t with
  | vec t => simp [Loaded.getIndex, Loaded.getScalar]
  | scalar t =>
    simp only [Loaded.getIndex, Loaded.getScalar] at hb ⊢
    cases hv : t.get key with
    | error e => simp
    | ok v =>
      have hlt := hb v hv
      simp only [tryU64]
      by_cases hc : 0 ≤ v ∧ v.den = 1
      · simp only [if_pos hc, Except.ok.injEq]
        have hvn : v = (v.num : ℚ) := ((Rat.den_eq_one_iff v).1 hc.2).symm
        have hn0 : 0 ≤ v.num := Rat.num_nonneg.2 hc.1
        have hnat : v = ((v.num.toNat : ℕ) : ℚ) := by
          conv_lhs => rw [hvn]
          have : ((v.num.toNat : ℤ) : ℚ) = (v.num : ℚ) := by rw [Int.toNat_of_nonneg hn0]
          exact_mod_cast this.symm
        have hlt' : v.num.toNat < 2 ^ 64 := by
          rw [hnat] at hlt
          exact_mod_cast hlt
        rw [min_eq_left (by omega)]
        constructor
        · rintro rfl; exact hnat
        · intro h
          rw [hnat] at h
          exact_mod_cast h
      · simp only [if_neg hc, reduceCtorEq, false_iff, Except.ok.injEq]
        rintro rfl
        exact hc ⟨by positivity, by simp⟩

end Verif.Tables
