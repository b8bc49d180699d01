import Verif.Props.Tables

/-!
# C84: tables of arrays, collections, and what is refused
-/

namespace Verif.Tables

variable {num : String → Option ℚ}

/-- What is loaded for a table of arrays. -/
theorem load_vec {d : Def} (ha : d.array = true) {n : Nat} (hn : 1 ≤ n ∧ n ≤ 4) (hk : d.lookup = .row n ∨ d.lookup = .col n) {t : Loaded} :
    d.load num = .ok t ↔ ∃ m, t = .vec ⟨n, m⟩ ∧
      match d.lookup with
      | .row n => loadRowVec num n d.file = .ok m
      | .col n => loadColVec num n d.file = .ok m
      | .both _ _ => False := by
  obtain ⟨name, arr, lk, file⟩ := d
  simp only at ha hk ⊢
  subst ha
  have key : ∀ (n : Nat) (r : Except Err (Key → Option (List ℚ))),
      (vecOf n r).map Loaded.vec = .ok t ↔ ∃ m, t = .vec ⟨n, m⟩ ∧ r = .ok m := by
    intro n r
    cases r with
    | error e => simp [vecOf, Except.map]
    | ok m =>
      simp only [vecOf, Except.map, Except.ok.injEq]
      constructor
      · rintro rfl; exact ⟨m, rfl, rfl⟩
      · rintro ⟨m', rfl, rfl⟩; rfl
  obtain ⟨h1, h4⟩ := hn
  rcases hk with rfl | rfl
  · rcases (by omega : n = 1 ∨ n = 2 ∨ n = 3 ∨ n = 4) with rfl | rfl | rfl | rfl <;> exact key _ _
  · rcases (by omega : n = 1 ∨ n = 2 ∨ n = 3 ∨ n = 4) with rfl | rfl | rfl | rfl <;> exact key _ _

/-- **C84 (files of arrays).** A table of arrays with up to four labels is loaded exactly when its file has the right shape and all its
data are numbers. -/
theorem C84_array_loads (d : Def) (ha : d.array = true) {n : Nat} (hn : 1 ≤ n ∧ n ≤ 4) (hk : d.lookup = .row n ∨ d.lookup = .col n) :
    (∃ t, d.load num = .ok t) ↔ FitsArray num d.lookup d.file := by
  rcases hk with hk | hk
  · constructor
    · rintro ⟨t, h⟩
      obtain ⟨m, -, hm⟩ := (load_vec ha hn (.inl hk)).1 h
      rw [hk] at hm ⊢
      exact (loadRowVec_ok.1 hm).1
    · intro hf
      rw [hk] at hf
      have := (loadRowVec_ok (num := num)).2 ⟨hf, rfl⟩
      exact ⟨_, (load_vec ha hn (.inl hk)).2 ⟨_, rfl, by rw [hk]; exact this⟩⟩
  · constructor
    · rintro ⟨t, h⟩
      obtain ⟨m, -, hm⟩ := (load_vec ha hn (.inr hk)).1 h
      rw [hk] at hm ⊢
      exact ((loadColVec_ok hn.1).1 hm).1
    · intro hf
      rw [hk] at hf
      have := (loadColVec_ok (num := num) hn.1).2 ⟨hf, rfl⟩
      exact ⟨_, (load_vec ha hn (.inr hk)).2 ⟨_, rfl, by rw [hk]; exact this⟩⟩

theorem get_vec {n : Nat} {m : Key → Option (List ℚ)} {key : Key} {vs : List ℚ} (h : m key = some vs → key.length = n) :
    (Loaded.vec ⟨n, m⟩).getVec key = .ok vs ↔ m key = some vs := by
  simp only [Loaded.getVec, Vec.get]
  by_cases hk : key.length = n
  · rw [if_pos hk]
    cases m key <;> simp
  · rw [if_neg hk]
    simp only [reduceCtorEq, false_iff]
    exact fun hv => hk (h hv)

/-- **C84 (arrays in rows).** The array for a key are the numbers of the last row with these labels. -/
theorem C84_array_row (d : Def) (ha : d.array = true) {n : Nat} (hn : 1 ≤ n ∧ n ≤ 4) (hk : d.lookup = .row n) {t : Loaded}
    (hl : d.load num = .ok t) (key : Key) (vs : List ℚ) :
    t.getVec key = .ok vs ↔ ∃ i, 1 ≤ i ∧ i < d.file.length ∧ rowLabels d.lookup.layout d.file i = key ∧ RowIs num d.lookup.layout d.file i vs ∧
      ∀ i', i < i' → i' < d.file.length → rowLabels d.lookup.layout d.file i' ≠ key := by
  obtain ⟨m, rfl, hm⟩ := (load_vec ha hn (.inl hk)).1 hl
  rw [hk] at hm ⊢
  obtain ⟨hf, rfl⟩ := loadRowVec_ok.1 hm
  obtain ⟨hrect, hnum, hshape⟩ := hf
  rw [cells_iff] at hnum
  simp only [Lookup.layout, List.drop_one] at hnum hshape
  have htail : ∀ (a : Nat) (x : List ℚ), (d.file.tail.map fun r => pick key (r.take n, numbers num (r.drop n)))[a]? = some (some x) ↔
      a + 1 < d.file.length ∧ rowLabels ⟨1, 0, n⟩ d.file (a + 1) = key ∧ RowIs num ⟨1, 0, n⟩ d.file (a + 1) x := by
    intro a x
    rw [List.getElem?_map, List.getElem?_tail]
    by_cases hm : a + 1 < d.file.length
    · have hg : d.file[a + 1]? = some (d.file.getD (a + 1) []) := by
        rw [List.getD_eq_getElem?_getD, List.getElem?_eq_getElem hm]; rfl
      rw [hg]
      simp only [Option.map_some, Option.some.injEq, pick_some, hm, true_and, rowLabels, RowIs]
      rw [numbers_eq (hnum _ (by
        rw [List.mem_iff_getElem?]
        exact ⟨a, by rw [List.getElem?_tail, hg]⟩))]
    · rw [List.getElem?_eq_none (by omega)]
      simp [hm]
  have hval : lastSome (d.file.tail.map fun r => pick key (r.take n, numbers num (r.drop n))) = some vs ↔
      ∃ i, 1 ≤ i ∧ i < d.file.length ∧ rowLabels ⟨1, 0, n⟩ d.file i = key ∧ RowIs num ⟨1, 0, n⟩ d.file i vs ∧
        ∀ i', i < i' → i' < d.file.length → rowLabels ⟨1, 0, n⟩ d.file i' ≠ key := by
    rw [lastSome_some]
    constructor
    · rintro ⟨a, h1, h2⟩
      obtain ⟨g1, g2, g3⟩ := (htail a vs).1 h1
      refine ⟨a + 1, by omega, g1, g2, g3, ?_⟩
      intro i' hi hl' hk'
      obtain ⟨b, rfl⟩ : ∃ b, i' = b + 1 := ⟨i' - 1, by omega⟩
      refine h2 b (by omega) (numbers num ((d.file.getD (b + 1) []).drop n)) ((htail b _).2 ⟨hl', hk', ?_⟩)
      have hg : d.file[b + 1]? = some (d.file.getD (b + 1) []) := by
        rw [List.getD_eq_getElem?_getD, List.getElem?_eq_getElem hl']; rfl
      exact (numbers_eq (hnum _ (by
        rw [List.mem_iff_getElem?]
        exact ⟨b, by rw [List.getElem?_tail, hg]⟩)) _).1 rfl
    · rintro ⟨i, h1, h2, h3, h4, h5⟩
      obtain ⟨a, rfl⟩ : ∃ a, i = a + 1 := ⟨i - 1, by omega⟩
      refine ⟨a, (htail a vs).2 ⟨h2, h3, h4⟩, ?_⟩
      intro b hb x hx
      obtain ⟨g1, g2, -⟩ := (htail b x).1 hx
      exact h5 (b + 1) (by omega) g1 g2
  rw [get_vec]
  · exact hval
  · intro hs
    obtain ⟨i, h1, h2, h3, -⟩ := hval.1 hs
    rw [← h3, rowLabels, List.length_take, hrect _ (mem_getD h2)]
    simp only
    omega

/-- **C84 (arrays in columns).** The array for a key are the numbers of the last column with these labels. -/
theorem C84_array_col (d : Def) (ha : d.array = true) {n : Nat} (hn : 1 ≤ n ∧ n ≤ 4) (hk : d.lookup = .col n) {t : Loaded}
    (hl : d.load num = .ok t) (key : Key) (vs : List ℚ) :
    t.getVec key = .ok vs ↔ ∃ j, j < (d.file.headD []).length ∧ colLabels d.lookup.layout d.file j = key ∧ ColIs num d.lookup.layout d.file j vs ∧
      ∀ j', j < j' → j' < (d.file.headD []).length → colLabels d.lookup.layout d.file j' ≠ key := by
  obtain ⟨m, rfl, hm⟩ := (load_vec ha hn (.inr hk)).1 hl
  rw [hk] at hm ⊢
  obtain ⟨hf, rfl⟩ := (loadColVec_ok hn.1).1 hm
  obtain ⟨hrect, hnum, hshape⟩ := hf
  rw [cells_iff] at hnum
  simp only [Lookup.layout, List.drop_zero] at hnum hshape ⊢
  have hcol : ∀ j < (d.file.headD []).length, ∀ x : List ℚ,
      ((d.file.drop n).map fun r => (num (r.getD j "")).getD 0) = x ↔ ColIs num ⟨n, n, 0⟩ d.file j x := by
    intro j hj x
    have := numbers_eq (num := num) (l := (d.file.drop n).map fun r => r.getD j "") (by
      intro s hs
      obtain ⟨r, hr, rfl⟩ := List.mem_map.1 hs
      apply hnum r hr
      have hlr := ((rect_split n).1 hrect).2 r hr
      rw [List.getD_eq_getElem?_getD, List.getElem?_eq_getElem (by omega)]
      simp) x
    rw [numbers, List.map_map, List.map_map] at this
    exact this
  have hat : ∀ (j : Nat) (x : List ℚ), ((List.range (d.file.headD []).length).map fun j =>
        pick key (colLabels ⟨n, n, 0⟩ d.file j, (d.file.drop n).map fun r => (num (r.getD j "")).getD 0))[j]? = some (some x) ↔
      j < (d.file.headD []).length ∧ colLabels ⟨n, n, 0⟩ d.file j = key ∧ ColIs num ⟨n, n, 0⟩ d.file j x := by
    intro j x
    rw [List.getElem?_map]
    by_cases hj : j < (d.file.headD []).length
    · rw [List.getElem?_range hj]
      simp only [Option.map_some, Option.some.injEq, pick_some, hj, true_and, hcol j hj]
    · rw [List.getElem?_eq_none (by rw [List.length_range]; omega)]
      simp only [Option.map_none, reduceCtorEq, hj, false_and]
  have hval : lastSome ((List.range (d.file.headD []).length).map fun j =>
        pick key (colLabels ⟨n, n, 0⟩ d.file j, (d.file.drop n).map fun r => (num (r.getD j "")).getD 0)) = some vs ↔
      ∃ j, j < (d.file.headD []).length ∧ colLabels ⟨n, n, 0⟩ d.file j = key ∧ ColIs num ⟨n, n, 0⟩ d.file j vs ∧
        ∀ j', j < j' → j' < (d.file.headD []).length → colLabels ⟨n, n, 0⟩ d.file j' ≠ key := by
    rw [lastSome_some]
    constructor
    · rintro ⟨j, h1, h2⟩
      obtain ⟨g1, g2, g3⟩ := (hat j vs).1 h1
      refine ⟨j, g1, g2, g3, ?_⟩
      intro j' hj hl' hk'
      exact h2 j' hj _ ((hat j' _).2 ⟨hl', hk', (hcol j' hl' _).1 rfl⟩)
    · rintro ⟨j, h1, h2, h3, h4⟩
      refine ⟨j, (hat j vs).2 ⟨h1, h2, h3⟩, ?_⟩
      intro j' hj x hx
      obtain ⟨g1, g2, -⟩ := (hat j' x).1 hx
      exact h4 j' hj g1 g2
  rw [get_vec]
  · exact hval
  · intro hs
    obtain ⟨j, h1, h2, -⟩ := hval.1 hs
    rw [← h2, colLabels, List.length_map, List.length_take]
    simp only
    cases hfile : d.file with
    | nil => rw [hfile] at h1; simp at h1
    | cons a l =>
      rw [hfile] at hshape
      simp only [List.length_cons] at hshape ⊢
      omega

/-- **C84 (kinds).** Single values are not taken from tables of arrays, nor arrays from tables of single values; arrays with labels of rows and
columns are not loaded. -/
theorem C84_kinds (d : Def) {t : Loaded} (hl : d.load num = .ok t) (key : Key) :
    (d.array = true → t.getScalar key = .error .wrongTableFormat ∧ t.getIndex key = .error .wrongTableFormat ∧ ∀ r c, d.lookup ≠ .both r c) ∧
    (d.array = false → t.getVec key = .error .wrongTableFormat) := by
  unfold Def.load at hl
  constructor
  · intro ha
    rw [if_pos ha] at hl
    cases hk : d.lookup with
    | row n =>
      rw [hk] at hl
      simp only at hl
      cases hv : vecRow num n d.file with
      | error e => rw [hv] at hl; cases hl
      | ok v => rw [hv] at hl; cases hl; exact ⟨rfl, rfl, by simp⟩
    | col n =>
      rw [hk] at hl
      simp only at hl
      cases hv : vecCol num n d.file with
      | error e => rw [hv] at hl; cases hl
      | ok v => rw [hv] at hl; cases hl; exact ⟨rfl, rfl, by simp⟩
    | both r c => rw [hk] at hl; cases hl
  · intro ha
    rw [if_neg (by simp [ha])] at hl
    cases hk : d.lookup with
    | row n =>
      rw [hk] at hl
      simp only at hl
      cases hv : scalarRow num n d.file with
      | error e => rw [hv] at hl; cases hl
      | ok v => rw [hv] at hl; cases hl; rfl
    | col n =>
      rw [hk] at hl
      simp only at hl
      cases hv : scalarCol num n d.file with
      | error e => rw [hv] at hl; cases hl
      | ok v => rw [hv] at hl; cases hl; rfl
    | both r c =>
      rw [hk] at hl
      simp only at hl
      cases hv : scalarBoth num r c d.file with
      | error e => rw [hv] at hl; cases hl
      | ok v => rw [hv] at hl; cases hl; rfl

theorem fromSchema_ok : ∀ (ds : List Def) (m₀ m : String → Option Loaded),
    fromSchema num ds m₀ = .ok m ↔ ((ds.map (·.name)).Nodup ∧ (∀ d ∈ ds, (m₀ d.name) = none)) ∧ (∀ d ∈ ds, ∃ t, d.load num = .ok t) ∧
      (∀ name t, m name = some t ↔ (∃ d ∈ ds, d.name = name ∧ d.load num = .ok t) ∨ m₀ name = some t) := by
  intro ds
  induction ds with
  | nil =>
    intro m₀ m
    simp only [fromSchema, Except.ok.injEq, List.map_nil, List.nodup_nil, List.not_mem_nil, false_imp_iff, implies_true, and_self,
      false_and, exists_false, false_or, true_and]
    constructor
    · rintro rfl; simp
    · intro h; funext name; apply Option.ext; intro t; exact (h name t).symm
  | cons d ds ih =>
    intro m₀ m
    rw [fromSchema]
    cases hl : d.load num with
    | error e =>
      simp only [reduceCtorEq, false_iff]
      rintro ⟨-, h, -⟩
      obtain ⟨t, ht⟩ := h d (by simp)
      rw [hl] at ht; cases ht
    | ok t =>
      simp only
      by_cases hs : (m₀ d.name).isSome
      · rw [if_pos hs]
        simp only [reduceCtorEq, false_iff]
        rintro ⟨⟨-, h⟩, -⟩
        rw [h d (by simp)] at hs; cases hs
      · rw [if_neg hs, ih]
        have hnone : m₀ d.name = none := by simpa using hs
        simp only [List.map_cons, List.nodup_cons, List.forall_mem_cons, hnone, true_and, List.mem_map, not_exists, not_and]
        constructor
        · rintro ⟨⟨h1, h2⟩, h3, h4⟩
          have hne : ∀ e ∈ ds, e.name ≠ d.name := by
            intro e he hc
            have := h2 e he
            rw [if_pos hc] at this; cases this
          refine ⟨⟨⟨hne, h1⟩, ?_⟩, ⟨⟨t, hl⟩, h3⟩, ?_⟩
          · intro e he
            have := h2 e he
            rwa [if_neg (hne e he)] at this
          · intro name u
            rw [h4]
            by_cases hn : name = d.name
            · subst hn
              rw [if_pos rfl, hnone]
              constructor
              · rintro (⟨e, he, hc, -⟩ | hu)
                · exact absurd hc (hne e he)
                · exact Or.inl ⟨d, by simp, rfl, by rw [hl, Option.some.inj hu]⟩
              · rintro (⟨e, he, hc, hu⟩ | hu)
                · rcases List.mem_cons.1 he with rfl | he
                  · rw [hl] at hu; exact Or.inr (congrArg some (Except.ok.inj hu))
                  · exact absurd hc (hne e he)
                · cases hu
            · rw [if_neg hn]
              constructor
              · rintro (⟨e, he, hc, hu⟩ | hu)
                · exact Or.inl ⟨e, by simp [he], hc, hu⟩
                · exact Or.inr hu
              · rintro (⟨e, he, hc, hu⟩ | hu)
                · rcases List.mem_cons.1 he with rfl | he
                  · exact absurd hc.symm hn
                  · exact Or.inl ⟨e, he, hc, hu⟩
                · exact Or.inr hu
        · rintro ⟨⟨⟨h1, h2⟩, h3⟩, ⟨-, h5⟩, h6⟩
          refine ⟨⟨h2, ?_⟩, h5, ?_⟩
          · intro e he
            rw [if_neg (h1 e he)]
            exact h3 e he
          · intro name u
            rw [h6]
            by_cases hn : name = d.name
            · subst hn
              rw [if_pos rfl, hnone]
              constructor
              · rintro (⟨e, he, hc, hu⟩ | hu)
                · rcases List.mem_cons.1 he with rfl | he
                  · rw [hl] at hu; exact Or.inr (congrArg some (Except.ok.inj hu))
                  · exact absurd hc (h1 e he)
                · cases hu
              · rintro (⟨e, he, hc, -⟩ | hu)
                · exact absurd hc (h1 e he)
                · exact Or.inl ⟨d, by simp, rfl, by rw [hl, Option.some.inj hu]⟩
            · rw [if_neg hn]
              constructor
              · rintro (⟨e, he, hc, hu⟩ | hu)
                · rcases List.mem_cons.1 he with rfl | he
                  · exact absurd hc.symm hn
                  · exact Or.inl ⟨e, he, hc, hu⟩
                · exact Or.inr hu
              · rintro (⟨e, he, hc, hu⟩ | hu)
                · exact Or.inl ⟨e, by simp [he], hc, hu⟩
                · exact Or.inr hu

/-- **C84 (collections).** The tables of a model are loaded exactly when each of them is and their names differ; a name then means its
table. -/
theorem C84_collection (ds : List Def) (m : String → Option Loaded) :
    fromSchema num ds (fun _ => none) = .ok m ↔ (ds.map (·.name)).Nodup ∧ (∀ d ∈ ds, ∃ t, d.load num = .ok t) ∧
      ∀ name t, m name = some t ↔ ∃ d ∈ ds, d.name = name ∧ d.load num = .ok t := by
  rw [fromSchema_ok]
  simp

theorem two_le {α : Type} (l : List α) {k : Nat} (h : l.length = k) (hk : 2 ≤ k) : ∃ a b l', l = a :: b :: l' ∧ l'.length + 2 = k := by
  match l, h with
  | [], h => simp at h; omega
  | [a], h => simp at h; omega
  | a :: b :: l, h => exact ⟨a, b, l, rfl, h⟩

/-- **C84 (three or four labels, refuted).** A table of single values with three or four labels of rows, or of columns, is refused although its
file has the right shape (rows: as soon as there is data). -/
theorem C84_labels_refuted (name : String) (file : List Record) (n : Nat) (hn : n = 3 ∨ n = 4) :
    (Fits (.row n) file → 2 ≤ file.length → Def.load num ⟨name, false, .row n, file⟩ = .error (.tooManyColumns 3 (n + 1))) ∧
    (Fits (.col n) file → Def.load num ⟨name, false, .col n, file⟩ = .error (.tooManyRows 3 (n + 1))) := by
  constructor
  · rintro ⟨hrect, hs⟩ hlen
    simp only at hs
    match file, hlen with
    | hdr :: r :: recs, _ =>
      have hw : hdr.length = n + 1 := by
        rcases hs with h | h
        · simp at h
        · exact h
      have hr : r.length = hdr.length := hrect r (by simp)
      have hd : ∃ a b l, (r.drop 2).map num = a :: b :: l ∧ l.length + 2 = n - 1 := by
        have hlen : ((r.drop 2).map num).length = n - 1 := by simp; omega
        exact two_le _ hlen (by omega)
      obtain ⟨a, b, l, hd, hl⟩ := hd
      have he : rowEntry num 2 hdr.length r = .error (.tooManyColumns 3 (n + 1)) := by
        unfold rowEntry readRecord
        rw [if_pos hr]
        simp only
        rw [if_neg (by omega), hd]
        have e : (a :: b :: l).length + 2 = n + 1 := by simp only [List.length_cons]; omega
        show Except.error (Err.tooManyColumns (1 + 2) ((a :: b :: l).length + 2)) = _
        rw [e]
      have hload : loadRows num 2 (hdr :: r :: recs) = .error (.tooManyColumns 3 (n + 1)) := by
        simp only [loadRows, List.map_cons, he, collect]
      rcases hn with rfl | rfl <;>
        simp only [Def.load, Bool.false_eq_true, if_false, scalarRow, hload, scalarOf, Except.map]
  · rintro ⟨hrect, hs⟩
    simp only at hs
    have hload : loadCols num 2 file = .error (.tooManyRows 3 (n + 1)) := by
      unfold loadCols
      rw [(headers_ok (skip := 0) (by omega : 1 ≤ 2) file _).2 ⟨⟨Or.inl (by omega), ((rect_split 2).1 hrect).1⟩, rfl⟩]
      simp only
      rw [(collect_map (f := colEntry num (file.headD []).length) colEntry_ok (file.drop 2) _).2
        ⟨((rect_split 2).1 hrect).2, rfl⟩]
      have hd : ∃ a b l, (file.drop 2).map (fun r => r.map num) = a :: b :: l ∧ l.length + 2 = n - 1 := by
        have hlen : ((file.drop 2).map fun r => r.map num).length = n - 1 := by simp; omega
        exact two_le _ hlen (by omega)
      obtain ⟨a, b, l, hd, hl⟩ := hd
      rw [hd]
      have e : (a :: b :: l).length + 2 = n + 1 := by simp only [List.length_cons]; omega
      show Except.error (Err.tooManyRows (1 + 2) ((a :: b :: l).length + 2)) = _
      rw [e]
    rcases hn with rfl | rfl <;>
      simp only [Def.load, Bool.false_eq_true, if_false, scalarCol, hload, scalarOf, Except.map]

/-- **C84 (panics, refuted).** A table with labels of rows whose file has data rows but no further column is not refused with an error:
loading panics. -/
theorem C84_no_column_refuted (name : String) (hdr r : Record) (recs : List Record) (n : Nat) (hn : n = 1 ∨ n = 2)
    (hw : hdr.length = n) (hr : r.length = n) :
    Def.load num ⟨name, false, .row n, hdr :: r :: recs⟩ = .error .panic := by
  have he : rowEntry num n hdr.length r = .error .panic := by
    unfold rowEntry readRecord
    rw [if_pos (by omega)]
    simp only
    rw [if_neg (by omega), List.drop_eq_nil_of_le (by omega)]
    rfl
  have hload : loadRows num n (hdr :: r :: recs) = .error .panic := by
    simp only [loadRows, List.map_cons, he, collect]
  rcases hn with rfl | rfl <;>
    simp only [Def.load, Bool.false_eq_true, if_false, scalarRow, hload, scalarOf, Except.map]

/-- **C84 (panics, refuted).** So does loading a table with labels of columns whose file has the labels but no data. -/
theorem C84_no_row_refuted (name : String) (file : List Record) (n : Nat) (hn : n = 1 ∨ n = 2) (hl : file.length = n)
    (hrect : Rectangular file) : Def.load num ⟨name, false, .col n, file⟩ = .error .panic := by
  have hload : loadCols num n file = .error .panic := by
    unfold loadCols
    rw [(headers_ok (skip := 0) (by omega) _ _).2 ⟨⟨Or.inl (by omega), ((rect_split n).1 hrect).1⟩, rfl⟩]
    simp only
    rw [List.drop_eq_nil_of_le (by omega)]
    rfl
  rcases hn with rfl | rfl <;>
    simp only [Def.load, Bool.false_eq_true, if_false, scalarCol, hload, scalarOf, Except.map]

end Verif.Tables
