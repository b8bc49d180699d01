import Verif.Lemmas.IpmCommon

/-! # The index lists describe the factor completely -/

namespace Verif.Ipm

/-- The checks of `try_from_csr_data` as a proposition. -/
structure Csr.Ok {K : Type} (a : Csr K) : Prop where
  offLen : a.offsets.length = a.nrows + 1
  off0 : a.off 0 = 0
  offN : a.off a.nrows = a.cols.length
  vals : a.values.length = a.cols.length
  mono : ∀ i < a.nrows, a.off i ≤ a.off (i + 1)
  sorted : ∀ i < a.nrows, (a.rowCols i).Pairwise (· < ·)
  colsLt : ∀ c ∈ a.cols, c < a.ncols

theorem Csr.check_iff {K : Type} (a : Csr K) : a.check = true ↔ a.Ok := by
  simp only [Csr.check, Bool.and_eq_true, beq_iff_eq, List.all_eq_true, List.mem_range, decide_eq_true_eq]
  constructor
  · rintro ⟨⟨⟨⟨⟨h1, h2⟩, h3⟩, h4⟩, h5⟩, h6⟩
    exact ⟨h1, h2, h3, h4, fun i hi => (h5 i hi).1, fun i hi => (h5 i hi).2, h6⟩
  · rintro ⟨h1, h2, h3, h4, h5, h6, h7⟩
    exact ⟨⟨⟨⟨⟨h1, h2⟩, h3⟩, h4⟩, fun i hi => ⟨h5 i hi, h6 i hi⟩⟩, h7⟩

theorem Csr.Ok.mono' {K : Type} {a : Csr K} (h : a.Ok) {i j : Nat} (hij : i ≤ j) (hj : j ≤ a.nrows) : a.off i ≤ a.off j := by
  induction j with
  | zero => have : i = 0 := by omega
            subst this; exact Nat.le_refl _
  | succ j ih =>
    rcases Nat.lt_or_ge i (j + 1) with h1 | h1
    · exact Nat.le_trans (ih (by omega) (by omega)) (h.mono j (by omega))
    · have : i = j + 1 := by omega
      subst this; exact Nat.le_refl _

theorem Csr.Ok.off_le {K : Type} {a : Csr K} (h : a.Ok) {i : Nat} (hi : i ≤ a.nrows) : a.off i ≤ a.cols.length := by
  rw [← h.offN]; exact h.mono' hi (Nat.le_refl _)

theorem Csr.Ok.rowCols_ne {K : Type} {a : Csr K} (h : a.Ok) {i : Nat} (hi : i < a.nrows) (hne : a.off i < a.off (i + 1)) :
    a.rowCols i ≠ [] := by
  intro he
  have := slice_length a.cols (a.off i) (a.off (i + 1)) (h.off_le hi)
  unfold Csr.rowCols at he
  rw [he] at this
  simp at this; omega

/-- Where row `r` of the factor ends, as far as it is known. -/
def Idx.rowEnd (s : Idx) (r : Nat) : Nat := s.lPtr.getD (r + 1) s.lInd.length

/-- Where row `r` of the factor starts. -/
def Idx.start (s : Idx) (r : Nat) : Nat := s.lPtr.getD r 0

/-- The column of entry `e` of the factor. -/
def Idx.col (s : Idx) (e : Nat) : Nat := s.lInd.getD e 0

/-- The products of entries of the factor that belong to entry `e` of row `r`. -/
def Idx.prods (s : Idx) (r e : Nat) : List (Nat × Nat × Nat) :=
  matches_ (slice s.lInd (s.start r) e) (slice s.lInd (s.start (s.col e)) (if s.col e = r then e else s.rowEnd (s.col e)))
    (s.start r) (s.start (s.col e))

/-- What is recorded for entry `e`, which lies in row `r`. -/
structure EntryOk {K : Type} (a : Csr K) (s : Idx) (r e : Nat) : Prop where
  le : s.col e ≤ r
  anEnd : s.anPtr.getD (e + 1) 0 = s.anPtr.getD e 0 + (aMatches a r (s.col e)).length
  an : ∀ (t : Nat) (ht : t < (aMatches a r (s.col e)).length),
    s.anI.getD (s.anPtr.getD e 0 + t) 0 = (aMatches a r (s.col e))[t].1 ∧
    s.anJ.getD (s.anPtr.getD e 0 + t) 0 = (aMatches a r (s.col e))[t].2.1 ∧
    s.anK.getD (s.anPtr.getD e 0 + t) 0 = (aMatches a r (s.col e))[t].2.2
  anLe : s.anPtr.getD (e + 1) 0 ≤ s.anI.length
  ldEnd : s.ldPtr.getD (e + 1) 0 = s.ldPtr.getD e 0 + (s.prods r e).length
  ld : ∀ (t : Nat) (ht : t < (s.prods r e).length),
    s.ldI.getD (s.ldPtr.getD e 0 + t) 0 = (s.prods r e)[t].1 ∧
    s.ldJ.getD (s.ldPtr.getD e 0 + t) 0 = (s.prods r e)[t].2.1
  ldLe : s.ldPtr.getD (e + 1) 0 ≤ s.ldI.length

/-- The lists after rows below `i` and the entries of row `i` below column `j`. -/
structure Inv {K : Type} (a : Csr K) (i j : Nat) (s : Idx) : Prop where
  ptrLen : s.lPtr.length = i + 1
  ptr0 : s.start 0 = 0
  anPtrLen : s.anPtr.length = s.lInd.length + 1
  ldPtrLen : s.ldPtr.length = s.lInd.length + 1
  anLast : s.anPtr.getD s.lInd.length 0 = s.anI.length
  ldLast : s.ldPtr.getD s.lInd.length 0 = s.ldI.length
  anJLen : s.anJ.length = s.anI.length
  anKLen : s.anK.length = s.anI.length
  ldJLen : s.ldJ.length = s.ldI.length
  startLe : ∀ r ≤ i, s.start r ≤ s.rowEnd r
  endLe : ∀ r ≤ i, s.rowEnd r ≤ s.lInd.length
  entries : ∀ r ≤ i, ∀ e, s.start r ≤ e → e < s.rowEnd r → EntryOk a s r e
  sorted : ∀ r ≤ i, ∀ e e', s.start r ≤ e → e < e' → e' < s.rowEnd r → s.col e < s.col e'
  bound : ∀ e, s.start i ≤ e → e < s.lInd.length → s.col e < j
  absent : ∀ r ≤ i, ∀ c ≤ r, (r = i → c < j) → (∀ e, s.start r ≤ e → e < s.rowEnd r → s.col e ≠ c) →
    aMatches a r c = [] ∧ ∀ e e', s.start r ≤ e → e < s.rowEnd r → s.col e < c → s.start c ≤ e' → e' < s.rowEnd c →
      s.col e ≠ s.col e'
  diagLen : s.lDiag.length = if j ≤ i then i else i + 1
  diag : ∀ r ≤ i, (r = i → i < j) → s.lDiag.getD r 0 + 1 = s.rowEnd r ∧ s.start r < s.rowEnd r ∧ s.col (s.rowEnd r - 1) = r

/-- Lists only grow. -/
structure Ext (s t : Idx) : Prop where
  anPtr : ∃ x, t.anPtr = s.anPtr ++ x
  anI : ∃ x, t.anI = s.anI ++ x
  anJ : ∃ x, t.anJ = s.anJ ++ x
  anK : ∃ x, t.anK = s.anK ++ x
  ldPtr : ∃ x, t.ldPtr = s.ldPtr ++ x
  ldI : ∃ x, t.ldI = s.ldI ++ x
  ldJ : ∃ x, t.ldJ = s.ldJ ++ x
  lPtr : ∃ x, t.lPtr = s.lPtr ++ x
  lInd : ∃ x, t.lInd = s.lInd ++ x

theorem getD_app (l m : List Nat) (i d : Nat) (h : i < l.length) : (l ++ m).getD i d = l.getD i d := by
  rw [List.getD_append _ _ _ _ h]

theorem getD_last (l : List Nat) (x d : Nat) (i : Nat) (h : i = l.length) : (l ++ [x]).getD i d = x := by
  subst h; simp

/-- What was recorded for an entry remains. -/
theorem EntryOk.ext {K : Type} {a : Csr K} {s t : Idx} {i j r e : Nat} (hs : Inv a i j s) (hx : Ext s t) (hr : r ≤ i)
    (h : EntryOk a s r e) (he : e < s.rowEnd r) : EntryOk a t r e := by
  have heL : e < s.lInd.length := Nat.lt_of_lt_of_le he (hs.endLe r hr)
  obtain ⟨x1, h1⟩ := hx.anPtr
  obtain ⟨x2, h2⟩ := hx.anI
  obtain ⟨x3, h3⟩ := hx.anJ
  obtain ⟨x4, h4⟩ := hx.anK
  obtain ⟨x5, h5⟩ := hx.ldPtr
  obtain ⟨x6, h6⟩ := hx.ldI
  obtain ⟨x7, h7⟩ := hx.ldJ
  obtain ⟨x8, h8⟩ := hx.lPtr
  obtain ⟨x9, h9⟩ := hx.lInd
  have hp1 := hs.anPtrLen
  have hp2 := hs.ldPtrLen
  have hp3 := hs.ptrLen
  have hcol : t.col e = s.col e := by unfold Idx.col; rw [h9, getD_app _ _ _ _ heL]
  have hst : ∀ q, q ≤ i → t.start q = s.start q := by
    intro q hq; unfold Idx.start; rw [h8, getD_app _ _ _ _ (by omega)]
  have hen : ∀ q, q < i → t.rowEnd q = s.rowEnd q := by
    intro q hq; unfold Idx.rowEnd
    rw [h8, List.getD_append _ _ _ _ (by omega), List.getD_eq_getElem _ _ (by omega), List.getD_eq_getElem _ _ (by omega)]
  have hprods : t.prods r e = s.prods r e := by
    unfold Idx.prods
    rw [hcol, hst r hr, hst (s.col e) (Nat.le_trans h.le hr), h9]
    rw [slice_append _ _ _ _ (Nat.le_of_lt heL)]
    by_cases hc : s.col e = r
    · rw [if_pos hc, if_pos hc, slice_append _ _ _ _ (Nat.le_of_lt heL)]
    · have hlt : s.col e < r := Nat.lt_of_le_of_ne h.le hc
      rw [if_neg hc, if_neg hc, hen _ (by omega), slice_append _ _ _ _ (hs.endLe _ (by omega))]
  have ha0 : t.anPtr.getD e 0 = s.anPtr.getD e 0 := by rw [h1, getD_app _ _ _ _ (by omega)]
  have ha1 : t.anPtr.getD (e + 1) 0 = s.anPtr.getD (e + 1) 0 := by rw [h1, getD_app _ _ _ _ (by omega)]
  have hl0 : t.ldPtr.getD e 0 = s.ldPtr.getD e 0 := by rw [h5, getD_app _ _ _ _ (by omega)]
  have hl1 : t.ldPtr.getD (e + 1) 0 = s.ldPtr.getD (e + 1) 0 := by rw [h5, getD_app _ _ _ _ (by omega)]
  have hanLe := h.anLe
  have hldLe := h.ldLe
  have hanE := h.anEnd
  have hldE := h.ldEnd
  have hj := hs.anJLen
  have hk := hs.anKLen
  have hlj := hs.ldJLen
  refine ⟨by rw [hcol]; exact h.le, by rw [ha0, ha1, hcol]; exact h.anEnd, ?_, ?_, by rw [hl0, hl1, hprods]; exact h.ldEnd, ?_, ?_⟩
  · rw [hcol, ha0]
    intro t' ht
    rw [h2, h3, h4, getD_app _ _ _ _ (by omega), getD_app _ _ _ _ (by omega), getD_app _ _ _ _ (by omega)]
    exact h.an t' ht
  · rw [ha1, h2, List.length_append]; omega
  · rw [hl0, hprods]
    intro t' ht
    rw [h6, h7, getD_app _ _ _ _ (by omega), getD_app _ _ _ _ (by omega)]
    exact h.ld t' ht
  · rw [hl1, h6, List.length_append]; omega

theorem inv_init {K : Type} (a : Csr K) : Inv a 0 0 Idx.init := by
  have hend : ∀ r, Idx.init.rowEnd r = 0 := by intro r; simp [Idx.rowEnd, Idx.init]
  refine ⟨rfl, rfl, rfl, rfl, rfl, rfl, rfl, rfl, rfl, ?_, ?_, ?_, ?_, ?_, ?_, rfl, ?_⟩
  · intro r hr
    have : r = 0 := by omega
    subst this; exact Nat.le_refl _
  · intro r _; rw [hend]; exact Nat.zero_le _
  · intro r _ e _ he; rw [hend] at he; omega
  · intro r _ e e' _ _ he; rw [hend] at he; omega
  · intro e _ he; simp [Idx.init] at he
  · intro r hr c _ h; have := h (by omega); omega
  · intro r hr h; have := h (by omega); omega

/-- A finished row. -/
theorem inv_row {K : Type} {a : Csr K} {i : Nat} {s : Idx} (h : Inv a i (i + 1) s) :
    Inv a (i + 1) 0 { s with lPtr := s.lPtr ++ [s.lInd.length] } := by
  have hlen := h.ptrLen
  have hx : Ext s { s with lPtr := s.lPtr ++ [s.lInd.length] } := by
    constructor <;> first | exact ⟨[], (List.append_nil _).symm⟩ | exact ⟨_, rfl⟩
  have hst : ∀ q, q ≤ i → Idx.start { s with lPtr := s.lPtr ++ [s.lInd.length] } q = s.start q := by
    intro q hq; simp only [Idx.start]; rw [getD_app _ _ _ _ (by omega)]
  have hstn : Idx.start { s with lPtr := s.lPtr ++ [s.lInd.length] } (i + 1) = s.lInd.length := by
    simp only [Idx.start]; rw [getD_last _ _ _ _ (by omega)]
  have hen : ∀ q, q ≤ i → Idx.rowEnd { s with lPtr := s.lPtr ++ [s.lInd.length] } q = s.rowEnd q := by
    intro q hq; simp only [Idx.rowEnd]
    rcases Nat.lt_or_ge q i with h1 | h1
    · rw [List.getD_append _ _ _ _ (by omega)]
    · rw [getD_last _ _ _ _ (by omega), List.getD_eq_default _ _ (by omega)]
  have henn : Idx.rowEnd { s with lPtr := s.lPtr ++ [s.lInd.length] } (i + 1) = s.lInd.length := by
    simp only [Idx.rowEnd]; rw [List.getD_eq_default _ _ (by simp; omega)]
  have hcase : ∀ r, r ≤ i + 1 → r ≤ i ∨ r = i + 1 := by intro r hr; omega
  refine ⟨by simp [hlen], ?_, h.anPtrLen, h.ldPtrLen, h.anLast, h.ldLast, h.anJLen, h.anKLen, h.ldJLen, ?_, ?_, ?_, ?_, ?_, ?_, ?_, ?_⟩
  · rw [hst 0 (by omega)]; exact h.ptr0
  · intro r hr
    rcases hcase r hr with h1 | rfl
    · rw [hst r h1, hen r h1]; exact h.startLe r h1
    · rw [hstn, henn]
  · intro r hr
    rcases hcase r hr with h1 | rfl
    · rw [hen r h1]; exact h.endLe r h1
    · rw [henn]
  · intro r hr e he he'
    rcases hcase r hr with h1 | rfl
    · rw [hst r h1] at he; rw [hen r h1] at he'
      exact (h.entries r h1 e he he').ext h hx h1 he'
    · rw [hstn] at he; rw [henn] at he'; omega
  · intro r hr e e' he hlt he'
    rcases hcase r hr with h1 | rfl
    · rw [hst r h1] at he; rw [hen r h1] at he'
      exact h.sorted r h1 e e' he hlt he'
    · rw [hstn] at he; rw [henn] at he'; omega
  · intro e he he'
    rw [hstn] at he
    simp only at he'
    omega
  · intro r hr c hc hrc hne
    rcases hcase r hr with h1 | rfl
    · rw [hst r h1, hen r h1] at hne
      have := h.absent r h1 c hc (by omega) hne
      refine ⟨this.1, ?_⟩
      rw [hst r h1, hen r h1, hst c (by omega), hen c (by omega)]
      exact this.2
    · have := hrc rfl; omega
  · have := h.diagLen
    simp only [if_neg (show ¬ (i + 1 ≤ i) by omega)] at this
    simp only [this, if_pos (Nat.zero_le _)]
  · intro r hr hrj
    rcases hcase r hr with h1 | rfl
    · rw [hen r h1, hst r h1]
      exact h.diag r h1 (by omega)
    · have := hrj rfl; omega

/-- The state after the entry at row `i` and column `j` has been added. -/
def pushed {K : Type} (a : Csr K) (i j : Nat) (s : Idx) (dg : List Nat) : Idx where
  anPtr := s.anPtr ++ [(s.anI ++ (aMatches a i j).map (·.1)).length]
  anI := s.anI ++ (aMatches a i j).map (·.1)
  anJ := s.anJ ++ (aMatches a i j).map (·.2.1)
  anK := s.anK ++ (aMatches a i j).map (·.2.2)
  ldPtr := s.ldPtr ++ [(s.ldI ++ (lMatches s i j).map (·.1)).length]
  ldI := s.ldI ++ (lMatches s i j).map (·.1)
  ldJ := s.ldJ ++ (lMatches s i j).map (·.2.1)
  lPtr := s.lPtr
  lDiag := dg
  lInd := s.lInd ++ [j]

theorem inv_pushed {K : Type} {a : Csr K} {i j : Nat} {s : Idx} (h : Inv a i j s) (hj : j ≤ i) (dg : List Nat)
    (hdg : dg = if i = j then s.lDiag ++ [s.lInd.length] else s.lDiag) : Inv a i (j + 1) (pushed a i j s dg) := by
  have hlen := h.ptrLen
  have hx : Ext s (pushed a i j s dg) := by
    constructor <;> first | exact ⟨[], (List.append_nil _).symm⟩ | exact ⟨_, rfl⟩
  have hst : ∀ q, (pushed a i j s dg).start q = s.start q := fun q => rfl
  have hen : ∀ q, q < i → (pushed a i j s dg).rowEnd q = s.rowEnd q := by
    intro q hq
    simp only [Idx.rowEnd, pushed]
    rw [List.getD_eq_getElem _ _ (by omega), List.getD_eq_getElem _ _ (by omega)]
  have hei : s.rowEnd i = s.lInd.length := by
    simp only [Idx.rowEnd]; rw [List.getD_eq_default _ _ (by omega)]
  have heni : (pushed a i j s dg).rowEnd i = s.lInd.length + 1 := by
    simp only [Idx.rowEnd, pushed]; rw [List.getD_eq_default _ _ (by omega)]; simp
  have hcolOld : ∀ e, e < s.lInd.length → (pushed a i j s dg).col e = s.col e := by
    intro e he; simp only [Idx.col, pushed]; rw [getD_app _ _ _ _ he]
  have hcolNew : (pushed a i j s dg).col s.lInd.length = j := by
    simp only [Idx.col, pushed]; rw [getD_last _ _ _ _ rfl]
  have hanPtrLen := h.anPtrLen
  have hldPtrLen := h.ldPtrLen
  have hanJ := h.anJLen
  have hanK := h.anKLen
  have hldJ := h.ldJLen
  have hcase : ∀ r, r ≤ i → r < i ∨ r = i := by intro r hr; omega
  have hOldEnd : ∀ r, r ≤ i → ∀ e, e < (pushed a i j s dg).rowEnd r → e < s.rowEnd r ∨ (r = i ∧ e = s.lInd.length) := by
    intro r hr e he
    rcases hcase r hr with h1 | rfl
    · rw [hen r h1] at he; exact Or.inl he
    · rw [heni] at he; rw [hei]; omega
  refine ⟨hlen, h.ptr0, ?_, ?_, ?_, ?_, ?_, ?_, ?_, ?_, ?_, ?_, ?_, ?_, ?_, ?_, ?_⟩
  · simp [pushed, hanPtrLen]
  · simp [pushed, hldPtrLen]
  · simp only [pushed, List.length_append, List.length_cons, List.length_nil]
    rw [getD_last _ _ _ _ (by omega)]
  · simp only [pushed, List.length_append, List.length_cons, List.length_nil]
    rw [getD_last _ _ _ _ (by omega)]
  · simp [pushed, hanJ]
  · simp [pushed, hanK]
  · simp [pushed, hldJ]
  · intro r hr
    rcases hcase r hr with h1 | rfl
    · rw [hen r h1, hst]; exact h.startLe r hr
    · rw [heni, hst]; have := h.startLe r hr; rw [hei] at this; omega
  · intro r hr
    have hl : (pushed a i j s dg).lInd.length = s.lInd.length + 1 := by simp [pushed]
    rcases hcase r hr with h1 | rfl
    · rw [hen r h1, hl]; have := h.endLe r hr; omega
    · rw [heni, hl]
  · intro r hr e he he'
    rcases hOldEnd r hr e he' with h1 | ⟨rfl, rfl⟩
    · exact (h.entries r hr e he h1).ext h hx hr h1
    · have hp : (pushed a r j s dg).prods r s.lInd.length = lMatches s r j := by
        unfold Idx.prods lMatches
        rw [hcolNew]
        simp only [hst]
        have hl : (pushed a r j s dg).lInd = s.lInd ++ [j] := rfl
        rw [hl, slice_append _ _ _ _ (Nat.le_refl _)]
        by_cases hc : j = r
        · rw [if_pos hc, if_pos hc.symm, slice_append _ _ _ _ (Nat.le_refl _)]; rfl
        · rw [if_neg hc, if_neg (Ne.symm hc), hen j (by omega), slice_append _ _ _ _ (h.endLe j hj)]
          have : s.rowEnd j = s.lPtr.getD (j + 1) 0 := by
            simp only [Idx.rowEnd]
            rw [List.getD_eq_getElem _ _ (by omega), List.getD_eq_getElem _ _ (by omega)]
          rw [this]; rfl
      have ha0 : (pushed a r j s dg).anPtr.getD s.lInd.length 0 = s.anI.length := by
        simp only [pushed]; rw [getD_app _ _ _ _ (by omega)]; exact h.anLast
      have ha1 : (pushed a r j s dg).anPtr.getD (s.lInd.length + 1) 0 = s.anI.length + (aMatches a r j).length := by
        simp only [pushed]; rw [getD_last _ _ _ _ (by omega)]; simp
      have hl0 : (pushed a r j s dg).ldPtr.getD s.lInd.length 0 = s.ldI.length := by
        simp only [pushed]; rw [getD_app _ _ _ _ (by omega)]; exact h.ldLast
      have hl1 : (pushed a r j s dg).ldPtr.getD (s.lInd.length + 1) 0 = s.ldI.length + (lMatches s r j).length := by
        simp only [pushed]; rw [getD_last _ _ _ _ (by omega)]; simp
      have happ : ∀ (l : List Nat) (ms : List (Nat × Nat × Nat)) (f : Nat × Nat × Nat → Nat) (n t : Nat) (ht : t < ms.length),
          l.length = n → (l ++ ms.map f).getD (n + t) 0 = f ms[t] := by
        intro l ms f n t ht hn
        subst hn
        rw [List.getD_eq_getElem _ _ (by simp; omega), List.getElem_append_right (by omega)]
        simp
      refine ⟨by rw [hcolNew]; exact hj, by rw [hcolNew, ha0, ha1], ?_, ?_, by rw [hp, hl0, hl1], ?_, ?_⟩
      · rw [hcolNew, ha0]
        intro t ht
        simp only [pushed]
        exact ⟨happ _ _ _ _ t ht rfl, happ _ _ _ _ t ht hanJ, happ _ _ _ _ t ht hanK⟩
      · rw [ha1]; simp [pushed]
      · rw [hp, hl0]
        intro t ht
        simp only [pushed]
        exact ⟨happ _ _ _ _ t ht rfl, happ _ _ _ _ t ht hldJ⟩
      · rw [hl1]; simp [pushed]
  · intro r hr e e' he hlt he'
    rcases hOldEnd r hr e' he' with h1 | ⟨rfl, rfl⟩
    · have := h.endLe r hr
      rw [hcolOld e (by omega), hcolOld e' (by omega)]
      exact h.sorted r hr e e' he hlt h1
    · rw [hcolOld e hlt, hcolNew]
      exact h.bound e he hlt
  · intro e he he'
    have hl : (pushed a i j s dg).lInd.length = s.lInd.length + 1 := by simp [pushed]
    rw [hl] at he'
    rcases Nat.lt_or_ge e s.lInd.length with h1 | h1
    · rw [hcolOld e h1]; have := h.bound e he h1; omega
    · have : e = s.lInd.length := by omega
      rw [this, hcolNew]; omega
  · intro r hr c hc hrc hne
    have hcj : r = i → c < j := by
      intro hri
      subst hri
      have h1 := hrc rfl
      have h2 := hne s.lInd.length (by rw [hst]; have := h.startLe r hr; rw [hei] at this; exact this) (by rw [heni]; omega)
      rw [hcolNew] at h2
      omega
    have hne' : ∀ e, s.start r ≤ e → e < s.rowEnd r → s.col e ≠ c := by
      intro e he he'
      have h1 := h.endLe r hr
      rw [← hcolOld e (by omega)]
      apply hne e he
      rcases hcase r hr with h2 | rfl
      · rw [hen r h2]; exact he'
      · rw [heni]; omega
    have habs := h.absent r hr c hc hcj hne'
    refine ⟨habs.1, ?_⟩
    intro e e' he he1 hlt he' he1'
    have hci : c < i := by
      rcases hcase r hr with h2 | rfl
      · omega
      · have := hcj rfl; omega
    rw [hen c hci] at he1'
    have h3 := h.endLe c (by omega)
    rcases hOldEnd r hr e he1 with h1 | ⟨rfl, rfl⟩
    · have h2 := h.endLe r hr
      rw [hcolOld e (by omega)] at hlt ⊢
      rw [hcolOld e' (by omega)]
      exact habs.2 e e' he h1 hlt he' he1'
    · rw [hcolNew] at hlt
      have := hcj rfl
      omega
  · have := h.diagLen
    rw [if_pos hj] at this
    simp only [pushed, hdg]
    by_cases hij : i = j
    · rw [if_pos hij, if_neg (by omega)]; simp [this]
    · rw [if_neg hij, if_pos (by omega)]; exact this
  · intro r hr hrj
    have hdl := h.diagLen
    rw [if_pos hj] at hdl
    rcases hcase r hr with h1 | rfl
    · have := h.diag r hr (by omega)
      have h2 := h.endLe r hr
      rw [hen r h1, hst, hcolOld _ (by omega)]
      refine ⟨?_, this.2⟩
      simp only [pushed, hdg]
      by_cases hij : i = j
      · rw [if_pos hij, getD_app _ _ _ _ (by omega)]; exact this.1
      · rw [if_neg hij]; exact this.1
    · have hij : r = j := by have := hrj rfl; omega
      have h2 := h.startLe r hr
      rw [hei] at h2
      rw [heni, hst, Nat.add_sub_cancel, hcolNew]
      refine ⟨?_, by omega, hij.symm⟩
      simp only [pushed, hdg]
      rw [if_pos hij, getD_last _ _ _ _ (by omega)]

theorem inv_skip {K : Type} {a : Csr K} {i j : Nat} {s : Idx} (h : Inv a i j s) (hj : j < i)
    (hA : aMatches a i j = []) (hL : lMatches s i j = []) : Inv a i (j + 1) s := by
  have hlen := h.ptrLen
  have hei : s.rowEnd i = s.lInd.length := by
    simp only [Idx.rowEnd]; rw [List.getD_eq_default _ _ (by omega)]
  refine ⟨h.ptrLen, h.ptr0, h.anPtrLen, h.ldPtrLen, h.anLast, h.ldLast, h.anJLen, h.anKLen, h.ldJLen, h.startLe, h.endLe,
    h.entries, h.sorted, ?_, ?_, ?_, ?_⟩
  · intro e he he'; have := h.bound e he he'; omega
  · intro r hr c hc hrc hne
    by_cases hnew : r = i ∧ c = j
    · obtain ⟨rfl, rfl⟩ := hnew
      refine ⟨hA, ?_⟩
      intro e e' he he1 hlt he' he1'
      unfold lMatches matches_ at hL
      simp only [if_neg (show ¬ r = c by omega)] at hL
      have hre : s.rowEnd c = s.lPtr.getD (c + 1) 0 := by
        simp only [Idx.rowEnd]
        rw [List.getD_eq_getElem _ _ (by omega), List.getD_eq_getElem _ _ (by omega)]
      have hcl := h.endLe c (by omega)
      rw [← hre] at hL
      have hs1 := slice_sorted s.lInd (s.lPtr.getD r 0) s.lInd.length (Nat.le_refl _)
        (fun e e' he hlt he' => h.sorted r hr e e' he hlt (by rw [hei]; exact he'))
      have hs2 := slice_sorted s.lInd (s.lPtr.getD c 0) (s.rowEnd c) hcl
        (fun e e' he hlt he' => h.sorted c (by omega) e e' he hlt he')
      have hnil := common_nil _ _ _ _ _ (Nat.le_refl _) hs1 hs2 hL
      intro heq
      apply hnil (s.col e)
      · rw [mem_slice _ _ _ _ (Nat.le_refl _)]
        exact ⟨e, he, by rw [hei] at he1; exact he1, rfl⟩
      · rw [mem_slice _ _ _ _ hcl]
        exact ⟨e', he', he1', heq.symm⟩
    · exact h.absent r hr c hc (by omega) hne
  · have := h.diagLen
    rw [if_pos (by omega)] at this
    rw [if_pos (by omega)]; exact this
  · intro r hr hrj
    exact h.diag r hr (by omega)

theorem entryStep_inv {K : Type} {a : Csr K} (ha : a.Ok) {i j : Nat} {s : Idx} (h : Inv a i j s) (hj : j ≤ i) (hi : i < a.nrows)
    (hne : a.off i < a.off (i + 1)) : ∃ s', entryStep a i j s = some s' ∧ Inv a i (j + 1) s' := by
  by_cases hz : aMatches a i j = [] ∧ lMatches s i j = []
  · have hij : i ≠ j := by
      intro hij
      subst hij
      have hr := ha.rowCols_ne hi hne
      have hpos : 0 < (a.rowCols i).length + (a.rowCols i).length := by
        have := List.length_pos_iff.mpr hr; omega
      exact common_self _ (a.rowCols i) (a.off i) hr hpos hz.1
    refine ⟨s, ?_, inv_skip h (by omega) hz.1 hz.2⟩
    simp only [entryStep, hz.1, hz.2, List.isEmpty_nil, Bool.and_self, if_true, if_neg hij, List.map_nil, List.append_nil]
  · have hemp : ((aMatches a i j).isEmpty && (lMatches s i j).isEmpty) = false := by
      rw [Bool.and_eq_false_iff]
      simp only [List.isEmpty_eq_false_iff]
      by_cases hA : aMatches a i j = []
      · exact Or.inr (fun hL => hz ⟨hA, hL⟩)
      · exact Or.inl hA
    refine ⟨pushed a i j s (if i = j then s.lDiag ++ [s.lInd.length] else s.lDiag), ?_, inv_pushed h hj _ rfl⟩
    simp only [entryStep, hemp, Bool.false_eq_true, if_false]
    by_cases hij : i = j
    · rw [if_pos hij, if_neg (by simp)]
      simp only [pushed, if_pos hij]
      simp
    · rw [if_neg hij]
      simp only [pushed, if_neg hij]

theorem entryLoop_inv {K : Type} {a : Csr K} (ha : a.Ok) {i : Nat} (hi : i < a.nrows) (hne : a.off i < a.off (i + 1)) :
    ∀ (k j : Nat) (s : Idx), Inv a i j s → j + k = i + 1 → ∃ s', entryLoop a i k j s = some s' ∧ Inv a i (i + 1) s' := by
  intro k
  induction k with
  | zero =>
    intro j s h hk
    have : j = i + 1 := by omega
    subst this
    exact ⟨s, rfl, h⟩
  | succ k ih =>
    intro j s h hk
    obtain ⟨s1, h1, h2⟩ := entryStep_inv ha h (by omega) hi hne
    obtain ⟨s2, h3, h4⟩ := ih (j + 1) s1 h2 (by omega)
    exact ⟨s2, by simp only [entryLoop, h1, h3], h4⟩

theorem rowLoop_inv {K : Type} {a : Csr K} (ha : a.Ok) (hne : ∀ i < a.nrows, a.off i < a.off (i + 1)) :
    ∀ n, n ≤ a.nrows → ∃ s, rowLoop a n = some s ∧ Inv a n 0 s := by
  intro n
  induction n with
  | zero => intro _; exact ⟨Idx.init, rfl, inv_init a⟩
  | succ n ih =>
    intro hn
    obtain ⟨s, h1, h2⟩ := ih (by omega)
    obtain ⟨s', h3, h4⟩ := entryLoop_inv ha (i := n) (by omega) (hne n (by omega)) (n + 1) 0 s h2 (by omega)
    exact ⟨_, by simp only [rowLoop, h1, rowStep, h3], inv_row h4⟩

end Verif.Ipm
