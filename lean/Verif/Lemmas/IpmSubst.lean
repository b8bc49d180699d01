import Verif.Lemmas.IpmFactor

/-! # Substitution with the factor and its transpose -/

namespace Verif.Ipm

open Finset

/-! ## Transposes -/

theorem tOff_mono {K : Type} [Zero K] (a : Csr K) {c d : Nat} (hcd : c ≤ d) (hd : d ≤ a.ncols) :
    a.transpose.off c ≤ a.transpose.off d := by
  induction d with
  | zero => have : c = 0 := by omega
            subst this; exact Nat.le_refl _
  | succ d ih =>
    rcases Nat.lt_or_ge c (d + 1) with h1 | h1
    · have := ih (by omega) (by omega)
      rw [tOff_succ a (by omega)]
      omega
    · have : c = d + 1 := by omega
      subst this; exact Nat.le_refl _

theorem byColumn_lt {K : Type} [Zero K] (a : Csr K) {c : Nat} (hc : c < a.ncols) (t : Nat) (ht : t < (a.ofCol c).length) :
    a.transpose.off c + t < a.byColumn.length := by
  have h1 : a.byColumn.length = a.transpose.off a.ncols := byColumn_prefix a a.ncols (Nat.le_refl _)
  have h2 := tOff_mono a (c := c + 1) (d := a.ncols) hc (Nat.le_refl _)
  rw [tOff_succ a hc] at h2
  omega

theorem getD_map {α : Type} (l : List Nat) (f : Nat → α) (d : α) (i : Nat) (h : i < l.length) :
    (l.map f).getD i d = f (l.getD i 0) := by
  rw [List.getD_eq_getElem _ _ (by simpa using h), List.getElem_map, List.getD_eq_getElem _ _ h]

variable {K : Type} [Field K]

theorem ofCol_sum {R : Type} {a : Csr R} (h : a.Ok) (c : Nat) (f : Nat → K) :
    ((a.ofCol c).map f).sum =
      ∑ r ∈ range a.nrows, ∑ p ∈ Ico (a.off r) (a.off (r + 1)), if a.cols.getD p 0 = c then f p else 0 := by
  unfold Csr.ofCol
  rw [sum_filter_list, sum_range_list, ← h.offN, sum_rows a.off _ a.nrows h.mono h.off0]
  simp only [decide_eq_true_eq]

/-- A product with the transpose. -/
theorem rowDot_transpose {a : Csr K} (h : a.Ok) (y : List K) {c : Nat} (hc : c < a.ncols) :
    a.transpose.rowDot y c = a.applyT y c := by
  unfold Csr.rowDot Csr.span Csr.applyT
  rw [tOff_succ a hc, Nat.add_sub_cancel_left,
    sum_positions (a.ofCol c) (a.transpose.off c) _ (fun p => rd a.values p * rd y (a.rowOf p))]
  · rw [ofCol_sum h]
    apply sum_congr rfl
    intro r hr
    rw [mem_range] at hr
    unfold Csr.entry
    rw [sum_mul]
    apply sum_congr rfl
    intro p hp
    rw [mem_Ico] at hp
    rw [h.rowOf_eq hr hp.1 hp.2]
    split
    · rfl
    · rw [zero_mul]
  · intro t ht
    have hlt := byColumn_lt a hc t ht
    have hg := byColumn_get a hc t ht
    have e1 : rd a.transpose.values (a.transpose.off c + t) = rd a.values ((a.ofCol c)[t]) := by
      unfold rd
      show (a.byColumn.map fun p => a.values.getD p 0).getD _ 0 = _
      rw [getD_map _ _ _ _ hlt, hg]
    have e2 : a.transpose.cols.getD (a.transpose.off c + t) 0 = a.rowOf ((a.ofCol c)[t]) := by
      show (a.byColumn.map a.rowOf).getD _ 0 = _
      rw [getD_map _ _ _ _ hlt, hg]
    rw [e1, e2]

/-- A product with a row. -/
theorem rowDot_eq {a : Csr K} (h : a.Ok) (x : List K) {r : Nat} (hr : r < a.nrows) : a.rowDot x r = a.apply x r := by
  unfold Csr.rowDot Csr.span Csr.apply
  rw [sum_span _ _ _ (h.mono r hr)]
  have hcols : ∀ p, a.off r ≤ p → p < a.off (r + 1) → a.cols.getD p 0 < a.ncols := by
    intro p _ h2
    have hlt : p < a.cols.length := Nat.lt_of_lt_of_le h2 (h.off_le hr)
    rw [List.getD_eq_getElem _ _ hlt]
    exact h.colsLt _ (List.getElem_mem hlt)
  have := sum_by_col a.cols (rd a.values) (rd x) (a.off r) (a.off (r + 1)) a.ncols hcols
  simp only [mul_comm (rd a.values _)]
  rw [this]
  apply sum_congr rfl
  intro k _
  unfold ent Csr.entry
  rw [mul_comm]

/-! ## Substitution -/

variable {a : Csr K} {n : Nat} {s : Idx}

theorem forwardWhile_spec (h : Inv a n 0 s) (l xs : List K) {i : Nat} (hi : i < n) : ∀ (d jk fuel : Nat) (xi : K),
    s.start i ≤ jk → jk + d = s.rowEnd i - 1 → d ≤ fuel →
    forwardWhile s l xs i fuel jk xi =
      (xi - ∑ p ∈ Ico jk (s.rowEnd i - 1), rd xs (s.lInd.getD p 0) * rd l p, s.rowEnd i - 1) := by
  obtain ⟨_, d2, d3⟩ := h.diag i (Nat.le_of_lt hi) (fun hh => by omega)
  intro d
  induction d with
  | zero =>
    intro jk fuel xi h1 h2 _
    have hjk : jk = s.rowEnd i - 1 := by omega
    subst hjk
    rw [Ico_self, sum_empty, sub_zero]
    cases fuel with
    | zero => rfl
    | succ f =>
      rw [forwardWhile, if_neg]
      unfold Idx.col at d3
      omega
  | succ d ih =>
    intro jk fuel xi h1 h2 h3
    cases fuel with
    | zero => omega
    | succ f =>
      have hlt := h.sorted i (Nat.le_of_lt hi) jk (s.rowEnd i - 1) h1 (by omega) (by omega)
      rw [d3] at hlt
      unfold Idx.col at hlt
      rw [forwardWhile, if_pos hlt, ih (jk + 1) f _ (by omega) (by omega) (by omega),
        Finset.sum_eq_sum_Ico_succ_bot (show jk < s.rowEnd i - 1 by omega)]
      congr 1
      ring

theorem forwardWhile_eq (h : Inv a n 0 s) (l xs : List K) {i : Nat} (hi : i < n) (xi : K) :
    forwardWhile s l xs i s.lInd.length (s.lPtr.getD i 0) xi =
      (xi - ∑ k ∈ range i, lent s l i k * rd xs k, s.rowEnd i - 1) := by
  obtain ⟨_, d2, d3⟩ := h.diag i (Nat.le_of_lt hi) (fun hh => by omega)
  have hlen := h.endLe i (Nat.le_of_lt hi)
  rw [show s.lPtr.getD i 0 = s.start i from rfl,
    forwardWhile_spec h l xs hi (s.rowEnd i - 1 - s.start i) (s.start i) _ xi (Nat.le_refl _) (by omega) (by omega),
    sum_by_col s.lInd (rd l) (rd xs) (s.start i) (s.rowEnd i - 1) i]
  · congr 2
    apply sum_congr rfl
    intro k hk
    rw [mem_range] at hk
    unfold lent
    rw [mul_comm, ent_cut s.lInd (rd l) (s.start i) (s.rowEnd i - 1) (s.rowEnd i) k (by omega) (by omega)]
    intro p p1 p2
    have : p = s.rowEnd i - 1 := by omega
    subst this
    unfold Idx.col at d3
    omega
  · intro p p1 p2
    have hlt := h.sorted i (Nat.le_of_lt hi) p (s.rowEnd i - 1) p1 p2 (by omega)
    rw [d3] at hlt
    exact hlt

theorem lent_last (h : Inv a n 0 s) (l : List K) {i : Nat} (hi : i < n) : rd l (s.rowEnd i - 1) = lent s l i i := by
  obtain ⟨d1, d2, d3⟩ := h.diag i (Nat.le_of_lt hi) (fun hh => by omega)
  rw [h.lent_diag l hi, show s.lDiag.getD i 0 = s.rowEnd i - 1 by omega]

theorem forward_spec (h : Inv a n 0 s) (l b xs : List K) (hx : n ≤ xs.length) : ∀ m ≤ n,
    (forward s l b xs m).length = xs.length ∧ ∀ i < m, rd (forward s l b xs m) i =
      (rd b i - ∑ k ∈ range i, lent s l i k * rd (forward s l b xs m) k) / lent s l i i := by
  intro m
  induction m with
  | zero => intro _; exact ⟨rfl, fun i hi => absurd hi (Nat.not_lt_zero _)⟩
  | succ m ih =>
    intro hm
    obtain ⟨e1, e2⟩ := ih (by omega)
    have hv : forward s l b xs (m + 1) = (forward s l b xs m).set m
        ((rd b m - ∑ k ∈ range m, lent s l m k * rd (forward s l b xs m) k) / lent s l m m) := by
      rw [forward, forwardWhile_eq h l _ (by omega)]
      simp only
      rw [lent_last h l (by omega)]
    have hlt : m < (forward s l b xs m).length := by omega
    refine ⟨by rw [hv, List.length_set, e1], ?_⟩
    have hrd : ∀ k < m, rd (forward s l b xs (m + 1)) k = rd (forward s l b xs m) k := by
      intro k hk
      rw [hv, rd_set _ _ _ _ hlt, if_neg (by omega)]
    have hsum : ∀ i ≤ m, ∑ k ∈ range i, lent s l i k * rd (forward s l b xs (m + 1)) k =
        ∑ k ∈ range i, lent s l i k * rd (forward s l b xs m) k := by
      intro i hi
      apply sum_congr rfl
      intro k hk
      rw [mem_range] at hk
      rw [hrd k (by omega)]
    intro i hi
    rw [hsum i (by omega)]
    rcases Nat.lt_or_ge i m with h1 | h1
    · rw [hrd i h1]; exact e2 i h1
    · have : i = m := by omega
      subst this
      rw [hv, rd_set _ _ _ _ hlt, if_pos rfl]

/-- The index lists with the transposed factor. -/
def ixOf (s : Idx) (n : Nat) : Indices :=
  ⟨s, (s.lower n).transpose.offsets, (s.lower n).transpose.cols, (s.lower n).byColumn⟩

omit [Field K] in
/-- The first entry of a column of the factor is the one on the diagonal. -/
theorem ofCol_head (h : Inv a n 0 s) {i : Nat} (hi : i < n) :
    ∃ rest, (s.lower n).ofCol i = (s.rowEnd i - 1) :: rest := by
  obtain ⟨_, d2, d3⟩ := h.diag i (Nat.le_of_lt hi) (fun hh => by omega)
  have hlen := h.endLe i (Nat.le_of_lt hi)
  have hr : List.range s.lInd.length =
      List.range (s.rowEnd i - 1) ++ ((s.rowEnd i - 1) :: List.range' (s.rowEnd i) (s.lInd.length - s.rowEnd i)) := by
    rw [List.range_eq_range', List.range_eq_range']
    have e : s.lInd.length = (s.rowEnd i - 1) + ((s.lInd.length - s.rowEnd i) + 1) := by omega
    conv_lhs => rw [e]
    rw [← List.range'_append, List.range'_succ]
    congr 3
    · omega
    · omega
  refine ⟨(List.range' (s.rowEnd i) (s.lInd.length - s.rowEnd i)).filter fun p => s.lInd.getD p 0 = i, ?_⟩
  show (List.range s.lInd.length).filter (fun p => s.lInd.getD p 0 = i) = _
  rw [hr, List.filter_append, List.filter_cons, if_pos (by simpa [Idx.col] using d3)]
  have hnil : (List.range (s.rowEnd i - 1)).filter (fun p => decide (s.lInd.getD p 0 = i)) = [] := by
    rw [List.filter_eq_nil_iff]
    intro p hp
    rw [List.mem_range] at hp
    rw [decide_eq_true_eq]
    intro he
    obtain ⟨r, hr, r1, r2⟩ := h.row_of (p := p) (by omega)
    have hle := (h.entries r (Nat.le_of_lt hr) p r1 r2).le
    have hle' : s.lInd.getD p 0 ≤ r := hle
    rcases Nat.lt_or_ge r i with h1 | h1
    · omega
    · rcases Nat.lt_or_ge i r with h2 | h2
      · have hmono := h.start_mono (q := i + 1) (r := r) (by omega) (by omega)
        rw [← h.rowEnd_eq hi] at hmono
        omega
      · have : r = i := by omega
        subst this
        have := h.sorted r (Nat.le_of_lt hi) p (s.rowEnd r - 1) r1 hp (by omega)
        rw [d3] at this
        have : s.lInd.getD p 0 < r := this
        omega
  rw [hnil, List.nil_append]

theorem backward_sum (h : Inv a n 0 s) (l xs : List K) {i : Nat} (hi : i < n) :
    ((List.range' ((ixOf s n).ltPtr.getD i 0 + 1) ((ixOf s n).ltPtr.getD (i + 1) 0 - ((ixOf s n).ltPtr.getD i 0 + 1))).map
      fun jk => rd xs ((ixOf s n).ltInd.getD jk 0) * rd l ((ixOf s n).ltMap.getD jk 0)).sum =
      ∑ r ∈ Ico (i + 1) n, lent s l r i * rd xs r := by
  obtain ⟨rest, hrest⟩ := ofCol_head h hi
  have hok := h.lower_ok
  have hcn : i < (s.lower n).ncols := hi
  have hp : (ixOf s n).ltPtr.getD (i + 1) 0 - ((ixOf s n).ltPtr.getD i 0 + 1) = rest.length := by
    show (s.lower n).transpose.off (i + 1) - ((s.lower n).transpose.off i + 1) = _
    rw [tOff_succ _ hcn, hrest, List.length_cons]
    omega
  rw [hp, sum_positions rest _ _ (fun p => rd xs ((s.lower n).rowOf p) * rd l p)]
  · have hall := ofCol_sum (K := K) hok i (fun p => rd xs ((s.lower n).rowOf p) * rd l p)
    have hend := h.rowEnd_eq hi
    obtain ⟨_, d2, _⟩ := h.diag i (Nat.le_of_lt hi) (fun hh => by omega)
    have hro : (s.lower n).rowOf (s.rowEnd i - 1) = i := by
      apply hok.rowOf_eq hi
      · show s.start i ≤ _; omega
      · show _ < s.start (i + 1); omega
    rw [hrest, List.map_cons, List.sum_cons, hro, lent_last h l hi] at hall
    have hrows : ∑ r ∈ range (s.lower n).nrows, ∑ p ∈ Ico ((s.lower n).off r) ((s.lower n).off (r + 1)),
        (if (s.lower n).cols.getD p 0 = i then rd xs ((s.lower n).rowOf p) * rd l p else 0) =
        ∑ r ∈ range n, lent s l r i * rd xs r := by
      apply sum_congr rfl
      intro r hr
      have hr' : r < n := mem_range.mp hr
      unfold lent ent
      rw [sum_mul, h.rowEnd_eq hr']
      apply sum_congr rfl
      intro p hp
      have hp' := mem_Ico.mp hp
      rw [hok.rowOf_eq (a := s.lower n) hr' hp'.1 hp'.2]
      show (if s.lInd.getD p 0 = i then _ else 0) = _
      split
      · rw [mul_comm]
      · rw [zero_mul]
    rw [hrows] at hall
    have hsplit : ∑ r ∈ range n, lent s l r i * rd xs r = lent s l i i * rd xs i + ∑ r ∈ Ico (i + 1) n, lent s l r i * rd xs r := by
      rw [range_eq_Ico, ← sum_Ico_consecutive _ (Nat.zero_le i) (Nat.le_of_lt hi)]
      rw [sum_eq_zero (s := Ico 0 i), zero_add, Finset.sum_eq_sum_Ico_succ_bot hi]
      intro r hr
      rw [mem_Ico] at hr
      rw [h.lent_upper l (by omega) (by omega), zero_mul]
    rw [hsplit, mul_comm (rd xs i)] at hall
    exact add_left_cancel hall
  · intro t ht
    have ht' : t + 1 < ((s.lower n).ofCol i).length := by rw [hrest]; simpa using ht
    have hlt := byColumn_lt _ hcn (t + 1) ht'
    have hg := byColumn_get _ hcn (t + 1) ht'
    have e0 : (ixOf s n).ltPtr.getD i 0 + 1 + t = (s.lower n).transpose.off i + (t + 1) := by
      show (s.lower n).transpose.off i + 1 + t = _; omega
    have e3 : ((s.lower n).ofCol i)[t + 1] = rest[t] := by simp only [hrest, List.getElem_cons_succ]
    rw [e0]
    show rd xs (((s.lower n).byColumn.map (s.lower n).rowOf).getD _ 0) * rd l ((s.lower n).byColumn.getD _ 0) = _
    rw [getD_map _ _ _ _ hlt, hg, e3]

theorem backward_spec (h : Inv a n 0 s) (l : List K) : ∀ (m : Nat) (xs : List K), m ≤ n → n ≤ xs.length →
    (backward (ixOf s n) l m xs).length = xs.length ∧ (∀ r, m ≤ r → rd (backward (ixOf s n) l m xs) r = rd xs r) ∧
    ∀ i < m, rd (backward (ixOf s n) l m xs) i =
      (rd xs i - ∑ r ∈ Ico (i + 1) n, lent s l r i * rd (backward (ixOf s n) l m xs) r) / lent s l i i := by
  intro m
  induction m with
  | zero => intro xs _ _; exact ⟨rfl, fun _ _ => rfl, fun i hi => absurd hi (Nat.not_lt_zero _)⟩
  | succ m ih =>
    intro xs hm hx
    have hmx : m < xs.length := by omega
    have hb : backward (ixOf s n) l (m + 1) xs = backward (ixOf s n) l m
        (xs.set m ((rd xs m - ∑ r ∈ Ico (m + 1) n, lent s l r m * rd xs r) / lent s l m m)) := by
      rw [backward, backward_sum h l xs (by omega)]
      have : rd l ((ixOf s n).l.lPtr.getD (m + 1) 0 - 1) = lent s l m m := by
        rw [← lent_last h l (by omega), h.rowEnd_eq (by omega)]; rfl
      rw [this]
    obtain ⟨e1, e2, e3⟩ := ih (xs.set m ((rd xs m - ∑ r ∈ Ico (m + 1) n, lent s l r m * rd xs r) / lent s l m m)) (by omega)
      (by rw [List.length_set]; exact hx)
    rw [hb]
    refine ⟨by rw [e1, List.length_set], ?_, ?_⟩
    · intro r hr
      rw [e2 r (by omega), rd_set _ _ _ _ hmx, if_neg (by omega)]
    · intro i hi
      rcases Nat.lt_or_ge i m with h1 | h1
      · have := e3 i h1
        rw [rd_set _ _ _ _ hmx, if_neg (by omega)] at this
        exact this
      · have : i = m := by omega
        subst this
        rw [e2 i (Nat.le_refl _), rd_set _ _ _ _ hmx, if_pos rfl]
        congr 2
        apply sum_congr rfl
        intro r hr
        rw [mem_Ico] at hr
        rw [e2 r (by omega), rd_set _ _ _ _ hmx, if_neg (by omega)]

theorem choleskySolve_length (h : Inv a n 0 s) (l b xs : List K) (hx : n ≤ xs.length) :
    (choleskySolve (ixOf s n) n l b xs).length = xs.length := by
  unfold choleskySolve
  have hf := (forward_spec h l b xs hx n (Nat.le_refl _)).1
  rw [(backward_spec h l n _ (Nat.le_refl _) (by rw [show (ixOf s n).l = s from rfl, hf]; exact hx)).1]
  exact hf

/-- The solution satisfies the system of the factor and its transpose. -/
theorem choleskySolve_spec (h : Inv a n 0 s) (l b xs : List K) (hx : n ≤ xs.length) (hd : ∀ i < n, lent s l i i ≠ 0) :
    ∃ t : List K, (∀ i < n, ∑ j ∈ range n, lent s l i j * rd t j = rd b i) ∧
      ∀ i < n, ∑ r ∈ range n, lent s l r i * rd (choleskySolve (ixOf s n) n l b xs) r = rd t i := by
  obtain ⟨f1, f2⟩ := forward_spec h l b xs hx n (Nat.le_refl _)
  obtain ⟨b1, b2, b3⟩ := backward_spec h l n (forward s l b xs n) (Nat.le_refl _) (by omega)
  refine ⟨forward s l b xs n, ?_, ?_⟩
  · intro i hi
    have e := f2 i hi
    rw [eq_div_iff (hd i hi)] at e
    rw [range_eq_Ico, ← sum_Ico_consecutive _ (Nat.zero_le i) (Nat.le_of_lt hi), Finset.sum_eq_sum_Ico_succ_bot hi,
      sum_eq_zero (s := Ico (i + 1) n), add_zero, ← range_eq_Ico, mul_comm (lent s l i i), e]
    · ring
    · intro k hk
      rw [mem_Ico] at hk
      rw [h.lent_upper l hi (by omega), zero_mul]
  · intro i hi
    have e := b3 i hi
    rw [eq_div_iff (hd i hi)] at e
    show ∑ r ∈ range n, lent s l r i * rd (backward (ixOf s n) l n (forward s l b xs n)) r = _
    rw [range_eq_Ico, ← sum_Ico_consecutive _ (Nat.zero_le i) (Nat.le_of_lt hi), Finset.sum_eq_sum_Ico_succ_bot hi,
      sum_eq_zero (s := Ico 0 i), zero_add, mul_comm (lent s l i i), e]
    · ring
    · intro k hk
      rw [mem_Ico] at hk
      rw [h.lent_upper l (by omega) (by omega), zero_mul]

variable [LinearOrder K] [IsStrictOrderedRing K]

/-- The factor is the Cholesky factor of the normal matrix. -/
theorem factor_correct {sqrt : K → K} (hs : IsSqrt sqrt) (h : Inv a a.nrows 0 s) (ha : a.Ok) {wlen : Nat} {pt : Point K}
    (hin : Inside a wlen pt) (l : List K) (hlen : s.lInd.length ≤ l.length)
    (hind : a.Independent wlen ∨ ∀ r < a.nrows, lent s (decompose sqrt a s pt l) r r ≠ 0) :
    ∀ r < a.nrows, 0 < lent s (decompose sqrt a s pt l) r r ∧ ∀ c ≤ r,
      ∑ k ∈ range (c + 1), lent s (decompose sqrt a s pt l) r k * lent s (decompose sqrt a s pt l) c k = normalEntry a pt r c := by
  let L : Nat → Nat → K := fun r k => if r < a.nrows then lent s (decompose sqrt a s pt l) r k else 0
  have hL : ∀ r < a.nrows, ∀ k, L r k = lent s (decompose sqrt a s pt l) r k := fun r hr k => if_pos hr
  have hup : ∀ i k, i < k → L i k = 0 := by
    intro i k hik
    show (if i < a.nrows then _ else 0) = (0 : K)
    split
    · rename_i hi; exact h.lent_upper _ hi hik
    · rfl
  have main := chol_main hs a.nrows hup (normal_symm a pt)
    (by
      intro r hr v hv
      rcases hind with hind | hind
      · exact Or.inl (normal_pd hin hind v ⟨r, hr, hv⟩)
      · exact Or.inr ⟨normal_psd hin v, by rw [hL r hr]; exact hind r hr⟩)
    (by
      intro r hr
      have := factor_dense h ha sqrt pt l hlen hr (Nat.le_refl r)
      simp only [if_true] at this
      rw [hL r hr, this]
      congr 2
      exact congrArg _ (sum_congr rfl (fun k _ => by rw [hL r hr])))
    (by
      intro r hr c hc
      have := factor_dense h ha sqrt pt l hlen hr (Nat.le_of_lt hc)
      simp only [if_neg (show r ≠ c by omega)] at this
      rw [hL r hr, this, hL c (by omega)]
      congr 2
      exact sum_congr rfl (fun k _ => by rw [hL r hr, hL c (by omega)]))
  intro r hr
  obtain ⟨m1, m2⟩ := main r hr
  rw [hL r hr] at m1
  refine ⟨m1, ?_⟩
  intro c hc
  rw [← m2 c hc]
  exact sum_congr rfl (fun k _ => by rw [hL r hr, hL c (by omega)])

/-- Decomposition and substitution solve the normal equations. -/
theorem normal_solved {sqrt : K → K} (hs : IsSqrt sqrt) (h : Inv a a.nrows 0 s) (ha : a.Ok) {wlen : Nat} {pt : Point K}
    (hin : Inside a wlen pt) (hind : a.Independent wlen) (l b xs : List K) (hlen : s.lInd.length ≤ l.length)
    (hx : a.nrows ≤ xs.length) :
    ∀ i < a.nrows, ∑ j ∈ range a.nrows, normalEntry a pt i j *
      rd (choleskySolve (ixOf s a.nrows) a.nrows (decompose sqrt a s pt l) b xs) j = rd b i := by
  have hf := factor_correct hs h ha hin l hlen (Or.inl hind)
  obtain ⟨t, t1, t2⟩ := choleskySolve_spec h (decompose sqrt a s pt l) b xs hx (fun i hi => ne_of_gt (hf i hi).1)
  let L : Nat → Nat → K := fun r k => if r < a.nrows then lent s (decompose sqrt a s pt l) r k else 0
  have hL : ∀ r < a.nrows, ∀ k, L r k = lent s (decompose sqrt a s pt l) r k := fun r hr k => if_pos hr
  have hup : ∀ i k, i < k → L i k = 0 := by
    intro i k hik
    show (if i < a.nrows then _ else 0) = (0 : K)
    split
    · rename_i hi; exact h.lent_upper _ hi hik
    · rfl
  exact chol_solves hup (normal_symm a pt)
    (fun r hr c hc => by
      rw [← (hf r hr).2 c hc]
      exact sum_congr rfl (fun k _ => by rw [hL r hr, hL c (by omega)]))
    (t := rd t)
    (fun i hi => by rw [← t1 i hi]; exact sum_congr rfl (fun k _ => by rw [hL i hi]))
    (fun i hi => by rw [← t2 i hi]; exact sum_congr rfl (fun k hk => by rw [hL k (mem_range.mp hk)]))

end Verif.Ipm
