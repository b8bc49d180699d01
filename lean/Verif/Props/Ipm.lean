import Verif.Lemmas.IpmEnd

/-!
# Properties of the interior point solver (C78, C79, C80, C81)

For any ordered field with a function for the square root, for instance the real numbers.
-/

namespace Verif.Ipm

open Finset

variable {K : Type} [Field K] [LinearOrder K] [IsStrictOrderedRing K]

/-! ## C78 -/

omit [LinearOrder K] [IsStrictOrderedRing K] in
/-- C78: the setup succeeds for every matrix without an empty row. -/
theorem C78_setup (a : Csr K) (p d o : K) (hc : a.check = true) (hne : a.NoEmptyRow) : ∃ st, mkSetup a p d o = some st := by
  obtain ⟨s, _, hs⟩ := fromMatrix_some ((Csr.check_iff a).mp hc) hne
  unfold mkSetup
  rw [if_pos hc, hs]
  exact ⟨_, rfl⟩

omit [LinearOrder K] [IsStrictOrderedRing K] in
/-- C78, why no row may be empty: with nothing in it, the first row makes the setup panic. -/
theorem C78_empty_row_refuted (p d o : K) :
    (⟨1, 1, [0, 0], [], []⟩ : Csr K).check = true ∧ mkSetup (⟨1, 1, [0, 0], [], []⟩ : Csr K) p d o = none := ⟨rfl, rfl⟩

omit [LinearOrder K] [IsStrictOrderedRing K] in
theorem factor_entry {a : Csr K} {p d o : K} {s : Idx} (h : Inv a a.nrows 0 s) (l : List K) {i : Nat} (hi : i < a.nrows) (k : Nat) :
    (factor ⟨a, a.transpose, ixOf s a.nrows, p, d, o⟩ l).entry i k = lent s l i k := by
  unfold lent ent Csr.entry
  rw [h.rowEnd_eq hi]; rfl

/-- C78: the index lists and the numbers calculated are a lower triangular sparse matrix with a positive diagonal, and its
product with its transpose is the normal matrix. -/
theorem C78_factor {a : Csr K} {p d o : K} {st : Setup K} (h : mkSetup a p d o = some st) (hne : a.NoEmptyRow) {sqrt : K → K}
    (hs : IsSqrt sqrt) {wlen : Nat} (hind : a.Independent wlen) {ln : Lane K} (hin : Inside a wlen ln.pt) (hr : Ready st ln) :
    let F := factor st (decompose sqrt a st.ix.l ln.pt ln.l)
    F.check = true ∧ (∀ i < a.nrows, 0 < F.entry i i) ∧ (∀ i < a.nrows, ∀ k, i < k → F.entry i k = 0) ∧
      ∀ i < a.nrows, ∀ j < a.nrows, ∑ k ∈ range a.nrows, F.entry i k * F.entry j k = normalEntry a ln.pt i j := by
  obtain ⟨hok, s, hinv, rfl⟩ := mkSetup_inv h hne
  intro F
  have hf := factor_correct hs hinv hok hin ln.l (le_of_eq hr.l.symm) (Or.inl hind)
  have hlow := hinv.lower_ok
  have hent : ∀ i < a.nrows, ∀ k, F.entry i k = lent s (decompose sqrt a s ln.pt ln.l) i k :=
    fun i hi k => factor_entry hinv _ hi k
  refine ⟨(Csr.check_iff _).mpr ⟨hlow.offLen, hlow.off0, hlow.offN, ?_, hlow.mono, hlow.sorted, hlow.colsLt⟩, ?_, ?_, ?_⟩
  · exact (decompose_length hinv sqrt _ _ (le_of_eq hr.l.symm)).trans hr.l
  · intro i hi; rw [hent i hi]; exact (hf i hi).1
  · intro i hi k hk; rw [hent i hi]; exact hinv.lent_upper _ hi hk
  · intro i hi j hj
    let L : Nat → Nat → K := fun r k => if r < a.nrows then lent s (decompose sqrt a s ln.pt ln.l) r k else 0
    have hL : ∀ r < a.nrows, ∀ k, L r k = lent s (decompose sqrt a s ln.pt ln.l) r k := fun r hr k => if_pos hr
    have hup : ∀ i k, i < k → L i k = 0 := by
      intro i k hik
      show (if i < a.nrows then _ else 0) = (0 : K)
      split
      · rename_i hi; exact hinv.lent_upper _ hi hik
      · rfl
    have := factor_sum hup (N := normalEntry a ln.pt) (n := a.nrows)
      (fun i hi j hj => by
        rw [← (hf i hi).2 j hj]
        exact sum_congr rfl (fun k _ => by rw [hL i hi, hL j (by omega)])) (normal_symm a ln.pt) hi hj
    rw [← this]
    exact sum_congr rfl (fun k _ => by rw [hent i hi, hent j hj, hL i hi, hL j hj])

/-- C78: no pivot is zero if and only if the equality rows are independent. -/
theorem C78_pivots {a : Csr K} {p d o : K} {st : Setup K} (h : mkSetup a p d o = some st) (hne : a.NoEmptyRow) {sqrt : K → K}
    (hs : IsSqrt sqrt) {wlen : Nat} {ln : Lane K} (hin : Inside a wlen ln.pt) (hr : Ready st ln) :
    (∀ i < a.nrows, (factor st (decompose sqrt a st.ix.l ln.pt ln.l)).entry i i ≠ 0) ↔ a.Independent wlen := by
  constructor
  · obtain ⟨hok, s, hinv, rfl⟩ := mkSetup_inv h hne
    intro hp
    have hent : ∀ i < a.nrows, lent s (decompose sqrt a s ln.pt ln.l) i i ≠ 0 :=
      fun i hi => by rw [← factor_entry (p := p) (d := d) (o := o) hinv _ hi]; exact hp i hi
    have hf := factor_correct hs hinv hok hin ln.l (le_of_eq hr.l.symm) (Or.inr hent)
    intro v hv hvA
    -- `vᵀ N v` is zero, and it is the square of the length of `Lᵀ v`
    have hq : ∑ i ∈ range a.nrows, ∑ j ∈ range a.nrows, v i * normalEntry a ln.pt i j * v j = 0 := by
      rw [normal_quad hin.w, sum_eq_zero, sum_eq_zero, add_zero]
      · intro c hc; rw [hvA c (mem_range.mp hc)]; ring
      · intro i _
        split
        · rename_i hw; rw [hv i hw]; ring
        · rfl
    let L : Nat → Nat → K := fun r k => if r < a.nrows then lent s (decompose sqrt a s ln.pt ln.l) r k else 0
    have hL : ∀ r < a.nrows, ∀ k, L r k = lent s (decompose sqrt a s ln.pt ln.l) r k := fun r hr k => if_pos hr
    have hup : ∀ i k, i < k → L i k = 0 := by
      intro i k hik
      show (if i < a.nrows then _ else 0) = (0 : K)
      split
      · rename_i hi; exact hinv.lent_upper _ hi hik
      · rfl
    have hN : ∀ i < a.nrows, ∀ j < a.nrows, ∑ k ∈ range a.nrows, L i k * L j k = normalEntry a ln.pt i j := fun i hi j hj =>
      factor_sum hup (fun i hi j hj => by
        rw [← (hf i hi).2 j hj]
        exact sum_congr rfl (fun k _ => by rw [hL i hi, hL j (by omega)])) (normal_symm a ln.pt) hi hj
    have hsq : ∑ k ∈ range a.nrows, (∑ i ∈ range a.nrows, v i * L i k) * (∑ i ∈ range a.nrows, v i * L i k) = 0 := by
      rw [← hq]
      have : ∀ i ∈ range a.nrows, ∑ j ∈ range a.nrows, v i * normalEntry a ln.pt i j * v j =
          ∑ j ∈ range a.nrows, ∑ k ∈ range a.nrows, (v i * L i k) * (v j * L j k) := by
        intro i hi
        apply sum_congr rfl
        intro j hj
        rw [← hN i (mem_range.mp hi) j (mem_range.mp hj), mul_sum, sum_mul]
        exact sum_congr rfl (fun k _ => by ring)
      rw [sum_congr rfl this, sum_congr rfl (fun i _ => sum_comm), sum_comm]
      exact sum_congr rfl (fun k _ => by rw [sum_mul_sum])
    rw [sum_eq_zero_iff_of_nonneg (fun k _ => mul_self_nonneg _)] at hsq
    have hz : ∀ k < a.nrows, ∑ i ∈ range a.nrows, v i * L i k = 0 :=
      fun k hk => mul_self_eq_zero.mp (hsq k (mem_range.mpr hk))
    -- back substitution, from the last row
    have hback : ∀ m, m ≤ a.nrows → ∀ i, a.nrows - m ≤ i → i < a.nrows → v i = 0 := by
      intro m
      induction m with
      | zero => intro _ i h1 h2; omega
      | succ m ih =>
        intro hm i h1 h2
        rcases Nat.lt_or_ge i (a.nrows - m) with h3 | h3
        · have hk := hz i h2
          rw [sum_eq_single i] at hk
          · rcases mul_eq_zero.mp hk with h4 | h4
            · exact h4
            · exact absurd (by rw [← hL i h2]; exact h4) (hent i h2)
          · intro r hr hri
            rw [mem_range] at hr
            rcases Nat.lt_or_gt_of_ne hri with h5 | h5
            · rw [hup r i h5, mul_zero]
            · rw [ih (by omega) r (by omega) hr, zero_mul]
          · intro hh; exact absurd (mem_range.mpr h2) hh
        · exact ih (by omega) i h3 h2
    intro i hi
    exact hback a.nrows (Nat.le_refl _) i (by omega) hi
  · intro hind i hi
    exact ne_of_gt ((C78_factor h hne hs hind hin hr).2.1 i hi)

/-- C78: forward and backward substitution give the solution of the normal equations. -/
theorem C78_solves {a : Csr K} {p d o : K} {st : Setup K} (h : mkSetup a p d o = some st) (hne : a.NoEmptyRow) {sqrt : K → K}
    (hs : IsSqrt sqrt) {wlen : Nat} (hind : a.Independent wlen) {ln : Lane K} (hin : Inside a wlen ln.pt) (hr : Ready st ln)
    (rhs : List K) :
    ∀ i < a.nrows, ∑ j ∈ range a.nrows, normalEntry a ln.pt i j *
      rd (choleskySolve st.ix a.nrows (decompose sqrt a st.ix.l ln.pt ln.l) rhs ln.dy) j = rd rhs i := by
  obtain ⟨hok, s, hinv, rfl⟩ := mkSetup_inv h hne
  exact normal_solved hs hinv hok hin hind ln.l rhs ln.dy (le_of_eq hr.l.symm) (le_of_eq hr.dy.symm)

/-- C78: there is one solution, so what the work arrays contained before does not matter. -/
theorem C78_unique {a : Csr K} {p d o : K} {st : Setup K} (h : mkSetup a p d o = some st) (hne : a.NoEmptyRow) {sqrt : K → K}
    (hs : IsSqrt sqrt) {wlen : Nat} (hind : a.Independent wlen) {ln : Lane K} (hin : Inside a wlen ln.pt) (hr : Ready st ln)
    (rhs : List K) (v : Nat → K) (hv : ∀ i < a.nrows, ∑ j ∈ range a.nrows, normalEntry a ln.pt i j * v j = rd rhs i) :
    ∀ i < a.nrows, rd (choleskySolve st.ix a.nrows (decompose sqrt a st.ix.l ln.pt ln.l) rhs ln.dy) i = v i :=
  normal_unique hin hind fun i hi => (C78_solves h hne hs hind hin hr rhs i hi).trans (hv i hi).symm

/-! ## C79 -/

/-- The starting point is inside. -/
theorem init_inside (a : Csr K) (wlen : Nat) (hw : wlen ≤ a.nrows) : Inside a wlen (initPoint a.nrows a.ncols wlen) := by
  have hrd : ∀ n i, i < n → (0 : K) < rd (List.replicate n 1000) i := by
    intro n i hi
    unfold rd
    rw [List.getD_eq_getElem _ _ (by simpa using hi), List.getElem_replicate]
    norm_num
  exact ⟨⟨by simp [initPoint], by simp [initPoint], by simp [initPoint], by simp [initPoint], hw⟩, hrd _, hrd _, hrd _,
    fun i hi => hrd _ i (lt_of_lt_of_le hi hw)⟩

/-- C79: in all iterations the variables, slacks, dual slacks and the multipliers of inequalities are positive. -/
theorem C79_inside {a : Csr K} {p d o : K} {st : Setup K} (h : mkSetup a p d o = some st) (hne : a.NoEmptyRow) (sqrt : K → K)
    {wlen : Nat} {ln : Lane K} (hin : Inside a wlen ln.pt) (hr : Ready st ln) (k : Nat) :
    Inside a wlen ((advance sqrt st)^[k] ln).pt ∧ Ready st ((advance sqrt st)^[k] ln) :=
  iterate_inside h hne sqrt k hin hr

/-- C79: an iteration of a lane that has not finished multiplies all violations by the same factor; without violations, it makes the
complementarity smaller. -/
theorem C79_step {a : Csr K} {p d o : K} {st : Setup K} (h : mkSetup a p d o = some st) (hne : a.NoEmptyRow) {sqrt : K → K}
    (hs : IsSqrt sqrt) {wlen : Nat} (hind : a.Independent wlen) {ln : Lane K} (hin : Inside a wlen ln.pt) (hr : Ready st ln)
    (hf : finished sqrt st ln = false) :
    ∃ θ : K, 0 < θ ∧ θ ≤ 1 ∧
      (∀ i < a.nrows, violation a ln.b (advance sqrt st ln).pt i = (1 - θ) * violation a ln.b ln.pt i) ∧
      (∀ j < a.ncols, dualViolation a ln.c (advance sqrt st ln).pt j = (1 - θ) * dualViolation a ln.c ln.pt j) ∧
      ((∀ i < a.nrows, violation a ln.b ln.pt i = 0) → (∀ j < a.ncols, dualViolation a ln.c ln.pt j = 0) →
        complementarity a (advance sqrt st ln).pt = (1 - 9 / 10 * θ) * complementarity a ln.pt) := by
  have hN := advance_newton h hne hs hind hin hr
  have hrng := thetaOf_range sqrt st ln hf
  obtain ⟨m1, m2, m3⟩ := moved_effect hin.toSized hN (thetaOf sqrt st ln)
  refine ⟨thetaOf sqrt st ln, hrng.1, hrng.2, m1, m2, ?_⟩
  intro z1 z2
  have hat : st.at_.nrows = a.ncols := by
    obtain ⟨_, s, _, rfl⟩ := mkSetup_inv h hne
    rfl
  have hmu := mu_sum hin.toSized st hat
  rw [advance_pt, m3, hmu, sum_eq_zero, sum_eq_zero]
  · ring
  · intro j hj; rw [z2 j (mem_range.mp hj), zero_mul]
  · intro i hi; rw [z1 i (mem_range.mp hi), zero_mul]

omit [IsStrictOrderedRing K] in
/-- C79: a lane that has finished stays where it is. -/
theorem C79_finished (sqrt : K → K) (st : Setup K) (ln : Lane K) (hf : finished sqrt st ln = true) :
    (advance sqrt st ln).pt = ln.pt := advance_finished sqrt st ln hf

/-- C79: over any number of iterations every violation has been multiplied by one common factor between 0 and 1. -/
theorem C79_shrinks {a : Csr K} {p d o : K} {st : Setup K} (h : mkSetup a p d o = some st) (hne : a.NoEmptyRow) {sqrt : K → K}
    (hs : IsSqrt sqrt) {wlen : Nat} (hind : a.Independent wlen) (k : Nat) {ln : Lane K} (hin : Inside a wlen ln.pt)
    (hr : Ready st ln) :
    ∃ f : K, 0 ≤ f ∧ f ≤ 1 ∧ (0 < k → finished sqrt st ln = false → f < 1) ∧
      (∀ i < a.nrows, violation a ln.b ((advance sqrt st)^[k] ln).pt i = f * violation a ln.b ln.pt i) ∧
      (∀ j < a.ncols, dualViolation a ln.c ((advance sqrt st)^[k] ln).pt j = f * dualViolation a ln.c ln.pt j) := by
  induction k generalizing ln with
  | zero =>
    exact ⟨1, zero_le_one, le_refl _, fun h0 => absurd h0 (Nat.lt_irrefl _), fun i _ => (one_mul _).symm, fun j _ => (one_mul _).symm⟩
  | succ k ih =>
    obtain ⟨f, f0, f1, _, f3, f4⟩ := ih (ln := advance sqrt st ln) (advance_inside h hne sqrt hin) (advance_ready h hne sqrt hr)
    simp only [Function.iterate_succ_apply]
    by_cases hf : finished sqrt st ln = true
    · refine ⟨f, f0, f1, fun _ hh => by rw [hf] at hh; exact absurd hh (by simp), ?_, ?_⟩
      · intro i hi
        have := f3 i hi
        rw [advance_finished sqrt st ln hf] at this
        exact this
      · intro j hj
        have := f4 j hj
        rw [advance_finished sqrt st ln hf] at this
        exact this
    · have hf' : finished sqrt st ln = false := by simpa using hf
      obtain ⟨θ, t0, t1, e1, e2, _⟩ := C79_step h hne hs hind hin hr hf'
      have hθ : 0 ≤ 1 - θ := by linarith
      refine ⟨f * (1 - θ), mul_nonneg f0 hθ, ?_, ?_, ?_, ?_⟩
      · calc f * (1 - θ) ≤ 1 * (1 - θ) := mul_le_mul_of_nonneg_right f1 hθ
          _ ≤ 1 := by linarith
      · intro _ _
        calc f * (1 - θ) ≤ 1 * (1 - θ) := mul_le_mul_of_nonneg_right f1 hθ
          _ < 1 := by linarith
      · intro i hi
        have := f3 i hi
        rw [show (advance sqrt st ln).b = ln.b from rfl, e1 i hi] at this
        rw [this]; ring
      · intro j hj
        have := f4 j hj
        rw [show (advance sqrt st ln).c = ln.c from rfl, e2 j hj] at this
        rw [this]; ring

/-! ## C81 -/

omit [IsStrictOrderedRing K] in
theorem solve_points (sqrt : K → K) (st : Setup K) (wlen n : Nat) (lanes : List (List K × List K × List K × List K)) :
    solve sqrt st wlen n lanes = (points (solveLoop sqrt st n (lanes.map fun p =>
      ⟨p.1, p.2.1, initPoint st.a.nrows st.a.ncols wlen, p.2.2.1, p.2.2.2⟩))).map fun ps => ps.map (·.x) := by
  unfold solve points
  cases solveLoop sqrt st n (lanes.map fun p => ⟨p.1, p.2.1, initPoint st.a.nrows st.a.ncols wlen, p.2.2.1, p.2.2.2⟩) with
  | none => rfl
  | some ls => simp

omit [IsStrictOrderedRing K] in
/-- C81: a group is solved if and only if each of its scenarios is solved alone, with the same results. -/
theorem C81_group (sqrt : K → K) (st : Setup K) (wlen n : Nat) (lanes : List (List K × List K × List K × List K)) (hne : lanes ≠ [])
    (xs : List (List K)) :
    solve sqrt st wlen n lanes = some xs ↔
      List.Forall₂ (fun lane x => solve sqrt st wlen n [lane] = some [x]) lanes xs := by
  let mk : List K × List K × List K × List K → Lane K := fun p =>
    ⟨p.1, p.2.1, initPoint st.a.nrows st.a.ncols wlen, p.2.2.1, p.2.2.2⟩
  have hmk : lanes.map mk ≠ [] := by simpa using hne
  have hone : ∀ (lane : List K × List K × List K × List K) (x : List K), solve sqrt st wlen n [lane] = some [x] ↔
      ∃ p : Point K, points (solveLoop sqrt st n [mk lane]) = some [p] ∧ p.x = x := by
    intro lane x
    rw [solve_points]
    constructor
    · intro h
      rw [Option.map_eq_some_iff] at h
      obtain ⟨ps, h1, h2⟩ := h
      cases ps with
      | nil => simp at h2
      | cons p ps =>
        cases ps with
        | nil => exact ⟨p, h1, by simpa using h2⟩
        | cons q qs => simp at h2
    · rintro ⟨p, h1, h2⟩
      show Option.map _ (points (solveLoop sqrt st n [mk lane])) = _
      rw [h1]
      simp [h2]
  constructor
  · intro h
    rw [solve_points, Option.map_eq_some_iff] at h
    obtain ⟨ps, h1, h2⟩ := h
    have h3 := (solveLoop_group sqrt st n (lanes.map mk) ps hmk).mp h1
    rw [List.forall₂_map_left_iff] at h3
    rw [← h2, List.forall₂_map_right_iff]
    exact List.Forall₂.imp (fun lane p hh => (hone lane p.x).mpr ⟨p, hh, rfl⟩) h3
  · intro h
    have key : ∀ (ls : List (List K × List K × List K × List K)) (ys : List (List K)),
        List.Forall₂ (fun lane x => solve sqrt st wlen n [lane] = some [x]) ls ys →
        ∃ ps : List (Point K), List.Forall₂ (fun ln p => points (solveLoop sqrt st n [ln]) = some [p]) (ls.map mk) ps ∧
          ps.map (·.x) = ys := by
      intro ls ys hF
      induction hF with
      | nil => exact ⟨[], List.Forall₂.nil, rfl⟩
      | cons h1 _ ih =>
        obtain ⟨ps, g1, g2⟩ := ih
        obtain ⟨p, g3, g4⟩ := (hone _ _).mp h1
        exact ⟨p :: ps, List.Forall₂.cons g3 g1, by rw [List.map_cons, g2, g4]⟩
    obtain ⟨ps, g1, g2⟩ := key lanes xs h
    rw [solve_points, (solveLoop_group sqrt st n (lanes.map mk) ps hmk).mpr g1, Option.map_some, g2]

omit [IsStrictOrderedRing K] in
/-- C81: filling up a group with copies of its last scenario changes nothing for the others. -/
theorem C81_padding (sqrt : K → K) (st : Setup K) (wlen n k : Nat) (lanes : List (List K × List K × List K × List K))
    (last : List K × List K × List K × List K) (xs : List (List K)) (x : List K) :
    solve sqrt st wlen n (lanes ++ [last]) = some (xs ++ [x]) →
      solve sqrt st wlen n (lanes ++ [last] ++ List.replicate k last) = some (xs ++ [x] ++ List.replicate k x) := by
  intro h
  rw [C81_group sqrt st wlen n _ (by simp)] at h ⊢
  apply List.rel_append h
  have hl : solve sqrt st wlen n [last] = some [x] := by
    have hlen : lanes.length = xs.length := by simpa using h.length_eq
    have h2 := List.forall₂_drop lanes.length h
    rw [List.drop_left, hlen, List.drop_left] at h2
    cases h2 with
    | cons a _ => exact a
  induction k with
  | zero => exact List.Forall₂.nil
  | succ k ih => exact List.Forall₂.cons hl ih

/-- C81: what earlier calls left in the work arrays does not matter. -/
theorem C81_leftovers {a : Csr K} {p d o : K} {st : Setup K} (h : mkSetup a p d o = some st) (hne : a.NoEmptyRow) {sqrt : K → K}
    (hs : IsSqrt sqrt) {wlen : Nat} (hind : a.Independent wlen) (hw : wlen ≤ a.nrows) (n : Nat) (b c l dy l' dy' : List K)
    (h1 : l.length = st.ix.l.lInd.length) (h2 : dy.length = a.nrows) (h3 : l'.length = st.ix.l.lInd.length)
    (h4 : dy'.length = a.nrows) : solve sqrt st wlen n [(b, c, l, dy)] = solve sqrt st wlen n [(b, c, l', dy')] := by
  have hst : st.a = a := by
    obtain ⟨_, s, _, rfl⟩ := mkSetup_inv h hne
    rfl
  rw [solve_points, solve_points, List.map_cons, List.map_nil, List.map_cons, List.map_nil]
  congr 1
  apply solveLoop_same h hne hs hind
  · rw [hst]; exact init_inside a wlen hw
  · exact ⟨h3, by rw [hst]; exact h4⟩
  · exact ⟨h1, by rw [hst]; exact h2⟩
  · rfl
  · rfl
  · rfl

/-! ## C80 -/

/-- C80: what is returned is positive, nearly satisfies all constraints, and is nearly optimal: besides the solution there are dual
values that bound what any feasible point can gain. -/
theorem C80_returned {a : Csr K} {p d o : K} {st : Setup K} (h : mkSetup a p d o = some st) (hne : a.NoEmptyRow) {sqrt : K → K}
    (hs : IsSqrt sqrt) {wlen : Nat} (hw : wlen ≤ a.nrows) (n : Nat) (b c l dy x : List K)
    (h1 : l.length = st.ix.l.lInd.length) (h2 : dy.length = a.nrows) (hsolve : solve sqrt st wlen n [(b, c, l, dy)] = some [x]) :
    x.length = a.ncols ∧ (∀ j < a.ncols, 0 < rd x j) ∧
    (∀ i < wlen, a.apply x i < rd b i + p * (1 + euclid sqrt a.ncols (rd x))) ∧
    (∀ i < a.nrows, wlen ≤ i → |a.apply x i - rd b i| < p * (1 + euclid sqrt a.ncols (rd x))) ∧
    ∃ pt : Point K, pt.x = x ∧ Inside a wlen pt ∧
      euclid sqrt a.ncols (dualViolation a c pt) < d * (1 + euclid sqrt a.nrows (rd pt.y)) ∧
      complementarity a pt < o * (1 + euclid sqrt a.ncols (rd x) + euclid sqrt a.nrows (rd pt.y)) ∧
      ∀ x' : Nat → K, Feasible a wlen b x' →
        objective a c x' < objective a c (rd x) + o * (1 + euclid sqrt a.ncols (rd x) + euclid sqrt a.nrows (rd pt.y)) +
          p * (1 + euclid sqrt a.ncols (rd x)) * euclid sqrt a.nrows (rd pt.y) +
          d * (1 + euclid sqrt a.nrows (rd pt.y)) * euclid sqrt a.ncols (fun j => x' j - rd x j) := by
  have hst : st.a = a := by
    obtain ⟨_, s, _, rfl⟩ := mkSetup_inv h hne
    rfl
  rw [solve_points, List.map_cons, List.map_nil, Option.map_eq_some_iff] at hsolve
  obtain ⟨ps, g1, g2⟩ := hsolve
  have hp : ∃ pt : Point K, ps = [pt] ∧ pt.x = x := by
    cases ps with
    | nil => simp at g2
    | cons q qs =>
      cases qs with
      | nil => exact ⟨q, rfl, by simpa using g2⟩
      | cons r rs => simp at g2
  obtain ⟨pt, rfl, hx⟩ := hp
  obtain ⟨k, _, k1, k2⟩ := solveLoop_reached sqrt st n _ pt g1
  have hreach := iterate_inside (wlen := wlen) h hne sqrt k
    (ln := ⟨b, c, initPoint st.a.nrows st.a.ncols wlen, l, dy⟩) (by rw [hst]; exact init_inside a wlen hw)
    ⟨h1, by rw [hst]; exact h2⟩
  have hin := hreach.1
  have hfin := finished_spec h hne hs hin.toSized k2
  rw [(iterate_bc sqrt st k _).1, (iterate_bc sqrt st k _).2] at hfin
  rw [k1] at hin hfin
  simp only at hfin
  obtain ⟨f1, f2, f3⟩ := hfin
  subst hx
  refine ⟨hin.x, hin.xPos, ?_, ?_, pt, rfl, hin, f2, f3, ?_⟩
  · intro i hi
    have hv := lt_of_le_of_lt (abs_le_euclid hs (lt_of_lt_of_le hi hw) (violation a b pt)) f1
    have hpos := hin.wPos i hi
    have := neg_abs_le (violation a b pt i)
    unfold violation at this hv
    rw [hin.w, if_pos hi] at this hv
    linarith
  · intro i hi hge
    have hv := lt_of_le_of_lt (abs_le_euclid hs hi (violation a b pt)) f1
    unfold violation at hv
    rw [hin.w, if_neg (by omega), sub_zero, abs_sub_comm] at hv
    exact hv
  · intro x' hx'
    have hwd := weak_duality (c := c) hin hx'
    have c1 := cauchy hs a.nrows (rd pt.y) (violation a b pt)
    have c2 := cauchy hs a.ncols (dualViolation a c pt) (fun j => x' j - rd pt.x j)
    have ey := euclid_nonneg hs a.nrows (rd pt.y)
    have ed := euclid_nonneg hs a.ncols (fun j => x' j - rd pt.x j)
    have c1' : euclid sqrt a.nrows (rd pt.y) * euclid sqrt a.nrows (violation a b pt) ≤
        p * (1 + euclid sqrt a.ncols (rd pt.x)) * euclid sqrt a.nrows (rd pt.y) := by
      rw [mul_comm]
      exact mul_le_mul_of_nonneg_right (le_of_lt f1) ey
    have c2' := mul_le_mul_of_nonneg_right (le_of_lt f2) ed
    linarith

/-- C80, exactly: without violations, nothing feasible is better by more than the complementarity. -/
theorem C80_certificate {a : Csr K} {wlen : Nat} {b c : List K} {pt : Point K} (hin : Inside a wlen pt)
    (hv : ∀ i < a.nrows, violation a b pt i = 0) (hd : ∀ j < a.ncols, dualViolation a c pt j = 0) :
    Feasible a wlen b (rd pt.x) ∧ ∀ x : Nat → K, Feasible a wlen b x → objective a c x ≤ objective a c (rd pt.x) + complementarity a pt := by
  refine ⟨⟨fun j hj => le_of_lt (hin.xPos j hj), ?_, ?_⟩, ?_⟩
  · intro i hi hw
    have := hv i hi
    have hp := hin.wPos i hw
    unfold violation at this
    rw [hin.w, if_pos hw] at this
    unfold Csr.apply at this
    linarith
  · intro i hi hw
    have := hv i hi
    unfold violation at this
    rw [hin.w, if_neg (by omega)] at this
    unfold Csr.apply at this
    linarith
  · intro x hx
    have := weak_duality (c := c) hin hx
    rw [sum_eq_zero (s := range a.nrows), sum_eq_zero (s := range a.ncols)] at this
    · linarith
    · intro j hj; rw [hd j (mem_range.mp hj), zero_mul]
    · intro i hi; rw [hv i (mem_range.mp hi), mul_zero]

end Verif.Ipm
