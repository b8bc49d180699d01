import Verif.Lemmas.IpmRun

/-! # Invariants of the iterations and weak duality -/

namespace Verif.Ipm

open Finset

variable {K : Type} [Field K] [LinearOrder K]

/-- What holds of a lane before every iteration. -/
structure Good (st : Setup K) (wlen : Nat) (ln : Lane K) : Prop where
  ready : Ready st ln
  inside : Inside st.a wlen ln.pt

theorem decompose_length {a : Csr K} {s : Idx} (h : Inv a a.nrows 0 s) (sqrt : K → K) (pt : Point K) (l : List K)
    (hlen : s.lInd.length ≤ l.length) : (decompose sqrt a s pt l).length = l.length := by
  obtain ⟨l', e1, e2, _⟩ := decompRows_spec h sqrt pt l hlen a.nrows (Nat.le_refl _)
  unfold decompose
  rw [e1]; exact e2

/-- The right-hand side of an iteration. -/
def rhsOf (st : Setup K) (ln : Lane K) : List K := normalRhs st.a st.at_ ln.pt ln.b ln.c (muOf st ln.pt)

/-- `dy` of an iteration. -/
def dyOf (sqrt : K → K) (st : Setup K) (ln : Lane K) : List K :=
  choleskySolve st.ix st.a.nrows (decompose sqrt st.a st.ix.l ln.pt ln.l) (rhsOf st ln) ln.dy

/-- `dx` of an iteration. -/
def dxOf (sqrt : K → K) (st : Setup K) (ln : Lane K) : List K :=
  dirX st.at_ ln.pt ln.c (dyOf sqrt st ln) (muOf st ln.pt)

/-- `dz` of an iteration. -/
def dzOf (sqrt : K → K) (st : Setup K) (ln : Lane K) : List K :=
  dirZ st.at_ ln.pt (dxOf sqrt st ln) (muOf st ln.pt)

/-- `dw` of an iteration. -/
def dwOf (sqrt : K → K) (st : Setup K) (ln : Lane K) : List K := dirW ln.pt (dyOf sqrt st ln) (muOf st ln.pt)

/-- The step length of an iteration. -/
def thetaOf (sqrt : K → K) (st : Setup K) (ln : Lane K) : K :=
  if finished sqrt st ln then 0
  else stepLength (maxDecrease st.at_ ln.pt (dxOf sqrt st ln) (dzOf sqrt st ln) (dyOf sqrt st ln) (dwOf sqrt st ln))

theorem advance_pt (sqrt : K → K) (st : Setup K) (ln : Lane K) : (advance sqrt st ln).pt =
    moved ln.pt (dxOf sqrt st ln) (dzOf sqrt st ln) (dyOf sqrt st ln) (dwOf sqrt st ln) (thetaOf sqrt st ln) := rfl

theorem advance_dy (sqrt : K → K) (st : Setup K) (ln : Lane K) : (advance sqrt st ln).dy = dyOf sqrt st ln := rfl

theorem advance_l (sqrt : K → K) (st : Setup K) (ln : Lane K) :
    (advance sqrt st ln).l = decompose sqrt st.a st.ix.l ln.pt ln.l := rfl

theorem advance_ready {a : Csr K} {p d o : K} {st : Setup K} (h : mkSetup a p d o = some st) (hne : a.NoEmptyRow) (sqrt : K → K)
    {ln : Lane K} (hr : Ready st ln) : Ready st (advance sqrt st ln) := by
  obtain ⟨hok, s, hs, rfl⟩ := mkSetup_inv h hne
  refine ⟨?_, ?_⟩
  · rw [advance_l]
    exact (decompose_length hs sqrt _ _ (le_of_eq hr.l.symm)).trans hr.l
  · rw [advance_dy]
    exact (choleskySolve_length hs _ _ _ (le_of_eq hr.dy.symm)).trans hr.dy

variable [IsStrictOrderedRing K]

theorem advance_inside {a : Csr K} {p d o : K} {st : Setup K} (h : mkSetup a p d o = some st) (hne : a.NoEmptyRow) (sqrt : K → K)
    {wlen : Nat} {ln : Lane K} (hin : Inside a wlen ln.pt) : Inside a wlen (advance sqrt st ln).pt := by
  obtain ⟨hok, s, hs, rfl⟩ := mkSetup_inv h hne
  by_cases hf : finished sqrt ⟨a, a.transpose, ixOf s a.nrows, p, d, o⟩ ln = true
  · rw [advance_finished sqrt _ ln hf]; exact hin
  · rw [advance_pt]
    unfold thetaOf
    rw [if_neg hf]
    exact moved_inside hin _ _ _ _

theorem iterate_inside {a : Csr K} {p d o : K} {st : Setup K} (h : mkSetup a p d o = some st) (hne : a.NoEmptyRow) (sqrt : K → K)
    {wlen : Nat} (k : Nat) {ln : Lane K} (hin : Inside a wlen ln.pt) (hr : Ready st ln) :
    Inside a wlen ((advance sqrt st)^[k] ln).pt ∧ Ready st ((advance sqrt st)^[k] ln) := by
  induction k generalizing ln with
  | zero => exact ⟨hin, hr⟩
  | succ k ih => rw [Function.iterate_succ_apply]; exact ih (advance_inside h hne sqrt hin) (advance_ready h hne sqrt hr)

/-- The directions of an iteration satisfy the linearised equations. -/
theorem advance_newton {a : Csr K} {p d o : K} {st : Setup K} (h : mkSetup a p d o = some st) (hne : a.NoEmptyRow) {sqrt : K → K}
    (hs : IsSqrt sqrt) {wlen : Nat} (hind : a.Independent wlen) {ln : Lane K} (hin : Inside a wlen ln.pt) (hr : Ready st ln) :
    Newton a wlen ln.pt ln.b ln.c (muOf st ln.pt) (dxOf sqrt st ln) (dzOf sqrt st ln) (dyOf sqrt st ln) (dwOf sqrt st ln) := by
  obtain ⟨hok, s, hinv, rfl⟩ := mkSetup_inv h hne
  apply newton hok hin
  exact normal_solved hs hinv hok hin hind ln.l _ ln.dy (le_of_eq hr.l.symm) (le_of_eq hr.dy.symm)

theorem thetaOf_range (sqrt : K → K) (st : Setup K) (ln : Lane K) (hf : finished sqrt st ln = false) :
    0 < thetaOf sqrt st ln ∧ thetaOf sqrt st ln ≤ 1 := by
  unfold thetaOf
  rw [if_neg (by simp [hf])]
  exact stepLength_range (maxDecrease_nonneg _ _ _ _ _ _)

omit [LinearOrder K] [IsStrictOrderedRing K] in
theorem mu_sum {a : Csr K} {wlen : Nat} {pt : Point K} [CharZero K] (hsz : Sized a wlen pt) (st : Setup K) (hst : st.at_.nrows = a.ncols) :
    ((a.ncols + wlen : Nat) : K) * muOf st pt = 1 / 10 * complementarity a pt := by
  unfold muOf
  rw [hst, hsz.w, gap_eq hsz]
  by_cases h0 : a.ncols + wlen = 0
  · have h1 : a.ncols = 0 := by omega
    have h2 : wlen = 0 := by omega
    unfold complementarity
    rw [hsz.w, h1, h2]; simp
  · have : ((a.ncols + wlen : Nat) : K) ≠ 0 := by exact_mod_cast h0
    field_simp

/-- Two lanes with the same program at the same point move to the same point, whatever is in their work arrays. -/
theorem advance_same {a : Csr K} {p d o : K} {st : Setup K} (h : mkSetup a p d o = some st) (hne : a.NoEmptyRow) {sqrt : K → K}
    (hs : IsSqrt sqrt) {wlen : Nat} (hind : a.Independent wlen) {ln ln' : Lane K} (hin : Inside a wlen ln.pt) (hr : Ready st ln)
    (hr' : Ready st ln') (hb : ln'.b = ln.b) (hc : ln'.c = ln.c) (hp : ln'.pt = ln.pt) :
    (advance sqrt st ln').pt = (advance sqrt st ln).pt := by
  have hdy : dyOf sqrt st ln' = dyOf sqrt st ln := by
    have hl := advance_ready h hne sqrt hr
    have hl' := advance_ready h hne sqrt hr'
    have l1 := hl.dy
    have l2 := hl'.dy
    rw [advance_dy] at l1 l2
    obtain ⟨hok, s, hinv, rfl⟩ := mkSetup_inv h hne
    have e1 := normal_solved hs hinv hok hin hind ln.l (rhsOf ⟨a, a.transpose, ixOf s a.nrows, p, d, o⟩ ln) ln.dy
      (le_of_eq hr.l.symm) (le_of_eq hr.dy.symm)
    have e2 := normal_solved hs hinv hok hin hind ln'.l (rhsOf ⟨a, a.transpose, ixOf s a.nrows, p, d, o⟩ ln) ln'.dy
      (le_of_eq hr'.l.symm) (le_of_eq hr'.dy.symm)
    have hu := normal_unique hin hind (fun i hi => (e2 i hi).trans (e1 i hi).symm)
    have hd' : dyOf sqrt ⟨a, a.transpose, ixOf s a.nrows, p, d, o⟩ ln' =
        choleskySolve (ixOf s a.nrows) a.nrows (decompose sqrt a s ln.pt ln'.l)
          (rhsOf ⟨a, a.transpose, ixOf s a.nrows, p, d, o⟩ ln) ln'.dy := by
      unfold dyOf rhsOf
      rw [hp, hb, hc]; rfl
    apply List.ext_getElem (l2.trans l1.symm)
    intro i h1 h2
    have hi : i < a.nrows := lt_of_lt_of_eq h2 l1
    have := hu i hi
    unfold rd at this
    rw [← hd'] at this
    rw [List.getD_eq_getElem _ _ h1] at this
    rw [this]
    exact List.getD_eq_getElem _ _ h2
  have hdx : dxOf sqrt st ln' = dxOf sqrt st ln := by unfold dxOf; rw [hdy, hp, hc]
  have hdz : dzOf sqrt st ln' = dzOf sqrt st ln := by unfold dzOf; rw [hdx, hp]
  have hdw : dwOf sqrt st ln' = dwOf sqrt st ln := by unfold dwOf; rw [hdy, hp]
  have ht : thetaOf sqrt st ln' = thetaOf sqrt st ln := by
    unfold thetaOf
    rw [hdy, hdx, hdz, hdw, hp, finished_congr sqrt st hb hc hp]
  rw [advance_pt, advance_pt, hdy, hdx, hdz, hdw, ht, hp]

theorem solveLoop_same {a : Csr K} {p d o : K} {st : Setup K} (h : mkSetup a p d o = some st) (hne : a.NoEmptyRow) {sqrt : K → K}
    (hs : IsSqrt sqrt) {wlen : Nat} (hind : a.Independent wlen) : ∀ (n : Nat) (ln ln' : Lane K), Inside a wlen ln.pt → Ready st ln →
    Ready st ln' → ln'.b = ln.b → ln'.c = ln.c → ln'.pt = ln.pt →
    points (solveLoop sqrt st n [ln']) = points (solveLoop sqrt st n [ln]) := by
  intro n
  induction n with
  | zero => intros; rfl
  | succ n ih =>
    intro ln ln' hin hr hr' hb hc hp
    rw [points_single, points_single, finished_congr sqrt st hb hc hp, hp]
    split
    · rfl
    · exact ih _ _ (advance_inside h hne sqrt hin) (advance_ready h hne sqrt hr) (advance_ready h hne sqrt hr') hb hc
        (advance_same h hne hs hind hin hr hr' hb hc hp)

/-! ## The stopping test -/

omit [LinearOrder K] [IsStrictOrderedRing K] in
theorem norm_eq {sqrt : K → K} (x : List K) (n : Nat) (h : x.length = n) : norm sqrt x = euclid sqrt n (rd x) := by
  unfold norm euclid
  have : x.map (fun a => a * a) = (List.range n).map fun i => rd x i * rd x i := by
    apply List.ext_getElem
    · simp [h]
    · intro i h1 h2
      simp only [List.length_map] at h1
      simp only [List.getElem_map, List.getElem_range, rd]
      rw [List.getD_eq_getElem _ _ h1]
  rw [this, sum_range_list]

/-- What a finished lane satisfies. -/
theorem finished_spec {a : Csr K} {p d o : K} {st : Setup K} (h : mkSetup a p d o = some st) (hne : a.NoEmptyRow) {sqrt : K → K}
    (hs : IsSqrt sqrt) {wlen : Nat} {ln : Lane K} (hsz : Sized a wlen ln.pt) (hf : finished sqrt st ln = true) :
    euclid sqrt a.nrows (violation a ln.b ln.pt) < p * (1 + euclid sqrt a.ncols (rd ln.pt.x)) ∧
    euclid sqrt a.ncols (dualViolation a ln.c ln.pt) < d * (1 + euclid sqrt a.nrows (rd ln.pt.y)) ∧
    complementarity a ln.pt < o * (1 + euclid sqrt a.ncols (rd ln.pt.x) + euclid sqrt a.nrows (rd ln.pt.y)) := by
  obtain ⟨hok, s, hinv, rfl⟩ := mkSetup_inv h hne
  unfold finished at hf
  simp only [Bool.and_eq_true, decide_eq_true_eq] at hf
  obtain ⟨⟨h1, h2⟩, h3⟩ := hf
  have ex := euclid_nonneg hs a.ncols (rd ln.pt.x)
  have ey := euclid_nonneg hs a.nrows (rd ln.pt.y)
  rw [gap_eq hsz, norm_eq _ _ hsz.x, norm_eq _ _ hsz.y, div_lt_iff₀ (by linarith)] at h3
  unfold primalFeasibility at h1
  unfold dualFeasibility at h2
  rw [norm_eq _ _ hsz.x, div_lt_iff₀ (by linarith), sum_range_list] at h1
  rw [norm_eq _ _ hsz.y, div_lt_iff₀ (by linarith), sum_range_list] at h2
  have v1 : ∀ r < a.nrows, primalResidual a ln.pt ln.b r = violation a ln.b ln.pt r := by
    intro r hr
    unfold primalResidual violation
    rw [rowDot_eq hok _ hr]
    split
    · rfl
    · rw [sub_zero]
  have v2 : ∀ r < a.ncols, dualResidual a.transpose ln.pt ln.c r = dualViolation a ln.c ln.pt r := by
    intro r hr
    unfold dualResidual dualViolation
    rw [rowDot_transpose hok _ hr]
  rw [sum_congr rfl (fun r hr => by rw [v1 r (mem_range.mp hr)])] at h1
  rw [show a.transpose.nrows = a.ncols from rfl, sum_congr rfl (fun r hr => by rw [v2 r (mem_range.mp hr)])] at h2
  exact ⟨h1, h2, h3⟩

omit [LinearOrder K] [IsStrictOrderedRing K] in
theorem sum_applyT (a : Csr K) (y : List K) (x : Nat → K) :
    ∑ j ∈ range a.ncols, a.applyT y j * x j = ∑ i ∈ range a.nrows, rd y i * ∑ c ∈ range a.ncols, a.entry i c * x c := by
  unfold Csr.applyT
  simp only [sum_mul, mul_sum]
  rw [sum_comm]
  apply sum_congr rfl
  intro i _
  apply sum_congr rfl
  intro j _
  ring

/-- Weak duality with violations. -/
theorem weak_duality {a : Csr K} {wlen : Nat} {b c : List K} {pt : Point K} (hin : Inside a wlen pt) {x : Nat → K}
    (hx : Feasible a wlen b x) :
    objective a c x ≤ objective a c (rd pt.x) + complementarity a pt + ∑ i ∈ range a.nrows, rd pt.y i * violation a b pt i +
      ∑ j ∈ range a.ncols, dualViolation a c pt j * (x j - rd pt.x j) := by
  have hz : 0 ≤ ∑ j ∈ range a.ncols, rd pt.z j * x j :=
    sum_nonneg (fun j hj => mul_nonneg (le_of_lt (hin.zPos j (mem_range.mp hj))) (hx.nonneg j (mem_range.mp hj)))
  have h1 : objective a c x = ∑ i ∈ range a.nrows, rd pt.y i * (∑ k ∈ range a.ncols, a.entry i k * x k) -
      ∑ j ∈ range a.ncols, rd pt.z j * x j + ∑ j ∈ range a.ncols, dualViolation a c pt j * x j := by
    rw [← sum_applyT, ← sum_sub_distrib, ← sum_add_distrib]
    unfold objective dualViolation
    exact sum_congr rfl (fun j _ => by ring)
  have h2 : ∑ i ∈ range a.nrows, rd pt.y i * (∑ k ∈ range a.ncols, a.entry i k * x k) ≤ ∑ i ∈ range a.nrows, rd pt.y i * rd b i := by
    apply sum_le_sum
    intro i hi
    rw [mem_range] at hi
    by_cases hw : i < wlen
    · exact mul_le_mul_of_nonneg_left (hx.le i hi hw) (le_of_lt (hin.yPos i hw))
    · rw [hx.eq i hi (by omega)]
  have h3 : ∑ i ∈ range a.nrows, rd pt.y i * rd b i = ∑ i ∈ range a.nrows, rd pt.y i * a.apply pt.x i +
      ∑ i ∈ range wlen, rd pt.w i * rd pt.y i + ∑ i ∈ range a.nrows, rd pt.y i * violation a b pt i := by
    have : ∑ i ∈ range wlen, rd pt.w i * rd pt.y i = ∑ i ∈ range a.nrows, rd pt.y i * (if i < wlen then rd pt.w i else 0) := by
      have hsl := hin.slacks
      rw [← sum_subset (s₁ := range wlen) (s₂ := range a.nrows)]
      · exact sum_congr rfl (fun i hi => by rw [if_pos (mem_range.mp hi), mul_comm])
      · intro i hi; rw [mem_range] at *; omega
      · intro i _ hi
        rw [mem_range] at hi
        rw [if_neg hi, mul_zero]
    rw [this, ← sum_add_distrib, ← sum_add_distrib]
    apply sum_congr rfl
    intro i _
    unfold violation
    rw [hin.w]
    ring
  have h4 : ∑ i ∈ range a.nrows, rd pt.y i * a.apply pt.x i = objective a c (rd pt.x) +
      ∑ j ∈ range a.ncols, rd pt.z j * rd pt.x j - ∑ j ∈ range a.ncols, dualViolation a c pt j * rd pt.x j := by
    have := sum_applyT a pt.y (rd pt.x)
    unfold Csr.apply
    rw [← this]
    unfold objective dualViolation
    rw [← sum_add_distrib, ← sum_sub_distrib]
    exact sum_congr rfl (fun j _ => by ring)
  have h5 : ∑ j ∈ range a.ncols, dualViolation a c pt j * (x j - rd pt.x j) =
      ∑ j ∈ range a.ncols, dualViolation a c pt j * x j - ∑ j ∈ range a.ncols, dualViolation a c pt j * rd pt.x j := by
    rw [← sum_sub_distrib]
    exact sum_congr rfl (fun j _ => by ring)
  unfold complementarity
  rw [hin.w]
  linarith

end Verif.Ipm
