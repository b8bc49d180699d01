import Verif.Lemmas.IpmLpIndependent
import Verif.Props.IpmLp
import Verif.Props.Ipm
import Verif.Props.IpmCases
import Verif.Props.IpmLpCases

/-!
# C82: which networks the interior point solver can treat

The programs of `Model/IpmLp.lean` in the solver of `Model/IpmSolve.lean`.
-/

namespace Verif.IpmLp

open Verif.State (NodeKind Edge)
open Verif.Topology (Network TNode)
open Verif.Solver
open Verif.Ipm (Csr Setup Lane mkSetup factor decompose IsSqrt Inside Ready)

variable {K : Type} [Field K] [LinearOrder K] [IsStrictOrderedRing K]

omit [LinearOrder K] [IsStrictOrderedRing K] in
theorem castCsr_check (a : Csr ℚ) : (castCsr K a).check = a.check := by
  unfold Csr.check
  have : (castCsr K a).values.length = a.values.length := by simp [castCsr]
  rw [this]
  rfl

omit [LinearOrder K] [IsStrictOrderedRing K] in
theorem castCsr_noEmptyRow (a : Csr ℚ) : (castCsr K a).NoEmptyRow ↔ a.NoEmptyRow := Iff.rfl

omit [LinearOrder K] [IsStrictOrderedRing K] in
/-- **C82 (setup).** The solver is set up for every network in which every storage has an edge. -/
theorem C82_setup (M : Model) (hv : M.Valid) (s : Built) (hs : Reach M s) (p d o : K)
    (hst : ∀ n ∈ M.net.nodes, n.kind = .storage → n.incoming ≠ [] ∨ n.outgoing ≠ []) :
    ∃ st, mkSetup (castCsr K s.lp.csr) p d o = some st := by
  obtain ⟨h1, h2⟩ := C77_matrix M hv s hs
  refine Ipm.C78_setup _ p d o (by rw [castCsr_check]; exact h1) ((castCsr_noEmptyRow _).2 (h2.2 fun n hn => ?_))
  by_cases hk : n.kind = .storage
  · exact hst n hn hk
  · obtain ⟨k, hkk⟩ := List.mem_iff_getElem?.1 hn
    obtain ⟨tb, htb⟩ := hv.built
    have hvalid := (Verif.Topology.C49_build_iff tb).1 ⟨_, htb⟩
    obtain ⟨hl, _, hnodes, _⟩ := Verif.Topology.C49_topology tb _ htb
    have hk' : k < tb.nodes.length := by rw [← hl]; exact (List.getElem?_eq_some_iff.1 hkk).1
    have h1 := hnodes k _ (List.getElem?_eq_getElem hk')
    rw [hkk] at h1
    simp only [Option.some.injEq] at h1
    have hc := hvalid.connected _ (List.getElem_mem hk')
    rw [h1] at hk ⊢
    simp only at hk hc ⊢
    unfold Verif.Topology.Connected at hc
    cases hkind : tb.nodes[k].kind with
    | input => rw [hkind] at hc; exact Or.inr hc.2
    | output => rw [hkind] at hc; exact Or.inl hc.1
    | link => rw [hkind] at hc; exact Or.inl hc.1
    | storage => exact absurd hkind hk

/-- **C82 (rows).** The equalities are independent if every link is joined to a node that is not one; if they are, every link with
several edges in or out is. -/
theorem C82_independent (M : Model) (hv : M.Valid) (s : Built) (hs : Reach M s) :
    ((∀ n ∈ M.net.nodes, n.kind = .link → Anchored M.net n.index) → (castCsr K s.lp.csr).Independent s.lp.inequality.nrows) ∧
    ((castCsr K s.lp.csr).Independent s.lp.inequality.nrows →
      ∀ n ∈ M.net.nodes, n.kind = .link → ¬ (n.incoming.length = 1 ∧ n.outgoing.length = 1) → Anchored M.net n.index) := by
  obtain ⟨m, I, E, hc⟩ := reach_created hv hs
  exact ⟨hc.independent hv, hc.dependent hv⟩

/-- **C82 (pivots).** At every point the iteration can be at, no pivot of the factorisation is zero if every link is joined to a node
that is not a link; if some link with several edges in or out is not, one is. -/
theorem C82_pivots (M : Model) (hv : M.Valid) (s : Built) (hs : Reach M s) (p d o : K) (st : Setup K)
    (h : mkSetup (castCsr K s.lp.csr) p d o = some st)
    (hst : ∀ n ∈ M.net.nodes, n.incoming ≠ [] ∨ n.outgoing ≠ []) (sqrt : K → K) (hsq : IsSqrt sqrt) (ln : Lane K)
    (hin : Inside (castCsr K s.lp.csr) s.lp.inequality.nrows ln.pt) (hr : Ready st ln) :
    ((∀ n ∈ M.net.nodes, n.kind = .link → Anchored M.net n.index) →
      ∀ i < (castCsr K s.lp.csr).nrows, (factor st (decompose sqrt (castCsr K s.lp.csr) st.ix.l ln.pt ln.l)).entry i i ≠ 0) ∧
    ((∃ n ∈ M.net.nodes, n.kind = .link ∧ ¬ (n.incoming.length = 1 ∧ n.outgoing.length = 1) ∧ ¬ Anchored M.net n.index) →
      ∃ i < (castCsr K s.lp.csr).nrows, (factor st (decompose sqrt (castCsr K s.lp.csr) st.ix.l ln.pt ln.l)).entry i i = 0) := by
  have hne : (castCsr K s.lp.csr).NoEmptyRow := (castCsr_noEmptyRow _).2 ((C77_matrix M hv s hs).2.2 hst)
  have hp := Ipm.C78_pivots h hne hsq hin hr
  obtain ⟨h1, h2⟩ := C82_independent (K := K) M hv s hs
  refine ⟨fun ha => hp.2 (h1 ha), ?_⟩
  rintro ⟨n, hn, hk, hpass, hloose⟩
  by_contra hcon
  refine hloose (h2 (hp.1 fun i hi h0 => hcon ⟨i, hi, h0⟩) n hn hk hpass)

/-! ## Cases -/

theorem netM_anchored : ∀ n ∈ netM.net.nodes, n.kind = .link → Anchored netM.net n.index := by
  intro n hn hk
  rw [netM_nodes] at hn
  simp only [List.mem_cons, List.not_mem_nil, or_false] at hn
  have hbase : Anchored netM.net 0 := .here (n := ⟨0, ("in", none), .input, [], [0, 3], []⟩) (by rw [netM_nodes]; rfl) (by simp)
  rcases hn with rfl | rfl | rfl | rfl | rfl
  · cases hk
  · exact .up (e := ⟨0, 0, 1⟩) (by decide +kernel) hbase
  · cases hk
  · cases hk
  · cases hk

/-- An input and an output, and beside them three links in a ring with a shortcut. -/
def ringB : Topology.Builder :=
  ⟨[⟨("in", none), .input⟩, ⟨("out", none), .output⟩, ⟨("a", none), .link⟩, ⟨("b", none), .link⟩, ⟨("c", none), .link⟩],
   [⟨("in", none), ("out", none)⟩, ⟨("a", none), ("b", none)⟩, ⟨("b", none), ("c", none)⟩, ⟨("a", none), ("c", none)⟩,
    ⟨("c", none), ("a", none)⟩], []⟩

/-- Only the input has a limit. -/
def ringM : Model where
  net := netOf ringB
  data
    | 0 => { plainNode with maxFlow := some (.const 10) }
    | _ => plainNode
  aggs := []
  vs := []

theorem ringM_valid : ringM.Valid :=
  ⟨⟨ringB, netOf_built ringB (by decide +kernel)⟩, by simp [ringM], by simp [ringM]⟩

theorem ringM_edges : ringM.net.edges = [⟨0, 0, 1⟩, ⟨1, 2, 3⟩, ⟨2, 3, 4⟩, ⟨3, 2, 4⟩, ⟨4, 4, 2⟩] := by decide +kernel

theorem ringM_loose : ∀ i, Anchored ringM.net i → i < 2 := by
  intro i h
  have hnodes : ∀ k < 5, 2 ≤ k → ((ringM.net.nodes[k]?).map (·.kind)) = some .link := by decide +kernel
  have hlen : ringM.net.nodes.length = 5 := by decide +kernel
  induction h with
  | @here i n hn hk =>
    by_contra hcon
    have hlt := (List.getElem?_eq_some_iff.1 hn).1
    have := hnodes i (by omega) (by omega)
    rw [hn] at this
    exact hk (Option.some.inj this)
  | @down e he _ ih =>
    rw [ringM_edges] at he
    simp only [List.mem_cons, List.not_mem_nil, or_false] at he
    rcases he with rfl | rfl | rfl | rfl | rfl <;> simp_all
  | @up e he _ ih =>
    rw [ringM_edges] at he
    simp only [List.mem_cons, List.not_mem_nil, or_false] at he
    rcases he with rfl | rfl | rfl | rfl | rfl <;> simp_all

/-- **C82 (rings).** A network the builder accepts, with a solution, that the solver cannot treat: at the starting point a pivot is
zero, whatever the right-hand sides. -/
theorem C82_ring_refuted : ∃ (M : Model) (s : Built) (st : Setup ℝ), M.Valid ∧ create M = .ok s ∧ accepted ipmFeatures M = true ∧
    mkSetup (castCsr ℝ s.lp.csr) (1 / 10) (1 / 10) (1 / 10) = some st ∧ ∀ l dy : List ℝ, l.length = st.ix.l.lInd.length →
      dy.length = (castCsr ℝ s.lp.csr).nrows → ∃ i < (castCsr ℝ s.lp.csr).nrows,
        (factor st (decompose Real.sqrt (castCsr ℝ s.lp.csr) st.ix.l
          (Ipm.initPoint (castCsr ℝ s.lp.csr).nrows (castCsr ℝ s.lp.csr).ncols s.lp.inequality.nrows) l)).entry i i = 0 := by
  have hne : ringM.net.edges ≠ [] := by rw [ringM_edges]; simp
  obtain ⟨s, hs⟩ := (C77_create ringM ringM_valid).1.2 hne
  have hedges : ∀ n ∈ ringM.net.nodes, n.incoming ≠ [] ∨ n.outgoing ≠ [] := by decide +kernel
  obtain ⟨st, hst⟩ := C82_setup (K := ℝ) ringM ringM_valid s (.create hs) (1 / 10) (1 / 10) (1 / 10) (fun n hn _ => hedges n hn)
  refine ⟨ringM, s, st, ringM_valid, hs, (C77_features ringM).1.2 ⟨rfl, rfl⟩, hst, fun l dy hl hdy => ?_⟩
  have hrows : s.lp.inequality.nrows ≤ (castCsr ℝ s.lp.csr).nrows := by
    obtain ⟨m, I, E, hc⟩ := reach_created ringM_valid (.create hs)
    have h1 : s.lp.inequality.nrows = I.length := by rw [hc.ineq, nrows_ofRows]
    have h2 : (castCsr ℝ s.lp.csr).nrows = (I ++ E).length := by rw [hc.csr]; rfl
    rw [h1, h2, List.length_append]; omega
  obtain ⟨hok, t, ht, he⟩ := Ipm.mkSetup_inv hst ((castCsr_noEmptyRow _).2 ((C77_matrix ringM ringM_valid s (.create hs)).2.2 hedges))
  let ln : Lane ℝ := ⟨[], [], Ipm.initPoint (castCsr ℝ s.lp.csr).nrows (castCsr ℝ s.lp.csr).ncols s.lp.inequality.nrows, l, dy⟩
  have := (C82_pivots ringM ringM_valid s (.create hs) (1 / 10) (1 / 10) (1 / 10) st hst hedges Real.sqrt Ipm.real_isSqrt ln
    (Ipm.init_inside _ _ hrows) ⟨hl, by rw [he]; exact hdy⟩).2
  refine this ⟨⟨2, ("a", none), .link, [4], [1, 3], []⟩, by decide +kernel, rfl, by simp, fun h => ?_⟩
  have := ringM_loose _ h
  simp at this

/-- The hypotheses of `C82_setup` and the first half of `C82_pivots` are met by `netM`. -/
theorem C82_case : ∃ s, create netM = .ok s ∧ (∀ n ∈ netM.net.nodes, n.kind = .link → Anchored netM.net n.index) ∧
    (∀ n ∈ netM.net.nodes, n.incoming ≠ [] ∨ n.outgoing ≠ []) ∧ ∃ n ∈ netM.net.nodes, n.kind = .link := by
  obtain ⟨s, hs⟩ := (C77_create netM netM_valid).1.2 netM_edges
  exact ⟨s, hs, netM_anchored, by decide +kernel, by decide +kernel⟩

end Verif.IpmLp
