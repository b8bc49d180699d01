import Verif.Props.Solver

/-!
# Cases for C20, C22, C23 and C56

A model that meets the hypotheses of the theorems in `Props/Solver.lean`, and models for which factors are not followed.
-/

namespace Verif.Solver

open Verif.State (NodeKind Edge)
open Verif.Topology (Network TNode Builder)

/-! ## Checkers -/

/-- Check of all rows and of the columns at `x`. -/
def Lp.check (lp : Lp) (x : Nat → ℚ) : Bool :=
  ((List.range lp.rowLower.length).all fun i =>
    decide (lp.rowLower.getD i 0 ≤ value (lp.entries i) x ∧ value (lp.entries i) x ≤ lp.rowUpper.getD i 0)) &&
  ((List.range lp.colLower.length).all fun c =>
    decide (lp.colLower.getD c 0 ≤ x c ∧ x c ≤ lp.colUpper.getD c 0) && decide (lp.colType[c]? ≠ some .integer))

theorem Lp.check_feasible (lp : Lp) (x : Nat → ℚ) (h : lp.check x = true) : lp.Feasible x := by
  unfold Lp.check at h
  simp only [Bool.and_eq_true, List.all_eq_true, List.mem_range, decide_eq_true_eq] at h
  obtain ⟨h1, h2⟩ := h
  constructor
  · intro i lo hi hlo hhi
    have := h1 i (List.getElem?_eq_some_iff.1 hlo).1
    rw [List.getD_eq_getElem?_getD, List.getD_eq_getElem?_getD, hlo, hhi] at this
    exact this
  · intro c lo hi hlo hhi
    have := h2 c (List.getElem?_eq_some_iff.1 hlo).1
    rw [List.getD_eq_getElem?_getD, List.getD_eq_getElem?_getD, hlo, hhi] at this
    exact ⟨this.1.1, this.1.2, fun hi => absurd hi this.2⟩

/-- Check of the factors at a flow. -/
def factorsCheck (M : Model) (st : StepState) (f : Nat → ℚ) : Bool :=
  M.aggs.all fun a =>
    match a.factors with
    | none => true
    | some F =>
      match F.pairs a.nodes st.metric with
      | .error _ => false
      | .ok ps => ps.all fun p =>
        match p.f0, p.f1 with
        | some k0, some k1 => decide (k0 * setFlow (flowAt M.net f) p.nodes0 + k1 * setFlow (flowAt M.net f) p.nodes1 = p.rhs)
        | _, _ => false

theorem Allowed.check {M : Model} {st : StepState} {f : Nat → ℚ} (h : Allowed M st f) : factorsCheck M st f = true := by
  unfold factorsCheck
  rw [List.all_eq_true]
  intro a ha
  cases hF : a.factors with
  | none => rfl
  | some F =>
    obtain ⟨ps, h1, h2⟩ := h.factors a ha F hF
    simp only [h1, List.all_eq_true]
    intro p hp
    obtain ⟨k0, k1, e0, e1, e⟩ := h2 p hp
    simp [e0, e1, e]

/-- The network of a declaration, or an empty one. -/
def netOf (b : Builder) : Network :=
  match b.build with
  | .ok n => n
  | .error _ => ⟨[], []⟩

theorem netOf_built (b : Builder) (h : (b.build).toBool = true) : b.build = .ok (netOf b) := by
  unfold netOf
  cases hb : b.build with
  | ok n => rfl
  | error e => rw [hb] at h; cases h

/-- No bounds, no cost. -/
def plainNode : NodeData := ⟨none, none, none, none, none, none⟩

/-- Values of columns from a list. -/
def vals (l : List ℚ) : Nat → ℚ := fun c => l.getD c 0

theorem sameChain_eq {net : Network} (h : ∀ e e', ¬ PassThrough net e e') {e e' : Nat} (hs : SameChain net e e') : e = e' := by
  induction hs with
  | rel a b hab => exact absurd hab (h a b)
  | refl => rfl
  | symm _ _ _ ih => exact ih.symm
  | trans _ _ _ _ _ ih1 ih2 => exact ih1.trans ih2

theorem noPass {net : Network} (h : ∀ n ∈ net.nodes, n.kind = .link → n.incoming.length ≠ 1 ∨ n.outgoing.length ≠ 1) :
    ∀ e e', ¬ PassThrough net e e' := by
  rintro e e' ⟨n, hn, hk, hi, ho⟩
  rcases h n hn hk with h | h
  · rw [hi] at h; simp at h
  · rw [ho] at h; simp at h

/-! ## A model meeting the hypotheses -/

/-- An input feeds a link and a reservoir; the link feeds two outputs; the reservoir feeds the first output. -/
def caseB : Builder :=
  ⟨[⟨("in", none), .input⟩, ⟨("mid", none), .link⟩, ⟨("out1", none), .output⟩, ⟨("out2", none), .output⟩, ⟨("res", none), .storage⟩],
   [⟨("in", none), ("mid", none)⟩, ⟨("mid", none), ("out1", none)⟩, ⟨("mid", none), ("out2", none)⟩, ⟨("in", none), ("res", none)⟩,
    ⟨("res", none), ("out1", none)⟩],
   [⟨("lic", none), [("out1", none)]⟩]⟩

/-- Metric 0 is the ratio of the outputs, metric 1 the largest inflow, metric 2 the cost of the second output. -/
def caseM : Model where
  net := netOf caseB
  data
    | 0 => { plainNode with maxFlow := some (.dyn 1), costAgg := some .sum }
    | 2 => { plainNode with cost := some (.const (-5)), costAgg := some .max }
    | 3 => { plainNode with cost := some (.dyn 2) }
    | 4 => { plainNode with maxVolume := some (.const 100), cost := some (.const (-1)) }
    | _ => plainNode
  aggs := [⟨[[2], [3]], none, none, some (.factored (.ratio [.dyn 0, .const 2]))⟩]
  vs := [⟨[(2, 1)], some (.const (-3))⟩]

/-- State of a step. -/
def caseSt : StepState := ⟨fun k => [some 1, some 10, some 2][k]?.join, fun _ => some 40, fun _ => true, fun _ => some (30, 70), 1⟩

theorem caseM_valid : caseM.Valid := by
  refine ⟨⟨caseB, netOf_built caseB (by decide +kernel)⟩, ?_, ?_⟩
  · decide +kernel
  · decide +kernel

theorem caseM_noPass : ∀ e e', ¬ PassThrough caseM.net e e' := noPass (by decide +kernel)

theorem caseM_factors : caseM.FactorsOk := by
  have hset : ∀ a ∈ caseM.aggs, a.setupPairs = [⟨[2], some (some 1), [3], none, 0⟩] := by decide +kernel
  have hed : (CPair.mk [2] (some (some 1)) [3] none 0).edges caseM.net = [1, 4, 2] := by decide +kernel
  refine ⟨?_, ?_, ?_, ?_, ?_⟩
  · intro a ha F hF
    simp only [caseM, List.mem_singleton] at ha
    subst ha
    simp only [AggNode.factors, Option.some.injEq] at hF
    subst hF
    exact ⟨[⟨[2], some (some 1), [3], none, 0⟩], by decide +kernel, by decide +kernel⟩
  · intro a ha F hF
    simp only [caseM, List.mem_singleton] at ha
    subst ha
    simp only [AggNode.factors, Option.some.injEq] at hF
    subst hF
    trivial
  · intro a ha p hp _
    rw [hset a ha, List.mem_singleton] at hp
    subst hp
    rw [hed]
    refine List.Pairwise.imp (R := fun a b => a ≠ b) ?_ (by decide)
    intro a b hab hs
    exact hab (sameChain_eq caseM_noPass hs)
  · intro a ha p hp _ i hi n hn hk
    rw [hset a ha, List.mem_singleton] at hp
    subst hp
    simp only [List.cons_append, List.nil_append, List.mem_cons, List.not_mem_nil, or_false] at hi
    have h2 : ((caseM.net.nodes[2]?).map (·.kind)) = some .output := by decide +kernel
    have h3 : ((caseM.net.nodes[3]?).map (·.kind)) = some .output := by decide +kernel
    rcases hi with rfl | rfl
    · rw [hn] at h2; simp [hk] at h2
    · rw [hn] at h3; simp [hk] at h3
  · show (([_] : List AggNode).flatMap AggNode.setupPairs).Pairwise _
    rw [List.flatMap_cons, List.flatMap_nil, List.append_nil, hset _ (by simp [caseM])]
    exact List.pairwise_singleton _ _

theorem caseM_exclusivity : caseM.NoExclusivity := by
  unfold Model.NoExclusivity
  decide +kernel

/-- The program created for the case, or an arbitrary one. -/
def built (M : Model) : Built :=
  match create M f64MAX (-f64MAX) [] with
  | .ok s => s
  | .error _ => ⟨(LpBuilder.new 0 0).build, [], [], [], [], []⟩

/-- The program of the first step, or the one created. -/
def stepped (M : Model) (s : Built) (st : StepState) : Built :=
  match step M s st with
  | .ok s => s
  | .error _ => s

theorem built_ok (M : Model) (h : (create M f64MAX (-f64MAX) []).toBool = true) : create M f64MAX (-f64MAX) [] = .ok (built M) := by
  unfold built
  cases hc : create M f64MAX (-f64MAX) [] with
  | ok s => rfl
  | error e => rw [hc] at h; cases h

theorem stepped_ok (M : Model) (s : Built) (st : StepState) (h : (step M s st).toBool = true) :
    step M s st = .ok (stepped M s st) := by
  unfold stepped
  cases hc : step M s st with
  | ok s => rfl
  | error e => rw [hc] at h; cases h

/-- The case: every value needed is there, two steps succeed, and flows 6, 2, 4, 3, 1 are allowed. -/
example : Defined caseM caseSt ∧
    ∃ s s' s'', Reach caseM f64MAX (-f64MAX) [] s ∧ step caseM s caseSt = .ok s' ∧
      step caseM s' { caseSt with metric := fun k => [some (3 / 2), some 10, some 2][k]?.join } = .ok s'' ∧
      s''.lp.Feasible (vals [6, 2, 4, 3, 1]) ∧ ¬ s'.lp.Feasible (vals [6, 2, 4, 3, 1]) := by
  have h1 := built_ok caseM (by decide +kernel)
  have r1 : Reach caseM f64MAX (-f64MAX) [] (built caseM) := .create _ h1
  have h2 := stepped_ok caseM (built caseM) caseSt (by decide +kernel)
  have h3 := stepped_ok caseM (stepped caseM (built caseM) caseSt)
    { caseSt with metric := fun k => [some (3 / 2), some 10, some 2][k]?.join } (by decide +kernel)
  refine ⟨(C56_defined caseM caseM_valid caseM_exclusivity caseM_factors _ _ _ r1 caseSt).1 ⟨_, h2⟩, _, _, _, r1, h2, h3,
    Lp.check_feasible _ _ (by decide +kernel), ?_⟩
  intro hfe
  have := ((C56_feasible caseM caseM_valid caseM_exclusivity caseM_factors _ _ _ _ r1 caseSt (by decide +kernel) h2 _).1 hfe).1.check
  revert this
  decide +kernel

/-- Costs in the case: the input takes the sum (0), the first output the larger of -5 and -3. -/
example : (∀ n ∈ caseM.net.nodes, CostIs caseM caseSt.metric n ([0, 0, -3, 2, -1].getD n.index 0)) ∧
    totalCost caseM (fun n => [0, 0, -3, 2, -1].getD n.index 0) (vals [6, 2, 4, 3, 1]) = -3 := by
  refine ⟨?_, by decide +kernel⟩
  intro n hn
  rw [← nodeCost_iff]
  revert n
  decide +kernel

/-! ## Factors that are not followed -/

/-- A valid model without exclusivity, with a step that succeeds and a solution whose flows do not obey the factors. -/
def FactorsLost (M : Model) (st : StepState) (x : Nat → ℚ) : Prop :=
  M.Valid ∧ M.NoExclusivity ∧ ∃ s s', create M f64MAX (-f64MAX) [] = .ok s ∧ step M s st = .ok s' ∧ 0 < st.days ∧
    s'.lp.Feasible x ∧ ¬ Allowed M st (s'.flow x)

theorem lost_of (M : Model) (st : StepState) (x : Nat → ℚ) (hv : M.Valid) (hx : M.NoExclusivity) (hd : 0 < st.days)
    (h1 : (create M f64MAX (-f64MAX) []).toBool = true) (h2 : (step M (built M) st).toBool = true)
    (h3 : (stepped M (built M) st).lp.check x = true) (h4 : factorsCheck M st ((stepped M (built M) st).flow x) = false) :
    FactorsLost M st x := by
  refine ⟨hv, hx, built M, _, built_ok M h1, stepped_ok M _ st h2, hd, Lp.check_feasible _ _ h3, ?_⟩
  intro ha
  rw [ha.check] at h4
  cases h4

/-- Two inputs, a reservoir and two outputs. -/
def lostB : Builder :=
  ⟨[⟨("in", none), .input⟩, ⟨("res", none), .storage⟩, ⟨("out", none), .output⟩, ⟨("in2", none), .input⟩, ⟨("out2", none), .output⟩],
   [⟨("in", none), ("res", none)⟩, ⟨("res", none), ("out", none)⟩, ⟨("in2", none), ("out2", none)⟩], []⟩

/-- A varying factor on the net inflow of the reservoir. -/
def lostStorage : Model :=
  ⟨netOf lostB, fun _ => plainNode, [⟨[[1], [4]], none, none, some (.factored (.coefficients [.dyn 0, .const (-1)] none))⟩], []⟩

/-- A state with metric 0 equal to one and metric 1 equal to two. -/
def lostSt : StepState := ⟨fun k => [some 1, some 2][k]?.join, fun _ => some 50, fun _ => false, fun _ => none, 1⟩

/-- **C23, refuted for storage nodes.** With a varying factor, what leaves a storage is counted as if it entered: the factors
ask for a net inflow of the reservoir equal to the second output, but inflow 2, outflow 1 and output 3 are a solution. -/
theorem C23_storage_sign_refuted : FactorsLost lostStorage lostSt (vals [2, 1, 3]) := by
  apply lost_of
  · exact ⟨⟨lostB, netOf_built lostB (by decide +kernel)⟩, by decide +kernel, by decide +kernel⟩
  · unfold Model.NoExclusivity; decide +kernel
  all_goals decide +kernel

/-- An input, a link and an output in a chain. -/
def chainB : Builder :=
  ⟨[⟨("in", none), .input⟩, ⟨("mid", none), .link⟩, ⟨("out", none), .output⟩],
   [⟨("in", none), ("mid", none)⟩, ⟨("mid", none), ("out", none)⟩], []⟩

/-- One varying and one constant factor on two nodes of the chain, with right-hand side 4. -/
def lostChain : Model :=
  ⟨netOf chainB, fun _ => plainNode, [⟨[[0], [2]], none, none, some (.factored (.coefficients [.dyn 0, .const 1] (some (.const 4))))⟩], []⟩

/-- **C23, refuted for nodes on one chain.** With a varying factor, factors of nodes that share a column replace each other
instead of adding up: `1 * in + 1 * out = 4` lets 4 through the chain instead of 2. -/
theorem C23_shared_column_refuted : FactorsLost lostChain lostSt (vals [4]) := by
  apply lost_of
  · exact ⟨⟨chainB, netOf_built chainB (by decide +kernel)⟩, by decide +kernel, by decide +kernel⟩
  · unfold Model.NoExclusivity; decide +kernel
  all_goals decide +kernel

/-- Two inputs, each with an output. -/
def twoB : Builder :=
  ⟨[⟨("a", none), .input⟩, ⟨("b", none), .output⟩, ⟨("c", none), .input⟩, ⟨("d", none), .output⟩],
   [⟨("a", none), ("b", none)⟩, ⟨("c", none), ("d", none)⟩], []⟩

/-- Two varying ratios of the same two inputs. -/
def lostMerged : Model :=
  ⟨netOf twoB, fun _ => plainNode, [⟨[[0], [2]], none, none, some (.factored (.ratio [.dyn 0, .const 1]))⟩,
    ⟨[[0], [2]], none, none, some (.factored (.ratio [.dyn 1, .const 1]))⟩], []⟩

/-- **C23, refuted for several relations of the same nodes.** Two aggregated nodes with varying factors on the same nodes share
one row, and only the last one counts: ratios 1 and 2 leave no flow, but flows 2 and 1 are a solution. -/
theorem C23_merged_rows_refuted : FactorsLost lostMerged lostSt (vals [2, 1]) := by
  apply lost_of
  · exact ⟨⟨twoB, netOf_built twoB (by decide +kernel)⟩, by decide +kernel, by decide +kernel⟩
  · unfold Model.NoExclusivity; decide +kernel
  all_goals decide +kernel

/-- Constant proportions that add up to more than one. -/
def lostInvalid : Model :=
  ⟨netOf lostB, fun _ => plainNode, [⟨[[0], [2], [4]], none, none, some (.factored (.proportion [.const (3 / 5), .const (3 / 5)]))⟩], []⟩

/-- **C22, refuted.** Invalid constant factors are not rejected: proportions that add up to more than one are an error in every
state, but the program is created without them and steps succeed. -/
theorem C22_invalid_ignored_refuted : (∀ a ∈ lostInvalid.aggs, ∀ F, a.factors = some F → ∀ σ ps, F.pairs a.nodes σ ≠ .ok ps) ∧
    FactorsLost lostInvalid lostSt (vals [2, 1, 3]) := by
  refine ⟨?_, ?_⟩
  · intro a ha F hF σ ps
    simp only [lostInvalid, List.mem_singleton] at ha
    subst ha
    simp only [AggNode.factors, Option.some.injEq] at hF
    subst hF
    have : Factors.pairs (.proportion [.const (3 / 5), .const (3 / 5)]) [[0], [2], [4]] σ
        = Factors.pairs (.proportion [.const (3 / 5), .const (3 / 5)]) [[0], [2], [4]] (fun _ => none) := rfl
    rw [this]
    have h2 : (Factors.pairs (.proportion [.const (3 / 5), .const (3 / 5)]) [[0], [2], [4]] (fun _ => none)).toBool = false := by
      decide +kernel
    intro h
    rw [h] at h2
    cases h2
  · apply lost_of
    · exact ⟨⟨lostB, netOf_built lostB (by decide +kernel)⟩, by decide +kernel, by decide +kernel⟩
    · unfold Model.NoExclusivity; decide +kernel
    all_goals decide +kernel

/-- A constant ratio of zero. -/
def zeroRatio : Model :=
  ⟨netOf lostB, fun _ => plainNode, [⟨[[0], [2]], none, none, some (.factored (.ratio [.const 1, .const 0]))⟩], []⟩

/-- **C22, refuted.** A constant ratio of zero, which could mean no flow, crashes the setup. -/
theorem C22_zero_ratio_panics_refuted : zeroRatio.Valid ∧ create zeroRatio f64MAX (-f64MAX) [] = .error .panic := by
  refine ⟨⟨⟨lostB, netOf_built lostB (by decide +kernel)⟩, by decide +kernel, by decide +kernel⟩, by decide +kernel⟩

end Verif.Solver
