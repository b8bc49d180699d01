import Verif.Props.Backends

/-! # C94, C95: cases -/

namespace Verif.Backends

open Verif.Solver
open Verif.Topology (Network TNode Builder)

/-- Check of a program held by a library at `x`. -/
def Held.check (h : Held) (x : Nat → ℚ) : Bool :=
  ((List.range h.rows.length).all fun i =>
    decide (h.rowLower.getD i 0 ≤ value (h.rows.getD i []) x ∧ value (h.rows.getD i []) x ≤ h.rowUpper.getD i 0)) &&
  ((List.range h.colLower.length).all fun c => decide (h.colLower.getD c 0 ≤ x c ∧ x c ≤ h.colUpper.getD c 0)) &&
  (List.range h.integer.length).all fun c => decide (h.integer[c]? = some true → (x c).den = 1)

theorem Held.check_feasible (h : Held) (x : Nat → ℚ) (hc : h.check x = true) : h.Feasible x := by
  unfold Held.check at hc
  simp only [Bool.and_eq_true, List.all_eq_true, List.mem_range, decide_eq_true_eq] at hc
  obtain ⟨⟨h1, h2⟩, h3⟩ := hc
  refine ⟨fun i row lo hi hr hlo hhi => ?_, fun c lo hi hlo hhi => ?_, fun c hi => ?_⟩
  · have := h1 i (List.getElem?_eq_some_iff.1 hr).1
    rw [List.getD_eq_getElem?_getD, List.getD_eq_getElem?_getD, List.getD_eq_getElem?_getD, hlo, hhi, hr] at this
    exact this
  · have := h2 c (List.getElem?_eq_some_iff.1 hlo).1
    rw [List.getD_eq_getElem?_getD, List.getD_eq_getElem?_getD, hlo, hhi] at this
    exact this
  · have := h3 c (List.getElem?_eq_some_iff.1 hi).1 hi
    exact ⟨(x c).num, ((Rat.den_eq_one_iff _).1 this).symm⟩

/-- The session after setup and steps, or an arbitrary one. -/
def session (L : Library) (M : Model) (sets : List (List Nat)) (sts : List StepState) : Session :=
  match L.setup M sets with
  | .error _ => ⟨⟨(LpBuilder.new 0 0).build, [], [], [], [], []⟩, Held.empty⟩
  | .ok S =>
    match L.prepareAll M sts S with
    | .error _ => S
    | .ok S' => S'

/-- Setup and steps succeed. -/
def works (L : Library) (M : Model) (sets : List (List Nat)) (sts : List StepState) : Bool :=
  match L.setup M sets with
  | .error _ => false
  | .ok S => (L.prepareAll M sts S).toBool

theorem session_ok {L : Library} {M : Model} {sets : List (List Nat)} {sts : List StepState} (h : works L M sets sts = true) :
    ∃ S, L.setup M sets = .ok S ∧ L.prepareAll M sts S = .ok (session L M sets sts) := by
  unfold works at h
  unfold session
  cases h1 : L.setup M sets with
  | error e => simp [h1] at h
  | ok S =>
    simp only [h1] at h
    refine ⟨S, rfl, ?_⟩
    cases h2 : L.prepareAll M sts S with
    | error e => rw [h2] at h; cases h
    | ok S' => simp only [h2]

/-- The case of `Props/SolverCases.lean` with another ratio of the outputs. -/
def caseSt2 : StepState := { caseSt with metric := fun k => [some (3 / 2), some 10, some 2][k]?.join }

/-- A ratio of four times ten thousand million to two. -/
def caseSt3 : StepState := { caseSt with metric := fun k => [some 40000000000, some 10, some 2][k]?.join }

theorem caseM_constant : MembersConstant caseM := fun a ha mn mx he => by
  rw [caseM_exclusivity a ha] at he; cases he

theorem caseM_groups : GroupsAre caseM [] := fun g => by
  simp only [List.not_mem_nil, false_iff]
  rintro ⟨a, ha, mn, mx, he, -⟩
  rw [caseM_exclusivity a ha] at he; cases he

theorem caseM_defined (st : StepState) (h : (step caseM (built caseM) st).toBool = true) : Defined caseM st :=
  (C56_defined caseM caseM_valid caseM_exclusivity caseM_factors _ _ _ (.create _ (built_ok caseM (by decide +kernel))) st).1
    ⟨_, stepped_ok _ _ _ h⟩

theorem small_of {M : Model} {k : ℚ} {st : StepState} (h : (M.aggs.all fun a =>
    match a.factors with
    | none => true
    | some F =>
      match F.pairs a.nodes st.metric with
      | .error _ => true
      | .ok ps => ps.all fun p => (p.f0.toList ++ p.f1.toList).all fun v => decide (|v| ≤ k)) = true) : SmallFactors M k st := by
  intro a ha F ps hF hps p hp v hv
  have := List.all_eq_true.1 h a ha
  simp only [hF, hps, List.all_eq_true] at this
  have := this p hp v (by rcases hv with h | h <;> simp [h])
  exact of_decide_eq_true this

/-- The hypotheses of `C94_allocation` and `C95_best` for Clp and HiGHS are met, in a network with a ratio that changes. -/
example : caseM.Valid ∧ MembersConstant caseM ∧ caseM.FactorsOk ∧ GroupsAre caseM [] ∧ caseM.net.edges ≠ [] ∧
    Verif.IpmLp.accepted Library.clp.features caseM = true ∧ Verif.IpmLp.accepted Library.highs.features caseM = true ∧
    (∀ t ∈ [caseSt] ++ [caseSt2], Defined caseM t ∧ SmallFactors caseM 10000000000 t) ∧ 0 < caseSt2.days := by
  refine ⟨caseM_valid, caseM_constant, caseM_factors, caseM_groups, by decide +kernel, by decide +kernel, by decide +kernel, ?_, by decide +kernel⟩
  intro t ht
  simp only [List.cons_append, List.nil_append, List.mem_cons, List.not_mem_nil, or_false] at ht
  rcases ht with rfl | rfl
  · exact ⟨caseM_defined _ (by decide +kernel), small_of (by decide +kernel)⟩
  · exact ⟨caseM_defined _ (by decide +kernel), small_of (by decide +kernel)⟩

/-- The flows 6, 2, 4, 3, 1 solve the program in Clp and HiGHS after the second step, but not after the first. -/
example : (∀ L, L = .clp ∨ L = .highs → works L caseM [] [caseSt, caseSt2] = true ∧
    (session L caseM [] [caseSt, caseSt2]).held.check (vals [6, 2, 4, 3, 1]) = true ∧
    (session L caseM [] [caseSt]).held.check (vals [6, 2, 4, 3, 1]) = false) ∧
    clpResult (session .clp caseM [] [caseSt, caseSt2]).built.cols 0 [6, 2, 4, 3, 1] = .flows [6, 2, 4, 3, 1] ∧
    clpResult (session .clp caseM [] [caseSt, caseSt2]).built.cols 1 [6, 2, 4, 3, 1] = .error := by
  refine ⟨?_, by decide +kernel, by decide +kernel⟩
  rintro L (rfl | rfl) <;> decide +kernel

/-- The hypotheses for Cbc are met, with a choice of groups. -/
example : eitherM.Valid ∧ MembersConstant eitherM ∧ eitherM.FactorsOk ∧ GroupsAre eitherM [[0], [2]] ∧ eitherM.net.edges ≠ [] ∧
    Verif.IpmLp.accepted Library.cbc.features eitherM = true ∧ (∀ t ∈ [lostSt] ++ [lostSt], Defined eitherM t) ∧
    0 < lostSt.days ∧ works .cbc eitherM [[0], [2]] [lostSt, lostSt] = true ∧
    (session .cbc eitherM [[0], [2]] [lostSt, lostSt]).held.Optimal (point [0, 7, 0, 1]) ∧
    cbcResult (session .cbc eitherM [[0], [2]] [lostSt, lostSt]).built.cols 0 .optimal [0, 7, 0, 1] = .flows [0, 7] := by
  have hg : GroupsAre eitherM [[0], [2]] := fun g => by rw [eitherM_groups]; simp
  refine ⟨exclusiveM_valid _, eitherM_constant, eitherM_factors, hg, by decide +kernel, by decide +kernel, ?_, by decide +kernel,
    by decide +kernel, ⟨Held.check_feasible _ _ (by decide +kernel), fun y _ => ?_⟩, by decide +kernel⟩
  · intro t ht
    simp only [List.cons_append, List.nil_append, List.mem_cons, List.not_mem_nil, or_false, or_self] at ht
    subst ht
    exact (C86_defined eitherM (exclusiveM_valid _) eitherM_constant eitherM_factors _ hg _ _ _
      (.create _ (builtWith_ok _ _ (by decide +kernel))) _).1 ⟨_, stepped_ok _ _ _ (by decide +kernel)⟩
  · have e : (session .cbc eitherM [[0], [2]] [lostSt, lostSt]).held.colObj = [0, 0, 0, 0] := by decide +kernel
    simp [Held.objective, e]

/-- HiGHS repeats a run of unknown outcome once. -/
example : highsResult [0, 1] ⟨(.ok, .unknown), .ok, (.warning, .optimal), .ok, .ok, [3, 4]⟩ = .flows [3, 4] ∧
    highsResult [0, 1] ⟨(.error, .optimal), .ok, (.ok, .optimal), .ok, .ok, [3, 4]⟩ = .flows [3, 4] ∧
    highsResult [0, 1] ⟨(.ok, .unknown), .ok, (.ok, .unknown), .ok, .ok, [3, 4]⟩ = .error ∧
    highsResult [0, 1] ⟨(.ok, .notOptimal), .ok, (.ok, .optimal), .ok, .ok, [3, 4]⟩ = .error := by decide

/-- **C94, refuted for large factors with HiGHS.** Everything else required is there, but the program in HiGHS has a solution
with flows 1 and 1/10000000000 of the outputs where their ratio should be 20000000000. -/
theorem C94_clamp_refuted : ∃ (M : Model) (st : StepState) (S S' : Session) (x : Nat → ℚ), M.Valid ∧ MembersConstant M ∧ M.FactorsOk ∧
    GroupsAre M [] ∧ M.net.edges ≠ [] ∧ Verif.IpmLp.accepted Library.highs.features M = true ∧ Defined M st ∧ 0 < st.days ∧
    Library.highs.setup M [] = .ok S ∧ Library.highs.prepareAll M [st] S = .ok S' ∧ S'.held.Feasible x ∧
    ¬ AllowedChoice M st (S'.built.flow x) := by
  obtain ⟨S, h1, h2⟩ := session_ok (L := .highs) (M := caseM) (sets := []) (sts := [caseSt3]) (by decide +kernel)
  refine ⟨caseM, caseSt3, S, _, vals [1 + 1 / 10000000000, 1, 1 / 10000000000, 0, 0], caseM_valid, caseM_constant, caseM_factors,
    caseM_groups, by decide +kernel, by decide +kernel, caseM_defined _ (by decide +kernel), by decide +kernel, h1, h2,
    Held.check_feasible _ _ (by decide +kernel), ?_⟩
  intro ha
  have := ((C86_plain caseM caseM_exclusivity _ _).1 ha).check
  revert this
  decide +kernel

/-- **C94, refuted for exclusive nodes with varying members in Cbc.** Cbc has the features such a network asks for, setup
succeeds, and everything asked for is there, but the step ends with missing features. -/
theorem C94_cbc_refuted : ∃ (M : Model) (st : StepState) (S : Session), M.Valid ∧ GroupsAre M [[0], [2]] ∧
    Verif.IpmLp.accepted Library.cbc.features M = true ∧ Library.cbc.setup M [[0], [2]] = .ok S ∧
    (∃ s', step M S.built st = .ok s') ∧ Library.cbc.prepare M S st = .error .missingFeatures := by
  obtain ⟨S, h1, h2⟩ := session_ok (L := .cbc) (M := exclusiveM { plainNode with maxFlow := some (.dyn 0) }) (sets := [[0], [2]]) (sts := []) (by decide +kernel)
  have h2 : S = session .cbc (exclusiveM { plainNode with maxFlow := some (.dyn 0) }) [[0], [2]] [] := by
    simpa [Library.prepareAll] using h2
  subst h2
  refine ⟨_, lostSt, _, exclusiveM_valid _, ?_, by decide +kernel, h1, ⟨_, stepped_ok _ _ _ (by decide +kernel)⟩, ?_⟩
  · intro g
    constructor
    · intro h
      exact ⟨⟨[[0], [2]], none, none, some (.exclusive 1 1)⟩, by simp [exclusiveM], 1, 1, rfl, h⟩
    · rintro ⟨a, ha, mn, mx, he, hg⟩
      have ha' : a = ⟨[[0], [2]], none, none, some (.exclusive 1 1)⟩ := by simpa [exclusiveM] using ha
      subst ha'
      exact hg
  · have : (match Library.cbc.prepare (exclusiveM { plainNode with maxFlow := some (.dyn 0) })
        (session .cbc (exclusiveM { plainNode with maxFlow := some (.dyn 0) }) [[0], [2]] []) lostSt with
        | .error .missingFeatures => true
        | _ => false) = true := by decide +kernel
    split at this
    · assumption
    · cases this

/-- An input that must give 5 but not more than 3. -/
def impossibleM : Model :=
  ⟨netOf twoB, fun i => if i = 0 then { plainNode with minFlow := some (.const 5), maxFlow := some (.const 3) } else plainNode, [], []⟩

theorem impossibleM_valid : impossibleM.Valid :=
  ⟨⟨twoB, netOf_built twoB (by decide +kernel)⟩, by simp [impossibleM], by simp [impossibleM]⟩

theorem impossibleM_none (st : StepState) (f : Nat → ℚ) : ¬ AllowedChoice impossibleM st f := by
  intro h
  obtain ⟨n, hn, hi, hk⟩ : ∃ n ∈ impossibleM.net.nodes, n.index = 0 ∧ n.kind ≠ .storage := by decide +kernel
  have := h.nodes n hn (by rintro ⟨g, ⟨a, ha, -⟩, -⟩; simp [impossibleM] at ha)
  unfold NodeOk at this
  rw [if_neg hk, hi] at this
  obtain ⟨⟨l, h1, h2⟩, u, h3, h4⟩ := this
  simp only [impossibleM, if_true, Metric.get, Option.some.injEq] at h1 h3
  linarith

/-- **C95, refuted for Cbc.** There is nothing to allocate, Cbc reports that the program has no solution, and the step returns
flows all the same. -/
theorem C95_cbc_refuted : ∃ (M : Model) (st : StepState) (S S' : Session) (values f : List ℚ), M.Valid ∧ Defined M st ∧
    Library.cbc.setup M [] = .ok S ∧ Library.cbc.prepareAll M [st] S = .ok S' ∧ (∀ x, ¬ S'.held.Feasible x) ∧
    (∀ g, ¬ AllowedChoice M st g) ∧ cbcResult S'.built.cols 0 .infeasible values = .flows f := by
  obtain ⟨S, h1, h2⟩ := session_ok (L := .cbc) (M := impossibleM) (sets := []) (sts := [lostSt]) (by decide +kernel)
  have hmc : MembersConstant impossibleM := fun a ha => by simp [impossibleM] at ha
  have hf : impossibleM.FactorsOk := by
    refine ⟨fun a ha => ?_, fun a ha => ?_, fun a ha => ?_, fun a ha => ?_, List.Pairwise.nil⟩ <;> simp [impossibleM] at ha
  have hg : GroupsAre impossibleM [] := fun g => by simp [IsGroup, impossibleM]
  have hd : Defined impossibleM lostSt := (C86_defined impossibleM impossibleM_valid hmc hf _ hg _ _ _
    (.create _ (builtWith_ok _ _ (by decide +kernel))) _).1 ⟨_, stepped_ok _ _ _ (by decide +kernel)⟩
  refine ⟨impossibleM, lostSt, S, _, [3, 0], [3, 0], impossibleM_valid, hd, h1, h2, fun x hx => ?_, impossibleM_none _, by decide +kernel⟩
  obtain ⟨T, T', e1, e2, -, e3, -⟩ := C94_allocation .cbc impossibleM impossibleM_valid hmc hf [] hg (by decide +kernel)
    (by decide +kernel) [] lostSt (by simpa using hd) (by decide +kernel) (by intro h; cases h)
  rw [h1] at e1; cases e1
  have e2' : Library.cbc.prepareAll impossibleM [lostSt] S = .ok T' := e2
  rw [h2] at e2'; cases e2'
  exact impossibleM_none _ _ (e3 x hx).1

/-- With Microlp the run ends there instead. -/
example : (match microPrepare impossibleM (built impossibleM) lostSt with | .error .panic => true | _ => false) = true := by decide +kernel

/-- The hypotheses of `C94_microlp` are met; the problem has two binary variables and eight constraints. -/
example : ∃ s s', Reach eitherM f64MAX (-f64MAX) [[0], [2]] s ∧ step eitherM s lostSt = .ok s' ∧
    (match microPrepare eitherM s lostSt with
    | .ok (_, p) => decide (p.vars.map Var.integer = [false, false, true, true] ∧ p.constraints.length = 8)
    | .error _ => false) = true :=
  ⟨_, _, .create _ (builtWith_ok eitherM [[0], [2]] (by decide +kernel)), stepped_ok eitherM _ lostSt (by decide +kernel), by decide +kernel⟩

end Verif.Backends
