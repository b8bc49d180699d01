import Verif.Props.Reorder
import Verif.Props.SolverCases
import Verif.Lemmas.Simulation

/-!
# Cases for C106

The network of the cases of C56 with its nodes listed backwards and its edges listed from the third on.
-/

namespace Verif.Reorder

open Verif.Solver Verif.Topology
open Verif.Simulation (noExclusivity_ok)

/-- Where a node goes. -/
def back (i : Nat) : Nat := if i < 5 then 4 - i else i

theorem back_back (i : Nat) : back (back i) = i := by unfold back; split_ifs <;> omega

/-- The nodes backwards, the edges from the third on. -/
def otherB : Builder := ⟨caseB.nodes.reverse, caseB.edges.rotate 2, caseB.vs⟩

/-- The same limits, costs, group and licence. -/
def otherM : Model where
  net := netOf otherB
  data := fun i => caseM.data (back i)
  aggs := [⟨[[2], [1]], none, none, some (.factored (.ratio [.dyn 0, .const 2]))⟩]
  vs := [⟨[(2, 1)], some (.const (-3))⟩]

theorem case_built : caseB.build = .ok caseM.net := netOf_built caseB (by decide +kernel)

theorem other_built : otherB.build = .ok otherM.net := netOf_built otherB (by decide +kernel)

theorem case_reordered : Reordered back caseB otherB where
  nodes := caseB.nodes.reverse_perm
  edges := by decide +kernel
  storages := rfl
  moved := by
    intro i
    by_cases hi : i < 5
    · interval_cases i <;> decide +kernel
    · have h1 : back i = i := if_neg hi
      have h2 : otherB.nodes.length = 5 := rfl
      have h3 : caseB.nodes.length = 5 := rfl
      rw [h1, List.getElem?_eq_none (by omega), List.getElem?_eq_none (by omega)]

theorem case_sameModel : SameModel back caseM otherM where
  data := fun i => congrArg caseM.data (back_back i)
  aggs := by decide +kernel
  vs := by decide +kernel

theorem case_sameState : SameState back caseSt caseSt := ⟨rfl, fun _ => rfl, rfl, rfl, rfl⟩

theorem case_treated : Treated caseM := ⟨caseM_valid, (noExclusivity_ok caseM_exclusivity).1, caseM_factors⟩

theorem other_exclusivity : otherM.NoExclusivity := by
  unfold Model.NoExclusivity
  decide +kernel

/-- So is the other network. -/
example : Treated otherM := case_treated.moved case_reordered case_sameModel case_built other_built

/-- Flows given by the ends of edges. -/
def caseφ (e : EdgeDecl) : ℚ :=
  if e.src = ("in", none) then (if e.dst = ("mid", none) then 6 else 3)
  else if e.src = ("mid", none) then (if e.dst = ("out1", none) then 2 else 4)
  else 1

/-- Another step, with another ratio of the outputs. -/
def caseSt2 : StepState := { caseSt with metric := fun k => [some (3 / 2), some 10, some 2][k]?.join }

/-- The case: the other network does one step more before; both then make a program, the flows 6, 2, 4, 3, 1 are allowed by the
first, so they are by the second, at the same cost; and flows of least cost of one are of the other. -/
example : otherM.net ≠ caseM.net ∧ ∃ s s' s₁ s₁', Reach caseM f64MAX (-f64MAX) [] s ∧ Reach otherM f64MAX (-f64MAX) [] s' ∧
    step caseM s caseSt2 = .ok s₁ ∧ step otherM s' caseSt2 = .ok s₁' ∧ Costs s₁ caseB caseφ (-3) ∧ Costs s₁' otherB caseφ (-3) ∧
    ∀ φ, Best s₁' otherB φ ↔ Best s₁ caseB φ := by
  have h1 := built_ok caseM (by decide +kernel)
  have h1' := built_ok otherM (by decide +kernel)
  have r1 : Reach caseM f64MAX (-f64MAX) [] (built caseM) := .create _ h1
  have r1' : Reach otherM f64MAX (-f64MAX) [] (built otherM) := .create _ h1'
  have h2' := stepped_ok otherM (built otherM) caseSt (by decide +kernel)
  have r2' := Reach.step _ _ _ r1' h2'
  have h2 := stepped_ok caseM (built caseM) caseSt2 (by decide +kernel)
  have hs : SameState back caseSt2 caseSt2 := ⟨rfl, fun _ => rfl, rfl, rfl, rfl⟩
  obtain ⟨s₁', h3'⟩ := (C106_step case_reordered case_sameModel hs case_built other_built case_treated (noExclusivity_ok caseM_exclusivity).2
      (noExclusivity_ok other_exclusivity).2 r1 r2').2 ⟨_, h2⟩
  have hc : Costs (stepped caseM (built caseM) caseSt2) caseB caseφ (-3) := by
    refine ⟨vals [6, 2, 4, 3, 1], Lp.check_feasible _ _ (by decide +kernel), fun k e he => ?_, by decide +kernel⟩
    have hk : k < 5 := (List.getElem?_eq_some_iff.1 he).1
    have : ((caseB.edges[k]?).map fun e => decide ((stepped caseM (built caseM) caseSt2).flow (vals [6, 2, 4, 3, 1]) k = caseφ e)) = some true := by
      interval_cases k <;> decide +kernel
    rw [he] at this
    exact of_decide_eq_true (Option.some.inj this)
  refine ⟨by decide +kernel, _, _, _, s₁', r1, r2', h2, h3', hc, ?_, fun φ => ?_⟩
  · exact (C106_flows case_reordered case_sameModel hs case_built other_built case_treated (noExclusivity_ok caseM_exclusivity).2
      (noExclusivity_ok other_exclusivity).2 million_le_max r1 r2' (by decide +kernel) h2 h3'
      caseφ (-3)).2 hc
  · exact C106_best case_reordered case_sameModel hs case_built other_built case_treated (noExclusivity_ok caseM_exclusivity).2
      (noExclusivity_ok other_exclusivity).2 million_le_max r1 r2' (by decide +kernel) h2 h3' φ

/-- Both orders build, and any order is described. -/
example : (∃ net, otherB.build = .ok net) ∧ ∃ ρ, Reordered ρ caseB otherB :=
  ⟨(C106_builds case_reordered).2 ⟨_, case_built⟩, C106_any _ _ caseB.nodes.reverse_perm (by decide +kernel) rfl⟩

/-! ## With a choice of groups -/

/-- Where a node of four goes. -/
def turn (i : Nat) : Nat := if i < 4 then 3 - i else i

theorem turn_turn (i : Nat) : turn (turn i) = i := by unfold turn; split_ifs <;> omega

/-- The nodes and the edges backwards. -/
def turnB : Builder := ⟨twoB.nodes.reverse, twoB.edges.reverse, twoB.vs⟩

/-- The same limits and groups. -/
def turnM : Model where
  net := netOf turnB
  data := fun i => eitherM.data (turn i)
  aggs := [⟨[[3], [1]], none, none, some (.exclusive 1 1)⟩]
  vs := []

theorem either_built : twoB.build = .ok eitherM.net := netOf_built twoB (by decide +kernel)

theorem turn_built : turnB.build = .ok turnM.net := netOf_built turnB (by decide +kernel)

theorem either_reordered : Reordered turn twoB turnB where
  nodes := twoB.nodes.reverse_perm
  edges := twoB.edges.reverse_perm
  storages := rfl
  moved := by
    intro i
    by_cases hi : i < 4
    · interval_cases i <;> decide +kernel
    · have h1 : turn i = i := if_neg hi
      have h2 : turnB.nodes.length = 4 := rfl
      have h3 : twoB.nodes.length = 4 := rfl
      rw [h1, List.getElem?_eq_none (by omega), List.getElem?_eq_none (by omega)]

theorem either_sameModel : SameModel turn eitherM turnM where
  data := fun i => congrArg eitherM.data (turn_turn i)
  aggs := by decide +kernel
  vs := by decide +kernel

theorem either_treated : Treated eitherM := ⟨exclusiveM_valid _, eitherM_constant, eitherM_factors⟩

theorem turnM_groups : GroupsAre turnM [[1], [3]] := by
  intro g
  constructor
  · intro h
    exact ⟨⟨[[3], [1]], none, none, some (.exclusive 1 1)⟩, by simp [turnM], 1, 1, rfl, by simpa [or_comm] using h⟩
  · rintro ⟨a, ha, mn, mx, he, hg⟩
    have ha' : a = ⟨[[3], [1]], none, none, some (.exclusive 1 1)⟩ := by simpa [turnM] using ha
    subst ha'
    simpa [or_comm] using hg

/-- Flows of 7 from one input and none from the other. -/
def eitherφ (e : EdgeDecl) : ℚ := if twoB.edges[1]? = some e then 7 else 0

/-- The case: exactly one of two inputs gives between 2 and 10. Both orders make a program, the flows 0 and 7 are allowed by the
first, so they are by the second, though the columns of groups and edges have other places; and flows of least cost of one are of the
other. -/
example : turnM.net ≠ eitherM.net ∧ ∃ s s' s₁ s₁', Reach eitherM f64MAX (-f64MAX) [[0], [2]] s ∧ Reach turnM f64MAX (-f64MAX) [[1], [3]] s' ∧
    step eitherM s lostSt = .ok s₁ ∧ step turnM s' lostSt = .ok s₁' ∧ Costs s₁ twoB eitherφ 0 ∧ Costs s₁' turnB eitherφ 0 ∧
    ∀ φ, Best s₁' turnB φ ↔ Best s₁ twoB φ := by
  have h1 := builtWith_ok eitherM [[0], [2]] (by decide +kernel)
  have h1' := builtWith_ok turnM [[1], [3]] (by decide +kernel)
  have r1 : Reach eitherM f64MAX (-f64MAX) [[0], [2]] _ := .create _ h1
  have r1' : Reach turnM f64MAX (-f64MAX) [[1], [3]] _ := .create _ h1'
  have h2 := stepped_ok eitherM (builtWith eitherM [[0], [2]]) lostSt (by decide +kernel)
  have hg : GroupsAre eitherM [[0], [2]] := fun g => by rw [eitherM_groups]; simp
  have hs : SameState turn lostSt lostSt := ⟨rfl, fun _ => rfl, rfl, rfl, rfl⟩
  obtain ⟨s₁', h2'⟩ := (C106_step either_reordered either_sameModel hs either_built turn_built either_treated hg turnM_groups r1 r1').2 ⟨_, h2⟩
  have hc : Costs (stepped eitherM (builtWith eitherM [[0], [2]]) lostSt) twoB eitherφ 0 := by
    refine ⟨vals [0, 7, 0, 1], Lp.checkInt_feasible _ _ (by decide +kernel), fun k e he => ?_, by decide +kernel⟩
    have hk : k < 2 := (List.getElem?_eq_some_iff.1 he).1
    have : ((twoB.edges[k]?).map fun e => decide ((stepped eitherM (builtWith eitherM [[0], [2]]) lostSt).flow (vals [0, 7, 0, 1]) k = eitherφ e)) = some true := by
      interval_cases k <;> decide +kernel
    rw [he] at this
    exact of_decide_eq_true (Option.some.inj this)
  refine ⟨by decide +kernel, _, _, _, s₁', r1, r1', h2, h2', hc, ?_, fun φ => ?_⟩
  · exact (C106_flows either_reordered either_sameModel hs either_built turn_built either_treated hg turnM_groups million_le_max r1 r1'
      (by decide +kernel) h2 h2' eitherφ 0).2 hc
  · exact C106_best either_reordered either_sameModel hs either_built turn_built either_treated hg turnM_groups million_le_max r1 r1'
      (by decide +kernel) h2 h2' φ

end Verif.Reorder
