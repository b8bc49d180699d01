import Verif.Props.SolverCases
import Verif.Lemmas.Exclusivity

/-!
# C21: mutual exclusivity

Full statement: in every solution of the program of a step, the number of groups of an exclusive aggregated node that carry flow
is between `min_active` and `max_active`, and every member keeps its own bounds when its group is active, whether the bounds are
constant or vary in time. Proved below for members with constant bounds (`C21_max_active_partial`, `C21_bounds_partial`) and for
`min_active` when every group has a member with a minimum flow (`C21_min_active_partial`). The rest does not hold in the code:
`C21_varying_refuted`, `C21_min_active_refuted`, and `C21_flow_cut` shows that flows above one million are cut off.
-/

namespace Verif.Solver

open Verif.State (NodeKind Edge)
open Verif.Topology (Network TNode Builder)

/-- **C21 (at most), partial.** When the members of an exclusive aggregated node have constant bounds, in every solution of the
program of every step at most `max_active` of its groups carry flow. -/
theorem C21_max_active_partial (M : Model) (hv : M.Valid) (big negBig : ℚ) (sets : List (List Nat)) (s s' : Built)
    (hs : Reach M big negBig sets s) (st : StepState) (h : step M s st = .ok s') (x : Nat → ℚ) (hx : s'.lp.Feasible x)
    (a : AggNode) (ha : a ∈ M.aggs) (mn mx : Nat) (hex : a.exclusivity = some (mn, mx)) (hc : AllConstant M a) :
    activeCount M.net (s'.flow x) a ≤ mx := by
  obtain ⟨cs, _, h2, h3⟩ := group_column hv hs h hx ha hex
  have := filter_le_sum (fun g => decide (Active M.net (s'.flow x) g)) x a.nodes cs (by
    refine (forall₂_mem h3).imp ?_
    rintro g c ⟨hg, h4, h5⟩
    refine ⟨by rcases h4 with h | h <;> rw [h] <;> norm_num, fun hp => ?_⟩
    obtain ⟨i, hi, hne⟩ := of_decide_eq_true hp
    obtain ⟨lo, hi', hcb⟩ := hc g hg i hi
    obtain ⟨q1, q2, _⟩ := h5 i hi lo hi' hcb
    rcases h4 with h0 | h1
    · rw [h0, mul_zero] at q2
      exact absurd (le_antisymm q2 q1) hne
    · exact h1)
  have : ((activeCount M.net (s'.flow x) a : Nat) : ℚ) ≤ (mx : ℚ) := le_trans this h2
  exact_mod_cast this

/-- **C21 (at least), partial.** When moreover every group has a member with a minimum flow, at least `min_active` groups carry
flow. -/
theorem C21_min_active_partial (M : Model) (hv : M.Valid) (big negBig : ℚ) (sets : List (List Nat)) (s s' : Built)
    (hs : Reach M big negBig sets s) (st : StepState) (h : step M s st = .ok s') (x : Nat → ℚ) (hx : s'.lp.Feasible x)
    (a : AggNode) (ha : a ∈ M.aggs) (mn mx : Nat) (hex : a.exclusivity = some (mn, mx)) (hf : AllForced M a) :
    mn ≤ activeCount M.net (s'.flow x) a := by
  obtain ⟨cs, h2, _, h3⟩ := group_column hv hs h hx ha hex
  have := sum_le_filter (fun g => decide (Active M.net (s'.flow x) g)) x a.nodes cs (by
    refine (forall₂_mem h3).imp ?_
    rintro g c ⟨hg, h4, h5⟩
    refine ⟨by rcases h4 with h | h <;> rw [h] <;> norm_num, fun hp => ?_⟩
    obtain ⟨i, hi, lo, hi', hcb, hlo⟩ := hf g hg
    obtain ⟨_, _, q3⟩ := h5 i hi lo hi' hcb
    have hz : flowAt M.net (s'.flow x) i = 0 := by
      by_contra hne
      exact (of_decide_eq_false hp) ⟨i, hi, hne⟩
    have q4 := q3 hlo
    rcases h4 with h0 | h1
    · exact h0
    · rw [hz, h1, mul_one] at q4
      have := le_max_right lo (1 / 1000000)
      linarith)
  have : (mn : ℚ) ≤ ((activeCount M.net (s'.flow x) a : Nat) : ℚ) := le_trans h2 this
  exact_mod_cast this

/-- **C21 (bounds), partial.** A member with constant bounds carries no flow or a flow within its bounds. -/
theorem C21_bounds_partial (M : Model) (hv : M.Valid) (big negBig : ℚ) (sets : List (List Nat)) (s s' : Built)
    (hs : Reach M big negBig sets s) (st : StepState) (h : step M s st = .ok s') (x : Nat → ℚ) (hx : s'.lp.Feasible x)
    (a : AggNode) (ha : a ∈ M.aggs) (mn mx : Nat) (hex : a.exclusivity = some (mn, mx)) (g : List Nat) (hg : g ∈ a.nodes)
    (i : Nat) (hi : i ∈ g) (lo up : ℚ) (hc : ConstantBounds M i lo up) :
    flowAt M.net (s'.flow x) i = 0 ∨ lo ≤ flowAt M.net (s'.flow x) i ∧ flowAt M.net (s'.flow x) i ≤ up := by
  obtain ⟨cs, _, _, h3⟩ := group_column hv hs h hx ha hex
  obtain ⟨c, _, h4, h5⟩ := forall₂_right h3 hg
  obtain ⟨q1, q2, q3⟩ := h5 i hi lo up hc
  rcases h4 with h0 | h1
  · left
    rw [h0, mul_zero] at q2
    exact le_antisymm q2 q1
  · right
    rw [h1, mul_one] at q2
    refine ⟨?_, le_trans q2 (min_le_left _ _)⟩
    by_cases hlo : lo = 0
    · rw [hlo]; exact q1
    · have := q3 hlo
      rw [h1, mul_one] at this
      exact le_trans (le_max_left _ _) this

/-- **C21 (groups switch together), partial.** When a member of a group with constant bounds carries flow, every member of the
group with a minimum flow carries at least that. -/
theorem C21_together_partial (M : Model) (hv : M.Valid) (big negBig : ℚ) (sets : List (List Nat)) (s s' : Built)
    (hs : Reach M big negBig sets s) (st : StepState) (h : step M s st = .ok s') (x : Nat → ℚ) (hx : s'.lp.Feasible x)
    (a : AggNode) (ha : a ∈ M.aggs) (mn mx : Nat) (hex : a.exclusivity = some (mn, mx)) (g : List Nat) (hg : g ∈ a.nodes)
    (hc : ∀ i ∈ g, ∃ lo hi, ConstantBounds M i lo hi) (hact : Active M.net (s'.flow x) g)
    (i : Nat) (hi : i ∈ g) (lo up : ℚ) (hb : ConstantBounds M i lo up) : lo ≤ flowAt M.net (s'.flow x) i := by
  obtain ⟨cs, _, _, h3⟩ := group_column hv hs h hx ha hex
  obtain ⟨c, _, h4, h5⟩ := forall₂_right h3 hg
  obtain ⟨q1, q2, q3⟩ := h5 i hi lo up hb
  obtain ⟨j, hj, hne⟩ := hact
  obtain ⟨lo', up', hcj⟩ := hc j hj
  obtain ⟨p1, p2, _⟩ := h5 j hj lo' up' hcj
  rcases h4 with h0 | h1
  · rw [h0, mul_zero] at p2
    exact absurd (le_antisymm p2 p1) hne
  · by_cases hlo : lo = 0
    · rw [hlo]; exact q1
    · have := q3 hlo
      rw [h1, mul_one] at this
      exact le_trans (le_max_left _ _) this

/-- **C21 (flow cut off).** A member never carries more than one million, whatever its constant maximum. -/
theorem C21_flow_cut (M : Model) (hv : M.Valid) (big negBig : ℚ) (sets : List (List Nat)) (s s' : Built)
    (hs : Reach M big negBig sets s) (st : StepState) (h : step M s st = .ok s') (x : Nat → ℚ) (hx : s'.lp.Feasible x)
    (a : AggNode) (ha : a ∈ M.aggs) (mn mx : Nat) (hex : a.exclusivity = some (mn, mx)) (g : List Nat) (hg : g ∈ a.nodes)
    (i : Nat) (hi : i ∈ g) (lo up : ℚ) (hc : ConstantBounds M i lo up) : flowAt M.net (s'.flow x) i ≤ 1000000 := by
  obtain ⟨cs, _, _, h3⟩ := group_column hv hs h hx ha hex
  obtain ⟨c, _, h4, h5⟩ := forall₂_right h3 hg
  obtain ⟨q1, q2, q3⟩ := h5 i hi lo up hc
  rcases h4 with h0 | h1
  · rw [h0, mul_zero] at q2; linarith
  · rw [h1, mul_one] at q2
    exact le_trans q2 (min_le_right _ _)

/-! ## Cases -/

/-- Check of all rows and of the columns at `x`, with integer columns. -/
def Lp.checkInt (lp : Lp) (x : Nat → ℚ) : Bool :=
  ((List.range lp.rowLower.length).all fun i =>
    decide (lp.rowLower.getD i 0 ≤ value (lp.entries i) x ∧ value (lp.entries i) x ≤ lp.rowUpper.getD i 0)) &&
  ((List.range lp.colLower.length).all fun c =>
    decide (lp.colLower.getD c 0 ≤ x c ∧ x c ≤ lp.colUpper.getD c 0) && decide (lp.colType[c]? = some .integer → (x c).den = 1))

theorem Lp.checkInt_feasible (lp : Lp) (x : Nat → ℚ) (h : lp.checkInt x = true) : lp.Feasible x := by
  unfold Lp.checkInt at h
  simp only [Bool.and_eq_true, List.all_eq_true, List.mem_range, decide_eq_true_eq] at h
  obtain ⟨h1, h2⟩ := h
  constructor
  · intro i lo hi hlo hhi
    have := h1 i (List.getElem?_eq_some_iff.1 hlo).1
    rw [List.getD_eq_getElem?_getD, List.getD_eq_getElem?_getD, hlo, hhi] at this
    exact this
  · intro c lo hi hlo hhi
    have := h2 c (List.getElem?_eq_some_iff.1 hlo).1
    rw [List.getD_eq_getElem?_getD, List.getD_eq_getElem?_getD, hlo, hhi] at this
    refine ⟨this.1.1, this.1.2, fun hi => ⟨(x c).num, ?_⟩⟩
    exact (Rat.den_eq_one_iff _).1 (this.2 hi) |>.symm

/-- The program created with binary columns for some groups, or an arbitrary one. -/
def builtWith (M : Model) (sets : List (List Nat)) : Built :=
  match create M f64MAX (-f64MAX) sets with
  | .ok s => s
  | .error _ => ⟨(LpBuilder.new 0 0).build, [], [], [], [], []⟩

theorem builtWith_ok (M : Model) (sets : List (List Nat)) (h : (create M f64MAX (-f64MAX) sets).toBool = true) :
    create M f64MAX (-f64MAX) sets = .ok (builtWith M sets) := by
  unfold builtWith
  cases hc : create M f64MAX (-f64MAX) sets with
  | ok s => rfl
  | error e => rw [hc] at h; cases h

/-- Two inputs, each with an output. Exactly one of the inputs may be used. -/
def exclusiveM (d : NodeData) : Model :=
  ⟨netOf twoB, fun i => if i = 0 ∨ i = 2 then d else plainNode, [⟨[[0], [2]], none, none, some (.exclusive 1 1)⟩], []⟩

theorem exclusiveM_valid (d : NodeData) : (exclusiveM d).Valid :=
  ⟨⟨twoB, netOf_built twoB (by decide +kernel)⟩, by show ∀ a ∈ [_], ∀ s ∈ _, ∀ i ∈ s, i < (netOf twoB).nodes.length; simp; decide +kernel, by simp [exclusiveM]⟩

/-- The case: flows between 2 and 10 from exactly one of the inputs. -/
example : AllConstant (exclusiveM { plainNode with minFlow := some (.const 2), maxFlow := some (.const 10) })
      ⟨[[0], [2]], none, none, some (.exclusive 1 1)⟩ ∧
    AllForced (exclusiveM { plainNode with minFlow := some (.const 2), maxFlow := some (.const 10) })
      ⟨[[0], [2]], none, none, some (.exclusive 1 1)⟩ ∧
    ∃ s s', Reach (exclusiveM { plainNode with minFlow := some (.const 2), maxFlow := some (.const 10) }) f64MAX (-f64MAX) [[0], [2]] s ∧
      step (exclusiveM { plainNode with minFlow := some (.const 2), maxFlow := some (.const 10) }) s lostSt = .ok s' ∧
      s'.lp.Feasible (vals [0, 7, 0, 1]) := by
  have hk : ∀ i, i = 0 ∨ i = 2 → ∃ n, (netOf twoB).nodes[i]? = some n ∧ n.kind ≠ .storage := by
    rintro i (rfl | rfl) <;> exact ⟨_, rfl, by decide +kernel⟩
  have hb : ∀ i, i = 0 ∨ i = 2 →
      ConstantBounds (exclusiveM { plainNode with minFlow := some (.const 2), maxFlow := some (.const 10) }) i 2 10 := by
    intro i hi
    obtain ⟨n, h1, h2⟩ := hk i hi
    exact ⟨n, h1, h2, Or.inl (by simp [exclusiveM, hi]), Or.inl (by simp [exclusiveM, hi])⟩
  refine ⟨?_, ?_, ?_⟩
  · intro g hg i hi
    refine ⟨2, 10, hb i ?_⟩
    simp only [List.mem_cons, List.not_mem_nil, or_false] at hg
    rcases hg with rfl | rfl
    · left; simpa using hi
    · right; simpa using hi
  · intro g hg
    simp only [List.mem_cons, List.not_mem_nil, or_false] at hg
    rcases hg with rfl | rfl
    · exact ⟨0, by simp, 2, 10, hb 0 (by simp), by norm_num⟩
    · exact ⟨2, by simp, 2, 10, hb 2 (by simp), by norm_num⟩
  · exact ⟨_, _, .create _ (builtWith_ok _ _ (by decide +kernel)), stepped_ok _ _ _ (by decide +kernel),
      Lp.checkInt_feasible _ _ (by decide +kernel)⟩

/-- **C21, refuted for bounds that vary in time.** Both inputs have a maximum flow that is 1 in this step and at most one of them
may be used, but flows of 7 and 9 from both are a solution: the rows of members with varying bounds lose their bounds in every
step. -/
theorem C21_varying_refuted : ∃ M : Model, M.Valid ∧ ∃ a ∈ M.aggs, a.exclusivity = some (1, 1) ∧
    ∃ s s', create M f64MAX (-f64MAX) [[0], [2]] = .ok s ∧ step M s lostSt = .ok s' ∧
      (∀ i, i = 0 ∨ i = 2 → ValueIs lostSt.metric (M.data i).maxFlow f64MAX 1) ∧
      ∃ x, s'.lp.Feasible x ∧ activeCount M.net (s'.flow x) a = 2 ∧ flowAt M.net (s'.flow x) 0 = 7 ∧ flowAt M.net (s'.flow x) 2 = 9 := by
  refine ⟨exclusiveM { plainNode with maxFlow := some (.dyn 0) }, exclusiveM_valid _, _, List.mem_singleton.2 rfl, rfl, _, _,
    builtWith_ok _ _ (by decide +kernel), stepped_ok _ _ _ (by decide +kernel), ?_, vals [7, 9, 1, 0],
    Lp.checkInt_feasible _ _ (by decide +kernel), by decide +kernel, by decide +kernel, by decide +kernel⟩
  rintro i (rfl | rfl) <;> rfl

/-- **C21, refuted for `min_active` without minimum flows.** One of the inputs has to be used, but no flow at all is a solution. -/
theorem C21_min_active_refuted : ∃ M : Model, M.Valid ∧ ∃ a ∈ M.aggs, a.exclusivity = some (1, 1) ∧ AllConstant M a ∧
    ∃ s s', create M f64MAX (-f64MAX) [[0], [2]] = .ok s ∧ step M s lostSt = .ok s' ∧
      ∃ x, s'.lp.Feasible x ∧ activeCount M.net (s'.flow x) a = 0 := by
  refine ⟨exclusiveM { plainNode with maxFlow := some (.const 10) }, exclusiveM_valid _, _, List.mem_singleton.2 rfl, rfl, ?_, _, _,
    builtWith_ok _ _ (by decide +kernel), stepped_ok _ _ _ (by decide +kernel), vals [0, 0, 1, 0],
    Lp.checkInt_feasible _ _ (by decide +kernel), by decide +kernel⟩
  intro g hg i hi
  have hi' : i = 0 ∨ i = 2 := by
    simp only [List.mem_cons, List.not_mem_nil, or_false] at hg
    rcases hg with rfl | rfl
    · left; simpa using hi
    · right; simpa using hi
  refine ⟨0, 10, ?_⟩
  have : ∃ n, (netOf twoB).nodes[i]? = some n ∧ n.kind ≠ .storage := by
    rcases hi' with rfl | rfl <;> exact ⟨_, rfl, by decide +kernel⟩
  obtain ⟨n, h1, h2⟩ := this
  exact ⟨n, h1, h2, Or.inr (by simp [exclusiveM, hi', plainNode]), Or.inl (by simp [exclusiveM, hi'])⟩

end Verif.Solver
