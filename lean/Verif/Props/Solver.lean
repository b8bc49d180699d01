import Verif.Lemmas.SolverKeep

/-!
# C20, C56: the linear program is the allocation problem

`Allowed`, `WithinLimits`, `totalCost`, `CostIs` and `Defined` (`Spec/Solver.lean`) say what the allocation problem of a timestep
is, in terms of flows along edges only. The theorems hold for every program reached from the one created by any sequence of
successful steps.
-/

namespace Verif.Solver

open Verif.State (NodeKind Edge)
open Verif.Topology (Network TNode)

/-- **C56 (creation).** A valid model without exclusivity relationships whose factors are accepted gives a program exactly when
it has an edge. -/
theorem C56_create (M : Model) (hv : M.Valid) (hx : M.NoExclusivity) (hf : M.FactorsOk) (big negBig : ℚ) :
    (∃ s, create M big negBig [] = .ok s) ↔ M.net.edges ≠ [] := by
  constructor
  · rintro ⟨s, h⟩ h0
    unfold create at h
    rw [(C16_no_edges M.net).1 h0] at h
    cases h
  · intro hne
    obtain ⟨s, _, _, _, _, _, _, h, _⟩ := create_ok M hv hne hx hf.setup big negBig
    exact ⟨s, h⟩

/-- **C56 (feasibility).** Values of the columns satisfy the program of a step exactly when the flows they stand for are allowed
in that step (and stay within the largest numbers of the solver). -/
theorem C56_feasible (M : Model) (hv : M.Valid) (hx : M.NoExclusivity) (hf : M.FactorsOk) (big negBig : ℚ) (s s' : Built)
    (hs : Reach M big negBig [] s) (st : StepState) (hd : 0 < st.days) (h : step M s st = .ok s') (x : Nat → ℚ) :
    s'.lp.Feasible x ↔ Allowed M st (s'.flow x) ∧ WithinLimits M big negBig st (s'.flow x) := by
  obtain ⟨m, b, N, A, C, V, h1, h2⟩ := reach_inv hv hx hf hs
  obtain ⟨lp', _, _, _, _, rfl, _, _, _, h5⟩ := (step_main h1 hv hf h2 st).1 s' h
  rw [(h1.withLp lp').flow hv x]
  exact h5 hd x

/-- **C56 (nothing lost).** Every allowed flow within the limits is given by values of the columns that satisfy the program. -/
theorem C56_represented (M : Model) (hv : M.Valid) (hx : M.NoExclusivity) (hf : M.FactorsOk) (big negBig : ℚ) (s s' : Built)
    (hs : Reach M big negBig [] s) (st : StepState) (hd : 0 < st.days) (h : step M s st = .ok s') (f : Nat → ℚ)
    (ha : Allowed M st f) (hw : WithinLimits M big negBig st f) :
    ∃ x, s'.lp.Feasible x ∧ ∀ e < M.net.edges.length, s'.flow x e = f e := by
  have hfe := C56_feasible M hv hx hf big negBig s s' hs st hd h
  obtain ⟨m, b, N, A, C, V, h1, h2⟩ := reach_inv hv hx hf (Reach.step s s' st hs h)
  obtain ⟨tb, htb⟩ := hv.built
  obtain ⟨x, hx1, _⟩ := C17_representable tb M.net htb m h1.colMap f ha.balanced
  have heq : ∀ e < M.net.edges.length, s'.flow x e = f e := by
    intro e he
    rw [h1.flow hv x]; exact hx1 e he
  refine ⟨x, (hfe x).2 ⟨?_, ?_⟩, heq⟩
  · exact ha.agree hv (fun e he => (heq e he).symm)
  · exact hw.agree hv (fun e he => (heq e he).symm)

/-- **C56 (errors).** Preparing the program of a step succeeds exactly when every value it needs is there. -/
theorem C56_defined (M : Model) (hv : M.Valid) (hx : M.NoExclusivity) (hf : M.FactorsOk) (big negBig : ℚ) (s : Built)
    (hs : Reach M big negBig [] s) (st : StepState) : (∃ s', step M s st = .ok s') ↔ Defined M st := by
  obtain ⟨m, b, N, A, C, V, h1, h2⟩ := reach_inv hv hx hf hs
  obtain ⟨hm1, hm2⟩ := step_main h1 hv hf h2 st
  have hagg : ∀ a, (aggBounds st a).isSome ↔ (∃ v, ValueIs st.metric a.minFlow 0 v) ∧ (∃ v, ValueIs st.metric a.maxFlow f64MAX v) := by
    intro a
    simp only [← valueOr_isSome]
    unfold aggBounds
    cases valueOr 0 st.metric a.minFlow <;> cases valueOr f64MAX st.metric a.maxFlow <;> simp
  have hvs : ∀ k, (vsRowBounds st negBig big k).isSome ↔ (st.vsActive k = true → ∃ b, st.vsBounds k = some b) := by
    intro k
    unfold vsRowBounds
    by_cases ha : st.vsActive k = true
    · rw [if_pos ha]
      simp only [ha, true_implies, Option.isSome_map, Option.isSome_iff_exists]
    · simp [ha]
  have hiff : (∃ s', step M s st = .ok s') ↔ (∀ e ∈ M.net.edges, (edgeCost M st.metric e).isSome) ∧
      ∃ bsN G bsA bsV, StepData M st big negBig s N bsN G bsA bsV := by
    constructor
    · rintro ⟨s', h⟩
      obtain ⟨lp', bsN, G, bsA, bsV, _, _, h4, ⟨cs, h5, _⟩, _⟩ := hm1 s' h
      exact ⟨(all_some _).1 ⟨cs, h5.symm⟩, bsN, G, bsA, bsV, h4⟩
    · rintro ⟨h3, h4⟩
      exact hm2 h3 h4
  rw [hiff, edgeCosts_iff hv, stepData_iff h1 hf]
  simp only [hagg, hvs, nodeBounds_isSome]
  constructor
  · rintro ⟨c, n, a, f, v⟩
    exact ⟨c, fun k hk => (n k hk).1, fun k hk => (n k hk).2, a, f, v⟩
  · intro d
    exact ⟨d.costs, fun n hn => ⟨d.flows n hn, d.volumes n hn⟩, d.aggs, d.factors, d.vs⟩

/-- The costs of the edges times their flows are the total cost of the nodes, for flows that balance. -/
theorem edgeCosts_total (M : Model) (hv : M.Valid) (σ : Nat → Option ℚ) (cost : TNode → ℚ)
    (hcost : ∀ n ∈ M.net.nodes, n.incoming ≠ [] ∨ n.outgoing ≠ [] → CostIs M σ n (cost n)) (f : Nat → ℚ)
    (hb : Balanced M.net f) (cs : List ℚ) (h : M.net.edges.map (edgeCost M σ) = cs.map some) :
    ((M.net.edges.zip cs).map (fun p => p.2 * f p.1.index)).sum = totalCost M cost f := by
  rw [← cost_by_node M hv f hb cost (fun n => ((outgoingCost M σ n).getD 0)) (fun n => ((incomingCost M σ n).getD 0))
    (by
      intro n hn ho
      have hc := (nodeCost_iff M σ n (cost n)).2 (hcost n hn (Or.inr ho))
      unfold outgoingCost
      cases n.kind <;> simp [hc])
    (by
      intro n hn hi
      have hc := (nodeCost_iff M σ n (cost n)).2 (hcost n hn (Or.inl hi))
      unfold incomingCost
      cases n.kind <;> simp [hc])]
  have key : ∀ (es : List Edge) (cs : List ℚ), es.map (edgeCost M σ) = cs.map some →
      ((es.zip cs).map (fun p => p.2 * f p.1.index)).sum
        = (es.map (fun e => (((M.net.nodes[e.fromNode]?).map (fun n => ((outgoingCost M σ n).getD 0))).getD 0
          + ((M.net.nodes[e.toNode]?).map (fun n => ((incomingCost M σ n).getD 0))).getD 0) * f e.index)).sum := by
    intro es
    induction es with
    | nil => intro cs _; simp
    | cons e es ih =>
      intro cs hcs
      cases cs with
      | nil => simp at hcs
      | cons c cs =>
        simp only [List.map_cons, List.cons.injEq] at hcs
        rw [List.zip_cons_cons, List.map_cons, List.sum_cons, ih cs hcs.2, List.map_cons, List.sum_cons]
        congr 1
        have h1 := hcs.1
        unfold edgeCost at h1
        cases hf : M.net.nodes[e.fromNode]? with
        | none => simp [hf] at h1
        | some f =>
          cases ht : M.net.nodes[e.toNode]? with
          | none => simp [hf, ht] at h1
          | some t =>
            simp only [hf, ht] at h1
            cases ho : outgoingCost M σ f with
            | none => simp [ho] at h1
            | some a =>
              cases hi : incomingCost M σ t with
              | none => simp [ho, hi] at h1
              | some b =>
                simp only [ho, hi, Option.some.injEq] at h1
                simp [ho, hi, ← h1]
  exact key M.net.edges cs h

/-- **C20 (objective).** The objective of the program of a step is the total cost of the flows: for every node, its current cost
times its flow, where the flow of a storage is its net inflow. -/
theorem C20_objective (M : Model) (hv : M.Valid) (big negBig : ℚ) (sets : List (List Nat)) (s s' : Built)
    (hs : Reach M big negBig sets s) (st : StepState) (h : step M s st = .ok s') (cost : TNode → ℚ)
    (hcost : ∀ n ∈ M.net.nodes, n.incoming ≠ [] ∨ n.outgoing ≠ [] → CostIs M st.metric n (cost n)) (x : Nat → ℚ)
    (hb : Balanced M.net (s'.flow x)) : s'.lp.objective x = totalCost M cost (s'.flow x) := by
  obtain ⟨m, b, bins, h1, h2⟩ := reach_general hs
  obtain ⟨cs, h4, h5⟩ := h1.objective hv h2 h
  obtain ⟨e, _⟩ := step_keep h1.ids h2 h
  have hfl : s'.flow x = via m x := by rw [e]; exact h1.flow hv x
  rw [hfl] at hb ⊢
  rw [h5 x]
  exact edgeCosts_total M hv st.metric cost hcost (via m x) hb cs h4

/-- **C20 (optimum).** An optimal solution of the program of a step is an allowed flow of least total cost. -/
theorem C20_optimal (M : Model) (hv : M.Valid) (hx : M.NoExclusivity) (hf : M.FactorsOk) (big negBig : ℚ) (s s' : Built)
    (hs : Reach M big negBig [] s) (st : StepState) (hd : 0 < st.days) (h : step M s st = .ok s') (cost : TNode → ℚ)
    (hcost : ∀ n ∈ M.net.nodes, n.incoming ≠ [] ∨ n.outgoing ≠ [] → CostIs M st.metric n (cost n)) (x : Nat → ℚ)
    (hx1 : s'.lp.Feasible x) (hx2 : ∀ y, s'.lp.Feasible y → s'.lp.objective x ≤ s'.lp.objective y) :
    Allowed M st (s'.flow x) ∧ ∀ f, Allowed M st f → WithinLimits M big negBig st f →
      totalCost M cost (s'.flow x) ≤ totalCost M cost f := by
  have hfx := ((C56_feasible M hv hx hf big negBig s s' hs st hd h x).1 hx1).1
  refine ⟨hfx, fun f ha hw => ?_⟩
  obtain ⟨y, hy1, hy2⟩ := C56_represented M hv hx hf big negBig s s' hs st hd h f ha hw
  have hfy := ((C56_feasible M hv hx hf big negBig s s' hs st hd h y).1 hy1).1
  have := hx2 y hy1
  rw [C20_objective M hv big negBig [] s s' hs st h cost hcost x hfx.balanced,
    C20_objective M hv big negBig [] s s' hs st h cost hcost y hfy.balanced, totalCost_agree hv hy2] at this
  exact this

end Verif.Solver
