import Verif.Props.IpmLp
import Verif.Props.SolverCases

/-!
# Cases for C77

A network with a reservoir that meets the hypotheses of the theorems in `Props/IpmLp.lean`, and one whose minimum flow is not kept.
-/

namespace Verif.IpmLp

open Verif.State (NodeKind Edge)
open Verif.Topology (Network TNode)
open Verif.Solver

/-- An input feeds a link and a reservoir; the link feeds two outputs; the reservoir feeds the first output. -/
def netB : Topology.Builder :=
  ⟨[⟨("in", none), .input⟩, ⟨("mid", none), .link⟩, ⟨("out1", none), .output⟩, ⟨("out2", none), .output⟩, ⟨("res", none), .storage⟩],
   [⟨("in", none), ("mid", none)⟩, ⟨("mid", none), ("out1", none)⟩, ⟨("mid", none), ("out2", none)⟩, ⟨("in", none), ("res", none)⟩,
    ⟨("res", none), ("out1", none)⟩], []⟩

/-- Metric 0 is the largest inflow, metric 1 the cost of the second output. The first output has no maximum. -/
def netM : Model where
  net := netOf netB
  data
    | 0 => { plainNode with maxFlow := some (.dyn 0) }
    | 2 => { plainNode with cost := some (.const (-5)) }
    | 3 => { plainNode with maxFlow := some (.const 4), cost := some (.dyn 1) }
    | 4 => { plainNode with minVolume := some (.const 10), maxVolume := some (.const 100), cost := some (.const (-1)) }
    | _ => plainNode
  aggs := []
  vs := []

/-- A state for an inflow, a cost and a volume, with a step of two days. -/
def stateOf (inflow cost volume : ℚ) : StepState := ⟨fun k => [some inflow, some cost][k]?.join, fun _ => some volume, fun _ => true,
  fun _ => none, 2⟩

theorem netM_valid : netM.Valid :=
  ⟨⟨netB, netOf_built netB (by decide +kernel)⟩, by simp [netM], by simp [netM]⟩

theorem netM_edges : netM.net.edges ≠ [] := by decide +kernel

theorem netM_nodes : netM.net.nodes = [⟨0, ("in", none), .input, [], [0, 3], []⟩, ⟨1, ("mid", none), .link, [0], [1, 2], []⟩, ⟨2, ("out1", none), .output, [1, 4], [], []⟩,
    ⟨3, ("out2", none), .output, [2], [], []⟩, ⟨4, ("res", none), .storage, [3], [4], []⟩] := by decide +kernel

theorem netM_maxima : OnlyMaxima netM := by
  refine ⟨?_, rfl, rfl⟩
  rw [netM_nodes]
  intro n hn _
  simp only [List.mem_cons, List.not_mem_nil, or_false] at hn
  rcases hn with rfl | rfl | rfl | rfl | rfl <;> rfl

theorem netM_given (inflow cost volume : ℚ) : Given netM (stateOf inflow cost volume) := by
  refine ⟨?_, ?_, ?_⟩
  · rw [netM_nodes]
    intro n hn _
    simp only [List.mem_cons, List.not_mem_nil, or_false] at hn
    rcases hn with rfl | rfl | rfl | rfl | rfl
    · exact ⟨0, 0, rfl, rfl⟩
    · exact ⟨0, 0, rfl, rfl⟩
    · exact ⟨-5, -5, rfl, rfl⟩
    · exact ⟨cost, cost, rfl, rfl⟩
    · exact ⟨-1, -1, rfl, rfl⟩
  · rw [netM_nodes]
    intro n hn hk hq
    simp only [List.mem_cons, List.not_mem_nil, or_false] at hn
    rcases hn with rfl | rfl | rfl | rfl | rfl
    · exact ⟨⟨0, rfl⟩, inflow, rfl⟩
    · exact absurd rfl hq
    · exact absurd rfl hq
    · exact ⟨⟨0, rfl⟩, 4, rfl⟩
    · exact absurd rfl hk
  · rw [netM_nodes]
    intro n hn hk
    simp only [List.mem_cons, List.not_mem_nil, or_false] at hn
    rcases hn with rfl | rfl | rfl | rfl | rfl
    · cases hk
    · cases hk
    · cases hk
    · cases hk
    · exact ⟨⟨volume, rfl⟩, ⟨10, rfl⟩, 100, rfl⟩

/-- Seven arrive; three go to the link and on to the first output, four to the reservoir, which releases five. -/
def netF (e : Nat) : ℚ := [3, 2, 1, 4, 5].getD e 0

theorem netF_within : Within netM 999999 (stateOf 10 (-2) 50) netF := by
  refine ⟨fun e _ => ?_, ?_, ?_, ?_⟩
  · unfold netF
    by_cases h : e < 5
    · have : e = 0 ∨ e = 1 ∨ e = 2 ∨ e = 3 ∨ e = 4 := by omega
      rcases this with rfl | rfl | rfl | rfl | rfl <;> simp
    · rw [List.getD_eq_default _ _ (by simpa using h)]
  · unfold Balanced
    rw [netM_nodes]
    decide +kernel
  · rw [netM_nodes]
    intro n hn hk q hq
    simp only [List.mem_cons, List.not_mem_nil, or_false] at hn
    rcases hn with rfl | rfl | rfl | rfl | rfl
    · cases hq
      exact ⟨by decide +kernel, 10, rfl, by decide +kernel⟩
    · cases hq
    · cases hq
    · cases hq
      exact ⟨by decide +kernel, 4, rfl, by decide +kernel⟩
    · exact absurd rfl hk
  · rw [netM_nodes]
    intro n hn hk
    simp only [List.mem_cons, List.not_mem_nil, or_false] at hn
    rcases hn with rfl | rfl | rfl | rfl | rfl
    · cases hk
    · cases hk
    · cases hk
    · cases hk
    · exact ⟨by decide +kernel, by decide +kernel, 50, rfl, ⟨10, rfl, by decide +kernel⟩, ⟨100, rfl, by decide +kernel⟩⟩

/-- All hypotheses of `C77_matrix`, `C77_program`, `C77_represented`, `C77_objective` and `C77_allowed` are met, for two scenarios and
after an earlier step with other values; the last lane gets the second scenario. -/
theorem netM_case : ∃ s s' s'' : Built, create netM = .ok s ∧ update netM [stateOf 3 7 99] s = some s' ∧
    update netM [stateOf 20 1 60, stateOf 10 (-2) 50] s' = some s'' ∧ Reach netM s' ∧
    laneState [stateOf 20 1 60, stateOf 10 (-2) 50] 3 = some (stateOf 10 (-2) 50) ∧ OnlyMaxima netM ∧
    Within netM 999999 (stateOf 10 (-2) 50) netF ∧ accepted ipmFeatures netM = true := by
  obtain ⟨s, hs⟩ := (C77_create netM netM_valid).1.2 netM_edges
  obtain ⟨s', hs'⟩ := (C77_update netM netM_valid s (.create hs) [stateOf 3 7 99] (by simp) (by simp)).2
    (by intro st h; simp only [List.mem_singleton] at h; subst h; exact netM_given _ _ _)
  have hr : Reach netM s' := .update (.create hs) hs'
  obtain ⟨s'', hs''⟩ := (C77_update netM netM_valid s' hr [stateOf 20 1 60, stateOf 10 (-2) 50] (by simp) (by simp)).2
    (by
      intro st h
      simp only [List.mem_cons, List.not_mem_nil, or_false] at h
      rcases h with rfl | rfl <;> exact netM_given _ _ _)
  exact ⟨s, s', s'', hs, hs', hs'', hr, rfl, netM_maxima, netF_within, (C77_features netM).1.2 ⟨rfl, rfl⟩⟩

/-! ## Minimum flows -/

/-- An input and an output. -/
def minB : Topology.Builder := ⟨[⟨("in", none), .input⟩, ⟨("out", none), .output⟩], [⟨("in", none), ("out", none)⟩], []⟩

/-- The input has to deliver between 5 and 10 at a cost of 1. -/
def minM : Model where
  net := netOf minB
  data
    | 0 => { plainNode with minFlow := some (.const 5), maxFlow := some (.const 10), cost := some (.const 1) }
    | _ => plainNode
  aggs := []
  vs := []

theorem minM_nodes : minM.net.nodes = [⟨0, ("in", none), .input, [], [0], []⟩, ⟨1, ("out", none), .output, [0], [], []⟩] := by decide +kernel

/-- **C77 (minimum flows).** The features the interior point solver checks accept a network with a minimum flow; the solution with the
largest objective sends nothing, which is not an allowed flow, although allowed flows exist. -/
theorem C77_minimum_refuted : ∃ (M : Model) (st : StepState) (s s' : Built) (x : Nat → ℚ), M.Valid ∧
    accepted ipmFeatures M = true ∧ Given M st ∧ create M = .ok s ∧ update M [st] s = some s' ∧ s'.Allows 0 x ∧
    (∀ y, s'.Allows 0 y → s'.gain 0 y ≤ s'.gain 0 x) ∧ ¬ Allowed M st (s'.edgeFlow x) ∧ ∃ f, Allowed M st f := by
  let st : StepState := ⟨fun _ => none, fun _ => none, fun _ => true, fun _ => none, 1⟩
  have hv : minM.Valid := ⟨⟨minB, netOf_built minB (by decide +kernel)⟩, by simp [minM], by simp [minM]⟩
  have hcost : ∀ n ∈ minM.net.nodes, n.incoming ≠ [] ∨ n.outgoing ≠ [] → CostIs minM st.metric n (if n.index = 0 then 1 else 0) := by
    rw [minM_nodes]
    intro n hn _
    simp only [List.mem_cons, List.not_mem_nil, or_false] at hn
    rcases hn with rfl | rfl
    · exact ⟨1, rfl, rfl⟩
    · exact ⟨0, rfl, rfl⟩
  have hg : Given minM st := by
    refine ⟨fun n hn h => ⟨_, hcost n hn h⟩, ?_, ?_⟩
    · rw [minM_nodes]
      intro n hn hk hq
      simp only [List.mem_cons, List.not_mem_nil, or_false] at hn
      rcases hn with rfl | rfl
      · exact ⟨⟨5, rfl⟩, 10, rfl⟩
      · exact absurd rfl hq
    · rw [minM_nodes]
      intro n hn hk
      simp only [List.mem_cons, List.not_mem_nil, or_false] at hn
      rcases hn with rfl | rfl <;> cases hk
  obtain ⟨s, hs⟩ := (C77_create minM hv).1.2 (by decide +kernel)
  obtain ⟨s', hs'⟩ := (C77_update minM hv s (.create hs) [st] (by simp) (by simp)).2
    (by intro st' h; simp only [List.mem_singleton] at h; subst h; exact hg)
  have hlane : laneState [st] 0 = some st := rfl
  have hprog := C77_program minM hv s s' (.create hs) [st] hs' 0 st hlane (by simp [st])
  have hobj := fun x hb => C77_objective minM hv s s' (.create hs) [st] hs' 0 st hlane _ hcost x hb
  have hzero : s'.edgeFlow (fun _ => 0) = fun _ => 0 := rfl
  have hfirst : ∀ f : Nat → ℚ, nodeFlow f ⟨0, ("in", none), .input, [], [0], []⟩ = f 0 := by intro f; simp [nodeFlow]
  have htotal : ∀ f : Nat → ℚ, totalCost minM (fun n => if n.index = 0 then 1 else 0) f = f 0 := by
    intro f; unfold totalCost; rw [minM_nodes]; simp [nodeFlow]
  have hallow : s'.Allows 0 (fun _ => 0) := by
    rw [hprog, hzero]
    refine ⟨fun _ _ => le_refl _, ?_, ?_, ?_⟩
    · unfold Balanced; rw [minM_nodes]; simp
    · rw [minM_nodes]
      intro n hn hk q hq
      simp only [List.mem_cons, List.not_mem_nil, or_false] at hn
      rcases hn with rfl | rfl
      · cases hq
        exact ⟨by rw [hfirst]; norm_num, 10, rfl, by rw [hfirst]; norm_num⟩
      · cases hq
    · rw [minM_nodes]
      intro n hn hk
      simp only [List.mem_cons, List.not_mem_nil, or_false] at hn
      rcases hn with rfl | rfl <;> cases hk
  refine ⟨minM, st, s, s', fun _ => 0, hv, (C77_features minM).1.2 ⟨rfl, rfl⟩, hg, hs, hs', hallow, ?_, ?_, fun _ => 5, ?_⟩
  · intro y hy
    have hy := (hprog y).1 hy
    rw [hobj y hy.balanced, hobj _ ((hprog _).1 hallow).balanced, htotal, htotal, hzero]
    have := hy.nonneg 0 (by decide +kernel)
    linarith
  · intro h
    have := h.nodes ⟨0, ("in", none), .input, [], [0], []⟩ (by rw [minM_nodes]; simp)
    unfold NodeOk at this
    rw [if_neg (by simp)] at this
    obtain ⟨l, h1, h2⟩ := this.1
    cases h1
    rw [hfirst, hzero] at h2
    norm_num at h2
  · refine ⟨fun _ _ => by norm_num, ?_, ?_, by simp [minM], by simp [minM], by simp [minM]⟩
    · unfold Balanced; rw [minM_nodes]; simp
    · rw [minM_nodes]
      intro n hn
      simp only [List.mem_cons, List.not_mem_nil, or_false] at hn
      unfold NodeOk
      rcases hn with rfl | rfl
      · rw [if_neg (by simp), hfirst]
        exact ⟨⟨5, rfl, le_refl _⟩, ⟨10, rfl, by norm_num⟩⟩
      · rw [if_neg (by simp)]
        have : nodeFlow (fun _ => (5 : ℚ)) ⟨1, ("out", none), .output, [0], [], []⟩ = 5 := by simp [nodeFlow]
        rw [this]
        exact ⟨by show (0 : ℚ) ≤ 5; norm_num, by show (5 : ℚ) ≤ f64MAX; exact le_trans (by norm_num) large_f64MAX⟩

end Verif.IpmLp
