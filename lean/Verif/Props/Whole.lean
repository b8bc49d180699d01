import Verif.Lemmas.WholeMain
import Verif.Props.Simulation

/-!
# C83: networks with their parameters

Parameters calculate from what is seen of the network, and the network is simulated with the values of parameters.
-/

namespace Verif.Coupled

open Verif.State Verif.Solver Verif.Time Verif.Simulation
open Verif.Params (Ref Given)

variable {V St : Type} {M : Whole V St} {net : Params.Network} {n : Nat} {h : Params.History V St (Comp → Option ℚ)} {cs : List V}
  {input : Nat → Inp} {record : Nat → Record}

/-- **C83 (metrics of parameters).** A metric takes a number from a value of a parameter exactly as its type allows: the number, the index as
a number, or the value of a key. -/
theorem C83_reads (key : Option String) (v : Val) (q : ℚ) : v.get key = some q ↔ Reads key q v := reads_iff

/-- **C83.** Values `vs` of parameters and `os` of metrics of components are reported at the end of a run of `n + 1` steps exactly when
there is a run of the network with its parameters: in it all parameters obey their definitions at every step, given what is seen of components;
the network is simulated with the values of parameters and components that its nodes refer to; and what is seen of components are the flows
and volumes of the simulation, before an allocation those of the step before. -/
theorem C83_run (hv : M.Valid) (hb : M.build = some net) (refs : List Ref) (comps : List Comp) (n : Nat) (vs : List V)
    (os : List (Option ℚ)) :
    M.report net refs comps n = some (some (vs, os)) ↔
      ∃ h cs input record, M.Runs (n + 1) h cs input record ∧
        Given M.params h M.zero .after n (refs.map fun r => ⟨r, .after⟩) vs ∧ os = comps.map (h.world (n + 1)) := by
  have hf : M.params.length < M.params.length + 1 := by omega
  have hn := (Params.ready_of hv.params hf hb).nodup
  have key := fun w' => Params.C76_run M.params _ M.nodeRefs M.solveRefs net hv.params hf hb M.calcs none w' refs n vs
  unfold Whole.report
  constructor
  · intro hrep
    cases hr : Params.report M.calcs net none refs n with
    | none => rw [hr] at hrep; cases hrep
    | some r =>
      cases r with
      | none => rw [hr] at hrep; cases hrep
      | some p =>
        obtain ⟨w', vs'⟩ := p
        rw [hr] at hrep
        simp only [Option.map_some, Option.some.injEq, Prod.mk.injEq] at hrep
        obtain ⟨rfl, rfl⟩ := hrep
        obtain ⟨H, ho, hw, hg⟩ := (key w').1 hr
        obtain ⟨h, cs, input, record, hs, hruns⟩ := runs_of_obeys hv hn ho
        refine ⟨h, cs, input, record, hruns, (given_congr hs.value _ _ _ _ _).1 hg, ?_⟩
        rw [← hs.world n (by omega), hw]
  · rintro ⟨h, cs, input, record, hruns, hg, rfl⟩
    obtain ⟨H, hs, ho⟩ := obeys_of_runs hv hn hruns
    rw [(key (H.world (n + 1))).2 ⟨H, ho, rfl, (given_congr hs.value _ _ _ _ _).2 hg⟩, ← hs.world n (by omega)]
    rfl

/-- **C83 (failures).** A run fails exactly when there is none: a parameter, a value needed by a node, the set-up or the allocation
fails. -/
theorem C83_fails (hv : M.Valid) (hb : M.build = some net) (n : Nat) :
    M.report net [] [] n = some none ↔ ¬ ∃ h cs input record, M.Runs (n + 1) h cs input record := by
  have hf : M.params.length < M.params.length + 1 := by omega
  have hn := (Params.ready_of hv.params hf hb).nodup
  have key := Params.C76_fails M.params _ M.nodeRefs M.solveRefs net hv.params hf hb M.calcs none n
  have : M.report net [] [] n = some none ↔ Params.report M.calcs net none [] n = some none := by
    unfold Whole.report
    cases Params.report M.calcs net none [] n with
    | none => simp
    | some r => cases r <;> simp
  rw [this, key]
  apply not_congr
  constructor
  · rintro ⟨H, ho⟩
    obtain ⟨h, cs, input, record, -, hruns⟩ := runs_of_obeys hv hn ho
    exact ⟨h, cs, input, record, hruns⟩
  · rintro ⟨h, cs, input, record, hruns⟩
    obtain ⟨H, -, ho⟩ := obeys_of_runs hv hn hruns
    exact ⟨H, ho⟩

theorem Whole.Runs.steps (hr : M.Runs n h cs input record) : ∃ st, Steps (M.sim cs) n input record st ∧
    (M.sim cs).initial M.big M.negBig = .ok (st 0) ∧
    (M.sim cs).run ((List.range n).map input) (st 0) = ((List.range n).map record, .ok (st n)) := by
  obtain ⟨s₀, s', h0, hrun⟩ := hr.run
  obtain ⟨st, e0, e1, hsteps⟩ := steps_of_run n input record s₀ s' hrun
  exact ⟨st, ⟨by rw [e0]; exact initial_network h0, hsteps⟩, by rw [e0]; exact h0, by rw [e0, e1]; exact hrun⟩

/-- **C83 (volumes at the end of a step).** At the end of every step the proportional volume of a storage node, of a virtual storage and
of several storage nodes together is the volume divided by the maximum volume, all as seen at that time. -/
theorem C83_proportion (hv : M.Valid) (hr : M.Runs n h cs input record) (t : Nat) (ht : t < n) :
    (∀ i, IsStorage (M.sim cs) i → ∃ v m, h.world (t + 1) (.nodeVolume i) = some v ∧ h.world (t + 1) (.nodeMaxVolume i) = some m ∧
      h.world (t + 1) (.nodeProportionalVolume i) = some (share v m)) ∧
    (∀ is, (∀ i ∈ is, IsStorage (M.sim cs) i) → ∃ vs ms, List.Forall₂ (fun i v => h.world (t + 1) (.nodeVolume i) = some v) is vs ∧
      List.Forall₂ (fun i m => h.world (t + 1) (.nodeMaxVolume i) = some m) is ms ∧
      h.world (t + 1) (.aggStorageProportionalVolume is) = some (share vs.sum ms.sum)) ∧
    (∀ k < (M.sim cs).vsNodes.length, ∃ v m, h.world (t + 1) (.vsVolume k) = some v ∧ h.world (t + 1) (.vsMaxVolume k) = some m ∧
      h.world (t + 1) (.vsProportionalVolume k) = some (share v m)) := by
  obtain ⟨st, steps, -, -⟩ := hr.steps
  obtain ⟨hshape, -⟩ := steps.shape (hv.sims cs) t (by omega)
  obtain ⟨g, g1, -, g3⟩ := hr.world t ht
  obtain ⟨b, x, hb, -, -, a4, a5⟩ := step_iff.1 (steps.step t ht)
  obtain ⟨b1, b2⟩ := bounds_some hb
  have hpre := shape_pre hshape (input t) b
  have hpost : (record t).post = (st (t + 1)).network := by rw [a5]
  have top : ∀ i, IsStorage (M.sim cs) i → g.top i = g.most i := by
    intro i hi
    obtain ⟨s1, e1, e2⟩ := g1.top i hi
    obtain ⟨lo, hm⟩ := g1.most i hi
    obtain ⟨s0, e0⟩ := (hpre.storage i).1 hi
    obtain ⟨n', h1, h2⟩ := applySolution_node a4 i _ e0
    rw [if_pos (isStorage_iff.1 hi)] at h2
    rw [hpost, h1] at e1
    obtain rfl := Option.some.inj e1
    obtain ⟨nd, hnd, hk⟩ := hi
    have hbn := b1 nd (List.mem_of_getElem? hnd) hk
    rw [(Created.wf (M := (M.sim cs).model) (hv.sims cs)).nodeIndex i nd hnd] at hbn
    rw [← (hbn.unique hm).2, ← e2]
    simp only [NodeState.reset, NodeState.addBoth, NodeState.finaliseVolume] at h2
    split at h2
    · cases h2
    · rename_i s2 hs2
      cases h2
      exact ((finalise_ok_iff _ _ _ _).1 hs2).2.2.2.2.1
  have vsTop : ∀ k < (M.sim cs).vsNodes.length, g.vsTop k = g.vsMost k := by
    intro k hk
    obtain ⟨s1, e1, e2⟩ := g1.vsTop k hk
    obtain ⟨lo, hm⟩ := g1.vsMost k hk
    rw [← (((b2 k hk).unique hm)).2, ← e2]
    obtain ⟨q1, q0, q2⟩ := applySolution_ok a4
    obtain ⟨-, -, e3, -, -⟩ := afterFlows q0
    obtain ⟨vs1, -, c2, c3, -⟩ := complete_ok q2
    have hl1 := (updateAllVS_spec _ _ _ _ _ _ c2).1
    have hlt : k < vs1.length := by
      rw [hl1, e3, List.length_map]
      have : ((M.sim cs).pre (input t) b (st t).network).vs.length = (M.sim cs).vsNodes.length := hpre.wf.vs
      omega
    obtain ⟨s2, f1, f2⟩ := (finaliseVS_spec _ _ _ _ _ c3).2 k _ _ (List.getElem?_eq_getElem hk) (List.getElem?_eq_getElem hlt)
    rw [hpost, f1] at e1
    obtain rfl := Option.some.inj e1
    unfold VSState.finalise at f2
    split at f2
    · cases f2
    · rename_i s3 hs3
      cases f2
      have := ((finalise_ok_iff _ _ _ _).1 hs3).2.2.2.2.1
      simpa using this
  refine ⟨?_, ?_, ?_⟩
  · intro i hi
    refine ⟨g.volume i, g.most i, (g3 _ _).2 ⟨hi, rfl⟩, (g3 _ _).2 ⟨hi, rfl⟩, (g3 _ _).2 ⟨hi, ?_⟩⟩
    rw [top i hi]
  · intro is his
    refine ⟨is.map g.volume, is.map g.most, ?_, ?_, (g3 _ _).2 ⟨his, ?_⟩⟩
    · rw [List.forall₂_map_right_iff, List.forall₂_same]
      exact fun i hi => (g3 _ _).2 ⟨his i hi, rfl⟩
    · rw [List.forall₂_map_right_iff, List.forall₂_same]
      exact fun i hi => (g3 _ _).2 ⟨his i hi, rfl⟩
    · rw [List.map_congr_left fun i hi => top i (his i hi)]
  · intro k hk
    refine ⟨g.vsVolume k, g.vsMost k, (g3 _ _).2 ⟨hk, rfl⟩, (g3 _ _).2 ⟨hk, rfl⟩, (g3 _ _).2 ⟨hk, ?_⟩⟩
    rw [vsTop k hk]

/-- Metrics of flows and of the volumes of storage nodes. -/
def Kept : Comp → Bool
  | .nodeMaxFlow _ => false
  | .nodeMaxVolume _ => false
  | .vsVolume _ => false
  | .vsProportionalVolume _ => false
  | .vsMaxVolume _ => false
  | _ => true

/-- **C83 (before an allocation).** What parameters and nodes see of flows and of the volumes of storage nodes before an allocation is what was
seen at the end of the step before. -/
theorem C83_carried (hv : M.Valid) (hr : M.Runs n h cs input record) (t : Nat) (ht : t + 1 < n) (hi : (M.time (t + 1)).index ≠ 0)
    (c : Comp) (hc : Kept c = true) : h.ready (t + 1) c = h.world (t + 1) c := by
  obtain ⟨st, steps, -, -⟩ := hr.steps
  have e1 := (steps.before_iff (hv.sims cs) ht (st (t + 1)).solver _).1 (hr.ready (t + 1) ht)
  have e2 := (steps.after_iff (hv.sims cs) (show t < n by omega) (st (t + 1)).solver _).1 (hr.world t (by omega))
  obtain ⟨b, x, -, -, -, -, a5⟩ := step_iff.1 (steps.step t (by omega))
  obtain ⟨b', x', -, -, -, -, a5'⟩ := step_iff.1 (steps.step (t + 1) ht)
  obtain ⟨vs, -, hin⟩ := hr.inputs (t + 1) ht
  have hnodes : (record (t + 1)).pre.nodes = (record t).post.nodes := by
    rw [a5, a5']
    simp only [Sim.pre, preSolve, nodesBefore]
    apply List.ext_getElem?
    intro i
    rw [List.getElem?_mapIdx]
    have hz : (input (t + 1)).t.isFirst = false := by
      rw [hin.time]
      simpa [Timestep.isFirst] using hi
    rw [hz]
    cases (st (t + 1)).network.nodes[i]? with
    | none => rfl
    | some nd =>
      simp only [Option.map_some, Option.some.injEq]
      split <;> rfl
  have hedges : (record (t + 1)).pre.edges = (record t).post.edges := by rw [a5, a5']; rfl
  rw [e1, e2]
  cases c <;> simp only [Kept, Bool.false_eq_true] at hc <;>
    simp only [World.get, NetworkState.nodeInFlow, NetworkState.nodeOutFlow, NetworkState.nodeVolume, NetworkState.nodeProportionalVolume,
      NetworkState.edgeFlow, hnodes, hedges]
  · rename_i is
    have : recordedMax (record (t + 1)).pre = recordedMax (record t).post := by
      funext i; simp only [recordedMax, hnodes]
    rw [this]

/-- **C83 (limits).** The theorems on simulations hold of the network with the values of its parameters: in every step the flows are allowed
by the values that the references of nodes mean in that step. -/
theorem C83_limits (hr : M.Runs n h cs input record) (hs : (M.sim cs).Valid) (hi : (M.sim cs).InputsOk ((List.range n).map input)) :
    (M.sim cs).RunOk (M.sim cs).initialNetwork ((List.range n).map input) ((List.range n).map record) ∧
    (1000000 ≤ M.big → Optimal ((List.range n).map input) → ∀ t < n, ∀ cost : Verif.Topology.TNode → ℚ,
      (∀ nd ∈ (M.sim cs).net.nodes, nd.incoming ≠ [] ∨ nd.outgoing ≠ [] → (M.sim cs).CostIs (input t).metric nd (cost nd)) →
      ∀ f, (M.sim cs).Allowed (input t) (record t).pre f → (M.sim cs).Within M.big M.negBig (input t).metric f →
        (M.sim cs).totalCost cost (record t).flow ≤ (M.sim cs).totalCost cost f) := by
  obtain ⟨st, steps, h0, hrun⟩ := hr.steps
  have hok := (C60_run hs _ hi M.big M.negBig _ h0).1
  rw [hrun, steps.start] at hok
  refine ⟨hok, ?_⟩
  intro hbig ho t ht cost hcost f hf1 hf2
  have hinp : (record t).inp = input t := by
    obtain ⟨b, x, -, -, -, -, a5⟩ := step_iff.1 (steps.step t ht)
    rw [a5]
  have := C60_least_cost hs _ hi ho M.big M.negBig hbig _ h0 (record t) (by
    rw [hrun]; exact List.mem_map_of_mem (List.mem_range.2 ht)) cost (by rw [hinp]; exact hcost)
  rw [hinp] at this
  exact this.2 f hf1 hf2

theorem runOk_at {S : Sim} (n : Nat) : ∀ (s : NetworkState) (input : Nat → Inp) (record : Nat → Record),
    S.RunOk s ((List.range n).map input) ((List.range n).map record) →
    ∀ t < n, S.StepOk (input t) (record t).pre (record t).flow (record t).post := by
  induction n with
  | zero => intro _ _ _ _ t ht; omega
  | succ n ih =>
    intro s input record hr t ht
    simp only [List.range_succ_eq_map, List.map_cons, List.map_map, Sim.RunOk] at hr
    obtain ⟨-, -, h3, h4⟩ := hr
    cases t with
    | zero => exact h3
    | succ t => exact ih _ (fun t => input (t + 1)) (fun t => record (t + 1)) h4 t (by omega)

/-- **C83 (deficits).** At the end of every step the inflow of an output is at most the maximum flow seen at that time; so what a demand lacks
is the difference between the two. If the output belongs to an exclusive aggregated node, the maximum must not be negative. -/
theorem C83_deficit (hv : M.Valid) (hr : M.Runs n h cs input record) (hs : (M.sim cs).Valid)
    (hi : (M.sim cs).InputsOk ((List.range n).map input)) (t : Nat) (ht : t < n) (i : Nat) (nd : Verif.Topology.TNode)
    (hn : (M.sim cs).net.nodes[i]? = some nd) (hk : nd.kind = .output) (m q : ℚ)
    (hm : h.world (t + 1) (.nodeMaxFlow i) = some m) (hq : h.world (t + 1) (.nodeInFlow i) = some q)
    (hg : ¬ InGroup (M.sim cs).model i ∨ 0 ≤ m) : q ≤ m := by
  obtain ⟨g, g1, g2, g3⟩ := hr.world t ht
  obtain ⟨nd', e1, -, e2⟩ := (g2 i m).1 ((g3 _ _).1 hm)
  obtain ⟨-, rfl⟩ := (g3 _ _).1 hq
  have hok := runOk_at n _ _ _ (C83_limits hr hs hi).1 t ht
  have hidx := (Created.wf (M := (M.sim cs).model) (hv.sims cs)).nodeIndex i nd hn
  have hf : nodeFlow (record t).flow nd = inSum (M.sim cs).net.edges g.flow i := by
    rw [g1.flow]
    unfold nodeFlow
    rw [hk]
    exact (inSum_eq hs (record t).flow hn).symm
  by_cases hin : InGroup (M.sim cs).model i
  · have hm0 := hg.resolve_left (fun h => h hin)
    obtain ⟨grp, hgr, hi'⟩ := hin
    obtain ⟨on, hon⟩ := hok.allowed.choice
    have hfl : flowAt (M.sim cs).model.net (record t).flow i = nodeFlow (record t).flow nd := by
      have : (M.sim cs).model.net.nodes[i]? = some nd := hn
      simp [flowAt, this]
    rw [← hf, ← hfl]
    cases ho : on grp with
    | false => rw [hon.idle grp hgr ho i hi']; exact hm0
    | true =>
      have hgr' := hgr
      obtain ⟨a, ha, mn, mx, he, hga⟩ := hgr'
      obtain ⟨lo, up, hcb⟩ := hs.constant a ha mn mx he grp hga i hi'
      have h1 := (hon.busy grp hgr ho i hi' lo up hcb).1
      obtain ⟨_, _, _, _, h4⟩ := hcb
      have h4' : ((M.sim cs).data i).maxFlow = some (.const up) ∨ ((M.sim cs).data i).maxFlow = none ∧ up = f64MAX := h4
      have : up = m := by
        rcases h4' with h4 | ⟨h4, h5⟩
        · rw [h4] at e2; exact Option.some.inj e2
        · rw [h4] at e2; exact h5.trans e2.symm
      rw [← this]; exact h1
  have hmax := (hok.allowed.nodes nd (List.mem_of_getElem? hn) (by rw [hk]; decide) (by rw [hidx]; exact hin)).2
  rw [hidx] at hmax
  obtain ⟨u, hu, hle⟩ := Simulation.atMost_iff.1 hmax
  have : u = m := by
    unfold ValueIs at hu e2
    split at hu
    · rename_i hx; rw [hx] at e2; exact hu.trans e2.symm
    · rename_i m' hx; rw [hx] at e2; simp only at e2; rw [hu] at e2; exact Option.some.inj e2
  rw [← this]
  rw [← hf]
  exact hle

end Verif.Coupled
