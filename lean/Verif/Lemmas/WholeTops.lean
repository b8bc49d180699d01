import Verif.Lemmas.WholeMain

/-! # The maximum volumes that proportional volumes refer to -/

namespace Verif.Coupled

open Verif.State Verif.Solver Verif.Time Verif.Simulation

variable {S : Sim} {n : Nat} {input : Nat → Inp} {record : Nat → Record} {st : Nat → SimState}

/-- At the end of a step those of the step. -/
theorem Steps.tops (steps : Steps S n input record st) (hv : S.model.Valid) {t : Nat} (ht : t < n) :
    (∀ i, IsStorage S i → ∃ s, (record t).post.nodes[i]? = some (.storage s) ∧ s.maxVolume = ((record t).bounds.node i).2) ∧
    ∀ k < S.vsNodes.length, ∃ s, (record t).post.vs[k]? = some s ∧ s.storage.maxVolume = ((record t).bounds.vs k).2 := by
  obtain ⟨hshape, -⟩ := steps.shape hv t (by omega)
  obtain ⟨b, x, hb, -, -, a4, a5⟩ := step_iff.1 (steps.step t ht)
  have hpre := shape_pre hshape (input t) b
  have hpost : (record t).post = (st (t + 1)).network := by rw [a5]
  have hbounds : (record t).bounds = b := by rw [a5]
  rw [hpost, hbounds]
  constructor
  · intro i hi
    obtain ⟨s0, e0⟩ := (hpre.storage i).1 hi
    obtain ⟨n', h1, h2⟩ := applySolution_node a4 i _ e0
    rw [if_pos (isStorage_iff.1 hi)] at h2
    simp only [NodeState.reset, NodeState.addBoth, NodeState.finaliseVolume] at h2
    split at h2
    · cases h2
    · rename_i s2 hs2
      cases h2
      exact ⟨s2, h1, ((finalise_ok_iff _ _ _ _).1 hs2).2.2.2.2.1⟩
  · intro k hk
    obtain ⟨q1, q0, q2⟩ := applySolution_ok a4
    obtain ⟨-, -, e3, -, -⟩ := afterFlows q0
    obtain ⟨vs1, -, c2, c3, -⟩ := complete_ok q2
    have hl1 := (updateAllVS_spec _ _ _ _ _ _ c2).1
    have hlt : k < vs1.length := by
      rw [hl1, e3, List.length_map]
      have : (S.pre (input t) b (st t).network).vs.length = S.vsNodes.length := hpre.wf.vs
      omega
    obtain ⟨s2, f1, f2⟩ := (finaliseVS_spec _ _ _ _ _ c3).2 k _ _ (List.getElem?_eq_getElem hk) (List.getElem?_eq_getElem hlt)
    unfold VSState.finalise at f2
    split at f2
    · cases f2
    · rename_i s3 hs3
      cases f2
      refine ⟨_, f1, ?_⟩
      have := ((finalise_ok_iff _ _ _ _).1 hs3).2.2.2.2.1
      simpa using this

/-- Before an allocation those of the step before, if there is one; those of virtual storages may be of this step. -/
theorem Steps.tops_before (steps : Steps S n input record st) (hv : S.model.Valid) {t : Nat} (ht : t < n) (hi : (input t).t.index = t) :
    (∀ i, IsStorage S i → ∃ s, (record t).pre.nodes[i]? = some (.storage s) ∧ s.maxVolume = ((record (t - 1)).bounds.node i).2) ∧
    ∀ k < S.vsNodes.length, ∃ s, (record t).pre.vs[k]? = some s ∧
      (s.storage.maxVolume = ((record t).bounds.vs k).2 ∨ s.storage.maxVolume = ((record (t - 1)).bounds.vs k).2) := by
  obtain ⟨hshape, -⟩ := steps.shape hv t (by omega)
  obtain ⟨b, x, hb, -, -, -, a5⟩ := step_iff.1 (steps.step t ht)
  have hpre : (record t).pre = S.pre (input t) b (st t).network := by rw [a5]
  have hbounds : (record t).bounds = b := by rw [a5]
  have hold : ∀ s, t = s + 1 → (st t).network = (record s).post := by
    rintro s rfl
    obtain ⟨b1, x1, -, -, -, -, b5⟩ := step_iff.1 (steps.step s (by omega))
    rw [b5]
  constructor
  · intro i his
    obtain ⟨s0, e0⟩ := (hshape.storage i).1 his
    have hk : S.stateNet.kinds[i]? = some .storage := isStorage_iff.1 his
    cases t with
    | zero =>
      have hf : (input 0).t.isFirst = true := by simp [Timestep.isFirst, hi]
      refine ⟨s0.setVolume ((S.iv (input 0).metric i).get (b.node i).2) (b.node i).2, ?_, ?_⟩
      · rw [hpre]
        simp only [Sim.pre, preSolve, nodesBefore, List.getElem?_mapIdx, e0, Option.map_some, hk, hf, if_true]
      · simp only [Nat.zero_sub, hbounds, StorageState.setVolume]
    | succ t =>
      have hf : (input (t + 1)).t.isFirst = false := by simp [Timestep.isFirst, hi]
      obtain ⟨s1, e1, e2⟩ := (steps.tops hv (show t < n by omega)).1 i his
      rw [hold t rfl, e1] at e0
      obtain rfl : s1 = s0 := by simpa using e0
      refine ⟨s1, ?_, ?_⟩
      · rw [hpre, hold t rfl]
        simp only [Sim.pre, preSolve, nodesBefore, List.getElem?_mapIdx, e1, Option.map_some, hk, hf, Bool.false_eq_true, if_false]
      · simpa using e2
  · intro k hk
    have hlen : (st t).network.vs.length = S.vsNodes.length := hshape.wf.vs
    have hk' : k < (st t).network.vs.length := by omega
    have hget : (record t).pre.vs[k]? = some ((S.vsNodes[k]).before (input t).t (b.vs k).2 (st t).network.vs[k]) := by
      rw [hpre]
      simp [Sim.pre, preSolve, vsBefore, Sim.stateNet, hk, hk']
    refine ⟨_, hget, ?_⟩
    have hrec : ∀ (v : VSState) (t : Timestep), (v.recover t).storage.maxVolume = v.storage.maxVolume := by
      intro v t
      unfold VSState.recover
      split <;> rfl
    have hreset : ∀ (v : VSNode) (t : Timestep) (m : ℚ) (s : VSState), (v.applyReset t m s).storage.maxVolume = m := by
      intro v t m s
      unfold VSNode.applyReset
      simp only
      split <;> rfl
    have key : ∀ (v : VSNode) (t : Timestep) (m : ℚ) (s : VSState),
        (v.before t m s).storage.maxVolume = if v.doReset t s.lastReset then m else s.storage.maxVolume := by
      intro v t m s
      unfold VSNode.before
      simp only
      split_ifs <;> simp [hrec, hreset]
    rw [key]
    split_ifs with hd
    · exact .inl (by rw [hbounds])
    · cases t with
      | zero =>
        exfalso
        apply hd
        unfold VSNode.doReset
        rw [if_pos (by simp [Timestep.isFirst, hi])]
      | succ t =>
        obtain ⟨s1, e1, e2⟩ := (steps.tops hv (show t < n by omega)).2 k hk
        refine .inr ?_
        have : (st (t + 1)).network.vs[k]? = some s1 := by rw [hold t rfl]; exact e1
        rw [List.getElem?_eq_getElem hk', Option.some.injEq] at this
        rw [this, e2]
        simp

end Verif.Coupled
