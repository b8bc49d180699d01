import Verif.Spec.ReorderRun
import Verif.Props.Reorder
import Verif.Props.Simulation

/-! # Runs of a network in another order: lemmas -/

namespace Verif.Reorder

open Verif.Solver Verif.Topology
open Verif.State (NetworkState NodeState VSNode VSState NodeKind)
open Verif.Simulation (Sim SimState SimErr Inp Record Inv StepsOk RollOk VsIn)

variable {ρ : Nat → Nat} {b b' : Builder} {S S' : Sim} {inp inp' : Inp} {s s' : NetworkState}

theorem sameModel (hm : SameSim ρ S S') : SameModel ρ S.model S'.model where
  data := hm.data
  aggs := hm.aggs
  vs := by
    unfold Sim.model
    apply List.ext_getElem?
    intro k
    simp only [List.getElem?_mapIdx, List.getElem?_map, hm.vsNodes, hm.vsCost, Option.map_map]
    cases S.vsNodes[k]? with
    | none => rfl
    | some n =>
      simp only [Option.map_some, Function.comp, Verif.State.VSNode.nodesWithFactors, List.zip_map_left]
      rfl

theorem treated (hv : S.Valid) : Treated S.model := ⟨hv.model, hv.constant, hv.factors⟩

theorem kind_same (h : Reordered ρ b b') (hb : b.build = .ok S.net) (hb' : b'.build = .ok S'.net) (i : Nat) :
    S'.stateNet.kinds[ρ i]? = S.stateNet.kinds[i]? := by
  rw [Simulation.kinds_get, Simulation.kinds_get, nodes_at hb, nodes_at hb', h.moved, Option.map_map, Option.map_map]
  rfl

theorem valid_same (h : Reordered ρ b b') (hm : SameSim ρ S S') (hb : b.build = .ok S.net) (hb' : b'.build = .ok S'.net) (hv : S.Valid)
    (hg : GroupsAre S'.model S'.sets) : S'.Valid := by
  have hM := (treated hv).moved (M := S.model) (M' := S'.model) h (sameModel hm) hb hb'
  refine ⟨hM.valid, hM.members, hg, hM.factors, fun n hn i hi => ?_, fun n hn w hw => ?_⟩
  · rw [hm.vsNodes] at hn
    obtain ⟨n₀, h0, rfl⟩ := List.mem_map.1 hn
    obtain ⟨i₀, hi0, rfl⟩ := List.mem_map.1 hi
    obtain ⟨t, ht, hk⟩ := hv.members n₀ h0 i₀ hi0
    rw [nodes_at hb] at ht
    rw [nodes_at hb', h.moved]
    obtain ⟨d, hd, rfl⟩ := Option.map_eq_some_iff.1 ht
    exact ⟨nodeOf b' (ρ i₀) d, by rw [hd]; rfl, hk⟩
  · rw [hm.vsNodes] at hn
    obtain ⟨n₀, h0, rfl⟩ := List.mem_map.1 hn
    exact hv.rolling n₀ h0 w hw

/-! ## Before the solve -/

/-- The same volume bounds. -/
structure SameBounds (ρ : Nat → Nat) (B B' : State.Bounds) : Prop where
  node : ∀ i, B'.node (ρ i) = B.node i
  vs : B'.vs = B.vs

theorem bounds_same (h : Reordered ρ b b') (hm : SameSim ρ S S') (hb : b.build = .ok S.net) (hb' : b'.build = .ok S'.net) (σ : Nat → Option ℚ) :
    S.bounds σ = none ∧ S'.bounds σ = none ∨ ∃ B B', S.bounds σ = some B ∧ S'.bounds σ = some B' ∧ SameBounds ρ B B' := by
  have hn : ∀ i, S'.nodeVolumes σ (ρ i) = S.nodeVolumes σ i := fun i => by simp only [Sim.nodeVolumes, hm.data]
  have hvs : ∀ k, S'.vsVolumes σ k = S.vsVolumes σ k := fun k => by simp only [Sim.vsVolumes, hm.vsMin, hm.vsMax]
  have e : ((∀ n ∈ S'.net.nodes, n.kind = .storage → (S'.nodeVolumes σ n.index).isSome) ∧ ∀ k < S'.vsNodes.length, (S'.vsVolumes σ k).isSome) ↔
      ((∀ n ∈ S.net.nodes, n.kind = .storage → (S.nodeVolumes σ n.index).isSome) ∧ ∀ k < S.vsNodes.length, (S.vsVolumes σ k).isSome) := by
    have e1 := forall_nodes (M := S.model) (M' := S'.model) h hb hb' fun n => n.kind = .storage → (S'.nodeVolumes σ n.index).isSome
    have e2 := forall_nodes' (M := S.model) hb fun n => n.kind = .storage → (S.nodeVolumes σ n.index).isSome
    simp only [nodeOf, hn] at e1 e2
    have e3 := e1.trans e2.symm
    rw [show (∀ n ∈ S'.net.nodes, n.kind = .storage → ((S'.nodeVolumes σ n.index).isSome : Prop)) ↔ _ from e3]
    simp only [hvs, hm.vsNodes, List.length_map]
    exact Iff.rfl
  unfold Sim.bounds
  by_cases hc : (∀ n ∈ S.net.nodes, n.kind = .storage → (S.nodeVolumes σ n.index).isSome) ∧ ∀ k < S.vsNodes.length, (S.vsVolumes σ k).isSome
  · right
    rw [if_pos hc, if_pos (e.2 hc)]
    exact ⟨_, _, rfl, rfl, fun i => by simp only [hn], by funext k; simp only [hvs]⟩
  · left
    rw [if_neg hc, if_neg fun h => hc (e.1 h)]
    exact ⟨rfl, rfl⟩

theorem pre_same (h : Reordered ρ b b') (hm : SameSim ρ S S') (hb : b.build = .ok S.net) (hb' : b'.build = .ok S'.net)
    (hi : SameInp inp inp') {B B' : State.Bounds} (hB : SameBounds ρ B B') (hs : SameNet ρ b b' s s') :
    SameNet ρ b b' (S.pre inp B s) (S'.pre inp' B' s') where
  nodes := by
    intro i
    simp only [Sim.pre, State.preSolve, State.nodesBefore, List.getElem?_mapIdx, kind_same h hb hb', hs.nodes, hm.iv, hB.node, hi.t, hi.metric]
  edges := hs.edges
  vs := by
    simp only [Sim.pre, State.preSolve, State.vsBefore, hs.vs, hB.vs, hi.t]
    apply List.ext_getElem?
    intro k
    simp only [List.getElem?_mapIdx]
    congr 1
    funext v
    simp only [Sim.stateNet, hm.vsNodes, List.getElem?_map]
    cases S.vsNodes[k]? with
    | none => rfl
    | some n => rfl

theorem nodeVolume_same (hs : SameNet ρ b b' s s') (i : Nat) : (s'.nodeVolume (ρ i)).toOption = (s.nodeVolume i).toOption := by
  unfold NetworkState.nodeVolume
  rw [hs.nodes]
  cases s.nodes[i]? with
  | none => rfl
  | some n => cases n <;> rfl

theorem stepState_same (hm : SameSim ρ S S') (hi : SameInp inp inp') {B B' : State.Bounds} (hB : SameBounds ρ B B') (hs : SameNet ρ b b' s s') :
    SameState ρ (S.stepState inp B s) (S'.stepState inp' B' s') where
  metric := hi.metric
  volume := fun i => nodeVolume_same hs i
  vsActive := by
    funext k
    simp only [Sim.stepState, hm.vsNodes, List.getElem?_map, hi.t]
    cases S.vsNodes[k]? <;> rfl
  vsBounds := by
    funext k
    simp only [Sim.stepState, NetworkState.vsVolume, hs.vs, hB.vs]
  days := by simp only [Sim.stepState, hi.t]

/-! ## After the solve -/

theorem memberFlow_same {ks ks' : List NodeKind} {ns ns' : List NodeState} (hk : ∀ i : Nat, ks'[ρ i]? = ks[i]?) (hn : ∀ i : Nat, ns'[ρ i]? = ns[i]?) (i : Nat) :
    (State.memberFlow ks' ns' (ρ i)).toOption = (State.memberFlow ks ns i).toOption := by
  unfold State.memberFlow
  rw [hk, hn]
  cases ns[i]? with
  | none => rfl
  | some n =>
    cases ks[i]? with
    | none => rfl
    | some k => cases k <;> rfl

theorem vsFlow_same {ks ks' : List NodeKind} {ns ns' : List NodeState} (hk : ∀ i : Nat, ks'[ρ i]? = ks[i]?) (hn : ∀ i : Nat, ns'[ρ i]? = ns[i]?)
    (l : List (Nat × ℚ)) : (State.vsFlow ks' ns' (l.map fun p => (ρ p.1, p.2))).toOption = (State.vsFlow ks ns l).toOption := by
  induction l with
  | nil => rfl
  | cons p l ih =>
    obtain ⟨i, c⟩ := p
    have e := memberFlow_same hk hn i
    simp only [List.map_cons, State.vsFlow]
    revert e ih
    cases State.memberFlow ks' ns' (ρ i) <;> cases State.memberFlow ks ns i <;> simp [Except.toOption]
    intro ih e
    subst e
    revert ih
    cases State.vsFlow ks' ns' (l.map fun p => (ρ p.1, p.2)) <;> cases State.vsFlow ks ns l <;> simp

theorem updateVS_same {ks ks' : List NodeKind} {ns ns' : List NodeState} (hk : ∀ i : Nat, ks'[ρ i]? = ks[i]?) (hn : ∀ i : Nat, ns'[ρ i]? = ns[i]?)
    (t : Time.Timestep) (n : VSNode) (v : VSState) :
    (State.updateVS ks' ns' t { n with nodes := n.nodes.map ρ } v).toOption = (State.updateVS ks ns t n v).toOption := by
  have e : ({ n with nodes := n.nodes.map ρ } : VSNode).nodesWithFactors = n.nodesWithFactors.map fun p => (ρ p.1, p.2) := by
    simp only [VSNode.nodesWithFactors, List.zip_map_left]
    rfl
  have ha : ({ n with nodes := n.nodes.map ρ } : VSNode).isActive t = n.isActive t := rfl
  have h1 := vsFlow_same hk hn n.nodesWithFactors
  unfold State.updateVS
  rw [ha, e]
  by_cases hc : n.isActive t = true
  · rw [if_pos hc, if_pos hc]
    revert h1
    cases State.vsFlow ks' ns' (n.nodesWithFactors.map fun p => (ρ p.1, p.2)) <;> cases State.vsFlow ks ns n.nodesWithFactors <;>
      simp [Except.toOption]
    intro h; rw [h]
  · rw [if_neg hc, if_neg hc]

theorem apply_congr {net : State.Net} {B : State.Bounds} {t : Time.Timestep} {f g : Nat → ℚ} (h : ∀ e ∈ net.edges, f e.index = g e.index) (s : NetworkState) :
    State.applySolution net B t f s = State.applySolution net B t g s := by
  unfold State.applySolution
  rw [List.map_congr_left fun e he => by rw [h e he]]

theorem sumTo_eq (es : List State.Edge) (f : Nat → ℚ) (i : Nat) : State.sumTo i (es.map fun e => (e, f e.index)) = State.inSum es f i := by
  unfold State.sumTo State.inSum
  rw [List.filter_map, List.map_map]
  rfl

theorem sumFrom_eq (es : List State.Edge) (f : Nat → ℚ) (i : Nat) : State.sumFrom i (es.map fun e => (e, f e.index)) = State.outSum es f i := by
  unfold State.sumFrom State.outSum
  rw [List.filter_map, List.map_map]
  rfl

/-- The state after the solve. -/
theorem post_same (h : Reordered ρ b b') (hm : SameSim ρ S S') (hb : b.build = .ok S.net) (hb' : b'.build = .ok S'.net) (hv : S.Valid)
    (hv' : S'.Valid) {B B' : State.Bounds} (hB : SameBounds ρ B B') (hs : SameNet ρ b b' s s') (hlen : s.vs.length = S.vsNodes.length)
    (hln : s.nodes.length = S.net.nodes.length)
    {t : Time.Timestep} (φ : EdgeDecl → ℚ) {p p' : NetworkState}
    (hp : State.applySolution S.stateNet B t (along b φ) s = .ok p) (hp' : State.applySolution S'.stateNet B' t (along b' φ) s' = .ok p') :
    (∀ i : Nat, p'.nodes[ρ i]? = p.nodes[i]?) ∧ p'.vs = p.vs := by
  obtain ⟨q, h1, h2⟩ := State.applySolution_ok hp
  obtain ⟨q', h1', h2'⟩ := State.applySolution_ok hp'
  obtain ⟨-, -, a3, a4, -⟩ := State.addFlows_spec _ _ h1
  obtain ⟨-, -, a3', a4', -⟩ := State.addFlows_spec _ _ h1'
  have hin : ∀ i, (S.net.nodes[i]?).isSome → State.inSum S'.stateNet.edges (along b' φ) (ρ i) = State.inSum S.stateNet.edges (along b φ) i ∧
      State.outSum S'.stateNet.edges (along b' φ) (ρ i) = State.outSum S.stateNet.edges (along b φ) i := by
    intro i hi
    obtain ⟨n, hn⟩ := Option.isSome_iff_exists.1 hi
    have hn0 := hn
    rw [nodes_at hb] at hn
    obtain ⟨d, hd, rfl⟩ := Option.map_eq_some_iff.1 hn
    have hn' : S'.net.nodes[ρ i]? = some (nodeOf b' (ρ i) d) := by rw [nodes_at hb', h.moved, hd]; rfl
    rw [Simulation.inSum_eq hv _ hn0, Simulation.inSum_eq hv' _ hn', Simulation.outSum_eq hv _ hn0, Simulation.outSum_eq hv' _ hn']
    simp only [nodeOf, into_sum, from_sum, filter_sum h.edges, and_self]
  have hq : ∀ i : Nat, q'.nodes[ρ i]? = q.nodes[i]? := by
    intro i
    rw [a4, a4', sumTo_eq, sumFrom_eq, sumTo_eq, sumFrom_eq]
    simp only [NetworkState.reset, List.getElem?_map, hs.nodes]
    cases hn : s.nodes[i]? with
    | none => rfl
    | some n =>
      have hlt := (List.getElem?_eq_some_iff.1 hn).1
      obtain ⟨e1, e2⟩ := hin i (by rw [List.getElem?_eq_getElem (hln ▸ hlt)]; rfl)
      rw [e1, e2]
  obtain ⟨w, f1, f2, f3, -⟩ := State.complete_ok h2
  obtain ⟨w', f1', f2', f3', -⟩ := State.complete_ok h2'
  have hN : ∀ i : Nat, p'.nodes[ρ i]? = p.nodes[i]? := by
    intro i
    obtain ⟨l1, g1⟩ := State.finaliseNodes_spec _ _ _ _ _ f1
    obtain ⟨l1', g1'⟩ := State.finaliseNodes_spec _ _ _ _ _ f1'
    cases hn : q.nodes[i]? with
    | none =>
      have hn' : q'.nodes[ρ i]? = none := by rw [hq, hn]
      rw [List.getElem?_eq_none_iff] at hn hn'
      rw [List.getElem?_eq_none (by omega), List.getElem?_eq_none (by omega)]
    | some n =>
      obtain ⟨m, hm1, hm2⟩ := g1 i n hn
      obtain ⟨m', hm1', hm2'⟩ := g1' (ρ i) n (by rw [hq, hn])
      rw [kind_same h hb hb'] at hm2'
      simp only [Nat.zero_add, hB.node] at hm2 hm2'
      rw [hm1, hm1']
      split_ifs at hm2 hm2' with hc
      · rw [hm2] at hm2'
        rw [Except.ok.inj hm2']
      · rw [hm2, hm2']
  refine ⟨hN, ?_⟩
  obtain ⟨u1, u2⟩ := State.updateAllVS_spec _ _ _ _ _ _ f2
  obtain ⟨u1', u2'⟩ := State.updateAllVS_spec _ _ _ _ _ _ f2'
  obtain ⟨z1, z2⟩ := State.finaliseVS_spec _ _ _ _ _ f3
  obtain ⟨z1', z2'⟩ := State.finaliseVS_spec _ _ _ _ _ f3'
  have hqv : q'.vs = q.vs := by rw [a3, a3']; simp only [NetworkState.reset, hs.vs]
  have hql : q.vs.length = S.vsNodes.length := by rw [a3]; simp only [NetworkState.reset, List.length_map, hlen]
  apply List.ext_getElem?
  intro k
  by_cases hk : k < S.vsNodes.length
  · have hn := List.getElem?_eq_getElem hk
    have hn' : S'.stateNet.vsNodes[k]? = some { S.vsNodes[k] with nodes := S.vsNodes[k].nodes.map ρ } := by
      simp only [Sim.stateNet, hm.vsNodes, List.getElem?_map, hn, Option.map_some]
    have hv0 := List.getElem?_eq_getElem (show k < q.vs.length by omega)
    obtain ⟨v1, c1, c2⟩ := u2 k _ _ (show S.stateNet.vsNodes[k]? = some _ from hn) hv0
    obtain ⟨v1', c1', c2'⟩ := u2' k _ _ hn' (by rw [hqv]; exact hv0)
    have e := updateVS_same (kind_same h hb hb') hN t S.vsNodes[k] q.vs[k]
    rw [c2, c2'] at e
    have e : v1' = v1 := by simpa [Except.toOption] using e
    subst e
    obtain ⟨v2, d1, d2⟩ := z2 k _ _ (show S.stateNet.vsNodes[k]? = some _ from hn) c1
    obtain ⟨v2', d1', d2'⟩ := z2' k _ _ hn' c1'
    rw [hB.vs] at d2'
    rw [d2] at d2'
    rw [d1, d1', Except.ok.inj d2']
  · rw [List.getElem?_eq_none (by rw [z1', u1', hqv]; omega), List.getElem?_eq_none (by omega)]

end Verif.Reorder
