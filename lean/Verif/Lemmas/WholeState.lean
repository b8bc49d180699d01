import Verif.Spec.Whole
import Verif.Lemmas.Simulation

/-! # What is seen of a network state -/

namespace Verif.Coupled

open Verif.State Verif.Solver Verif.Time Verif.Simulation

variable {S : Sim}

/-! ## Shape of states -/

/-- The state fits the network, and storage nodes have a volume. -/
structure Shape (S : Sim) (s : NetworkState) : Prop where
  wf : WellFormed S.stateNet s
  edges : s.edges.length = S.net.edges.length
  storage : ∀ i, IsStorage S i ↔ ∃ st, s.nodes[i]? = some (.storage st)

/-- The flows in the state are `f`. -/
structure HasFlows (S : Sim) (f : Nat → ℚ) (s : NetworkState) : Prop where
  edges : ∀ e < S.net.edges.length, s.edgeFlow e = .ok (f e)
  inflow : ∀ i < S.net.nodes.length, s.nodeInFlow i = .ok (inSum S.net.edges f i)
  outflow : ∀ i < S.net.nodes.length, s.nodeOutFlow i = .ok (outSum S.net.edges f i)

theorem isStorage_iff {i : Nat} : IsStorage S i ↔ S.stateNet.kinds[i]? = some .storage := by
  unfold IsStorage
  rw [kinds_get]
  cases S.net.nodes[i]? <;> simp

theorem shape_initial (hv : S.model.Valid) : Shape S S.initialNetwork := by
  have hw : WF S.net := Created.wf (M := S.model) hv
  refine ⟨⟨?_, ?_, ?_, ?_⟩, ?_, ?_⟩
  · simp [Sim.initialNetwork, Sim.stateNet]
  · simp [Sim.initialNetwork, Sim.stateNet]
  · intro e he
    obtain ⟨k, hk⟩ := List.mem_iff_getElem?.1 he
    obtain ⟨h1, h2, h3⟩ := hw.index k e hk
    have := (List.getElem?_eq_some_iff.1 hk).1
    simp only [Sim.initialNetwork, List.length_map]
    exact ⟨h2, h3, by rw [h1]; exact this⟩
  · have : S.stateNet.edges.map (·.index) = List.range S.stateNet.edges.length := by
      apply List.ext_getElem?
      intro k
      rw [List.getElem?_map]
      cases hk : S.stateNet.edges[k]? with
      | none =>
        rw [List.getElem?_eq_none_iff] at hk
        simp [hk]
      | some e =>
        have hlt := (List.getElem?_eq_some_iff.1 hk).1
        rw [List.getElem?_range hlt, Option.map_some, (hw.index k e hk).1]
    rw [this]
    exact List.nodup_range
  · simp [Sim.initialNetwork]
  · intro i
    unfold IsStorage Sim.initialNetwork
    simp only [List.getElem?_map]
    cases S.net.nodes[i]? with
    | none => simp
    | some n => by_cases hk : n.kind = .storage <;> simp [hk]

theorem flows_initial : HasFlows S (fun _ => 0) S.initialNetwork := by
  have hsum : ∀ (l : List Edge), (l.map fun _ => (0 : ℚ)).sum = 0 := by intro l; induction l <;> simp_all
  refine ⟨?_, ?_, ?_⟩
  · intro e he
    simp [Sim.initialNetwork, NetworkState.edgeFlow, he]
  · intro i hi
    simp only [Sim.initialNetwork, NetworkState.nodeInFlow, List.getElem?_map, List.getElem?_eq_getElem hi, Option.map_some, inSum, hsum]
    split <;> rfl
  · intro i hi
    simp only [Sim.initialNetwork, NetworkState.nodeOutFlow, List.getElem?_map, List.getElem?_eq_getElem hi, Option.map_some, outSum, hsum]
    split <;> rfl

/-- What `before` of nodes does to the state of one. -/
theorem pre_node (inp : Inp) (b : State.Bounds) (s : NetworkState) (i : Nat) :
    (∀ f, s.nodes[i]? = some (.flow f) → (S.pre inp b s).nodes[i]? = some (.flow f)) ∧
    (∀ st, s.nodes[i]? = some (.storage st) → ∃ st', (S.pre inp b s).nodes[i]? = some (.storage st') ∧ st'.flows = st.flows) ∧
    (s.nodes[i]? = none → (S.pre inp b s).nodes[i]? = none) := by
  unfold Sim.pre preSolve nodesBefore
  simp only [List.getElem?_mapIdx]
  refine ⟨?_, ?_, ?_⟩
  · intro f h
    rw [h]
    simp only [Option.map_some]
    split
    · rename_i hh; cases hh
    · rfl
  · intro st h
    rw [h]
    simp only [Option.map_some]
    split
    · rename_i st' _ hh
      cases hh
      split
      · exact ⟨_, rfl, rfl⟩
      · exact ⟨_, rfl, rfl⟩
    · exact ⟨_, rfl, rfl⟩
  · intro h
    rw [h]; rfl

theorem shape_pre {s : NetworkState} (h : Shape S s) (inp : Inp) (b : State.Bounds) : Shape S (S.pre inp b s) := by
  have hl : (S.pre inp b s).nodes.length = s.nodes.length := by simp [Sim.pre, preSolve, nodesBefore]
  refine ⟨⟨by rw [hl]; exact h.wf.nodes, ?_, ?_, h.wf.nodup⟩, h.edges, ?_⟩
  · have : (S.pre inp b s).vs.length = s.vs.length := by simp [Sim.pre, preSolve, vsBefore]
    rw [this]; exact h.wf.vs
  · intro e he
    rw [hl]; exact h.wf.edge e he
  · intro i
    rw [h.storage i]
    obtain ⟨h1, h2, h3⟩ := pre_node (S := S) inp b s i
    cases hs : s.nodes[i]? with
    | none => rw [h3 hs]
    | some n =>
      cases n with
      | flow f => rw [h1 f hs]
      | storage st =>
        obtain ⟨st', h4, -⟩ := h2 st hs
        rw [h4]; simp

theorem flows_pre {s : NetworkState} {f : Nat → ℚ} (h : HasFlows S f s) (inp : Inp) (b : State.Bounds) :
    HasFlows S f (S.pre inp b s) := by
  have key : ∀ i, (S.pre inp b s).nodeInFlow i = s.nodeInFlow i ∧ (S.pre inp b s).nodeOutFlow i = s.nodeOutFlow i := by
    intro i
    obtain ⟨h1, h2, h3⟩ := pre_node (S := S) inp b s i
    unfold NetworkState.nodeInFlow NetworkState.nodeOutFlow
    cases hs : s.nodes[i]? with
    | none => rw [h3 hs]; exact ⟨rfl, rfl⟩
    | some n =>
      cases n with
      | flow f => rw [h1 f hs]; exact ⟨rfl, rfl⟩
      | storage st =>
        obtain ⟨st', h4, h5⟩ := h2 st hs
        rw [h4]; simp [NodeState.inFlow, NodeState.outFlow, h5]
  exact ⟨h.edges, fun i hi => by rw [(key i).1]; exact h.inflow i hi, fun i hi => by rw [(key i).2]; exact h.outflow i hi⟩

theorem post_lengths {net : Net} {b : State.Bounds} {t : Timestep} {f : Nat → ℚ} {s s' : NetworkState}
    (h : applySolution net b t f s = .ok s') : s'.nodes.length = s.nodes.length ∧ s'.edges.length = s.edges.length ∧
      s'.vs.length = s.vs.length := by
  obtain ⟨s1, h1, h2⟩ := applySolution_ok h
  obtain ⟨e1, e2, e3, -, -⟩ := afterFlows h1
  obtain ⟨vs1, c1, c2, c3, c4⟩ := complete_ok h2
  have f1 := (finaliseNodes_spec _ _ _ _ _ c1).1
  have f2 := (updateAllVS_spec _ _ _ _ _ _ c2).1
  have f3 := (finaliseVS_spec _ _ _ _ _ c3).1
  refine ⟨f1.trans e1, by rw [c4]; exact e2, ?_⟩
  rw [f3, f2, e3, List.length_map]

theorem shape_post {s s' : NetworkState} {b : State.Bounds} {t : Timestep} {f : Nat → ℚ} (hs : Shape S s)
    (h : applySolution S.stateNet b t f s = .ok s') : Shape S s' := by
  obtain ⟨l1, l2, l3⟩ := post_lengths h
  refine ⟨⟨by rw [l1]; exact hs.wf.nodes, by rw [l3]; exact hs.wf.vs, ?_, hs.wf.nodup⟩, by rw [l2]; exact hs.edges, ?_⟩
  · intro e he
    rw [l1, l2]; exact hs.wf.edge e he
  · intro i
    rw [hs.storage i]
    cases hn : s.nodes[i]? with
    | none =>
      have : s'.nodes[i]? = none := by rw [List.getElem?_eq_none_iff, l1]; exact List.getElem?_eq_none_iff.1 hn
      rw [this]
    | some n =>
      obtain ⟨n', h1, h2⟩ := applySolution_node h i n hn
      rw [h1]
      cases n with
      | flow fl =>
        have : n' = (NodeState.flow fl).reset.addBoth (inSum S.stateNet.edges f i) (outSum S.stateNet.edges f i) t.days := by
          split at h2
          · simp only [NodeState.reset, NodeState.addBoth, NodeState.finaliseVolume, Except.ok.injEq] at h2
            exact h2.symm
          · exact h2
        subst this
        simp [NodeState.reset, NodeState.addBoth]
      | storage st =>
        have hk := isStorage_iff.1 ((hs.storage i).2 ⟨st, hn⟩)
        rw [if_pos hk] at h2
        simp only [NodeState.reset, NodeState.addBoth, NodeState.finaliseVolume] at h2
        split at h2
        · cases h2
        · cases h2; simp

theorem flows_post {s s' : NetworkState} {b : State.Bounds} {t : Timestep} {f : Nat → ℚ} (hv : S.model.Valid) (hs : Shape S s)
    (h : applySolution S.stateNet b t f s = .ok s') : HasFlows S f s' := by
  obtain ⟨h1, h2⟩ := C09_node_flows hs.wf h
  have hw : WF S.net := Created.wf (M := S.model) hv
  refine ⟨?_, fun i hi => (h1 i (by simpa [Sim.stateNet] using hi)).1, fun i hi => (h1 i (by simpa [Sim.stateNet] using hi)).2⟩
  intro e he
  have := h2 _ (List.mem_of_getElem? (List.getElem?_eq_getElem he))
  rwa [(hw.index e _ (List.getElem?_eq_getElem he)).1] at this

/-! ## What is seen -/

theorem sumAll_iff {α : Type} {f : α → Option ℚ} {P : α → Prop} {g : α → ℚ} (l : List α) :
    (∀ a ∈ l, ∀ w, f a = some w ↔ P a ∧ w = g a) → ∀ v, sumAll f l = some v ↔ (∀ a ∈ l, P a) ∧ v = (l.map g).sum := by
  induction l with
  | nil => intro _ v; simp [sumAll, eq_comm]
  | cons a l ih =>
    intro h v
    have ha := h a (List.mem_cons_self ..)
    have ih := ih fun b hb => h b (List.mem_cons_of_mem _ hb)
    unfold sumAll
    simp only [List.map_cons, List.sum_cons, List.mem_cons, forall_eq_or_imp]
    constructor
    · intro hs
      split at hs
      · rename_i v1 v2 h1 h2
        obtain ⟨p1, e1⟩ := (ha v1).1 h1
        obtain ⟨p2, e2⟩ := (ih v2).1 h2
        cases hs
        exact ⟨⟨p1, p2⟩, by rw [e1, e2]⟩
      · cases hs
    · rintro ⟨⟨p1, p2⟩, rfl⟩
      rw [(ha _).2 ⟨p1, rfl⟩, (ih _).2 ⟨p2, rfl⟩]

theorem toOption_iff {ε : Type} {x : Except ε ℚ} {v : ℚ} : x.toOption = some v ↔ x = .ok v := by
  cases x <;> simp [Except.toOption]

variable {s : NetworkState} {f : Nat → ℚ} {inp : Inp} {b : State.Bounds} {g : Sight}

theorem inflow_iff (hs : Shape S s) (hf : HasFlows S f s) (i : Nat) (v : ℚ) :
    (s.nodeInFlow i).toOption = some v ↔ i < S.net.nodes.length ∧ v = inSum S.net.edges f i := by
  rw [toOption_iff]
  have hl : s.nodes.length = S.net.nodes.length := by simpa [Sim.stateNet] using hs.wf.nodes
  by_cases hi : i < S.net.nodes.length
  · rw [hf.inflow i hi]; simp [hi, eq_comm]
  · have : s.nodes[i]? = none := by rw [List.getElem?_eq_none_iff]; omega
    simp [NetworkState.nodeInFlow, this, hi]

theorem outflow_iff (hs : Shape S s) (hf : HasFlows S f s) (i : Nat) (v : ℚ) :
    (s.nodeOutFlow i).toOption = some v ↔ i < S.net.nodes.length ∧ v = outSum S.net.edges f i := by
  rw [toOption_iff]
  have hl : s.nodes.length = S.net.nodes.length := by simpa [Sim.stateNet] using hs.wf.nodes
  by_cases hi : i < S.net.nodes.length
  · rw [hf.outflow i hi]; simp [hi, eq_comm]
  · have : s.nodes[i]? = none := by rw [List.getElem?_eq_none_iff]; omega
    simp [NetworkState.nodeOutFlow, this, hi]

theorem edge_iff (hs : Shape S s) (hf : HasFlows S f s) (e : Nat) (v : ℚ) :
    (s.edgeFlow e).toOption = some v ↔ e < S.net.edges.length ∧ v = f e := by
  rw [toOption_iff]
  have hl := hs.edges
  by_cases he : e < S.net.edges.length
  · rw [hf.edges e he]; simp [he, eq_comm]
  · have : s.edges[e]? = none := by rw [List.getElem?_eq_none_iff]; omega
    simp [NetworkState.edgeFlow, this, he]

theorem volume_iff (hs : Shape S s) (hm : Moment S inp s f g) (i : Nat) (v : ℚ) :
    (s.nodeVolume i).toOption = some v ↔ IsStorage S i ∧ v = g.volume i := by
  rw [toOption_iff]
  by_cases hi : IsStorage S i
  · rw [hm.volume i hi]; simp [hi, eq_comm]
  · simp only [hi, false_and, iff_false]
    intro h
    unfold NetworkState.nodeVolume at h
    split at h
    · rename_i st hst; exact hi ((hs.storage i).2 ⟨st, hst⟩)
    · cases h
    · cases h

theorem recordedMax_iff (hs : Shape S s) (hm : Moment S inp s f g) (i : Nat) (v : ℚ) :
    recordedMax s i = some v ↔ IsStorage S i ∧ v = g.top i := by
  unfold recordedMax
  by_cases hi : IsStorage S i
  · obtain ⟨st, h1, h2⟩ := hm.top i hi
    rw [h1]; simp [hi, h2, eq_comm]
  · simp only [hi, false_and, iff_false]
    intro h
    split at h
    · rename_i st hst; exact hi ((hs.storage i).2 ⟨st, hst⟩)
    · cases h

theorem proportional_iff (hs : Shape S s) (hm : Moment S inp s f g) (i : Nat) (v : ℚ) :
    (s.nodeProportionalVolume i).toOption = some v ↔ IsStorage S i ∧ v = share (g.volume i) (g.top i) := by
  rw [toOption_iff]
  by_cases hi : IsStorage S i
  · obtain ⟨st, h1, h2⟩ := hm.top i hi
    have h3 := hm.volume i hi
    unfold NetworkState.nodeVolume at h3
    unfold NetworkState.nodeProportionalVolume
    rw [h1] at h3 ⊢
    simp only [Except.ok.injEq] at h3
    simp only [Except.ok.injEq, hi, true_and, StorageState.proportionalVolume, share, h2, h3]
    exact eq_comm
  · simp only [hi, false_and, iff_false]
    intro h
    unfold NetworkState.nodeProportionalVolume at h
    split at h
    · rename_i st hst; exact hi ((hs.storage i).2 ⟨st, hst⟩)
    · cases h
    · cases h

theorem vs_none (hs : Shape S s) {k : Nat} (hk : ¬ k < S.vsNodes.length) : s.vs[k]? = none := by
  have : s.vs.length = S.vsNodes.length := hs.wf.vs
  rw [List.getElem?_eq_none_iff]; omega

/-- What the state gives for a metric is what is shown. -/
theorem get_shows (hv : S.model.Valid) (hs : Shape S s) (hf : HasFlows S f s) (hb : S.bounds inp.metric = some b) (hm : Moment S inp s f g) {so : Built}
    {l : Nat → Option ℚ} (hl : ∀ i v, l i = some v ↔ g.limit i = some v) (c : Comp) (v : ℚ) :
    (World.mk S ⟨s, so⟩ b l).get c = some v ↔ Shows S g c v := by
  obtain ⟨b1, b2⟩ := bounds_some hb
  have hflow := hm.flow
  subst hflow
  cases c with
  | nodeInFlow i => exact inflow_iff hs hf i v
  | nodeOutFlow i => exact outflow_iff hs hf i v
  | nodeMaxFlow i => exact hl i v
  | nodeVolume i => exact volume_iff hs hm i v
  | nodeProportionalVolume i => exact proportional_iff hs hm i v
  | nodeMaxVolume i =>
    simp only [World.get, Shows]
    by_cases hi : IsStorage S i
    · obtain ⟨lo, h1⟩ := hm.most i hi
      have hk := isStorage_iff.1 hi
      obtain ⟨n, hn, hst⟩ := hi
      have h2 := b1 n (List.mem_of_getElem? hn) hst
      rw [(Created.wf (M := S.model) hv).nodeIndex i n hn] at h2
      have := (h2.unique h1).2
      simp only [hk, if_true, this, Option.some.injEq]
      exact ⟨fun h => ⟨isStorage_iff.2 hk, h.symm⟩, fun h => h.2.symm⟩
    · have hk : ¬ S.stateNet.kinds[i]? = some .storage := fun h => hi (isStorage_iff.2 h)
      simp [hk, hi]
  | aggInFlow k =>
    simp only [World.get, Shows]
    cases ha : S.aggs[k]? with
    | none => simp
    | some a =>
      simp only [Option.some.injEq, exists_eq_left']
      exact sumAll_iff _ (fun i _ w => inflow_iff hs hf i w) v
  | aggOutFlow k =>
    simp only [World.get, Shows]
    cases ha : S.aggs[k]? with
    | none => simp
    | some a =>
      simp only [Option.some.injEq, exists_eq_left']
      exact sumAll_iff _ (fun i _ w => outflow_iff hs hf i w) v
  | aggStorageVolume is => exact sumAll_iff _ (fun i _ w => volume_iff hs hm i w) v
  | aggStorageProportionalVolume is =>
    have h1 := sumAll_iff is fun i _ w => volume_iff hs hm i w
    have h2 := sumAll_iff is fun i _ w => recordedMax_iff hs hm i w
    simp only [World.get, Shows]
    by_cases hall : ∀ i ∈ is, IsStorage S i
    · rw [(h1 _).2 ⟨hall, rfl⟩, (h2 _).2 ⟨hall, rfl⟩]
      simp only [share]
      split
      · simp only [Option.some.injEq]; exact ⟨fun h => ⟨hall, h.symm⟩, fun h => h.2.symm⟩
      · simp only [Option.some.injEq]; exact ⟨fun h => ⟨hall, h.symm⟩, fun h => h.2.symm⟩
    · constructor
      · intro h
        split at h
        · rename_i x y hx hy
          exact absurd ((h1 x).1 hx).1 hall
        · cases h
      · exact fun h => absurd h.1 hall
  | edgeFlow e => exact edge_iff hs hf e v
  | multiEdgeFlow es => exact sumAll_iff _ (fun e _ w => edge_iff hs hf e w) v
  | vsVolume k =>
    simp only [World.get, Shows, toOption_iff]
    by_cases hk : k < S.vsNodes.length
    · rw [hm.vsVolume k hk]; simp [hk, eq_comm]
    · simp [NetworkState.vsVolume, vs_none hs hk, hk]
  | vsProportionalVolume k =>
    simp only [World.get, Shows, vsProportional]
    by_cases hk : k < S.vsNodes.length
    · obtain ⟨st, h1, h2⟩ := hm.vsTop k hk
      have h3 := hm.vsVolume k hk
      unfold NetworkState.vsVolume at h3
      rw [h1] at h3 ⊢
      simp only [Except.ok.injEq] at h3
      simp [hk, StorageState.proportionalVolume, share, h2, h3, eq_comm]
    · simp [vs_none hs hk, hk]
  | vsMaxVolume k =>
    simp only [World.get, Shows]
    by_cases hk : k < S.vsNodes.length
    · obtain ⟨lo, h1⟩ := hm.vsMost k hk
      have := ((b2 k hk).unique h1).2
      simp [hk, this, eq_comm]
    · simp [hk]
  | multiNodeInFlow is => exact sumAll_iff _ (fun i _ w => inflow_iff hs hf i w) v
  | multiNodeOutFlow is => exact sumAll_iff _ (fun i _ w => outflow_iff hs hf i w) v

/-- There is something to be seen of every state. -/
theorem moment_exists (hv : S.model.Valid) (hs : Shape S s) (hb : S.bounds inp.metric = some b) (l : Nat → Option ℚ) :
    ∃ g, Moment S inp s f g ∧ g.limit = l := by
  obtain ⟨b1, b2⟩ := bounds_some hb
  refine ⟨⟨f, fun i => (s.nodeVolume i).toOption.getD 0, fun i => (recordedMax s i).getD 0, fun i => (b.node i).2,
    fun k => (s.vsVolume k).toOption.getD 0, fun k => ((s.vs[k]?).map fun v => v.storage.maxVolume).getD 0, fun k => (b.vs k).2, l⟩,
    ⟨rfl, ?_, ?_, ?_, ?_, ?_, ?_⟩, rfl⟩
  · intro i hi
    obtain ⟨st, h⟩ := (hs.storage i).1 hi
    simp [NetworkState.nodeVolume, h, Except.toOption]
  · intro i hi
    obtain ⟨st, h⟩ := (hs.storage i).1 hi
    exact ⟨st, h, by simp [recordedMax, h]⟩
  · rintro i ⟨n, hn, hst⟩
    have h2 := b1 n (List.mem_of_getElem? hn) hst
    rw [(Created.wf (M := S.model) hv).nodeIndex i n hn] at h2
    exact ⟨_, h2⟩
  · intro k hk
    have hlt : k < s.vs.length := by have : s.vs.length = S.vsNodes.length := hs.wf.vs; omega
    simp [NetworkState.vsVolume, List.getElem?_eq_getElem hlt, Except.toOption]
  · intro k hk
    have hlt : k < s.vs.length := by have : s.vs.length = S.vsNodes.length := hs.wf.vs; omega
    exact ⟨_, List.getElem?_eq_getElem hlt, by simp [List.getElem?_eq_getElem hlt]⟩
  · intro k hk
    exact ⟨_, b2 k hk⟩

end Verif.Coupled
