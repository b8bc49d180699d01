import Verif.Spec.Storage
import Verif.Lemmas.State
import Mathlib.Data.List.Nodup
import Mathlib.Algebra.Order.BigOperators.Group.List
import Mathlib.Tactic.FieldSimp

/-! # C08, C09, C11, C24, C53: flows and volumes -/

namespace Verif.State

open Verif.Calendar Verif.Time

/-! ## Lemmas -/

theorem sumTo_map (edges : List Edge) (flow : Nat → ℚ) (i : Nat) :
    sumTo i (edges.map fun e => (e, flow e.index)) = inSum edges flow i := by
  unfold sumTo inSum
  induction edges with
  | nil => rfl
  | cons e l ih => by_cases h : e.toNode = i <;> simp [h] at ih ⊢ <;> exact ih

theorem sumFrom_map (edges : List Edge) (flow : Nat → ℚ) (i : Nat) :
    sumFrom i (edges.map fun e => (e, flow e.index)) = outSum edges flow i := by
  unfold sumFrom outSum
  induction edges with
  | nil => rfl
  | cons e l ih => by_cases h : e.fromNode = i <;> simp [h] at ih ⊢ <;> exact ih

theorem sumEdge_map (edges : List Edge) (flow : Nat → ℚ) (j : Nat) (hn : (edges.map (·.index)).Nodup) :
    sumEdge j (edges.map fun e => (e, flow e.index)) = if j ∈ edges.map (·.index) then flow j else 0 := by
  induction edges with
  | nil => simp [sumEdge]
  | cons e l ih =>
    simp only [List.map_cons, List.nodup_cons] at hn
    simp only [List.map_cons, sumEdge_cons, ih hn.2]
    by_cases h : e.index = j
    · subst h
      simp [hn.1]
    · have : ¬ j = e.index := fun h' => h h'.symm
      simp [h, this]

theorem getElem?_reset (s : NetworkState) (i : Nat) : s.reset.nodes[i]? = s.nodes[i]?.map NodeState.reset := by
  simp [NetworkState.reset]

/-- State of the nodes after the flows have been written. -/
theorem afterFlows {net : Net} {t : Timestep} {flow : Nat → ℚ} {s s1 : NetworkState}
    (h : s.reset.addFlows t.days (net.edges.map fun e => (e, flow e.index)) = .ok s1) :
    s1.nodes.length = s.nodes.length ∧ s1.edges.length = s.edges.length ∧ s1.vs = s.vs.map VSState.reset ∧
    (∀ i : Nat, s1.nodes[i]? = s.nodes[i]?.map fun n =>
      n.reset.addBoth (inSum net.edges flow i) (outSum net.edges flow i) t.days) ∧
    (∀ j : Nat, s1.edges[j]? = s.edges[j]?.map fun _ => sumEdge j (net.edges.map fun e => (e, flow e.index))) := by
  obtain ⟨h1, h2, h3, h4, h5⟩ := addFlows_spec _ _ h
  refine ⟨by simpa [NetworkState.reset] using h1, by simpa [NetworkState.reset] using h2, h3, ?_, ?_⟩
  · intro i
    rw [h4, getElem?_reset, Option.map_map, sumTo_map, sumFrom_map]
    rfl
  · intro j
    rw [h5]
    simp only [NetworkState.reset, List.getElem?_map, Option.map_map]
    congr 1
    funext q
    simp

theorem finaliseVolume_flows {n n' : NodeState} {lo hi : ℚ} (h : n.finaliseVolume lo hi = .ok n') :
    n'.inFlow = n.inFlow ∧ n'.outFlow = n.outFlow := by
  cases n with
  | flow s =>
    simp only [NodeState.finaliseVolume, Except.ok.injEq] at h
    subst h; exact ⟨rfl, rfl⟩
  | storage s =>
    simp only [NodeState.finaliseVolume] at h
    cases hs : s.finalise lo hi with
    | error e => simp [hs] at h
    | ok s' =>
      simp only [hs, Except.ok.injEq] at h
      subst h
      have := ((finalise_ok_iff s s' lo hi).1 hs).2.2.2.2.2
      simp [NodeState.inFlow, NodeState.outFlow, this]

/-- Nodes after a completed solve. -/
theorem applySolution_node {net : Net} {b : Bounds} {t : Timestep} {flow : Nat → ℚ} {s s' : NetworkState}
    (h : applySolution net b t flow s = .ok s') (i : Nat) (n : NodeState) (hi : s.nodes[i]? = some n) :
    ∃ n', s'.nodes[i]? = some n' ∧
      (if net.kinds[i]? = some .storage then
        (n.reset.addBoth (inSum net.edges flow i) (outSum net.edges flow i) t.days).finaliseVolume
          (b.node i).1 (b.node i).2 = .ok n'
       else n' = n.reset.addBoth (inSum net.edges flow i) (outSum net.edges flow i) t.days) := by
  obtain ⟨s1, h1, h2⟩ := applySolution_ok h
  obtain ⟨_, _, _, h4, _⟩ := afterFlows h1
  obtain ⟨vs1, c1, _, _, _⟩ := complete_ok h2
  obtain ⟨_, f2⟩ := finaliseNodes_spec _ _ _ _ _ c1
  have := f2 i _ (by rw [h4, hi]; rfl)
  simpa using this

/-! ## C09 -/

/-- **C09.** After a solve, the inflow and outflow of each node are the sums of the flows on its edges, and each edge
reports the flow the solver returned for it. Nothing of the previous state appears. -/
theorem C09_node_flows {net : Net} {b : Bounds} {t : Timestep} {flow : Nat → ℚ} {s s' : NetworkState}
    (hw : WellFormed net s) (h : applySolution net b t flow s = .ok s') :
    (∀ i < net.kinds.length, s'.nodeInFlow i = .ok (inSum net.edges flow i) ∧
      s'.nodeOutFlow i = .ok (outSum net.edges flow i)) ∧
    (∀ e ∈ net.edges, s'.edgeFlow e.index = .ok (flow e.index)) := by
  constructor
  · intro i hi
    rw [← hw.nodes] at hi
    obtain ⟨n', hn, hcase⟩ := applySolution_node h i _ (List.getElem?_eq_getElem hi)
    have hreset : ∀ n : NodeState, n.reset.inFlow = 0 ∧ n.reset.outFlow = 0 := by
      intro n; cases n <;> exact ⟨rfl, rfl⟩
    have hboth : ∀ (n : NodeState) (a c d : ℚ), (n.addBoth a c d).inFlow = n.inFlow + a ∧
        (n.addBoth a c d).outFlow = n.outFlow + c := by
      intro n a c d; cases n <;> exact ⟨rfl, rfl⟩
    have key : n'.inFlow = inSum net.edges flow i ∧ n'.outFlow = outSum net.edges flow i := by
      split at hcase
      · obtain ⟨e1, e2⟩ := finaliseVolume_flows hcase
        rw [e1, e2, (hboth _ _ _ _).1, (hboth _ _ _ _).2, (hreset _).1, (hreset _).2]
        simp
      · subst hcase
        rw [(hboth _ _ _ _).1, (hboth _ _ _ _).2, (hreset _).1, (hreset _).2]
        simp
    simp [NetworkState.nodeInFlow, NetworkState.nodeOutFlow, hn, key.1, key.2]
  · intro e he
    obtain ⟨s1, h1, h2⟩ := applySolution_ok h
    obtain ⟨_, hl, _, _, h5⟩ := afterFlows h1
    obtain ⟨_, _, _, _, c4⟩ := complete_ok h2
    unfold NetworkState.edgeFlow
    rw [c4, h5, sumEdge_map _ _ _ hw.nodup]
    have hlt := (hw.edge e he).2.2
    have hm : e.index ∈ net.edges.map (·.index) := List.mem_map_of_mem he
    rw [List.getElem?_eq_getElem hlt, if_pos hm]
    rfl

/-- **C09**, in observable terms only: reported inflow = sum of the reported flows of the edges into the node. -/
theorem C09_node_flows_observable {net : Net} {b : Bounds} {t : Timestep} {flow : Nat → ℚ} {s s' : NetworkState}
    (hw : WellFormed net s) (h : applySolution net b t flow s = .ok s') (reported : Nat → ℚ)
    (hr : ∀ e ∈ net.edges, s'.edgeFlow e.index = .ok (reported e.index)) :
    ∀ i < net.kinds.length,
      s'.nodeInFlow i = .ok (((net.edges.filter fun e => e.toNode == i).map fun e => reported e.index).sum) ∧
      s'.nodeOutFlow i = .ok (((net.edges.filter fun e => e.fromNode == i).map fun e => reported e.index).sum) := by
  obtain ⟨h1, h2⟩ := C09_node_flows hw h
  have hrep : ∀ e ∈ net.edges, reported e.index = flow e.index := by
    intro e he
    have := (hr e he).symm.trans (h2 e he)
    simpa using this
  intro i hi
  obtain ⟨a1, a2⟩ := h1 i hi
  rw [a1, a2]
  unfold inSum outSum
  constructor
  · congr 2
    apply List.map_congr_left
    intro e he
    exact (hrep e (List.mem_of_mem_filter he)).symm
  · congr 2
    apply List.map_congr_left
    intro e he
    exact (hrep e (List.mem_of_mem_filter he)).symm

/-- **C09**, order independence: writing the edges in another order gives the same state. -/
theorem C09_order_independent (s s1 s2 : NetworkState) (days : ℚ) (l1 l2 : List (Edge × ℚ)) (hp : l1.Perm l2)
    (h1 : s.addFlows days l1 = .ok s1) (h2 : s.addFlows days l2 = .ok s2) : s1 = s2 := by
  obtain ⟨a1, a2, a3, a4, a5⟩ := addFlows_spec _ _ h1
  obtain ⟨b1, b2, b3, b4, b5⟩ := addFlows_spec _ _ h2
  have e1 : ∀ i, sumTo i l1 = sumTo i l2 := fun i => ((hp.filter _).map _).sum_eq
  have e2 : ∀ i, sumFrom i l1 = sumFrom i l2 := fun i => ((hp.filter _).map _).sum_eq
  have e3 : ∀ i, sumEdge i l1 = sumEdge i l2 := fun i => ((hp.filter _).map _).sum_eq
  obtain ⟨n1, g1, v1⟩ := s1
  obtain ⟨n2, g2, v2⟩ := s2
  simp only at *
  have hn : n1 = n2 := List.ext_getElem? fun i => by rw [a4, b4, e1, e2]
  have hg : g1 = g2 := List.ext_getElem? fun i => by rw [a5, b5, e3]
  rw [hn, hg, a3, b3]

/-- An input feeding a reservoir which feeds an output: hypotheses of C08, C09 and C11 hold. -/
def exNet : Net := { kinds := [.input, .storage, .output], edges := [⟨0, 0, 1⟩, ⟨1, 1, 2⟩], vsNodes := [] }

/-- Initial state of the example. -/
def exState : NetworkState :=
  { nodes := [.flow ⟨0, 0⟩, .storage ⟨0, 0, ⟨0, 0⟩⟩, .flow ⟨0, 0⟩], edges := [0, 0], vs := [] }

/-- Timestep `k` of the example, one day long. -/
def exTs (k : Nat) : Timestep := ⟨⟨⟨2020, 1, k + 1⟩, 0⟩, k, 86400000000000⟩

/-- Flows 5 in and `out` out, bounds 0 to 100. -/
def exIn (k : Nat) (out : ℚ) : StepIn :=
  { t := exTs k, b := ⟨fun _ => (0, 100), fun _ => (0, 0)⟩, flow := fun j => if j = 0 then 5 else out }

example : WellFormed exNet exState :=
  ⟨rfl, rfl, by decide, by decide⟩

example : (run exNet (fun _ => .absolute 50) [exIn 0 3, exIn 1 20] exState).map (·.nodeVolume 1) = .ok (.ok 37) := by
  decide +kernel

example : (run exNet (fun _ => .absolute 50) [exIn 0 3, exIn 1 20] exState).map (·.nodeInFlow 1) = .ok (.ok 5) := by
  decide +kernel

/-! ## C08 -/

theorem nodesBefore_get (kinds : List NodeKind) (iv : Nat → InitialVolume) (bounds : Nat → ℚ × ℚ) (t : Timestep)
    (nodes : List NodeState) (i : Nat) (st : StorageState) (hk : kinds[i]? = some .storage)
    (hs : nodes[i]? = some (.storage st)) :
    (nodesBefore kinds iv bounds t nodes)[i]? = some (.storage
      (if t.index = 0 then st.setVolume ((iv i).get (bounds i).2) (bounds i).2 else st)) := by
  simp only [nodesBefore, List.getElem?_mapIdx, hs, Option.map_some, hk, Timestep.isFirst]
  by_cases h : t.index = 0 <;> simp [h]

/-- The volume at the time of the solve. -/
def solveVolume (iv : Nat → InitialVolume) (i : Nat) (inp : StepIn) (v : ℚ) : ℚ :=
  if inp.t.index = 0 then (iv i).get (inp.b.node i).2 else v

/-- One step of a storage node. -/
theorem step_storage {net : Net} {iv : Nat → InitialVolume} {inp : StepIn} {s s' : NetworkState}
    (h : step net iv inp s = .ok s') {i : Nat} {st : StorageState} (hk : net.kinds[i]? = some .storage)
    (hs : s.nodes[i]? = some (.storage st)) :
    ∃ st' : StorageState, s'.nodes[i]? = some (.storage st') ∧
      (inp.b.node i).1 - tol ≤ solveVolume iv i inp st.volume + gain net.edges i inp ∧
      solveVolume iv i inp st.volume + gain net.edges i inp ≤ (inp.b.node i).2 + tol ∧
      (inp.b.node i).1 ≤ (inp.b.node i).2 ∧
      st'.volume = max (inp.b.node i).1 (min (inp.b.node i).2 (solveVolume iv i inp st.volume + gain net.edges i inp)) ∧
      st'.maxVolume = (inp.b.node i).2 := by
  unfold step at h
  have hpre : (preSolve net iv inp s).nodes[i]? = some (.storage
      (if inp.t.index = 0 then st.setVolume ((iv i).get (inp.b.node i).2) (inp.b.node i).2 else st)) :=
    nodesBefore_get _ _ _ _ _ _ _ hk hs
  obtain ⟨n', hn, hcase⟩ := applySolution_node h i _ hpre
  rw [if_pos hk] at hcase
  simp only [NodeState.reset, NodeState.addBoth, NodeState.finaliseVolume] at hcase
  split at hcase
  · cases hcase
  · rename_i st' hst
    cases hcase
    have := (finalise_ok_iff _ _ _ _).1 hst
    obtain ⟨a1, a2, a3, a4, a5, _⟩ := this
    have e : ((if inp.t.index = 0 then st.setVolume ((iv i).get (inp.b.node i).2) (inp.b.node i).2 else st).reset).volume
        = solveVolume iv i inp st.volume := by
      unfold solveVolume
      split <;> rfl
    simp only [e] at a1 a2 a4
    exact ⟨st', hn, a1, a2, a3, a4, a5⟩

/-- **C08**, one step: a completed step changes the volume by `(inflow - outflow) * days`, up to a correction of at most
the tolerance, which is zero if the result is inside the bounds. If the result is outside the bounds by more than the
tolerance, the step does not complete. -/
theorem C08_step_balance {net : Net} {iv : Nat → InitialVolume} {inp : StepIn} {s s' : NetworkState}
    (h : step net iv inp s = .ok s') {i : Nat} {v : ℚ} (hk : net.kinds[i]? = some .storage)
    (hi : inp.t.index ≠ 0) (hv : s.nodeVolume i = .ok v) :
    ∃ v', s'.nodeVolume i = .ok v' ∧
      (inp.b.node i).1 ≤ v' ∧ v' ≤ (inp.b.node i).2 ∧
      |v' - (v + gain net.edges i inp)| ≤ tol ∧
      ((inp.b.node i).1 ≤ v + gain net.edges i inp → v + gain net.edges i inp ≤ (inp.b.node i).2 →
        v' = v + gain net.edges i inp) := by
  unfold NetworkState.nodeVolume at hv
  cases hs : s.nodes[i]? with
  | none => simp [hs] at hv
  | some n =>
    cases n with
    | flow f => simp [hs] at hv
    | storage st =>
      simp only [hs, Except.ok.injEq] at hv
      subst hv
      obtain ⟨st', hn, h1, h2, h3, h4, _⟩ := step_storage h hk hs
      have e : solveVolume iv i inp st.volume = st.volume := by simp [solveVolume, hi]
      rw [e] at h1 h2 h4
      have htol : (0 : ℚ) ≤ tol := by norm_num [tol]
      refine ⟨st'.volume, by simp [NetworkState.nodeVolume, hn], ?_, ?_, ?_, ?_⟩
      · rw [h4]; exact le_max_left _ _
      · rw [h4]; exact max_le h3 (min_le_left _ _)
      · rw [h4, abs_le]
        rcases le_total (inp.b.node i).2 (st.volume + gain net.edges i inp) with hc | hc
        · rw [min_eq_left hc, max_eq_right h3]
          constructor <;> linarith
        · rw [min_eq_right hc]
          rcases le_total (inp.b.node i).1 (st.volume + gain net.edges i inp) with hd | hd
          · rw [max_eq_right hd]; constructor <;> linarith
          · rw [max_eq_left hd]; constructor <;> linarith
      · intro ha hb
        rw [h4, min_eq_right hb, max_eq_right ha]

/-- **C08**, the panic: a step whose balance misses the bounds by more than the tolerance does not complete. -/
theorem C08_imbalance_panics {net : Net} {iv : Nat → InitialVolume} {inp : StepIn} {s : NetworkState}
    {i : Nat} {v : ℚ} (hk : net.kinds[i]? = some .storage) (hi : inp.t.index ≠ 0) (hv : s.nodeVolume i = .ok v)
    (hout : v + gain net.edges i inp < (inp.b.node i).1 - tol ∨ (inp.b.node i).2 + tol < v + gain net.edges i inp) :
    ∃ e, step net iv inp s = .error e := by
  cases h : step net iv inp s with
  | error e => exact ⟨e, rfl⟩
  | ok s' =>
    exfalso
    unfold NetworkState.nodeVolume at hv
    cases hs : s.nodes[i]? with
    | none => simp [hs] at hv
    | some n =>
      cases n with
      | flow f => simp [hs] at hv
      | storage st =>
        simp only [hs, Except.ok.injEq] at hv
        subst hv
        obtain ⟨st', hn, h1, h2, h3, h4, _⟩ := step_storage h hk hs
        have e : solveVolume iv i inp st.volume = st.volume := by simp [solveVolume, hi]
        rw [e] at h1 h2
        rcases hout with ho | ho <;> linarith

example : step exNet (fun _ => .absolute 50) (exIn 1 80) { exState with nodes := [.flow ⟨0, 0⟩, .storage ⟨50, 100, ⟨0, 0⟩⟩, .flow ⟨0, 0⟩] }
    = .error .panicBelowMin := by decide +kernel

/-- Volumes along a run without a first timestep. -/
theorem run_volume {net : Net} {iv : Nat → InitialVolume} {i : Nat} (hk : net.kinds[i]? = some .storage) :
    ∀ (inputs : List StepIn) (s s' : NetworkState) (v : ℚ), (∀ inp ∈ inputs, inp.t.index ≠ 0) →
      s.nodeVolume i = .ok v → run net iv inputs s = .ok s' →
      ∃ v', s'.nodeVolume i = .ok v' ∧ |v' - (v + totalGain net.edges i inputs)| ≤ inputs.length * tol := by
  intro inputs
  induction inputs with
  | nil =>
    intro s s' v _ hv h
    simp only [run, Except.ok.injEq] at h
    subst h
    exact ⟨v, hv, by simp [totalGain]⟩
  | cons inp rest ih =>
    intro s s' v hidx hv h
    simp only [run] at h
    cases hst : step net iv inp s with
    | error e => simp [hst] at h
    | ok s1 =>
      simp only [hst] at h
      obtain ⟨v1, hv1, _, _, hb, _⟩ := C08_step_balance hst hk (hidx inp (by simp)) hv
      obtain ⟨v', hv', hb'⟩ := ih s1 s' v1 (fun x hx => hidx x (by simp [hx])) hv1 h
      refine ⟨v', hv', ?_⟩
      have e : totalGain net.edges i (inp :: rest) = gain net.edges i inp + totalGain net.edges i rest := by
        simp [totalGain]
      rw [e]
      rw [abs_le] at hb hb' ⊢
      push_cast [List.length_cons]
      constructor <;> linarith [hb.1, hb.2, hb'.1, hb'.2]

theorem run_volume_exact {net : Net} {iv : Nat → InitialVolume} {i : Nat} (hk : net.kinds[i]? = some .storage) :
    ∀ (inputs : List StepIn) (s s' : NetworkState) (v : ℚ), (∀ inp ∈ inputs, inp.t.index ≠ 0) →
      s.nodeVolume i = .ok v → run net iv inputs s = .ok s' → StaysInBounds net.edges i v inputs →
      s'.nodeVolume i = .ok (v + totalGain net.edges i inputs) := by
  intro inputs
  induction inputs with
  | nil =>
    intro s s' v _ hv h _
    simp only [run, Except.ok.injEq] at h
    subst h
    simpa [totalGain] using hv
  | cons inp rest ih =>
    intro s s' v hidx hv h hin
    simp only [run] at h
    cases hst : step net iv inp s with
    | error e => simp [hst] at h
    | ok s1 =>
      simp only [hst] at h
      obtain ⟨v1, hv1, _, _, _, hex⟩ := C08_step_balance hst hk (hidx inp (by simp)) hv
      obtain ⟨hb1, hb2, hrest⟩ := hin
      rw [← hex hb1 hb2] at hrest
      have := ih s1 s' v1 (fun x hx => hidx x (by simp [hx])) hv1 h hrest
      rw [this, hex hb1 hb2]
      simp [totalGain, add_assoc]

/-- The first step sets the configured initial volume, whatever the state was. -/
theorem first_step_volume {net : Net} {iv : Nat → InitialVolume} {i : Nat} (hk : net.kinds[i]? = some .storage)
    {inp : StepIn} {s s' : NetworkState} (hi : inp.t.index = 0) {v : ℚ} (hv : s.nodeVolume i = .ok v)
    (h : step net iv inp s = .ok s') :
    ∃ v', s'.nodeVolume i = .ok v' ∧
      |v' - ((iv i).get (inp.b.node i).2 + gain net.edges i inp)| ≤ tol ∧
      ((inp.b.node i).1 ≤ (iv i).get (inp.b.node i).2 + gain net.edges i inp →
        (iv i).get (inp.b.node i).2 + gain net.edges i inp ≤ (inp.b.node i).2 →
        v' = (iv i).get (inp.b.node i).2 + gain net.edges i inp) := by
  unfold NetworkState.nodeVolume at hv
  cases hs : s.nodes[i]? with
  | none => simp [hs] at hv
  | some n =>
    cases n with
    | flow f => simp [hs] at hv
    | storage st =>
      obtain ⟨st', hn, h1, h2, h3, h4, _⟩ := step_storage h hk hs
      have e : solveVolume iv i inp st.volume = (iv i).get (inp.b.node i).2 := by simp [solveVolume, hi]
      rw [e] at h1 h2 h4
      have htol : (0 : ℚ) ≤ tol := by norm_num [tol]
      refine ⟨st'.volume, by simp [NetworkState.nodeVolume, hn], ?_, ?_⟩
      · rw [h4, abs_le]
        rcases le_total (inp.b.node i).2 ((iv i).get (inp.b.node i).2 + gain net.edges i inp) with hc | hc
        · rw [min_eq_left hc, max_eq_right h3]
          constructor <;> linarith
        · rw [min_eq_right hc]
          rcases le_total (inp.b.node i).1 ((iv i).get (inp.b.node i).2 + gain net.edges i inp) with hd | hd
          · rw [max_eq_right hd]; constructor <;> linarith
          · rw [max_eq_left hd]; constructor <;> linarith
      · intro ha hb
        rw [h4, min_eq_right hb, max_eq_right ha]

/-- **C08.** After any completed run the volume is the configured initial volume plus the sum of
`(inflow - outflow) * days`, up to one tolerance per step. -/
theorem C08_water_balance {net : Net} {iv : Nat → InitialVolume} {i : Nat} (hk : net.kinds[i]? = some .storage)
    (first : StepIn) (rest : List StepIn) (s s' : NetworkState) (v : ℚ) (hf : first.t.index = 0)
    (hr : ∀ inp ∈ rest, inp.t.index ≠ 0) (hv : s.nodeVolume i = .ok v)
    (h : run net iv (first :: rest) s = .ok s') :
    ∃ v', s'.nodeVolume i = .ok v' ∧
      |v' - ((iv i).get (first.b.node i).2 + totalGain net.edges i (first :: rest))| ≤ (rest.length + 1) * tol := by
  simp only [run] at h
  cases hst : step net iv first s with
  | error e => simp [hst] at h
  | ok s1 =>
    simp only [hst] at h
    obtain ⟨v1, hv1, hb, _⟩ := first_step_volume hk hf hv hst
    obtain ⟨v', hv', hb'⟩ := run_volume hk rest s1 s' v1 hr hv1 h
    refine ⟨v', hv', ?_⟩
    have e : totalGain net.edges i (first :: rest) = gain net.edges i first + totalGain net.edges i rest := by
      simp [totalGain]
    rw [e]
    rw [abs_le] at hb hb' ⊢
    constructor <;> linarith [hb.1, hb.2, hb'.1, hb'.2]

/-- **C08**, exact: if the exact balance never leaves the bounds, the volume is exactly the balance. -/
theorem C08_water_balance_exact {net : Net} {iv : Nat → InitialVolume} {i : Nat} (hk : net.kinds[i]? = some .storage)
    (first : StepIn) (rest : List StepIn) (s s' : NetworkState) (v : ℚ) (hf : first.t.index = 0)
    (hr : ∀ inp ∈ rest, inp.t.index ≠ 0) (hv : s.nodeVolume i = .ok v)
    (hin : StaysInBounds net.edges i ((iv i).get (first.b.node i).2) (first :: rest))
    (h : run net iv (first :: rest) s = .ok s') :
    s'.nodeVolume i = .ok ((iv i).get (first.b.node i).2 + totalGain net.edges i (first :: rest)) := by
  simp only [run] at h
  cases hst : step net iv first s with
  | error e => simp [hst] at h
  | ok s1 =>
    simp only [hst] at h
    obtain ⟨v1, hv1, _, hex⟩ := first_step_volume hk hf hv hst
    obtain ⟨hb1, hb2, hrest⟩ := hin
    have he := hex hb1 hb2
    rw [← he] at hrest
    have := run_volume_exact hk rest s1 s' v1 hr hv1 h hrest
    rw [this, he]
    simp [totalGain, add_assoc]

example : StaysInBounds exNet.edges 1 50 [exIn 0 3, exIn 1 20] := by
  refine ⟨?_, ?_, ?_, ?_, trivial⟩ <;> decide +kernel

/-! ## C11 -/

/-- **C11**, one step: flows that satisfy the storage row put the new volume inside the bounds, exactly on the balance
(the clamp changes nothing). -/
theorem C11_feasible_step {net : Net} {iv : Nat → InitialVolume} {inp : StepIn} {s s' : NetworkState}
    (h : step net iv inp s = .ok s') {i : Nat} {v : ℚ} (hk : net.kinds[i]? = some .storage)
    (hd : 0 < inp.t.days) (hv : (preSolve net iv inp s).nodeVolume i = .ok v)
    (hrow : StorageRow net.edges i v inp) :
    s'.nodeVolume i = .ok (v + gain net.edges i inp) ∧
    (inp.b.node i).1 ≤ v + gain net.edges i inp ∧ v + gain net.edges i inp ≤ (inp.b.node i).2 := by
  have hbounds : (inp.b.node i).1 ≤ v + gain net.edges i inp ∧ v + gain net.edges i inp ≤ (inp.b.node i).2 := by
    obtain ⟨h1, h2⟩ := hrow
    rw [div_le_iff₀ hd] at h1
    rw [le_div_iff₀ hd] at h2
    unfold gain
    constructor <;> linarith
  refine ⟨?_, hbounds.1, hbounds.2⟩
  unfold step at h
  unfold NetworkState.nodeVolume at hv
  cases hs : (preSolve net iv inp s).nodes[i]? with
  | none => simp [hs] at hv
  | some n =>
    cases n with
    | flow f => simp [hs] at hv
    | storage st =>
      simp only [hs, Except.ok.injEq] at hv
      subst hv
      obtain ⟨n', hn, hcase⟩ := applySolution_node h i _ hs
      rw [if_pos hk] at hcase
      simp only [NodeState.reset, NodeState.addBoth, NodeState.finaliseVolume] at hcase
      split at hcase
      · cases hcase
      · rename_i st' hst
        cases hcase
        obtain ⟨_, _, _, a4, _, _⟩ := (finalise_ok_iff _ _ _ _).1 hst
        simp only [StorageState.reset] at a4
        have e : st.volume + (inSum net.edges inp.flow i - outSum net.edges inp.flow i) * inp.t.days =
            st.volume + gain net.edges i inp := rfl
        rw [e, min_eq_right hbounds.2, max_eq_right hbounds.1] at a4
        simp [NetworkState.nodeVolume, hn, a4]

/-- **C11**, no panic: if the flows satisfy the storage row of every storage node, then in a network without virtual
storages the step completes. -/
theorem C11_feasible_completes {net : Net} {iv : Nat → InitialVolume} {inp : StepIn} {s : NetworkState}
    (hw : WellFormed net s) (hvs : net.vsNodes = []) (hd : 0 < inp.t.days)
    (hrow : ∀ (i : Nat) (v : ℚ), net.kinds[i]? = some .storage → (preSolve net iv inp s).nodeVolume i = .ok v →
      StorageRow net.edges i v inp ) :
    ∃ s', step net iv inp s = .ok s' := by
  have hlen : (preSolve net iv inp s).nodes.length = s.nodes.length := by simp [preSolve, nodesBefore]
  have hedges : (preSolve net iv inp s).edges = s.edges := rfl
  obtain ⟨s1, hs1⟩ := addFlows_ok inp.t.days (net.edges.map fun e => (e, inp.flow e.index))
    (preSolve net iv inp s).reset (by
      intro p hp
      obtain ⟨e, he, rfl⟩ := List.mem_map.1 hp
      have := hw.edge e he
      simp only [NetworkState.reset, List.length_map, hlen, hedges]
      exact this)
  obtain ⟨f1, f2, f3, f4, f5⟩ := afterFlows hs1
  have hfin : ∃ ns', finaliseNodes inp.b.node 0 net.kinds s1.nodes = .ok ns' := by
    apply finaliseNodes_ok
    · rw [f1, hlen, hw.nodes]
    · intro j n hk hn
      simp only [Nat.zero_add]
      rw [f4] at hn
      cases hp : (preSolve net iv inp s).nodes[j]? with
      | none => simp [hp] at hn
      | some m =>
        simp only [hp, Option.map_some, Option.some.injEq] at hn
        subst hn
        cases m with
        | flow f => exact ⟨_, rfl⟩
        | storage st =>
          have hv : (preSolve net iv inp s).nodeVolume j = .ok st.volume := by simp [NetworkState.nodeVolume, hp]
          obtain ⟨h1, h2⟩ := hrow j st.volume hk hv
          rw [div_le_iff₀ hd] at h1
          rw [le_div_iff₀ hd] at h2
          have htol : (0 : ℚ) ≤ tol := by norm_num [tol]
          simp only [NodeState.reset, NodeState.addBoth, NodeState.finaliseVolume, StorageState.reset]
          have := (finalise_ok_iff
            ⟨st.volume + (inSum net.edges inp.flow j - outSum net.edges inp.flow j) * inp.t.days, st.maxVolume,
              ⟨FlowState.zero.inFlow + inSum net.edges inp.flow j, FlowState.zero.outFlow + outSum net.edges inp.flow j⟩⟩
            ⟨max (inp.b.node j).1 (min (inp.b.node j).2
              (st.volume + (inSum net.edges inp.flow j - outSum net.edges inp.flow j) * inp.t.days)), (inp.b.node j).2,
              ⟨FlowState.zero.inFlow + inSum net.edges inp.flow j, FlowState.zero.outFlow + outSum net.edges inp.flow j⟩⟩
            (inp.b.node j).1 (inp.b.node j).2).2
            ⟨by simp only; linarith, by simp only; linarith, by linarith, rfl, rfl, rfl⟩
          rw [this]
          exact ⟨_, rfl⟩
  obtain ⟨ns', hns⟩ := hfin
  refine ⟨{ s1 with nodes := ns', vs := s1.vs }, ?_⟩
  unfold step applySolution
  simp only [hs1, complete, hns, hvs, updateAllVS, finaliseVS]

/-- Specification of a run in which the solver always returns flows that satisfy the storage rows. -/
def FeasibleRun (net : Net) (iv : Nat → InitialVolume) : List StepIn → NetworkState → Prop
  | [], _ => True
  | inp :: rest, s =>
    0 < inp.t.days ∧
    (∀ (i : Nat) (v : ℚ), net.kinds[i]? = some .storage → (preSolve net iv inp s).nodeVolume i = .ok v →
      StorageRow net.edges i v inp) ∧
    ∀ s', step net iv inp s = .ok s' → FeasibleRun net iv rest s'

theorem step_wellFormed {net : Net} {iv : Nat → InitialVolume} {inp : StepIn} {s s' : NetworkState}
    (hw : WellFormed net s) (h : step net iv inp s = .ok s') : WellFormed net s' := by
  obtain ⟨s1, h1, h2⟩ := applySolution_ok h
  obtain ⟨a1, a2, a3, _, _⟩ := afterFlows h1
  obtain ⟨vs1, c1, c2, c3, c4⟩ := complete_ok h2
  have l1 := (finaliseNodes_spec _ _ _ _ _ c1).1
  have l2 := (updateAllVS_spec _ _ _ _ _ _ c2).1
  have l3 := (finaliseVS_spec _ _ _ _ _ c3).1
  have p1 : (preSolve net iv inp s).nodes.length = s.nodes.length := by simp [preSolve, nodesBefore]
  have p2 : (preSolve net iv inp s).edges.length = s.edges.length := rfl
  have p3 : (preSolve net iv inp s).vs.length = s.vs.length := by simp [preSolve, vsBefore]
  have n1 : s'.nodes.length = s.nodes.length := by omega
  have n2 : s'.edges.length = s.edges.length := by rw [c4]; omega
  have n3 : s'.vs.length = s.vs.length := by rw [l3, l2, a3, List.length_map]; omega
  exact ⟨by rw [n1]; exact hw.nodes, by rw [n3]; exact hw.vs, by rw [n1, n2]; exact hw.edge, hw.nodup⟩

theorem step_keeps_storage {net : Net} {iv : Nat → InitialVolume} {inp : StepIn} {s s' : NetworkState}
    (h : step net iv inp s = .ok s') {i : Nat} (hk : net.kinds[i]? = some .storage)
    (hv : ∃ v, s.nodeVolume i = .ok v) : ∃ v, s'.nodeVolume i = .ok v := by
  obtain ⟨v, hv⟩ := hv
  unfold NetworkState.nodeVolume at hv
  cases hs : s.nodes[i]? with
  | none => simp [hs] at hv
  | some n =>
    cases n with
    | flow f => simp [hs] at hv
    | storage st =>
      obtain ⟨st', hn, _⟩ := step_storage h hk hs
      exact ⟨st'.volume, by simp [NetworkState.nodeVolume, hn]⟩

/-- **C11**, whole runs: with feasible flows in every step a network without virtual storages runs to the end, and the
volume of each storage node is inside the bounds of the last step and exactly on the water balance. -/
theorem C11_feasible_run {net : Net} {iv : Nat → InitialVolume} (hvs : net.vsNodes = [])
    (first : StepIn) (rest : List StepIn) (s : NetworkState) (hw : WellFormed net s) (hf : first.t.index = 0)
    (hr : ∀ inp ∈ rest, inp.t.index ≠ 0)
    (hs : ∀ i, net.kinds[i]? = some .storage → ∃ v, s.nodeVolume i = .ok v)
    (hfeas : FeasibleRun net iv (first :: rest) s) :
    ∃ s', run net iv (first :: rest) s = .ok s' ∧
      ∀ i, net.kinds[i]? = some .storage →
        s'.nodeVolume i = .ok ((iv i).get (first.b.node i).2 + totalGain net.edges i (first :: rest)) ∧
        StaysInBounds net.edges i ((iv i).get (first.b.node i).2) (first :: rest) := by
  -- later steps
  have later : ∀ (inputs : List StepIn) (s : NetworkState), WellFormed net s → (∀ inp ∈ inputs, inp.t.index ≠ 0) →
      (∀ i, net.kinds[i]? = some .storage → ∃ v, s.nodeVolume i = .ok v) → FeasibleRun net iv inputs s →
      ∃ s', run net iv inputs s = .ok s' ∧ ∀ i v, net.kinds[i]? = some .storage → s.nodeVolume i = .ok v →
        s'.nodeVolume i = .ok (v + totalGain net.edges i inputs) ∧ StaysInBounds net.edges i v inputs := by
    intro inputs
    induction inputs with
    | nil => intro s _ _ _ _; exact ⟨s, rfl, fun i v _ hv => ⟨by simpa [totalGain] using hv, trivial⟩⟩
    | cons inp rest ih =>
      intro s hw hidx hs hfe
      obtain ⟨hd, hrow, hnext⟩ := hfe
      obtain ⟨s1, h1⟩ := C11_feasible_completes hw hvs hd hrow
      obtain ⟨s', h2, h3⟩ := ih s1 (step_wellFormed hw h1) (fun x hx => hidx x (by simp [hx]))
        (fun i hk => step_keeps_storage h1 hk (hs i hk)) (hnext s1 h1)
      refine ⟨s', by simp [run, h1, h2], ?_⟩
      intro i v hk hv
      have hpre : (preSolve net iv inp s).nodeVolume i = .ok v := by
        unfold NetworkState.nodeVolume at hv ⊢
        cases hsn : s.nodes[i]? with
        | none => simp [hsn] at hv
        | some n =>
          cases n with
          | flow f => simp [hsn] at hv
          | storage st =>
            simp only [hsn, Except.ok.injEq] at hv
            have := nodesBefore_get net.kinds iv inp.b.node inp.t s.nodes i st hk hsn
            simp [hidx inp (by simp)] at this
            simp [preSolve, this, hv]
      obtain ⟨g1, g2, g3⟩ := C11_feasible_step h1 hk hd hpre (hrow i v hk hpre)
      obtain ⟨k1, k2⟩ := h3 i _ hk g1
      refine ⟨?_, g2, g3, k2⟩
      rw [k1]
      simp [totalGain, add_assoc]
  obtain ⟨hd, hrow, hnext⟩ := hfeas
  obtain ⟨s1, h1⟩ := C11_feasible_completes hw hvs hd hrow
  obtain ⟨s', h2, h3⟩ := later rest s1 (step_wellFormed hw h1) hr (fun i hk => step_keeps_storage h1 hk (hs i hk)) (hnext s1 h1)
  refine ⟨s', by simp [run, h1, h2], ?_⟩
  intro i hk
  obtain ⟨v0, hv0⟩ := hs i hk
  have hpre : (preSolve net iv first s).nodeVolume i = .ok ((iv i).get (first.b.node i).2) := by
    unfold NetworkState.nodeVolume at hv0 ⊢
    cases hsn : s.nodes[i]? with
    | none => simp [hsn] at hv0
    | some n =>
      cases n with
      | flow f => simp [hsn] at hv0
      | storage st =>
        have := nodesBefore_get net.kinds iv first.b.node first.t s.nodes i st hk hsn
        simp [hf] at this
        simp [preSolve, this, StorageState.setVolume]
  obtain ⟨g1, g2, g3⟩ := C11_feasible_step h1 hk hd hpre (hrow i _ hk hpre)
  obtain ⟨k1, k2⟩ := h3 i _ hk g1
  refine ⟨?_, g2, g3, k2⟩
  rw [k1]
  simp [totalGain, add_assoc]

/-- Storage rows of the example in its first step. -/
example : StorageRow exNet.edges 1 50 (exIn 0 3) := by constructor <;> decide +kernel

/-! ## C24 -/

/-- Prior capacity of each storage of a chain. -/
def priors : ℚ → List ℚ → List ℚ
  | _, [] => []
  | acc, c :: cs => acc :: priors (acc + c) cs

/-- Initial volumes of a chain of storages with the given capacities, each with the prior capacity before it. -/
def chainVolumes (iv : ℚ → InitialVolume) (caps : List ℚ) : List ℚ :=
  (caps.zip (priors 0 caps)).map fun (c, p) => (iv p).get c

/-- Specification: fill the storages one after the other from a supply `v`. -/
def fillInOrder : ℚ → List ℚ → List ℚ
  | _, [] => []
  | v, c :: cs => min v c :: fillInOrder (v - min v c) cs

theorem fill_eq (a : ℚ) : ∀ (caps : List ℚ) (acc : ℚ), (∀ c ∈ caps, 0 ≤ c) →
    ((caps.zip (priors acc caps)).map fun (c, p) => (InitialVolume.distributedAbsolute a p).get c)
      = fillInOrder (max (a - acc) 0) caps := by
  intro caps
  induction caps with
  | nil => intro acc _; rfl
  | cons c cs ih =>
    intro acc hc
    simp only [priors, List.zip_cons_cons, List.map_cons, InitialVolume.get, fillInOrder, List.cons.injEq, true_and]
    have := ih (acc + c) (fun x hx => hc x (by simp [hx]))
    simp only [InitialVolume.get] at this
    rw [this]
    congr 1
    have hc0 := hc c (by simp)
    rcases le_total (a - acc) 0 with h1 | h1
    · rw [max_eq_right h1, min_eq_left hc0, max_eq_right (by linarith)]; ring
    · rw [max_eq_left h1]
      rcases le_total (a - acc) c with h2 | h2
      · rw [min_eq_left h2, max_eq_right (by linarith)]; ring
      · rw [min_eq_right h2, max_eq_left (by linarith)]; ring

/-- **C24.** A distributed absolute initial volume fills the chain of storages in order. -/
theorem C24_fills_in_order (a : ℚ) (ha : 0 ≤ a) (caps : List ℚ) (hc : ∀ c ∈ caps, 0 ≤ c) :
    chainVolumes (.distributedAbsolute a) caps = fillInOrder a caps := by
  have := fill_eq a caps 0 hc
  rw [show max (a - 0) 0 = a by rw [sub_zero, max_eq_left ha]] at this
  exact this

theorem fillInOrder_sum : ∀ (caps : List ℚ) (v : ℚ), 0 ≤ v → (∀ c ∈ caps, 0 ≤ c) →
    (fillInOrder v caps).sum = min v caps.sum ∧
    ∀ (k : Nat) (x c : ℚ), (fillInOrder v caps)[k]? = some x → caps[k]? = some c → 0 ≤ x ∧ x ≤ c := by
  intro caps
  induction caps with
  | nil => intro v hv _; simp [fillInOrder, hv]
  | cons c cs ih =>
    intro v hv hc
    have hc0 := hc c (by simp)
    have h0 : 0 ≤ v - min v c := by have := min_le_left v c; linarith
    obtain ⟨h1, h2⟩ := ih (v - min v c) h0 (fun x hx => hc x (by simp [hx]))
    refine ⟨?_, ?_⟩
    · simp only [fillInOrder, List.sum_cons, h1]
      have hs : 0 ≤ cs.sum := List.sum_nonneg fun x hx => hc x (by simp [hx])
      rcases le_total v c with h | h
      · rw [min_eq_left h, min_eq_left (by linarith : v - v ≤ cs.sum), min_eq_left (by linarith : v ≤ c + cs.sum)]; ring
      · rw [min_eq_right h]
        rcases le_total (v - c) cs.sum with h' | h'
        · rw [min_eq_left h', min_eq_left (by linarith : v ≤ c + cs.sum)]; ring
        · rw [min_eq_right h', min_eq_right (by linarith : c + cs.sum ≤ v)]
    · intro k x d hx hd
      cases k with
      | zero =>
        simp only [fillInOrder, List.getElem?_cons_zero, Option.some.injEq] at hx hd
        subst hx; subst hd
        exact ⟨le_min hv hc0, min_le_right _ _⟩
      | succ k =>
        simp only [fillInOrder, List.getElem?_cons_succ] at hx hd
        exact h2 k x d hx hd

/-- **C24.** The total of a distributed initial volume is the requested volume clipped to the total capacity, and each
storage receives between nothing and its capacity. -/
theorem C24_total_preserved (a : ℚ) (ha : 0 ≤ a) (caps : List ℚ) (hc : ∀ c ∈ caps, 0 ≤ c) :
    (chainVolumes (.distributedAbsolute a) caps).sum = min a caps.sum ∧
    ∀ (k : Nat) (x c : ℚ), (chainVolumes (.distributedAbsolute a) caps)[k]? = some x → caps[k]? = some c →
      0 ≤ x ∧ x ≤ c := by
  rw [C24_fills_in_order a ha caps hc]
  exact fillInOrder_sum caps a ha hc

/-- **C24**, proportional variant: a proportion of the total capacity is distributed the same way, and a proportion in
`[0, 1]` is met exactly. -/
theorem C24_proportional (p : ℚ) (hp : 0 ≤ p) (hp1 : p ≤ 1) (caps : List ℚ) (hc : ∀ c ∈ caps, 0 ≤ c) :
    chainVolumes (.distributedProportional caps.sum p) caps = fillInOrder (caps.sum * p) caps ∧
    (chainVolumes (.distributedProportional caps.sum p) caps).sum = caps.sum * p := by
  have hs : 0 ≤ caps.sum := List.sum_nonneg hc
  have ha : 0 ≤ caps.sum * p := mul_nonneg hs hp
  have e : chainVolumes (.distributedProportional caps.sum p) caps = chainVolumes (.distributedAbsolute (caps.sum * p)) caps := rfl
  rw [e, C24_fills_in_order _ ha caps hc]
  refine ⟨rfl, ?_⟩
  rw [(fillInOrder_sum caps _ ha hc).1, min_eq_left]
  nlinarith

example : chainVolumes (.distributedAbsolute 25) [10, 20, 30] = [10, 15, 0] := by decide +kernel

/-! ## C53: interior point solvers -/

/-- **C53** fails for the interior point solvers: they never complete the timestep, so the volume of every virtual
storage is the same after the solve as before, whatever the flows. -/
theorem C53_ipm_virtual_storage_refuted {net : Net} {t : Timestep} {flow : Nat → ℚ} {s s' : NetworkState}
    (h : applySolutionIpm net t flow s = .ok s') (i : Nat) : s'.vsVolume i = s.vsVolume i := by
  obtain ⟨_, _, h3, _, _⟩ := afterFlows h
  unfold NetworkState.vsVolume
  rw [h3, List.getElem?_map]
  cases s.vs[i]? with
  | none => rfl
  | some v => rfl

end Verif.State
