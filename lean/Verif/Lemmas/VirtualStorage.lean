import Verif.Spec.VirtualStorage
import Verif.Props.Storage

/-! # Facts about virtual storages -/

namespace Verif.State

open Verif.Calendar Verif.Time

theorem vsFlow_eq {kinds : List NodeKind} {edges : List Edge} {flow : Nat → ℚ} {nodes : List NodeState}
    (hn : ∀ (i : Nat), i < kinds.length → ∃ n, nodes[i]? = some n ∧ n.inFlow = inSum edges flow i ∧
      n.outFlow = outSum edges flow i) :
    ∀ (l : List (Nat × ℚ)), (∀ p ∈ l, p.1 < kinds.length ∧ kinds[p.1]? ≠ some .storage) →
    vsFlow kinds nodes l = .ok ((l.map fun (i, f) => f * memberUse kinds edges flow i).sum) := by
  intro l
  induction l with
  | nil => intro _; rfl
  | cons p l ih =>
    intro h
    obtain ⟨i, f⟩ := p
    have hi := h (i, f) (by simp)
    simp only at hi
    obtain ⟨n, h1, h2, h3⟩ := hn i hi.1
    have hm : memberFlow kinds nodes i = .ok (memberUse kinds edges flow i) := by
      unfold memberFlow memberUse
      rw [h1]
      simp only
      cases hk : kinds[i]? with
      | none => rw [List.getElem?_eq_none_iff] at hk; omega
      | some k =>
        cases k with
        | input => simp [h3]
        | output => simp [h2]
        | link => simp [h2]
        | storage => exact absurd hk hi.2
    simp only [vsFlow, hm, ih (fun p hp => h p (by simp [hp])), List.map_cons, List.sum_cons]

/-- Flows of the nodes after the storage volumes have been finalised. -/
theorem finalised_flows {net : Net} {b : Bounds} {t : Timestep} {flow : Nat → ℚ} {s s1 : NetworkState}
    {nodes : List NodeState} (hlen : s.nodes.length = net.kinds.length)
    (h1 : s.reset.addFlows t.days (net.edges.map fun e => (e, flow e.index)) = .ok s1)
    (h2 : finaliseNodes b.node 0 net.kinds s1.nodes = .ok nodes) :
    ∀ (i : Nat), i < net.kinds.length → ∃ n, nodes[i]? = some n ∧ n.inFlow = inSum net.edges flow i ∧
      n.outFlow = outSum net.edges flow i := by
  intro i hi
  obtain ⟨_, _, _, h4, _⟩ := afterFlows h1
  obtain ⟨_, f2⟩ := finaliseNodes_spec _ _ _ _ _ h2
  have hs : s.nodes[i]? = some (s.nodes[i]'(by omega)) := List.getElem?_eq_getElem (by omega)
  obtain ⟨n', hn, hcase⟩ := f2 i _ (by rw [h4, hs]; rfl)
  refine ⟨n', hn, ?_⟩
  have hreset : ∀ n : NodeState, n.reset.inFlow = 0 ∧ n.reset.outFlow = 0 := by
    intro n; cases n <;> exact ⟨rfl, rfl⟩
  have hboth : ∀ (n : NodeState) (a c d : ℚ), (n.addBoth a c d).inFlow = n.inFlow + a ∧
      (n.addBoth a c d).outFlow = n.outFlow + c := by
    intro n a c d; cases n <;> exact ⟨rfl, rfl⟩
  split at hcase
  · obtain ⟨e1, e2⟩ := finaliseVolume_flows hcase
    rw [e1, e2, (hboth _ _ _ _).1, (hboth _ _ _ _).2, (hreset _).1, (hreset _).2]
    simp
  · subst hcase
    rw [(hboth _ _ _ _).1, (hboth _ _ _ _).2, (hreset _).1, (hreset _).2]
    simp

/-- One step seen from one virtual storage: `before`, then (when active) the use is subtracted and recorded, then the
volume is finalised. -/
theorem step_vs {net : Net} {iv : Nat → InitialVolume} {inp : StepIn} {s s' : NetworkState}
    (hw : WellFormed net s) (h : step net iv inp s = .ok s') {k : Nat} {n : VSNode} {v : VSState}
    (hn : net.vsNodes[k]? = some n) (hv : s.vs[k]? = some v) (hm : MembersOk net.kinds n) :
    ∃ v' : VSState, s'.vs[k]? = some v' ∧
      (let pre := n.before inp.t (inp.b.vs k).2 v
       let use := if n.isActive inp.t then vsUse net.kinds net.edges n inp.flow else 0
       let raw := pre.storage.volume - use * inp.t.days
       (inp.b.vs k).1 - tol ≤ raw ∧ raw ≤ (inp.b.vs k).2 + tol ∧ (inp.b.vs k).1 ≤ (inp.b.vs k).2 ∧
       v'.storage.volume = max (inp.b.vs k).1 (min (inp.b.vs k).2 raw) ∧
       v'.lastReset = pre.lastReset ∧
       v'.history = if n.isActive inp.t then pre.history.map (·.addFlow (vsUse net.kinds net.edges n inp.flow))
         else pre.history) := by
  obtain ⟨s1, h1, h2⟩ := applySolution_ok h
  obtain ⟨_, _, h3, _, _⟩ := afterFlows h1
  obtain ⟨vs1, c1, c2, c3, _⟩ := complete_ok h2
  have hlen : (preSolve net iv inp s).nodes.length = net.kinds.length := by
    simp [preSolve, nodesBefore, hw.nodes]
  have hflows := finalised_flows hlen h1 c1
  have hpre : (preSolve net iv inp s).vs[k]? = some (n.before inp.t (inp.b.vs k).2 v) := by
    simp [preSolve, vsBefore, hv, hn]
  have hs1 : s1.vs[k]? = some (n.before inp.t (inp.b.vs k).2 v).reset := by
    rw [h3, List.getElem?_map, hpre]; rfl
  obtain ⟨u, hu, hup⟩ := (updateAllVS_spec _ _ _ _ _ _ c2).2 k n _ hn hs1
  obtain ⟨v', hv', hf⟩ := (finaliseVS_spec _ _ _ _ _ c3).2 k n u hn hu
  refine ⟨v', hv', ?_⟩
  simp only [Nat.zero_add] at hf
  have hmem : ∀ p ∈ n.nodesWithFactors, p.1 < net.kinds.length ∧ net.kinds[p.1]? ≠ some .storage := by
    intro p hp
    exact hm p.1 (List.of_mem_zip hp).1
  have hvf := vsFlow_eq hflows n.nodesWithFactors hmem
  have huse : ((n.nodesWithFactors).map fun (i, f) => f * memberUse net.kinds net.edges inp.flow i).sum =
      vsUse net.kinds net.edges n inp.flow := rfl
  rw [huse] at hvf
  unfold updateVS at hup
  rw [hvf] at hup
  unfold VSState.finalise at hf
  cases hst : u.storage.finalise (inp.b.vs k).1 (inp.b.vs k).2 with
  | error e => simp [hst] at hf
  | ok st =>
    simp only [hst, Except.ok.injEq] at hf
    subst hf
    obtain ⟨a1, a2, a3, a4, _, _⟩ := (finalise_ok_iff _ _ _ _).1 hst
    by_cases hact : n.isActive inp.t = true
    · simp only [hact, if_true, Except.ok.injEq] at hup ⊢
      subst hup
      exact ⟨a1, a2, a3, a4, rfl, rfl⟩
    · simp only [hact, Bool.false_eq_true, if_false, Except.ok.injEq] at hup ⊢
      subst hup
      simp only [VSState.reset, StorageState.reset] at a1 a2 a4
      refine ⟨by simpa using a1, by simpa using a2, a3, by simpa using a4, rfl, by simp [VSState.reset]⟩

theorem updateAllVS_ok (kinds : List NodeKind) (nodes : List NodeState) (t : Timestep) :
    ∀ (ns : List VSNode) (ss : List VSState),
    (∀ (j : Nat) (n : VSNode) (s : VSState), ns[j]? = some n → ss[j]? = some s → ∃ s', updateVS kinds nodes t n s = .ok s') →
    ∃ ss', updateAllVS kinds nodes t ns ss = .ok ss' := by
  intro ns
  induction ns with
  | nil => intro ss _; exact ⟨ss, rfl⟩
  | cons n ns ih =>
    intro ss h
    cases ss with
    | nil => exact ⟨[], rfl⟩
    | cons s ss =>
      obtain ⟨s', hs⟩ := h 0 n s (by simp) (by simp)
      obtain ⟨rest, hr⟩ := ih ss (fun j m v hm hv => h (j + 1) m v (by simpa using hm) (by simpa using hv))
      exact ⟨s' :: rest, by simp [updateAllVS, hs, hr]⟩

theorem finaliseVS_ok (bounds : Nat → ℚ × ℚ) :
    ∀ (ns : List VSNode) (i : Nat) (ss : List VSState), ns.length ≤ ss.length →
    (∀ (j : Nat) (n : VSNode) (s : VSState), ns[j]? = some n → ss[j]? = some s →
      ∃ s', s.finalise (bounds (i + j)).1 (bounds (i + j)).2 = .ok s') →
    ∃ ss', finaliseVS bounds i ns ss = .ok ss' := by
  intro ns
  induction ns with
  | nil => intro i ss _ _; exact ⟨ss, rfl⟩
  | cons n ns ih =>
    intro i ss hl h
    cases ss with
    | nil => simp at hl
    | cons s ss =>
      obtain ⟨s', hs⟩ := h 0 n s (by simp) (by simp)
      obtain ⟨rest, hr⟩ := ih (i + 1) ss (by simpa using hl) (fun j m v hm hv => by
        have e : i + 1 + j = i + (j + 1) := by omega
        rw [e]
        exact h (j + 1) m v (by simpa using hm) (by simpa using hv))
      exact ⟨s' :: rest, by simp only [Nat.add_zero] at hs; simp [finaliseVS, hs, hr]⟩

/-- With balanced links the row of the solver counts what the state subtracts. -/
theorem lpUse_eq {kinds : List NodeKind} {edges : List Edge} {flow : Nat → ℚ} {n : VSNode}
    (hbal : ∀ i ∈ n.nodes, kinds[i]? ≠ some .input → kinds[i]? ≠ some .output → inSum edges flow i = outSum edges flow i) :
    ((n.nodes.zip n.factors).map fun (i, f) => -f * lpUse kinds edges flow i).sum = -vsUse kinds edges n flow := by
  unfold vsUse
  have : ∀ l : List (Nat × ℚ), (∀ p ∈ l, p.1 ∈ n.nodes) →
      (l.map fun (i, f) => -f * lpUse kinds edges flow i).sum = -(l.map fun (i, f) => f * memberUse kinds edges flow i).sum := by
    intro l
    induction l with
    | nil => intro _; simp
    | cons p l ih =>
      intro h
      obtain ⟨i, f⟩ := p
      simp only [List.map_cons, List.sum_cons, ih (fun q hq => h q (by simp [hq]))]
      have e : lpUse kinds edges flow i = memberUse kinds edges flow i := by
        unfold lpUse memberUse
        by_cases h1 : kinds[i]? = some .input
        · simp [h1]
        · by_cases h2 : kinds[i]? = some .output
          · simp [h2]
          · simp only [h1, h2, if_false]
            exact (hbal i (h (i, f) (by simp)) h1 h2).symm
      rw [e]; ring
  exact this _ (fun p hp => (List.of_mem_zip hp).1)

theorem vsRow_bounds {kinds : List NodeKind} {edges : List Edge} {n : VSNode} {v lo hi days : ℚ} {flow : Nat → ℚ}
    (hd : 0 < days) (h1 : lo ≤ v) (h2 : v ≤ hi)
    (hbal : ∀ i ∈ n.nodes, kinds[i]? ≠ some .input → kinds[i]? ≠ some .output → inSum edges flow i = outSum edges flow i)
    (hrow : VSRow kinds edges n v lo hi days flow) :
    lo ≤ v - vsUse kinds edges n flow * days ∧ v - vsUse kinds edges n flow * days ≤ hi := by
  unfold VSRow at hrow
  rw [lpUse_eq hbal] at hrow
  obtain ⟨r1, r2⟩ := hrow
  rw [div_le_iff₀ hd] at r1
  rw [le_div_iff₀ hd] at r2
  simp only [availableBounds] at r1 r2
  rw [max_eq_left (by linarith)] at r1 r2
  constructor <;> linarith

end Verif.State
