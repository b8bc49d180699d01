import Verif.Model.State
import Mathlib.Tactic.Linarith
import Mathlib.Tactic.Ring
import Mathlib.Data.List.Basic
import Mathlib.Algebra.BigOperators.Group.List.Basic

/-! # Facts about the network state -/

namespace Verif.State

open Verif.Calendar Verif.Time

/-- Total flow of the list into node `i`. -/
def sumTo (i : Nat) (l : List (Edge × ℚ)) : ℚ := ((l.filter fun p => p.1.toNode == i).map (·.2)).sum

/-- Total flow of the list out of node `i`. -/
def sumFrom (i : Nat) (l : List (Edge × ℚ)) : ℚ := ((l.filter fun p => p.1.fromNode == i).map (·.2)).sum

/-- Total flow of the list on edge `j`. -/
def sumEdge (j : Nat) (l : List (Edge × ℚ)) : ℚ := ((l.filter fun p => p.1.index == j).map (·.2)).sum

theorem sumTo_cons (i : Nat) (e : Edge) (f : ℚ) (l : List (Edge × ℚ)) :
    sumTo i ((e, f) :: l) = (if e.toNode = i then f else 0) + sumTo i l := by
  unfold sumTo
  by_cases h : e.toNode = i <;> simp [h]

theorem sumFrom_cons (i : Nat) (e : Edge) (f : ℚ) (l : List (Edge × ℚ)) :
    sumFrom i ((e, f) :: l) = (if e.fromNode = i then f else 0) + sumFrom i l := by
  unfold sumFrom
  by_cases h : e.fromNode = i <;> simp [h]

theorem sumEdge_cons (i : Nat) (e : Edge) (f : ℚ) (l : List (Edge × ℚ)) :
    sumEdge i ((e, f) :: l) = (if e.index = i then f else 0) + sumEdge i l := by
  unfold sumEdge
  by_cases h : e.index = i <;> simp [h]

/-- Adding a total inflow `a` and a total outflow `b` at once. -/
def NodeState.addBoth (n : NodeState) (a b days : ℚ) : NodeState :=
  match n with
  | .flow s => .flow ⟨s.inFlow + a, s.outFlow + b⟩
  | .storage s => .storage ⟨s.volume + (a - b) * days, s.maxVolume, ⟨s.flows.inFlow + a, s.flows.outFlow + b⟩⟩

theorem addBoth_zero (n : NodeState) (days : ℚ) : n.addBoth 0 0 days = n := by
  cases n <;> simp [NodeState.addBoth]

theorem addIn_eq (n : NodeState) (f days : ℚ) : n.addIn f days = n.addBoth f 0 days := by
  cases n <;> simp [NodeState.addBoth, NodeState.addIn, FlowState.addIn, StorageState.addIn]

theorem addOut_eq (n : NodeState) (f days : ℚ) : n.addOut f days = n.addBoth 0 f days := by
  cases n <;> simp [NodeState.addBoth, NodeState.addOut, FlowState.addOut, StorageState.addOut]
  ring

theorem addBoth_addBoth (n : NodeState) (a b c d days : ℚ) :
    (n.addBoth a b days).addBoth c d days = n.addBoth (a + c) (b + d) days := by
  cases n <;> simp [NodeState.addBoth, add_assoc]
  ring

/-- One `add_flow` succeeds iff all three indices exist. -/
theorem addFlow_ok_iff (s : NetworkState) (e : Edge) (days f : ℚ) :
    (∃ s', s.addFlow e days f = .ok s') ↔
      e.fromNode < s.nodes.length ∧ e.toNode < s.nodes.length ∧ e.index < s.edges.length := by
  unfold NetworkState.addFlow
  by_cases h1 : e.fromNode < s.nodes.length
  · by_cases h2 : e.toNode < s.nodes.length
    · by_cases h3 : e.index < s.edges.length <;> simp [h1, h2, h3]
    · simp [h1, h2]
  · simp [h1]

theorem addFlow_spec {s s' : NetworkState} {e : Edge} {days f : ℚ} (h : s.addFlow e days f = .ok s') :
    s'.nodes.length = s.nodes.length ∧ s'.edges.length = s.edges.length ∧ s'.vs = s.vs ∧
    (∀ i : Nat, s'.nodes[i]? = s.nodes[i]?.map fun n =>
      n.addBoth (if e.toNode = i then f else 0) (if e.fromNode = i then f else 0) days) ∧
    (∀ j : Nat, s'.edges[j]? = s.edges[j]?.map fun q => q + if e.index = j then f else 0) := by
  unfold NetworkState.addFlow at h
  by_cases h1 : e.fromNode < s.nodes.length
  · by_cases h2 : e.toNode < s.nodes.length
    · by_cases h3 : e.index < s.edges.length
      · simp only [h1, h2, h3, List.length_modify, if_true] at h
        cases h
        refine ⟨by simp, by simp, rfl, ?_, ?_⟩
        · intro i
          simp only [List.getElem?_modify]
          cases s.nodes[i]? with
          | none => simp
          | some n =>
            by_cases ha : e.fromNode = i <;> by_cases hb : e.toNode = i <;>
              simp [ha, hb, addIn_eq, addOut_eq, addBoth_addBoth, addBoth_zero]
        · intro j
          simp only [List.getElem?_modify]
          cases s.edges[j]? with
          | none => simp
          | some q => by_cases ha : e.index = j <;> simp [ha]
      · simp [h1, h2, h3] at h
    · simp [h1, h2] at h
  · simp [h1] at h

/-- The loop of `add_flow` calls adds to each node the totals of its edges. -/
theorem addFlows_spec (days : ℚ) (l : List (Edge × ℚ)) : ∀ {s s' : NetworkState}, s.addFlows days l = .ok s' →
    s'.nodes.length = s.nodes.length ∧ s'.edges.length = s.edges.length ∧ s'.vs = s.vs ∧
    (∀ i : Nat, s'.nodes[i]? = s.nodes[i]?.map fun n => n.addBoth (sumTo i l) (sumFrom i l) days) ∧
    (∀ j : Nat, s'.edges[j]? = s.edges[j]?.map fun q => q + sumEdge j l) := by
  induction l with
  | nil =>
    intro s s' h
    simp only [NetworkState.addFlows, Except.ok.injEq] at h
    subst h
    simp [sumTo, sumFrom, sumEdge, addBoth_zero]
  | cons p l ih =>
    obtain ⟨e, f⟩ := p
    intro s s' h
    unfold NetworkState.addFlows at h
    cases hs : s.addFlow e days f with
    | error err => simp [hs] at h
    | ok s1 =>
      simp only [hs] at h
      obtain ⟨a1, a2, a3, a4, a5⟩ := addFlow_spec hs
      obtain ⟨b1, b2, b3, b4, b5⟩ := ih h
      refine ⟨by omega, by omega, by rw [b3, a3], ?_, ?_⟩
      · intro i
        rw [b4, a4, Option.map_map]
        congr 1
        funext n
        simp [addBoth_addBoth, sumTo_cons, sumFrom_cons]
      · intro j
        rw [b5, a5, Option.map_map]
        congr 1
        funext q
        simp [sumEdge_cons, add_assoc]

theorem addFlows_ok (days : ℚ) (l : List (Edge × ℚ)) : ∀ (s : NetworkState),
    (∀ p ∈ l, p.1.fromNode < s.nodes.length ∧ p.1.toNode < s.nodes.length ∧ p.1.index < s.edges.length) →
    ∃ s', s.addFlows days l = .ok s' := by
  induction l with
  | nil => intro s _; exact ⟨s, rfl⟩
  | cons p l ih =>
    obtain ⟨e, f⟩ := p
    intro s h
    obtain ⟨s1, hs⟩ := (addFlow_ok_iff s e days f).2 (h (e, f) (by simp))
    obtain ⟨a1, a2, _⟩ := addFlow_spec hs
    obtain ⟨s2, hs2⟩ := ih s1 (fun p hp => by rw [a1, a2]; exact h p (by simp [hp]))
    exact ⟨s2, by simp [NetworkState.addFlows, hs, hs2]⟩

/-- `finalise` in one statement. -/
theorem finalise_ok_iff (s s' : StorageState) (lo hi : ℚ) :
    s.finalise lo hi = .ok s' ↔
      lo - tol ≤ s.volume ∧ s.volume ≤ hi + tol ∧ lo ≤ hi ∧ s'.volume = max lo (min hi s.volume) ∧
      s'.maxVolume = hi ∧ s'.flows = s.flows := by
  obtain ⟨v, m, fl⟩ := s
  obtain ⟨v', m', fl'⟩ := s'
  unfold StorageState.finalise StorageState.clamp
  simp only
  by_cases h1 : v - lo < -tol
  · simp only [h1, if_true]
    constructor
    · intro h; cases h
    · rintro ⟨h2, _⟩; linarith
  · by_cases h2 : v - hi > tol
    · simp only [h1, h2, if_true, if_false]
      constructor
      · intro h; cases h
      · rintro ⟨_, h3, _⟩; linarith
    · by_cases h3 : lo > hi
      · simp only [h1, h2, h3, if_true, if_false]
        constructor
        · intro h; cases h
        · rintro ⟨_, _, h4, _⟩; linarith
      · simp only [h1, h2, h3, if_false]
        have h3' : lo ≤ hi := not_lt.1 h3
        have e : (if v < lo then lo else if v > hi then hi else v) = max lo (min hi v) := by
          split
          · rename_i h
            rw [min_eq_right (by linarith), max_eq_left (by linarith)]
          · split
            · rw [min_eq_left (by linarith), max_eq_right (by linarith)]
            · rw [min_eq_right (by linarith), max_eq_right (by linarith)]
        rw [e]
        simp only [Except.ok.injEq, StorageState.mk.injEq]
        constructor
        · rintro ⟨rfl, rfl, rfl⟩
          exact ⟨by linarith, by linarith, h3', rfl, rfl, rfl⟩
        · rintro ⟨_, _, _, rfl, rfl, rfl⟩
          exact ⟨rfl, rfl, rfl⟩

theorem finaliseNodes_spec (bounds : Nat → ℚ × ℚ) : ∀ (ks : List NodeKind) (i : Nat) (ns ns' : List NodeState),
    finaliseNodes bounds i ks ns = .ok ns' →
    ns'.length = ns.length ∧
    ∀ (j : Nat) (n : NodeState), ns[j]? = some n → ∃ n', ns'[j]? = some n' ∧
      (if ks[j]? = some .storage then n.finaliseVolume (bounds (i + j)).1 (bounds (i + j)).2 = .ok n' else n' = n) := by
  intro ks
  induction ks with
  | nil =>
    intro i ns ns' h
    simp only [finaliseNodes, Except.ok.injEq] at h
    subst h
    refine ⟨rfl, fun j n hj => ⟨n, hj, ?_⟩⟩
    simp
  | cons k ks ih =>
    intro i ns ns' h
    cases ns with
    | nil =>
      simp only [finaliseNodes] at h
      split at h
      · cases h
      · obtain ⟨h1, _⟩ := ih _ _ _ h
        refine ⟨h1, fun j n hj => by simp at hj⟩
    | cons n ns =>
      simp only [finaliseNodes] at h
      generalize hx : (if k = NodeKind.storage then n.finaliseVolume (bounds i).1 (bounds i).2 else .ok n) = x at h
      cases x with
      | error e => simp at h
      | ok n' =>
        simp only at h
        cases hr : finaliseNodes bounds (i + 1) ks ns with
        | error e => simp [hr] at h
        | ok rest =>
          simp only [hr, Except.ok.injEq] at h
          subst h
          obtain ⟨h1, h2⟩ := ih _ _ _ hr
          refine ⟨by simp [h1], ?_⟩
          intro j m hj
          cases j with
          | zero =>
            simp only [List.getElem?_cons_zero, Option.some.injEq] at hj
            subst hj
            refine ⟨n', rfl, ?_⟩
            by_cases hk : k = .storage
            · simp [hk] at hx ⊢; exact hx
            · simp [hk] at hx ⊢; exact hx.symm
          | succ j =>
            simp only [List.getElem?_cons_succ] at hj
            obtain ⟨m', hm, hm2⟩ := h2 j m hj
            refine ⟨m', by simpa using hm, ?_⟩
            have e : i + 1 + j = i + (j + 1) := by omega
            rw [e] at hm2
            simpa using hm2

theorem finaliseNodes_ok (bounds : Nat → ℚ × ℚ) : ∀ (ks : List NodeKind) (i : Nat) (ns : List NodeState),
    ks.length ≤ ns.length →
    (∀ (j : Nat) (n : NodeState), ks[j]? = some .storage → ns[j]? = some n →
      ∃ n', n.finaliseVolume (bounds (i + j)).1 (bounds (i + j)).2 = .ok n') →
    ∃ ns', finaliseNodes bounds i ks ns = .ok ns' := by
  intro ks
  induction ks with
  | nil => intro i ns _ _; exact ⟨ns, rfl⟩
  | cons k ks ih =>
    intro i ns hl h
    cases ns with
    | nil => simp at hl
    | cons n ns =>
      obtain ⟨rest, hr⟩ := ih (i + 1) ns (by simpa using hl) (fun j m hk hm => by
        have e : i + 1 + j = i + (j + 1) := by omega
        rw [e]
        exact h (j + 1) m (by simpa using hk) (by simpa using hm))
      by_cases hk : k = .storage
      · obtain ⟨n', hn⟩ := h 0 n (by simp [hk]) (by simp)
        simp only [Nat.add_zero] at hn
        exact ⟨n' :: rest, by simp [finaliseNodes, hk, hn, hr]⟩
      · exact ⟨n :: rest, by simp [finaliseNodes, hk, hr]⟩

theorem updateAllVS_spec (kinds : List NodeKind) (nodes : List NodeState) (t : Timestep) :
    ∀ (ns : List VSNode) (ss ss' : List VSState), updateAllVS kinds nodes t ns ss = .ok ss' →
    ss'.length = ss.length ∧
    ∀ (j : Nat) (n : VSNode) (s : VSState), ns[j]? = some n → ss[j]? = some s →
      ∃ s', ss'[j]? = some s' ∧ updateVS kinds nodes t n s = .ok s' := by
  intro ns
  induction ns with
  | nil =>
    intro ss ss' h
    simp only [updateAllVS, Except.ok.injEq] at h
    subst h
    exact ⟨rfl, fun j n s hj => by simp at hj⟩
  | cons n ns ih =>
    intro ss ss' h
    cases ss with
    | nil =>
      simp only [updateAllVS, Except.ok.injEq] at h
      subst h
      exact ⟨rfl, fun j n s _ hj => by simp at hj⟩
    | cons s ss =>
      simp only [updateAllVS] at h
      cases hu : updateVS kinds nodes t n s with
      | error e => simp [hu] at h
      | ok s1 =>
        simp only [hu] at h
        cases hr : updateAllVS kinds nodes t ns ss with
        | error e => simp [hr] at h
        | ok rest =>
          simp only [hr, Except.ok.injEq] at h
          subst h
          obtain ⟨h1, h2⟩ := ih _ _ hr
          refine ⟨by simp [h1], ?_⟩
          intro j m v hj hv
          cases j with
          | zero =>
            simp only [List.getElem?_cons_zero, Option.some.injEq] at hj hv
            subst hj; subst hv
            exact ⟨s1, rfl, hu⟩
          | succ j =>
            simp only [List.getElem?_cons_succ] at hj hv
            exact h2 j m v hj hv

theorem finaliseVS_spec (bounds : Nat → ℚ × ℚ) :
    ∀ (ns : List VSNode) (i : Nat) (ss ss' : List VSState), finaliseVS bounds i ns ss = .ok ss' →
    ss'.length = ss.length ∧
    ∀ (j : Nat) (n : VSNode) (s : VSState), ns[j]? = some n → ss[j]? = some s →
      ∃ s', ss'[j]? = some s' ∧ s.finalise (bounds (i + j)).1 (bounds (i + j)).2 = .ok s' := by
  intro ns
  induction ns with
  | nil =>
    intro i ss ss' h
    simp only [finaliseVS, Except.ok.injEq] at h
    subst h
    exact ⟨rfl, fun j n s hj => by simp at hj⟩
  | cons n ns ih =>
    intro i ss ss' h
    cases ss with
    | nil => simp [finaliseVS] at h
    | cons s ss =>
      simp only [finaliseVS] at h
      cases hu : s.finalise (bounds i).1 (bounds i).2 with
      | error e => simp [hu] at h
      | ok s1 =>
        simp only [hu] at h
        cases hr : finaliseVS bounds (i + 1) ns ss with
        | error e => simp [hr] at h
        | ok rest =>
          simp only [hr, Except.ok.injEq] at h
          subst h
          obtain ⟨h1, h2⟩ := ih _ _ _ hr
          refine ⟨by simp [h1], ?_⟩
          intro j m v hj hv
          cases j with
          | zero =>
            simp only [List.getElem?_cons_zero, Option.some.injEq] at hj hv
            subst hj; subst hv
            exact ⟨s1, rfl, hu⟩
          | succ j =>
            simp only [List.getElem?_cons_succ] at hj hv
            have e : i + 1 + j = i + (j + 1) := by omega
            have := h2 j m v hj hv
            rw [e] at this
            exact this

/-- Decomposition of a successful `complete`. -/
theorem complete_ok {net : Net} {b : Bounds} {t : Timestep} {s s' : NetworkState} (h : complete net b t s = .ok s') :
    ∃ vs1, finaliseNodes b.node 0 net.kinds s.nodes = .ok s'.nodes ∧
      updateAllVS net.kinds s'.nodes t net.vsNodes s.vs = .ok vs1 ∧ finaliseVS b.vs 0 net.vsNodes vs1 = .ok s'.vs ∧
      s'.edges = s.edges := by
  unfold complete at h
  cases h1 : finaliseNodes b.node 0 net.kinds s.nodes with
  | error e => simp [h1] at h
  | ok nodes =>
    simp only [h1] at h
    cases h2 : updateAllVS net.kinds nodes t net.vsNodes s.vs with
    | error e => simp [h2] at h
    | ok vs1 =>
      simp only [h2] at h
      cases h3 : finaliseVS b.vs 0 net.vsNodes vs1 with
      | error e => simp [h3] at h
      | ok vs =>
        simp only [h3, Except.ok.injEq] at h
        subst h
        exact ⟨vs1, rfl, h2, h3, rfl⟩

theorem applySolution_ok {net : Net} {b : Bounds} {t : Timestep} {flow : Nat → ℚ} {s s' : NetworkState}
    (h : applySolution net b t flow s = .ok s') :
    ∃ s1, s.reset.addFlows t.days (net.edges.map fun e => (e, flow e.index)) = .ok s1 ∧ complete net b t s1 = .ok s' := by
  unfold applySolution at h
  cases h1 : s.reset.addFlows t.days (net.edges.map fun e => (e, flow e.index)) with
  | error e => simp [h1] at h
  | ok s1 =>
    simp only [h1] at h
    exact ⟨s1, rfl, h⟩

end Verif.State
