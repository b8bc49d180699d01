import Verif.Spec.Schema
import Verif.Props.SolverCases

/-! # Checkers for concrete networks of the schema -/

namespace Verif.Schema

open Verif.Topology (Name EdgeDecl)
open Verif.Solver (Metric AtLeast AtMost)

/-- Check of `AtLeast`. -/
def leastCheck (σ : Nat → Option ℚ) (m : Option Metric) (d v : ℚ) : Bool :=
  match m with
  | none => decide (d ≤ v)
  | some m =>
    match m.get σ with
    | some l => decide (l ≤ v)
    | none => false

theorem leastCheck_iff (σ : Nat → Option ℚ) (m : Option Metric) (d v : ℚ) : leastCheck σ m d v = true ↔ AtLeast σ m d v := by
  unfold leastCheck AtLeast
  cases m with
  | none => simp
  | some m =>
    cases hm : m.get σ with
    | none => simp [hm]
    | some l => simp [hm]

/-- Check of `AtMost`. -/
def mostCheck (σ : Nat → Option ℚ) (m : Option Metric) (d v : ℚ) : Bool :=
  match m with
  | none => decide (v ≤ d)
  | some m =>
    match m.get σ with
    | some l => decide (v ≤ l)
    | none => false

theorem mostCheck_iff (σ : Nat → Option ℚ) (m : Option Metric) (d v : ℚ) : mostCheck σ m d v = true ↔ AtMost σ m d v := by
  unfold mostCheck AtMost
  cases m with
  | none => simp
  | some m =>
    cases hm : m.get σ with
    | none => simp [hm]
    | some l => simp [hm]

/-- Check of the bounds of a node. -/
def nodeCheck (M : Solver.Model) (st : Solver.StepState) (f : Nat → ℚ) (n : Topology.TNode) : Bool :=
  if n.kind = .storage then
    match st.volume n.index with
    | some v =>
      leastCheck st.metric (M.data n.index).minVolume 0 (v + st.days * Solver.nodeFlow f n) &&
      mostCheck st.metric (M.data n.index).maxVolume Solver.f64MAX (v + st.days * Solver.nodeFlow f n)
    | none => false
  else
    leastCheck st.metric (M.data n.index).minFlow 0 (Solver.nodeFlow f n) &&
    mostCheck st.metric (M.data n.index).maxFlow Solver.f64MAX (Solver.nodeFlow f n)

theorem nodeCheck_ok {M : Solver.Model} {st : Solver.StepState} {f : Nat → ℚ} {n : Topology.TNode} (h : nodeCheck M st f n = true) :
    Solver.NodeOk M st f n := by
  unfold nodeCheck at h
  unfold Solver.NodeOk
  split
  · rename_i hk
    rw [if_pos hk] at h
    cases hv : st.volume n.index with
    | none => simp [hv] at h
    | some v =>
      simp only [hv, Bool.and_eq_true, leastCheck_iff, mostCheck_iff] at h
      exact ⟨v, rfl, h⟩
  · rename_i hk
    rw [if_neg hk] at h
    simpa only [Bool.and_eq_true, leastCheck_iff, mostCheck_iff] using h

/-- Check that flows are allowed. -/
def allowedCheck (M : Solver.Model) (st : Solver.StepState) (f : Nat → ℚ) : Bool :=
  (List.range M.net.edges.length).all (fun e => decide (0 ≤ f e)) &&
  M.net.nodes.all (fun n => decide (n.kind ≠ .link) || decide ((n.incoming.map f).sum = (n.outgoing.map f).sum)) &&
  M.net.nodes.all (nodeCheck M st f) &&
  M.aggs.all (fun a => leastCheck st.metric a.minFlow 0 (Solver.aggFlow M.net f a) &&
    mostCheck st.metric a.maxFlow Solver.f64MAX (Solver.aggFlow M.net f a)) &&
  Solver.factorsCheck M st f &&
  (M.vs.zipIdx.all fun p => !st.vsActive p.2 ||
    match st.vsBounds p.2 with
    | some (a, m) => decide (st.days * Solver.vsUse M.net f p.1 ≤ a) && decide (-(st.days * Solver.vsUse M.net f p.1) ≤ m)
    | none => false)

theorem allowedCheck_ok {M : Solver.Model} {st : Solver.StepState} {f : Nat → ℚ} (h : allowedCheck M st f = true) : Solver.Allowed M st f := by
  unfold allowedCheck at h
  simp only [Bool.and_eq_true, List.all_eq_true, List.mem_range, decide_eq_true_eq, Bool.or_eq_true, Bool.not_eq_true'] at h
  obtain ⟨⟨⟨⟨⟨h1, h2⟩, h3⟩, h4⟩, h5⟩, h6⟩ := h
  refine ⟨h1, ?_, fun n hn => nodeCheck_ok (h3 n hn), ?_, ?_, ?_⟩
  · intro n hn hk
    rcases h2 n hn with h | h
    · exact absurd hk h
    · exact h
  · intro a ha
    have := h4 a ha
    rwa [leastCheck_iff, mostCheck_iff] at this
  · intro a ha F hF
    unfold Solver.factorsCheck at h5
    rw [List.all_eq_true] at h5
    have := h5 a ha
    simp only [hF] at this
    cases hp : F.pairs a.nodes st.metric with
    | error e => simp [hp] at this
    | ok ps =>
      simp only [hp, List.all_eq_true] at this
      refine ⟨ps, rfl, ?_⟩
      intro p hpm
      have := this p hpm
      unfold Solver.Pair.Holds
      cases h0 : p.f0 with
      | none => simp [h0] at this
      | some a =>
        cases h1 : p.f1 with
        | none => simp [h0, h1] at this
        | some b =>
          simp only [h0, h1, decide_eq_true_eq] at this
          exact ⟨a, b, rfl, rfl, this⟩
  · intro k v hv hact
    have := h6 (v, k) (List.mk_mem_zipIdx_iff_getElem?.2 hv)
    simp only [hact, Bool.true_eq_false, false_or] at this
    cases hb : st.vsBounds k with
    | none => simp [hb] at this
    | some b =>
      simp only [hb, Bool.and_eq_true, decide_eq_true_eq] at this
      exact ⟨b.1, b.2, rfl, this⟩

/-- What a network of the schema adds to the builder, or nothing. -/
def fragOf (P : ParamNo) (N : Net) : Frag :=
  match N.compile P with
  | .ok F => F
  | .error _ => {}

/-- The network built, or an empty one. -/
def coreOf (P : ParamNo) (N : Net) : Core :=
  match (fragOf P N).build with
  | .ok C => C
  | .error _ => ⟨⟨⟨[], []⟩, fun _ => noData, [], []⟩, []⟩

/-- Check that a network of the schema can be built. -/
def builtCheck (P : ParamNo) (N : Net) : Bool := (N.compile P).toBool && (fragOf P N).build.toBool

theorem builtCheck_ok {P : ParamNo} {N : Net} (h : builtCheck P N = true) : Built P N (fragOf P N) (coreOf P N) := by
  unfold builtCheck at h
  rw [Bool.and_eq_true] at h
  obtain ⟨h1, h2⟩ := h
  constructor
  · unfold fragOf
    cases hc : N.compile P with
    | ok F => rfl
    | error e => rw [hc] at h1; cases h1
  · unfold coreOf
    cases hb : (fragOf P N).build with
    | ok C => rfl
    | error e => rw [hb] at h2; cases h2

/-- Flows given by the ends of edges; nothing elsewhere. -/
def flows (F : Frag) (l : List (EdgeDecl × ℚ)) (i : Nat) : ℚ :=
  match F.edges[i]? with
  | some e => ((l.filter (fun p => p.1 = e)).map (·.2)).sum
  | none => 0

end Verif.Schema
