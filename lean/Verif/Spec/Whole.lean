import Verif.Model.Whole
import Verif.Spec.ParamRun
import Verif.Spec.Simulation

/-!
# Specification of networks with their parameters

What metrics of components show is described in terms of flows and volumes; the rest puts together the equations of parameters and the
records of a simulation.
-/

namespace Verif.Coupled

open Verif.State Verif.Solver Verif.Time Verif.Simulation
open Verif.Params (Ref Stage Name Calcs)

variable {V St : Type}

/-- Node `i` is a storage node. -/
def IsStorage (S : Sim) (i : Nat) : Prop := ∃ n, S.net.nodes[i]? = some n ∧ n.kind = .storage

/-- What there is to be seen of a network at one moment: the flows of edges; the volume of storage nodes, the maximum it is
compared with and the maximum of the step; the same of virtual storages; the maximum flows of nodes. -/
structure Sight where
  flow : Nat → ℚ
  volume : Nat → ℚ
  top : Nat → ℚ
  most : Nat → ℚ
  vsVolume : Nat → ℚ
  vsTop : Nat → ℚ
  vsMost : Nat → ℚ
  limit : Nat → Option ℚ

/-- A volume in proportion to a maximum; a store without any capacity is full. -/
def share (v m : ℚ) : ℚ := if m = 0 then 1 else v / m

/-- What each metric shows. A node's inflow is the total flow of the edges into it, its outflow that of the edges out of it. Metrics of
several nodes or edges show totals. Nothing is shown for components that do not exist or have no volume. -/
def Shows (S : Sim) (g : Sight) : Comp → ℚ → Prop
  | .nodeInFlow i, v => i < S.net.nodes.length ∧ v = inSum S.net.edges g.flow i
  | .nodeOutFlow i, v => i < S.net.nodes.length ∧ v = outSum S.net.edges g.flow i
  | .nodeMaxFlow i, v => g.limit i = some v
  | .nodeVolume i, v => IsStorage S i ∧ v = g.volume i
  | .nodeProportionalVolume i, v => IsStorage S i ∧ v = share (g.volume i) (g.top i)
  | .nodeMaxVolume i, v => IsStorage S i ∧ v = g.most i
  | .aggInFlow k, v => ∃ a, S.aggs[k]? = some a ∧ (∀ i ∈ a.nodes.flatten, i < S.net.nodes.length) ∧
      v = (a.nodes.flatten.map (inSum S.net.edges g.flow)).sum
  | .aggOutFlow k, v => ∃ a, S.aggs[k]? = some a ∧ (∀ i ∈ a.nodes.flatten, i < S.net.nodes.length) ∧
      v = (a.nodes.flatten.map (outSum S.net.edges g.flow)).sum
  | .aggStorageVolume is, v => (∀ i ∈ is, IsStorage S i) ∧ v = (is.map g.volume).sum
  | .aggStorageProportionalVolume is, v => (∀ i ∈ is, IsStorage S i) ∧ v = share (is.map g.volume).sum (is.map g.top).sum
  | .edgeFlow e, v => e < S.net.edges.length ∧ v = g.flow e
  | .multiEdgeFlow es, v => (∀ e ∈ es, e < S.net.edges.length) ∧ v = (es.map g.flow).sum
  | .vsVolume k, v => k < S.vsNodes.length ∧ v = g.vsVolume k
  | .vsProportionalVolume k, v => k < S.vsNodes.length ∧ v = share (g.vsVolume k) (g.vsTop k)
  | .vsMaxVolume k, v => k < S.vsNodes.length ∧ v = g.vsMost k
  | .multiNodeInFlow is, v => (∀ i ∈ is, i < S.net.nodes.length) ∧ v = (is.map (inSum S.net.edges g.flow)).sum
  | .multiNodeOutFlow is, v => (∀ i ∈ is, i < S.net.nodes.length) ∧ v = (is.map (outSum S.net.edges g.flow)).sum

/-- `g` is what there is to be seen of the network state `s` in a step, if `f` are the flows allocated last. -/
structure Moment (S : Sim) (inp : Inp) (s : NetworkState) (f : Nat → ℚ) (g : Sight) : Prop where
  flow : g.flow = f
  volume : ∀ i, IsStorage S i → s.nodeVolume i = .ok (g.volume i)
  top : ∀ i, IsStorage S i → ∃ st, s.nodes[i]? = some (.storage st) ∧ st.maxVolume = g.top i
  most : ∀ i, IsStorage S i → ∃ lo, VolumesAre inp.metric (S.data i).minVolume (S.data i).maxVolume lo (g.most i)
  vsVolume : ∀ k < S.vsNodes.length, s.vsVolume k = .ok (g.vsVolume k)
  vsTop : ∀ k < S.vsNodes.length, ∃ st, s.vs[k]? = some st ∧ st.storage.maxVolume = g.vsTop k
  vsMost : ∀ k < S.vsNodes.length, ∃ lo, VolumesAre inp.metric (S.vsMin k) (S.vsMax k) lo (g.vsMost k)

/-- The flows allocated last before step `t`; none before the first. -/
def flowBefore (record : Nat → Record) : Nat → Nat → ℚ
  | 0 => fun _ => 0
  | t + 1 => (record t).flow

/-- What is seen before the allocation of step `t`. -/
def SeenBefore (S : Sim) (input : Nat → Inp) (record : Nat → Record) (t : Nat) (see : Comp → Option ℚ) : Prop :=
  ∃ g, Moment S (input t) (record t).pre (flowBefore record t) g ∧ (∀ i, g.limit i = none) ∧ ∀ c v, see c = some v ↔ Shows S g c v

/-- What is seen after the allocation of step `t`. -/
def SeenAfter (S : Sim) (input : Nat → Inp) (record : Nat → Record) (t : Nat) (see : Comp → Option ℚ) : Prop :=
  ∃ g, Moment S (input t) (record t).post (record t).flow g ∧
    (∀ i v, g.limit i = some v ↔ ∃ n, S.net.nodes[i]? = some n ∧ n.kind ≠ .storage ∧
      ValueIs (input t).metric (S.data i).maxFlow f64MAX v) ∧
    ∀ c v, see c = some v ↔ Shows S g c v

/-- The number in the value of a parameter. -/
def Reads (key : Option String) (q : ℚ) : Val → Prop
  | .number v => key = none ∧ q = v
  | .index n => key = none ∧ q = n
  | .multi vs => ∃ k, key = some k ∧ vs.lookup k = some q

/-- What a step of the simulation is given, if the references of nodes mean `vs` and `see` is what is seen of components. -/
structure Whole.InputIs (M : Whole V St) (t : Nat) (vs : List V) (see : Comp → Option ℚ) (inp : Inp) : Prop where
  time : inp.t = M.time t
  solver : inp.solve = M.solver t
  metric : ∀ id q, inp.metric id = some q ↔
    match M.source id with
    | .ref j key => ∃ v, vs[j]? = some v ∧ M.read key v = some q
    | .comp c => see c = some q

/-- The definitions of parameters. -/
def Whole.definitions (M : Whole V St) : Calcs V St (Comp → Option ℚ) where
  zero := M.zero
  setup := M.setup
  compute := M.compute
  hook := M.hook
  nodes _ _ _ := none
  solve _ _ _ := none

/-- The references of nodes, which mean what they do before an allocation. -/
def uses (refs : List Ref) : List Params.Use := refs.map fun r => ⟨r, .before⟩

/-- A run of `n` steps. In `h`, `ready t` is what is seen of components before the allocation of step `t`, and `world (t + 1)` after it. -/
structure Whole.Runs (M : Whole V St) (n : Nat) (h : Params.History V St (Comp → Option ℚ)) (cs : List V) (input : Nat → Inp)
    (record : Nat → Record) : Prop where
  /-- the parameters obey their definitions -/
  const : ∀ b ∈ M.params, ∀ form, Params.Takes M.params b form → Params.ConstHolds M.params M.definitions h b form
  before : ∀ t < n, ∀ b ∈ M.params, ∀ form, Params.Takes M.params b form → Params.BeforeHolds M.params M.definitions h t b form
  after : ∀ t < n, ∀ b ∈ M.params, ∀ form, Params.Takes M.params b form → Params.AfterHolds M.params M.definitions h t b form
  /-- the constants of nodes, and what a step is given, are the values of parameters and components -/
  consts : Params.Given M.params h M.zero .before 0 (uses M.constRefs) cs
  inputs : ∀ t < n, ∃ vs, Params.Given M.params h M.zero .before t (uses (M.simpleRefs ++ M.otherRefs)) vs ∧
    M.InputIs t vs (h.ready t) (input t)
  /-- the network is simulated -/
  run : ∃ s₀ s', (M.sim cs).initial M.big M.negBig = .ok s₀ ∧
    (M.sim cs).run ((List.range n).map input) s₀ = ((List.range n).map record, .ok s')
  /-- what is seen of components is what happens in the simulation -/
  ready : ∀ t < n, SeenBefore (M.sim cs) input record t (h.ready t)
  world : ∀ t < n, SeenAfter (M.sim cs) input record t (h.world (t + 1))

/-- The metric is constant or a value of a simple parameter. -/
def Whole.SimpleMetric (M : Whole V St) (m : Option Metric) : Prop :=
  ∀ id, m = some (.dyn id) → ∃ j key, M.source id = .ref j key ∧ j < M.simpleRefs.length

/-- Conditions on a network with parameters. Nodes refer to parameters (anything else is described by `source` or part of `sim`), those
called constant are constant, networks are built, and volumes are bounded by constants or simple parameters, as the types of the code demand
(`node.rs:224-262`, `virtual_storage.rs:130-168`), and so are initial volumes (`node.rs:269-331`). -/
structure Whole.Valid (M : Whole V St) : Prop where
  params : ∀ b ∈ M.params, Params.WellFormed b
  refs : ∀ r ∈ M.solveRefs, r.target.isSome
  consts : ∀ r ∈ M.constRefs, ∀ sh, Params.Gives M.params ⟨r, .before⟩ sh → sh = .const
  sims : ∀ cs, (M.sim cs).model.Valid
  volumes : ∀ cs i, M.SimpleMetric ((M.sim cs).data i).minVolume ∧ M.SimpleMetric ((M.sim cs).data i).maxVolume
  licences : ∀ cs k, M.SimpleMetric ((M.sim cs).vsMin k) ∧ M.SimpleMetric ((M.sim cs).vsMax k)
  starts : ∀ cs σ σ', (∀ id j key, M.source id = .ref j key → j < M.simpleRefs.length → σ id = σ' id) → (M.sim cs).iv σ = (M.sim cs).iv σ'

end Verif.Coupled
