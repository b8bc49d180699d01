import Verif.Model.Simulation
import Verif.Model.ParamRun

/-!
# Networks with their parameters

Puts together the run of parameters (`Model/ParamRun.lean`) and the simulation of a network (`Model/Simulation.lean`): the world of the
former is the state of the latter, and the values of metrics in the latter are those of parameters and components. Models
`MetricF64::get_value` (`/repo/pywr-core/src/metric.rs:136-321`) and the steps of `Network` (`network.rs:588-629, 757-830, 995-1074`).

Simplifications:
* what a parameter calculates is an arbitrary partial function of the values of its references and of the metrics of components;
* the maximum flow of a node (`MetricF64::NodeMaxFlow`) is available after the allocation only, and is the one of the allocation; the code
  evaluates it anew, which makes no difference as long as it does not refer to values calculated after the allocation
  (see the findings in DESIGN.md for what happens otherwise);
* metrics of an aggregated storage node list its nodes; transfers between networks are left out (`Model/Multi.lean`).
-/

namespace Verif.Coupled

open Verif.State Verif.Solver Verif.Time Verif.Simulation
open Verif.Params (Ref Stage Name Calcs)

/-- What a parameter returns: `f64`, `u64` or `MultiValue` (`state/mod.rs:177-230`). -/
inductive Val
  | number (v : ℚ)
  | index (n : Nat)
  | multi (vs : List (String × ℚ))
  deriving DecidableEq, Repr

/-- The value of a parameter as a metric, metric.rs 239-256. -/
def Val.get (key : Option String) (v : Val) : Option ℚ :=
  match v, key with
  | .number v, none => some v
  | .index n, none => some n
  | .multi vs, some k => vs.lookup k
  | _, _ => none

/-- The variants of `MetricF64` (metric.rs 137-179) that are not values of parameters. -/
inductive Comp
  | nodeInFlow (i : Nat)
  | nodeOutFlow (i : Nat)
  | nodeMaxFlow (i : Nat)
  | nodeVolume (i : Nat)
  | nodeProportionalVolume (i : Nat)
  | nodeMaxVolume (i : Nat)
  | aggInFlow (k : Nat)
  | aggOutFlow (k : Nat)
  | aggStorageVolume (is : List Nat)
  | aggStorageProportionalVolume (is : List Nat)
  | edgeFlow (e : Nat)
  | multiEdgeFlow (es : List Nat)
  | vsVolume (k : Nat)
  | vsProportionalVolume (k : Nat)
  | vsMaxVolume (k : Nat)
  | multiNodeInFlow (is : List Nat)
  | multiNodeOutFlow (is : List Nat)
  deriving DecidableEq, Repr

/-- The state of a network while it is run: the network with its constants, the state, the volume bounds of the step and the maximum
flows of its allocation. -/
structure World where
  sim : Sim
  state : SimState
  bounds : State.Bounds
  limits : Nat → Option ℚ

/-- `sum::<Result<_, _>>()`. -/
def sumAll {α : Type} (f : α → Option ℚ) : List α → Option ℚ
  | [] => some 0
  | a :: l =>
    match f a, sumAll f l with
    | some v, some w => some (v + w)
    | _, _ => none

/-- `get_node_max_volume`, state/mod.rs 629-637: the maximum volume when the volume was last changed. -/
def recordedMax (s : NetworkState) (i : Nat) : Option ℚ :=
  match s.nodes[i]? with
  | some (.storage st) => some st.maxVolume
  | _ => none

/-- `get_virtual_storage_proportional_volume`, state/mod.rs 726-731. -/
def vsProportional (s : NetworkState) (k : Nat) : Option ℚ := (s.vs[k]?).map fun v => v.storage.proportionalVolume

/-- `MetricF64::get_value`, metric.rs 182-321. -/
def World.get (w : World) : Comp → Option ℚ
  | .nodeInFlow i => (w.state.network.nodeInFlow i).toOption
  | .nodeOutFlow i => (w.state.network.nodeOutFlow i).toOption
  | .nodeMaxFlow i => w.limits i
  | .nodeVolume i => (w.state.network.nodeVolume i).toOption
  | .nodeProportionalVolume i => (w.state.network.nodeProportionalVolume i).toOption
  | .nodeMaxVolume i => if w.sim.stateNet.kinds[i]? = some .storage then some (w.bounds.node i).2 else none
  | .aggInFlow k =>
    match w.sim.aggs[k]? with
    | some a => sumAll (fun i => (w.state.network.nodeInFlow i).toOption) a.nodes.flatten
    | none => none
  | .aggOutFlow k =>
    match w.sim.aggs[k]? with
    | some a => sumAll (fun i => (w.state.network.nodeOutFlow i).toOption) a.nodes.flatten
    | none => none
  | .aggStorageVolume is => sumAll (fun i => (w.state.network.nodeVolume i).toOption) is
  | .aggStorageProportionalVolume is =>
    match sumAll (fun i => (w.state.network.nodeVolume i).toOption) is, sumAll (recordedMax w.state.network) is with
    | some v, some m => if m = 0 then some 1 else some (v / m)
    | _, _ => none
  | .edgeFlow e => (w.state.network.edgeFlow e).toOption
  | .multiEdgeFlow es => sumAll (fun e => (w.state.network.edgeFlow e).toOption) es
  | .vsVolume k => (w.state.network.vsVolume k).toOption
  | .vsProportionalVolume k => vsProportional w.state.network k
  | .vsMaxVolume k => if k < w.sim.vsNodes.length then some (w.bounds.vs k).2 else none
  | .multiNodeInFlow is => sumAll (fun i => (w.state.network.nodeInFlow i).toOption) is
  | .multiNodeOutFlow is => sumAll (fun i => (w.state.network.nodeOutFlow i).toOption) is

/-- Before the first step there is nothing to see. -/
def view : Option World → Comp → Option ℚ
  | none => fun _ => none
  | some w => w.get

/-- Where the value of a metric of a node comes from: a reference to a parameter (with a key if it has several values) or a component. -/
inductive Source
  | ref (j : Nat) (key : Option String)
  | comp (c : Comp)
  deriving DecidableEq, Repr

/-- A network with its parameters. Nodes refer to constant parameters (`constRefs`), which are part of the network once it is set up
(`sim`), to simple ones, and to any others (`otherRefs`). The metrics numbered in `sim` are described by `source`, which numbers the simple and
other references. `zero` is the first content of value arrays and `read` the number a metric takes from a value. `time` and `solver` are the steps and the solver; `big` and `negBig` the largest numbers of the solver. -/
structure Whole (V St : Type) where
  zero : V
  read : Option String → V → Option ℚ
  params : List Params.Builder
  constRefs : List Ref
  simpleRefs : List Ref
  otherRefs : List Ref
  sim : List V → Sim
  source : Nat → Source
  time : Nat → Timestep
  solver : Nat → Lp → Option (Nat → ℚ)
  big : ℚ
  negBig : ℚ
  setup : Name → St
  compute : Name → Stage → Nat → Option (Comp → Option ℚ) → St → List V → Option (V × St)
  hook : Name → Nat → (Comp → Option ℚ) → St → List V → Option St

variable {V St : Type}

/-- The values of metrics, given those of the simple and other references. -/
def Whole.metric (M : Whole V St) (vs : List V) (see : Comp → Option ℚ) (id : Nat) : Option ℚ :=
  match M.source id with
  | .ref j key =>
    match vs[j]? with
    | some v => M.read key v
    | none => none
  | .comp c => see c

/-- What a step is given. -/
def Whole.inp (M : Whole V St) (t : Nat) (vs : List V) (see : Comp → Option ℚ) : Inp := ⟨M.time t, M.metric vs see, M.solver t⟩

/-- `before` of nodes and virtual storages, network.rs 1010-1024. -/
def Whole.begin (M : Whole V St) (t : Nat) (vs : List V) (S : Sim) (s : SimState) : Option World :=
  match S.bounds (M.metric vs fun _ => none) with
  | none => none
  | some b => some ⟨S, ⟨S.pre (M.inp t vs fun _ => none) b s.network, s.solver⟩, b, fun _ => none⟩

/-- The same, with the set-up of the network and its solver in the first step (network.rs 588-629, 632-700); nothing happens between the two
but the calculation of the simple parameters. -/
def Whole.nodes (M : Whole V St) (t : Nat) (w : Option World) (vs : List V) : Option World :=
  match w with
  | some w => M.begin t (vs.drop M.constRefs.length) w.sim w.state
  | none =>
    match (M.sim (vs.take M.constRefs.length)).initial M.big M.negBig with
    | .error _ => none
    | .ok s => M.begin t (vs.drop M.constRefs.length) (M.sim (vs.take M.constRefs.length)) s

/-- The maximum flows of nodes, node.rs 604-611, 845-850. -/
def maxFlows (S : Sim) (σ : Nat → Option ℚ) (i : Nat) : Option ℚ :=
  match S.stateNet.kinds[i]? with
  | none => none
  | some .storage => none
  | some _ => valueOr f64MAX σ (S.data i).maxFlow

/-- `Solver::solve`, e.g. `solvers/clp/mod.rs:388-434`. -/
def Whole.solve (M : Whole V St) (t : Nat) (w : World) (vs : List V) : Option World :=
  let inp := M.inp t vs w.get
  match Solver.step w.sim.model w.state.solver (w.sim.stepState inp w.bounds w.state.network) with
  | .error _ => none
  | .ok s' =>
    match inp.solve s'.lp with
    | none => none
    | some x =>
      match applySolution w.sim.stateNet w.bounds inp.t (colFlow s' x) w.state.network with
      | .error _ => none
      | .ok n => some ⟨w.sim, ⟨n, s'⟩, w.bounds, maxFlows w.sim inp.metric⟩

/-- The calculations of a run. -/
def Whole.calcs (M : Whole V St) : Calcs V St (Option World) where
  zero := M.zero
  setup := M.setup
  compute name stage t w s vs := M.compute name stage t (w.map view) s vs
  hook name t w s vs := M.hook name t (view w) s vs
  nodes t w vs := (M.nodes t w vs).map some
  solve t w vs :=
    match w with
    | none => none
    | some w => (M.solve t w (vs.drop M.constRefs.length)).map some

/-- What nodes refer to at the start of a step, and at the allocation. -/
def Whole.nodeRefs (M : Whole V St) : List Ref := M.constRefs ++ M.simpleRefs
def Whole.solveRefs (M : Whole V St) : List Ref := M.constRefs ++ (M.simpleRefs ++ M.otherRefs)

/-- `NetworkBuilder::build`. -/
def Whole.build (M : Whole V St) : Option Params.Network := Params.buildNetwork (M.params.length + 1) M.params M.nodeRefs M.solveRefs

/-- The metrics of recorders at the end of `n + 1` steps: values of parameters and of components. -/
def Whole.report (M : Whole V St) (net : Params.Network) (refs : List Ref) (comps : List Comp) (n : Nat) :
    Option (Option (List V × List (Option ℚ))) :=
  (Params.report M.calcs net none refs n).map fun r => r.map fun p => (p.2, comps.map (view p.1))

end Verif.Coupled
