import Verif.Model.Solver
import Verif.Model.State

/-!
# Whole simulations

One scenario of a network through its timesteps: `Network::step` (`/repo/pywr-core/src/network.rs:757-830`) with
`compute_components` (995-1034), `Solver::solve` (e.g. `solvers/clp/mod.rs:388-434`) and `State::complete`. It puts together
the network state (`Model/State.lean`) and the linear program (`Model/Solver.lean`): the program is updated from the state
at the time of the solve, and the solver's answer is written back to the state.

The values of metrics in each step and the answers of the solver are inputs. Parameters may calculate the former from anything,
so a value is given for every metric and step, and nothing is assumed about it; minimum and maximum volumes are simple metrics, which have one value throughout
a step (`node.rs:1173-1181`, `virtual_storage.rs:471-479`).
-/

namespace Verif.Simulation

open Verif.State Verif.Solver Verif.Time

/-- A network. `vsMin`, `vsMax` and `vsCost` are the bounds and costs of virtual storages, `iv` the initial volumes of storage
nodes, which in piecewise storages depend on metrics (`node.rs:1071-1100`), `sets` the groups of exclusive aggregated nodes in the order of the hash set in which the solver collects them
(`solvers/builder.rs:724-746`). -/
structure Sim where
  net : Verif.Topology.Network
  data : Nat → NodeData
  aggs : List AggNode
  vsNodes : List VSNode
  vsMin : Nat → Option Metric
  vsMax : Nat → Option Metric
  vsCost : Nat → Option Metric
  iv : (Nat → Option ℚ) → Nat → InitialVolume
  sets : List (List Nat) := []

/-- What the solver sees of the network. -/
def Sim.model (S : Sim) : Model :=
  ⟨S.net, S.data, S.aggs, S.vsNodes.mapIdx fun k n => ⟨n.nodesWithFactors, S.vsCost k⟩⟩

/-- What the state sees of the network. -/
def Sim.stateNet (S : Sim) : Net := ⟨S.net.nodes.map (·.kind), S.net.edges, S.vsNodes⟩

/-- The state of one scenario with its solver. -/
structure SimState where
  network : NetworkState
  solver : Built

/-- Why a step fails. -/
inductive SimErr
  | volumeBounds
  | solve (e : SolveErr)
  | infeasible
  | state (e : State.Err)
  deriving DecidableEq, Repr

/-- The inputs of a step: the values of metrics, and the solver (`none`: no solution found). -/
structure Inp where
  t : Timestep
  metric : Nat → Option ℚ
  solve : Lp → Option (Nat → ℚ)

/-- `get_min_volume` and `get_max_volume`, `node.rs:880-896`. -/
def volumeBounds (lo hi : Option Metric) (σ : Nat → Option ℚ) : Option (ℚ × ℚ) :=
  match valueOr 0 σ lo, valueOr f64MAX σ hi with
  | some lo, some hi => some (lo, hi)
  | _, _ => none

/-- The volume bounds of a storage node. -/
def Sim.nodeVolumes (S : Sim) (σ : Nat → Option ℚ) (i : Nat) : Option (ℚ × ℚ) :=
  volumeBounds (S.data i).minVolume (S.data i).maxVolume σ

/-- The volume bounds of a virtual storage. -/
def Sim.vsVolumes (S : Sim) (σ : Nat → Option ℚ) (k : Nat) : Option (ℚ × ℚ) :=
  volumeBounds (S.vsMin k) (S.vsMax k) σ

/-- All volume bounds; a metric that has no value makes the step fail. -/
def Sim.bounds (S : Sim) (σ : Nat → Option ℚ) : Option State.Bounds :=
  if (∀ n ∈ S.net.nodes, n.kind = .storage → (S.nodeVolumes σ n.index).isSome) ∧
      ∀ k < S.vsNodes.length, (S.vsVolumes σ k).isSome then
    some ⟨fun i => (S.nodeVolumes σ i).getD (0, 0), fun k => (S.vsVolumes σ k).getD (0, 0)⟩
  else none

/-- The state at the time of the solve as the solver sees it: `get_available_volume_bounds` of virtual storages
(`virtual_storage.rs:482-491`) and volumes of storage nodes (`node.rs:708-715`). -/
def Sim.stepState (S : Sim) (inp : Inp) (b : State.Bounds) (s : NetworkState) : StepState :=
  { metric := inp.metric
    volume := fun i => (s.nodeVolume i).toOption
    vsActive := fun k => (S.vsNodes[k]?).any (fun n => n.isActive inp.t)
    vsBounds := fun k => (s.vsVolume k).toOption.map (fun v => availableBounds v (b.vs k).1 (b.vs k).2)
    days := inp.t.days }

/-- What happened in a step. -/
structure Record where
  inp : Inp
  bounds : State.Bounds
  pre : NetworkState
  flow : Nat → ℚ
  post : NetworkState

/-- `before` of nodes and virtual storages with the given bounds. -/
def Sim.pre (S : Sim) (inp : Inp) (b : State.Bounds) (s : NetworkState) : NetworkState :=
  preSolve S.stateNet (S.iv inp.metric) ⟨inp.t, b, fun _ => 0⟩ s

/-- The flow read for an edge from the solver's answer, `solvers/clp/mod.rs:424-429`. -/
def colFlow (s : Built) (x : Nat → ℚ) (e : Nat) : ℚ := x (s.cols.getD e 0)

/-- One step. The volume bounds are asked for in `before`, in the update of the program and in `complete`; a missing value
fails the step in any of them, and is reported here first. -/
def Sim.step (S : Sim) (inp : Inp) (s : SimState) : Except SimErr (SimState × Record) :=
  match S.bounds inp.metric with
  | none => .error .volumeBounds
  | some b =>
    match Solver.step S.model s.solver (S.stepState inp b (S.pre inp b s.network)) with
    | .error e => .error (.solve e)
    | .ok s' =>
      match inp.solve s'.lp with
      | none => .error .infeasible
      | some x =>
        match applySolution S.stateNet b inp.t (colFlow s' x) (S.pre inp b s.network) with
        | .error e => .error (.state e)
        | .ok n => .ok (⟨n, s'⟩, ⟨inp, b, S.pre inp b s.network, colFlow s' x, n⟩)

/-- `default_state` of nodes (`node.rs:540-547`) and of virtual storages (`virtual_storage.rs:398-400`), and
`NetworkState::new` (`state/mod.rs:472-482`). -/
def Sim.initialNetwork (S : Sim) : NetworkState :=
  { nodes := S.net.nodes.map fun n => if n.kind = .storage then .storage (.new 0 0) else .flow .zero
    edges := S.net.edges.map fun _ => 0
    vs := S.vsNodes.map fun n => .new 0 0 n.rollingWindow }

/-- The state before the first step: `setup_network` (`network.rs:590-640`) and `Solver::setup` (`solvers/clp/mod.rs:376-386`).
`big` and `negBig` are the largest numbers of the solver. -/
def Sim.initial (S : Sim) (big negBig : ℚ) : Except SetupErr SimState :=
  match create S.model big negBig S.sets with
  | .error e => .error e
  | .ok s => .ok ⟨S.initialNetwork, s⟩

/-- A run: what happened in the steps completed, and the final state or why it stopped. -/
def Sim.run (S : Sim) : List Inp → SimState → List Record × Except SimErr SimState
  | [], s => ([], .ok s)
  | inp :: rest, s =>
    match S.step inp s with
    | .error e => ([], .error e)
    | .ok (s', r) =>
      let q := S.run rest s'
      (r :: q.1, q.2)

end Verif.Simulation
