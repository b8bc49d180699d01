import Verif.Model.Timestep

/-!
# Network state, `/repo/pywr-core/src/state`

Flows, volumes and virtual storages. Metric and parameter values (bounds, factors) are inputs. Every panic and error is
an explicit `Err` value. The state that a failed call leaves behind is not modelled here (see `Model/Step.lean`).
-/

namespace Verif.State

open Verif.Calendar Verif.Time

/-- Errors (`NetworkStateError`, `state/mod.rs:452-461`) and panics of this part of the code. -/
inductive Err
  | nodeIndexNotFound (i : Nat)
  | edgeIndexNotFound (i : Nat)
  | virtualStorageIndexNotFound (i : Nat)
  | nodeHasNoVolume (i : Nat)
  | panicBelowMin
  | panicAboveMax
  | panicClampBounds
  | panicStorageOnVirtualStorage
  deriving DecidableEq, Repr

/-- `STORAGE_MASS_BALANCE_TOLERANCE`, `lib.rs`. -/
def tol : ℚ := 1 / 1000000

/-! ## `state/flow.rs` -/

/-- `FlowState`, lines 3-8. -/
structure FlowState where
  inFlow : ℚ
  outFlow : ℚ
  deriving DecidableEq, Repr

/-- `FlowState::new`, lines 11-16, and `reset`, lines 19-22. -/
def FlowState.zero : FlowState := ⟨0, 0⟩

/-- `add_in_flow`, lines 25-27. -/
def FlowState.addIn (s : FlowState) (flow : ℚ) : FlowState := { s with inFlow := s.inFlow + flow }

/-- `add_out_flow`, lines 30-32. -/
def FlowState.addOut (s : FlowState) (flow : ℚ) : FlowState := { s with outFlow := s.outFlow + flow }

/-! ## `state/storage.rs` -/

/-- `StorageState`, lines 15-21. -/
structure StorageState where
  volume : ℚ
  maxVolume : ℚ
  flows : FlowState
  deriving DecidableEq, Repr

/-- `StorageState::new`, lines 24-30. -/
def StorageState.new (initialVolume maxVolume : ℚ) : StorageState := ⟨initialVolume, maxVolume, .zero⟩

/-- `proportional_volume`, lines 40-47. -/
def StorageState.proportionalVolume (s : StorageState) : ℚ := if s.maxVolume = 0 then 1 else s.volume / s.maxVolume

/-- `reset`, lines 53-56: the volume is kept. -/
def StorageState.reset (s : StorageState) : StorageState := { s with flows := .zero }

/-- `add_in_flow`, lines 59-62. -/
def StorageState.addIn (s : StorageState) (flow days : ℚ) : StorageState :=
  { s with flows := s.flows.addIn flow, volume := s.volume + flow * days }

/-- `add_out_flow`, lines 65-68. -/
def StorageState.addOut (s : StorageState) (flow days : ℚ) : StorageState :=
  { s with flows := s.flows.addOut flow, volume := s.volume - flow * days }

/-- `set_volume`, lines 71-74. -/
def StorageState.setVolume (s : StorageState) (volume maxVolume : ℚ) : StorageState :=
  { s with volume := volume, maxVolume := maxVolume }

/-- `clamp`, lines 87-101. `f64::clamp` panics if `min > max`. -/
def StorageState.clamp (s : StorageState) (minVolume maxVolume : ℚ) : Except Err StorageState :=
  if s.volume - minVolume < -tol then .error .panicBelowMin
  else if s.volume - maxVolume > tol then .error .panicAboveMax
  else if minVolume > maxVolume then .error .panicClampBounds
  else .ok { s with volume := if s.volume < minVolume then minVolume
                              else if s.volume > maxVolume then maxVolume else s.volume }

/-- `finalise`, lines 79-82. -/
def StorageState.finalise (s : StorageState) (minVolume maxVolume : ℚ) : Except Err StorageState :=
  match s.clamp minVolume maxVolume with
  | .error e => .error e
  | .ok s' => .ok { s' with maxVolume := maxVolume }

/-! ## Nodes and edges, `state/mod.rs` -/

/-- `NodeState`, lines 30-33. -/
inductive NodeState
  | flow (s : FlowState)
  | storage (s : StorageState)
  deriving DecidableEq, Repr

/-- `NodeState::reset`, lines 44-49. -/
def NodeState.reset : NodeState → NodeState
  | .flow _ => .flow .zero
  | .storage s => .storage s.reset

/-- `NodeState::add_in_flow`, lines 51-56. -/
def NodeState.addIn (n : NodeState) (f days : ℚ) : NodeState :=
  match n with
  | .flow s => .flow (s.addIn f)
  | .storage s => .storage (s.addIn f days)

/-- `NodeState::add_out_flow`, lines 72-77. -/
def NodeState.addOut (n : NodeState) (f days : ℚ) : NodeState :=
  match n with
  | .flow s => .flow (s.addOut f)
  | .storage s => .storage (s.addOut f days)

/-- `get_in_flow`, lines 58-63. -/
def NodeState.inFlow : NodeState → ℚ
  | .flow s => s.inFlow
  | .storage s => s.flows.inFlow

/-- `get_out_flow`, lines 65-70. -/
def NodeState.outFlow : NodeState → ℚ
  | .flow s => s.outFlow
  | .storage s => s.flows.outFlow

/-- `finalise_volume`, lines 79-83: nothing happens for a flow state. -/
def NodeState.finaliseVolume (n : NodeState) (minVolume maxVolume : ℚ) : Except Err NodeState :=
  match n with
  | .flow s => .ok (.flow s)
  | .storage s =>
    match s.finalise minVolume maxVolume with
    | .error e => .error e
    | .ok s' => .ok (.storage s')

/-- An edge with its own index and the indices of its nodes, `/repo/pywr-core/src/edge.rs`. -/
structure Edge where
  index : Nat
  fromNode : Nat
  toNode : Nat
  deriving DecidableEq, Repr

/-! ## Virtual storage state, `state/mod.rs` -/

/-- `VirtualStorageHistory`, lines 88-93. `size` is a `NonZeroUsize`. -/
structure History where
  flows : List ℚ
  size : Nat
  deriving DecidableEq, Repr

/-- `VirtualStorageHistory::new`, lines 96-101. -/
def History.new (size : Nat) (initialFlow : ℚ) : History := ⟨List.replicate size initialFlow, size⟩

/-- `VirtualStorageHistory::reset`, lines 104-106. -/
def History.reset (h : History) (initialFlow : ℚ) : History := { h with flows := List.replicate h.size initialFlow }

/-- `add_flow`, lines 109-111. -/
def History.addFlow (h : History) (flow : ℚ) : History := { h with flows := h.flows ++ [flow] }

/-- `pop_flow`, lines 115-123. The `expect` cannot fail for a non-zero size; for an empty queue with size zero the model
returns zero. -/
def History.popFlow (h : History) : ℚ × History :=
  if h.size ≤ h.flows.length then
    match h.flows with
    | [] => (0, h)
    | f :: fs => (f, { h with flows := fs })
  else (0, h)

/-- `VirtualStorageState`, lines 127-131. `lastReset` holds the date of the stored timestep. -/
structure VSState where
  lastReset : Option DateTime
  storage : StorageState
  history : Option History
  deriving DecidableEq, Repr

/-- `VirtualStorageState::new`, lines 134-140. -/
def VSState.new (initialVolume maxVolume : ℚ) (historySize : Option Nat) : VSState :=
  { lastReset := none
    storage := .new initialVolume maxVolume
    history := historySize.map fun n => .new n (initialVolume / n) }

/-- `reset`, lines 142-145. -/
def VSState.reset (s : VSState) : VSState := { s with storage := s.storage.reset }

/-- `reset_volume`, lines 148-151. -/
def VSState.resetVolume (s : VSState) (volume : ℚ) (t : Timestep) (maxVolume : ℚ) : VSState :=
  { s with storage := s.storage.setVolume volume maxVolume, lastReset := some t.date }

/-- `reset_history`, lines 153-157. -/
def VSState.resetHistory (s : VSState) (initialFlow : ℚ) : VSState :=
  { s with history := s.history.map (·.reset initialFlow) }

/-- `recover_last_historical_flow`, lines 159-163. -/
def VSState.recover (s : VSState) (t : Timestep) : VSState :=
  match s.history with
  | none => s
  | some h => { s with storage := s.storage.addIn h.popFlow.1 t.days, history := some h.popFlow.2 }

/-- `add_out_flow`, lines 165-170. -/
def VSState.addOut (s : VSState) (flow : ℚ) (t : Timestep) : VSState :=
  { s with storage := s.storage.addOut flow t.days, history := s.history.map (·.addFlow flow) }

/-- `finalise_volume`, lines 172-174. -/
def VSState.finalise (s : VSState) (minVolume maxVolume : ℚ) : Except Err VSState :=
  match s.storage.finalise minVolume maxVolume with
  | .error e => .error e
  | .ok st => .ok { s with storage := st }

/-! ## `NetworkState` -/

/-- `NetworkState`, lines 465-469. -/
structure NetworkState where
  nodes : List NodeState
  edges : List ℚ
  vs : List VSState
  deriving DecidableEq, Repr

/-- `NetworkState::reset`, lines 489-501. -/
def NetworkState.reset (s : NetworkState) : NetworkState :=
  { nodes := s.nodes.map NodeState.reset, edges := s.edges.map (fun _ => 0), vs := s.vs.map VSState.reset }

/-- `NetworkState::add_flow`, lines 503-523. -/
def NetworkState.addFlow (s : NetworkState) (e : Edge) (days flow : ℚ) : Except Err NetworkState :=
  if e.fromNode < s.nodes.length then
    let nodes := s.nodes.modify e.fromNode (·.addOut flow days)
    if e.toNode < nodes.length then
      let nodes := nodes.modify e.toNode (·.addIn flow days)
      if e.index < s.edges.length then
        .ok { s with nodes := nodes, edges := s.edges.modify e.index (· + flow) }
      else .error (.edgeIndexNotFound e.index)
    else .error (.nodeIndexNotFound e.toNode)
  else .error (.nodeIndexNotFound e.fromNode)

/-- The loop with which every solver writes its solution, e.g. `/repo/pywr-core/src/solvers/clp/mod.rs:425-429`. -/
def NetworkState.addFlows (s : NetworkState) (days : ℚ) : List (Edge × ℚ) → Except Err NetworkState
  | [] => .ok s
  | (e, f) :: rest =>
    match s.addFlow e days f with
    | .error err => .error err
    | .ok s' => s'.addFlows days rest

/-- `get_node_in_flow`, lines 600-605. -/
def NetworkState.nodeInFlow (s : NetworkState) (i : Nat) : Except Err ℚ :=
  match s.nodes[i]? with
  | some n => .ok n.inFlow
  | none => .error (.nodeIndexNotFound i)

/-- `get_node_out_flow`, lines 607-612. -/
def NetworkState.nodeOutFlow (s : NetworkState) (i : Nat) : Except Err ℚ :=
  match s.nodes[i]? with
  | some n => .ok n.outFlow
  | none => .error (.nodeIndexNotFound i)

/-- `get_node_volume`, lines 614-622. -/
def NetworkState.nodeVolume (s : NetworkState) (i : Nat) : Except Err ℚ :=
  match s.nodes[i]? with
  | some (.storage st) => .ok st.volume
  | some (.flow _) => .error (.nodeHasNoVolume i)
  | none => .error (.nodeIndexNotFound i)

/-- `get_node_proportional_volume`, lines 639-647. -/
def NetworkState.nodeProportionalVolume (s : NetworkState) (i : Nat) : Except Err ℚ :=
  match s.nodes[i]? with
  | some (.storage st) => .ok st.proportionalVolume
  | some (.flow _) => .error (.nodeHasNoVolume i)
  | none => .error (.nodeIndexNotFound i)

/-- `get_edge_flow`, lines 649-654. -/
def NetworkState.edgeFlow (s : NetworkState) (i : Nat) : Except Err ℚ :=
  match s.edges[i]? with
  | some f => .ok f
  | none => .error (.edgeIndexNotFound i)

/-- `get_virtual_storage_volume`, lines 719-724. -/
def NetworkState.vsVolume (s : NetworkState) (i : Nat) : Except Err ℚ :=
  match s.vs[i]? with
  | some v => .ok v.storage.volume
  | none => .error (.virtualStorageIndexNotFound i)

/-- `set_volume`, lines 656-673. -/
def NetworkState.setVolume (s : NetworkState) (i : Nat) (volume maxVolume : ℚ) : Except Err NetworkState :=
  match s.nodes[i]? with
  | some (.storage st) => .ok { s with nodes := s.nodes.set i (.storage (st.setVolume volume maxVolume)) }
  | some (.flow _) => .error (.nodeHasNoVolume i)
  | none => .error (.nodeIndexNotFound i)

/-- The kinds of `Node`, `/repo/pywr-core/src/node.rs`. -/
inductive NodeKind | input | output | link | storage
  deriving DecidableEq, Repr

/-- `StorageInitialVolume`, `/repo/pywr-core/src/node.rs:1041-1067`, with its metrics replaced by their values. -/
inductive InitialVolume
  | absolute (v : ℚ)
  | proportional (p : ℚ)
  | distributedAbsolute (absolute prior : ℚ)
  | distributedProportional (total proportion prior : ℚ)
  deriving DecidableEq, Repr

/-- `get_absolute_initial_volume`, `/repo/pywr-core/src/node.rs:1071-1100`. -/
def InitialVolume.get (iv : InitialVolume) (maxVolume : ℚ) : ℚ :=
  match iv with
  | .absolute v => v
  | .proportional p => maxVolume * p
  | .distributedAbsolute a prior => min (max (a - prior) 0) maxVolume
  | .distributedProportional total p prior => min (max (total * p - prior) 0) maxVolume

/-! ## Virtual storage nodes, `/repo/pywr-core/src/virtual_storage.rs` -/

/-- `VirtualStorageReset`, lines 292-296. -/
inductive Reset
  | never
  | dayOfYear (day month : Nat)
  | numberOfMonths (months : Int)
  deriving DecidableEq, Repr

/-- `VirtualStorageResetVolume`, lines 300-303. -/
inductive ResetVolume | initial | max
  deriving DecidableEq, Repr

/-- `VirtualStorageActivePeriod`, lines 307-315. -/
inductive ActivePeriod
  | always
  | period (startDay startMonth endDay endMonth : Nat)
  deriving DecidableEq, Repr

/-- `is_active`, lines 318-341. -/
def ActivePeriod.isActive (p : ActivePeriod) (d : Date) : Bool :=
  match p with
  | .always => true
  | .period sd sm ed em =>
    if sm < em ∨ (sm = em ∧ sd ≤ ed) then
      decide ((d.month > sm ∨ (d.month = sm ∧ d.day ≥ sd)) ∧ (d.month < em ∨ (d.month = em ∧ d.day ≤ ed)))
    else
      decide ((d.month > sm ∨ (d.month = sm ∧ d.day ≥ sd)) ∨ (d.month < em ∨ (d.month = em ∧ d.day ≤ ed)))

/-- `VirtualStorageNode`, lines 366-377, without name and cost. -/
structure VSNode where
  nodes : List Nat
  factors : List ℚ
  initialVolume : InitialVolume
  reset : Reset
  resetVolume : ResetVolume
  rollingWindow : Option Nat
  activePeriod : ActivePeriod
  deriving DecidableEq, Repr

/-- `iter_nodes_with_factors`, lines 467-469. -/
def VSNode.nodesWithFactors (n : VSNode) : List (Nat × ℚ) := n.nodes.zip n.factors

/-- `is_active`, lines 494-496. -/
def VSNode.isActive (n : VSNode) (t : Timestep) : Bool := n.activePeriod.isActive t.date.date

/-- `months_since_last_reset`, lines 500-502. -/
def monthsSinceLastReset (current last : DateTime) : Int :=
  (current.date.year - last.date.year) * 12 + current.date.month - last.date.month

/-- The decision `do_reset` of `before`, lines 410-435. -/
def VSNode.doReset (n : VSNode) (t : Timestep) (lastReset : Option DateTime) : Bool :=
  if t.isFirst then true
  else if !n.isActive t then true
  else
    match n.reset with
    | .never => false
    | .dayOfYear day month => t.date.date.day == day && t.date.date.month == month
    | .numberOfMonths months =>
      match lastReset with
      | some last => decide (monthsSinceLastReset t.date last ≥ months)
      | none => true

/-- The reset itself, lines 437-454. -/
def VSNode.applyReset (n : VSNode) (t : Timestep) (maxVolume : ℚ) (s : VSState) : VSState :=
  let initial := n.initialVolume.get maxVolume
  let resetVolume := match n.resetVolume with
    | .max => maxVolume
    | .initial => initial
  let s := s.resetVolume resetVolume t maxVolume
  match n.rollingWindow with
  | some window => s.resetHistory ((maxVolume - initial) / window)
  | none => s

/-- `before`, lines 409-461, on the state of this virtual storage. -/
def VSNode.before (n : VSNode) (t : Timestep) (maxVolume : ℚ) (s : VSState) : VSState :=
  let s := if n.doReset t s.lastReset then n.applyReset t maxVolume s else s
  if n.rollingWindow.isSome then s.recover t else s

/-- `get_available_volume_bounds`, lines 482-491. -/
def availableBounds (volume minVolume maxVolume : ℚ) : ℚ × ℚ :=
  (max (volume - minVolume) 0, max (maxVolume - volume) 0)

/-! ## Completion of a timestep, `state/mod.rs` -/

/-- The flow of one member of a virtual storage, lines 540-554. -/
def memberFlow (kinds : List NodeKind) (nodes : List NodeState) (i : Nat) : Except Err ℚ :=
  match nodes[i]? with
  | none => .error (.nodeIndexNotFound i)
  | some s =>
    match kinds[i]? with
    | none => .error (.nodeIndexNotFound i)
    | some .input => .ok s.outFlow
    | some .output => .ok s.inFlow
    | some .link => .ok s.inFlow
    | some .storage => .error .panicStorageOnVirtualStorage

/-- The sum of lines 538-555. -/
def vsFlow (kinds : List NodeKind) (nodes : List NodeState) : List (Nat × ℚ) → Except Err ℚ
  | [] => .ok 0
  | (i, factor) :: rest =>
    match memberFlow kinds nodes i with
    | .error e => .error e
    | .ok q =>
      match vsFlow kinds nodes rest with
      | .error e => .error e
      | .ok total => .ok (factor * q + total)

/-- `update_derived_states`, lines 529-562: one virtual storage. -/
def updateVS (kinds : List NodeKind) (nodes : List NodeState) (t : Timestep) (n : VSNode) (s : VSState) :
    Except Err VSState :=
  if n.isActive t then
    match vsFlow kinds nodes n.nodesWithFactors with
    | .error e => .error e
    | .ok q => .ok (s.addOut q t)
  else .ok s

/-- `update_derived_states`, lines 529-562: `zip` over states and nodes, states beyond the zip are kept. -/
def updateAllVS (kinds : List NodeKind) (nodes : List NodeState) (t : Timestep) :
    List VSNode → List VSState → Except Err (List VSState)
  | [], ss => .ok ss
  | _ :: _, [] => .ok []
  | n :: ns, s :: ss =>
    match updateVS kinds nodes t n s with
    | .error e => .error e
    | .ok s' =>
      match updateAllVS kinds nodes t ns ss with
      | .error e => .error e
      | .ok rest => .ok (s' :: rest)

/-- The first loop of `State::complete`, lines 1147-1155: storage nodes in order of their index. `bounds i` are the
minimum and maximum volume of node `i`. -/
def finaliseNodes (bounds : Nat → ℚ × ℚ) : Nat → List NodeKind → List NodeState → Except Err (List NodeState)
  | _, [], ns => .ok ns
  | i, k :: ks, ns =>
    match ns with
    | [] => if k = .storage then .error (.nodeIndexNotFound i) else finaliseNodes bounds (i + 1) ks []
    | n :: ns =>
      match (if k = .storage then n.finaliseVolume (bounds i).1 (bounds i).2 else .ok n) with
      | .error e => .error e
      | .ok n' =>
        match finaliseNodes bounds (i + 1) ks ns with
        | .error e => .error e
        | .ok rest => .ok (n' :: rest)

/-- The last loop of `State::complete`, lines 1159-1165. -/
def finaliseVS (bounds : Nat → ℚ × ℚ) : Nat → List VSNode → List VSState → Except Err (List VSState)
  | _, [], ss => .ok ss
  | i, _ :: _, [] => .error (.virtualStorageIndexNotFound i)
  | i, _ :: ns, s :: ss =>
    match s.finalise (bounds i).1 (bounds i).2 with
    | .error e => .error e
    | .ok s' =>
      match finaliseVS bounds (i + 1) ns ss with
      | .error e => .error e
      | .ok rest => .ok (s' :: rest)

/-- Static description of a network, as far as the state needs it. -/
structure Net where
  kinds : List NodeKind
  edges : List Edge
  vsNodes : List VSNode
  deriving DecidableEq, Repr

/-- Values of the bounds in one timestep: minimum and maximum volume of each storage node and virtual storage. -/
structure Bounds where
  node : Nat → ℚ × ℚ
  vs : Nat → ℚ × ℚ

/-- `State::complete`, lines 1146-1168. -/
def complete (net : Net) (b : Bounds) (t : Timestep) (s : NetworkState) : Except Err NetworkState :=
  match finaliseNodes b.node 0 net.kinds s.nodes with
  | .error e => .error e
  | .ok nodes =>
    match updateAllVS net.kinds nodes t net.vsNodes s.vs with
    | .error e => .error e
    | .ok vs =>
      match finaliseVS b.vs 0 net.vsNodes vs with
      | .error e => .error e
      | .ok vs => .ok { s with nodes := nodes, vs := vs }

/-- The end of `Solver::solve`, e.g. `/repo/pywr-core/src/solvers/clp/mod.rs:420-430`: reset, write the flow of every
edge, complete. `flow` gives the flow of each edge. -/
def applySolution (net : Net) (b : Bounds) (t : Timestep) (flow : Nat → ℚ) (s : NetworkState) :
    Except Err NetworkState :=
  match s.reset.addFlows t.days (net.edges.map fun e => (e, flow e.index)) with
  | .error e => .error e
  | .ok s' => complete net b t s'

/-- The same part of the interior point solvers, e.g. `/repo/pywr-core/src/solvers/ipm_simd/mod.rs:684-701` and
`ipm_ocl/mod.rs:688-699`: the flows are written but `State::complete` is not called. -/
def applySolutionIpm (net : Net) (t : Timestep) (flow : Nat → ℚ) (s : NetworkState) : Except Err NetworkState :=
  s.reset.addFlows t.days (net.edges.map fun e => (e, flow e.index))

/-- `StorageNode::before`, `/repo/pywr-core/src/node.rs:1158-1167`, for all nodes in order (`network.rs:1010-1016`). The
state of a storage node is always a storage state (it is created by the node, `network.rs`), so the error for other
states is left out. -/
def nodesBefore (kinds : List NodeKind) (iv : Nat → InitialVolume) (bounds : Nat → ℚ × ℚ) (t : Timestep)
    (nodes : List NodeState) : List NodeState :=
  nodes.mapIdx fun i n =>
    match kinds[i]?, n with
    | some .storage, .storage st =>
      if t.isFirst then .storage (st.setVolume ((iv i).get (bounds i).2) (bounds i).2) else .storage st
    | _, n => n

/-- `VirtualStorageNode::before` for all virtual storages (`network.rs:1018-1021`). -/
def vsBefore (vsNodes : List VSNode) (bounds : Nat → ℚ × ℚ) (t : Timestep) (vs : List VSState) : List VSState :=
  vs.mapIdx fun i s =>
    match vsNodes[i]? with
    | some n => n.before t (bounds i).2 s
    | none => s

/-- The inputs of one timestep: the timestep, the values of all volume bounds and the flows returned by the solver. -/
structure StepIn where
  t : Timestep
  b : Bounds
  flow : Nat → ℚ

/-- The state at the time of the solve: node and virtual storage `before` have been applied. -/
def preSolve (net : Net) (iv : Nat → InitialVolume) (inp : StepIn) (s : NetworkState) : NetworkState :=
  { s with nodes := nodesBefore net.kinds iv inp.b.node inp.t s.nodes, vs := vsBefore net.vsNodes inp.b.vs inp.t s.vs }

/-- One timestep of the network state: before, then the solution of the solver is applied. -/
def step (net : Net) (iv : Nat → InitialVolume) (inp : StepIn) (s : NetworkState) : Except Err NetworkState :=
  applySolution net inp.b inp.t inp.flow (preSolve net iv inp s)

/-- A run over several timesteps; it stops at the first error or panic. -/
def run (net : Net) (iv : Nat → InitialVolume) : List StepIn → NetworkState → Except Err NetworkState
  | [], s => .ok s
  | inp :: rest, s =>
    match step net iv inp s with
    | .error e => .error e
    | .ok s' => run net iv rest s'

end Verif.State
