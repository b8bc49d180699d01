import Verif.Model.Load
import Verif.Model.SchemaNetwork
import Verif.Model.SchemaParams
import Verif.Model.Whole

/-!
# Documents from end to end

Puts together what a network document makes of its nodes (`Model/SchemaNetwork.lean`), of its metrics and parameters
(`Model/Load.lean`), and the simulation of the network built from it (`Model/Simulation.lean`): `NetworkSchema::add_to_network`
(`pywr-schema/src/network.rs:550-660`), `UnresolvedMetricF64::resolve` (`pywr-core/src/metric.rs:568-795`) and
`Network::step` (`pywr-core/src/network.rs:757-830`).

Simplifications, besides those of the parts:
* one scenario;
* the metrics of nodes are numbered: `dyn i` in `net` is the metric number `i` of `doc`, whose nodes are those of `net`. A
  parameter that a node makes by itself (`Frag.params`) is listed in `doc` among the parameters of the node;
* what parameters and metrics say of components are texts, of which `refs` is the meaning; the power
  of turbines is left out;
* a document in which the initial volume of a node is given by a metric that is not in `doc` is left out; there is no such document;
* of virtual storages (licences) the bounds are constants, and what is not in `net` is given by `licences`.
-/

namespace Verif.EndToEnd

open Verif.State Verif.Solver Verif.Time Verif.Simulation
open Verif.Coupled (World maxFlows)
open Verif.Load (PName Found)
open Verif.Schema (Frag Core UMetric Attr SEdge)

/-- What a metric refers to: `NodeAttrReference` (`pywr-schema/src/metric.rs:289-294`), `EdgeReference` (`metric.rs:650-653`), what
a parameter made by a node is about, a transfer from another network (`metric.rs:143-146`), or `VirtualNodeAttrReference`
(`metric.rs:389-394`). -/
inductive Target
  | node (name : String) (attr : Option Attr)
  | edge (e : SEdge)
  | made (u : UMetric)
  | transfer (name : String)
  | virtual (name : String) (attr : Option Attr)
  deriving DecidableEq, Repr

/-- The state of a network while it is run, with the values that other networks have transferred to it (`inter_network_values` of
`State`, `pywr-core/src/state/mod.rs`). -/
structure Area where
  world : World
  given : List ℚ

/-- What else belongs to a virtual storage: `VirtualStorageNode`, `pywr-schema/src/nodes/virtual_nodes/virtual_storage.rs`. -/
structure Licence where
  initialVolume : InitialVolume
  reset : Reset
  resetVolume : ResetVolume
  rollingWindow : Option Nat
  activePeriod : ActivePeriod
  lo : ℚ
  hi : ℚ

/-- A network document. -/
structure Document where
  net : Schema.Net
  doc : Load.Doc
  refs : String → Target
  numbers : Schema.ParamNo
  licences : Nat → Licence

/-- What there is besides the document: a numbering of names, tables, series, the scenario, the steps and the solver; the names of the
transfers from other networks and the values they bring in each step. -/
structure Setting where
  code : PName → Nat
  table : String → Option ℚ
  tableIndex : String → Option Nat
  tableList : String → Option (List ℚ)
  series : String → Option (List (String × List ℚ))
  scenario : String → Option (Nat × Nat)
  time : Nat → Timestep
  solver : Nat → Lp → Option (Nat → ℚ)
  big : ℚ
  negBig : ℚ
  transfers : List String := []
  given : Nat → List ℚ := fun _ => []

/-- `NodeAttrReference::load_f64` (`pywr-schema/src/metric.rs:303-319`) and `EdgeReference::load` (667-672). -/
def Target.metric (N : Schema.Net) : Target → Except Schema.Err UMetric
  | .node x a =>
    match N.node? x with
    | .error e => .error e
    | .ok n => n.metric a
  | .edge e => N.edgeMetric e
  | .made u => .ok u
  | .transfer x => .error (.nodeNotFound x)
  | .virtual x _ => .error (.nodeNotFound x)

/-- `UnresolvedMetricF64` of virtual nodes, `pywr-core/src/metric.rs:458-484`. -/
inductive VMetric
  | inFlow (n : Topology.Name)
  | outFlow (n : Topology.Name)
  | storeVolume (n : Topology.Name)
  | storeShare (n : Topology.Name)
  | vsVolume (n : Topology.Name)
  | vsShare (n : Topology.Name)
  deriving DecidableEq, Repr

/-- `VirtualNode::create_metric`, `pywr-schema/src/nodes/virtual_nodes/mod.rs:135-142`, with `aggregated.rs:215-230`, `359-376` and
`virtual_storage.rs:303-320`. -/
def virtualMetric (v : Schema.VNode) (a : Option Attr) : Except Schema.Err VMetric :=
  match v.body with
  | .aggregated _ _ _ _ =>
    match a.getD .outflow with
    | .outflow => .ok (.outFlow (v.name, none))
    | .inflow => .ok (.inFlow (v.name, none))
    | a => .error (.attribute a)
  | .aggregatedStorage _ =>
    match a.getD .volume with
    | .volume => .ok (.storeVolume (v.name, none))
    | .proportionalVolume => .ok (.storeShare (v.name, none))
    | a => .error (.attribute a)
  | .virtualStorage _ _ _ =>
    match a.getD .volume with
    | .volume => .ok (.vsVolume (v.name, none))
    | .proportionalVolume => .ok (.vsShare (v.name, none))
    | a => .error (.attribute a)
  | .placeholder => .error .placeholder

/-- `collect::<Option<Vec<_>>>()`. -/
def allOf {α β : Type} (g : α → Option β) : List α → Option (List β)
  | [] => some []
  | a :: as =>
    match g a, allOf g as with
    | some b, some bs => some (b :: bs)
    | _, _ => none

/-- The position of a core node. -/
def nodeAt (F : Frag) (n : Topology.Name) : Option Nat := (F.index? n).toOption

/-- The position of an edge. -/
def edgeAt (F : Frag) (e : Topology.EdgeDecl) : Option Nat := F.edges.findIdx? (fun d => d = e)

/-- The members of an aggregated storage. -/
def storeAt (F : Frag) (C : Core) (n : Topology.Name) : Option (List Nat) :=
  (F.stores.findIdx? (fun s => s.name = n)).bind fun k => C.stores[k]?

/-- `UnresolvedMetricF64::resolve`, `pywr-core/src/metric.rs:568-795`, for metrics of components. -/
def place (F : Frag) (C : Core) : UMetric → Option Coupled.Comp
  | .nodeInFlow n => (nodeAt F n).map .nodeInFlow
  | .nodeOutFlow n => (nodeAt F n).map .nodeOutFlow
  | .nodeVolume n => (nodeAt F n).map .nodeVolume
  | .nodeMaxVolume n => (nodeAt F n).map .nodeMaxVolume
  | .nodeProportionalVolume n => (nodeAt F n).map .nodeProportionalVolume
  | .multiNodeInFlow ns => (allOf (nodeAt F) ns).map .multiNodeInFlow
  | .multiNodeOutFlow ns => (allOf (nodeAt F) ns).map .multiNodeOutFlow
  | .multiEdgeFlow es => (allOf (edgeAt F) es).map .multiEdgeFlow
  | .aggStorageVolume n => (storeAt F C n).map .aggStorageVolume
  | .aggStorageProportionalVolume n => (storeAt F C n).map .aggStorageProportionalVolume
  | .const _ => none
  | .parameter _ _ => none

/-- The position of an aggregated node. -/
def aggAt (F : Frag) (n : Topology.Name) : Option Nat := F.aggs.findIdx? fun d => d.name = n

/-- The position of a virtual storage. -/
def vsAt (F : Frag) (n : Topology.Name) : Option Nat := F.vs.findIdx? fun d => d.name = n

/-- The same for metrics of virtual nodes, lines 629-660 and 716-733. -/
def VMetric.place (F : Frag) (C : Core) : VMetric → Option Coupled.Comp
  | .inFlow n => (aggAt F n).map .aggInFlow
  | .outFlow n => (aggAt F n).map .aggOutFlow
  | .storeVolume n => (storeAt F C n).map .aggStorageVolume
  | .storeShare n => (storeAt F C n).map .aggStorageProportionalVolume
  | .vsVolume n => (vsAt F n).map .vsVolume
  | .vsShare n => (vsAt F n).map .vsProportionalVolume

/-- What a metric of a component finds. -/
def shownAt : Option Coupled.Comp → Except Load.Err (Found Area)
  | some c => .ok (.shown fun w => w.world.get c)
  | none => .error .todo

/-- What a metric shows. The deficit of an output is a parameter (`nodes/core.rs:772-785`). -/
def found (F : Frag) (C : Core) : UMetric → Except Load.Err (Found Area)
  | .const q => .ok (.shown fun _ => some q)
  | .parameter x p =>
    match nodeAt F (x, none) with
    | some i => if p = "deficit" then .ok (.deficit x (fun w => w.world.get (.nodeInFlow i)) (fun w => w.world.get (.nodeMaxFlow i))) else .error .todo
    | none => .error .todo
  | u =>
    match place F C u with
    | some c => .ok (.shown fun w => w.world.get c)
    | none => .error .todo

/-- What is there when the parameters are loaded; for transfers `UnresolvedMetricF64::resolve`, `pywr-core/src/metric.rs:770-778`. An
index cannot be transferred: that is a `todo!` (`metric.rs:1379`). -/
def Document.args (D : Document) (E : Setting) (F : Frag) (C : Core) : Load.Args Area where
  code := E.code
  table := E.table
  tableIndex := E.tableIndex
  tableList := E.tableList
  comp := fun r =>
    match D.refs r with
    | .transfer x =>
      match E.transfers.findIdx? (fun y => y = x) with
      | some k => .ok (.shown fun w => w.given[k]?)
      | none => .error (.nodeNotFound x)
    | .virtual x a =>
      match D.net.virtualNodes.find? (fun v => v.name = x) with
      | none => .error (.nodeNotFound x)
      | some v =>
        match virtualMetric v a with
        | .error _ => .error (.nodeNotFound r)
        | .ok m => shownAt (m.place F C)
    | a =>
      match a.metric D.net with
      | .error _ => .error (.nodeNotFound r)
      | .ok u => found F C u
  node := fun x => D.net.nodes.any fun n => n.name = x
  transfer := fun _ _ => none
  series := E.series
  scenario := E.scenario
  time := fun t => (E.time t).date
  fmax := f64MAX

/-- `StorageInitialVolume` with the values of its metrics, `pywr-core/src/node.rs:1071-1100`. -/
def volumeOf (σ : Nat → Option ℚ) (i : Option Schema.Initial) : InitialVolume := (i.bind (·.read σ)).getD (.absolute 0)

/-- The metric of a value, if it is not a constant. -/
def idOf : Metric → List Nat
  | .dyn id => [id]
  | .const _ => []

/-- The metrics of initial volumes; those of piecewise storages have some (`node.rs:269-331`). -/
def initialIds : Option Schema.Initial → List Nat
  | some (.distributedAbsolute _ prior) => idOf prior
  | some (.distributedProportional total _ prior) => idOf total ++ idOf prior
  | _ => []

/-- The metrics of initial volumes are in the document. -/
def Document.listed (D : Document) (F : Frag) : Bool := F.nodes.all fun d => (initialIds d.initial).all fun id =>
  id < ((D.doc.nodes ++ D.doc.virtuals).map fun n => n.uses.length).sum

/-- A virtual storage. -/
def Licence.node (l : Licence) (v : VStore) : VSNode :=
  ⟨v.members.map (·.1), v.members.map (·.2), l.initialVolume, l.reset, l.resetVolume, l.rollingWindow, l.activePeriod⟩

/-- The network that is simulated. -/
def Document.sim (D : Document) (F : Frag) (C : Core) : Sim where
  net := C.model.net
  data := C.model.data
  aggs := C.model.aggs
  vsNodes := C.model.vs.mapIdx fun k v => (D.licences k).node v
  vsMin := fun k => some (.const (D.licences k).lo)
  vsMax := fun k => some (.const (D.licences k).hi)
  vsCost := fun k => (C.model.vs[k]?).bind (·.cost)
  iv := fun σ i => volumeOf σ ((F.nodes[i]?).bind (·.initial))

/-- The metric of an optional limit, if it is not a constant. -/
def idsOf : Option Metric → List Nat
  | some (.dyn id) => [id]
  | _ => []

/-- The metrics of minimum, maximum and initial volumes, which are `SimpleMetricF64` (`pywr-core/src/node.rs:867-876` and 1052-1068,
made by `try_into` at 228-331): they are known at the start of a step. -/
def volumeIds (F : Frag) : List Nat := F.nodes.flatMap fun d => idsOf d.data.minVolume ++ idsOf d.data.maxVolume ++ initialIds d.initial

/-- The values of these metrics. -/
def known (xs : List (Nat × ℚ)) (id : Nat) : Option ℚ := (xs.find? fun p => p.1 = id).map (·.2)

/-- `before` of nodes and virtual storages, `pywr-core/src/network.rs:1010-1024`. The values of other networks are set before the step
(`pywr-core/src/models/multi.rs:546`); nothing uses them before this. -/
def start (S : Sim) (E : Setting) (t : Nat) (w : Area) (xs : List (Nat × ℚ)) : Option Area :=
  match S.bounds (known xs) with
  | none => none
  | some b => some ⟨⟨S, ⟨S.pre ⟨E.time t, known xs, E.solver t⟩ b w.world.state.network, w.world.state.solver⟩, b, fun _ => none⟩, E.given t⟩

/-- `Solver::solve`, e.g. `pywr-core/src/solvers/clp/mod.rs:388-434`, with the values of the metrics of nodes. -/
def allocate (S : Sim) (E : Setting) (t : Nat) (w : Area) (qs : List ℚ) : Option Area :=
  match Solver.step S.model w.world.state.solver (S.stepState ⟨E.time t, fun id => qs[id]?, E.solver t⟩ w.world.bounds w.world.state.network) with
  | .error _ => none
  | .ok s' =>
    match E.solver t s'.lp with
    | none => none
    | some x =>
      match applySolution S.stateNet w.world.bounds (E.time t) (colFlow s' x) w.world.state.network with
      | .error _ => none
      | .ok n => some ⟨⟨S, ⟨n, s'⟩, w.world.bounds, maxFlows S fun id => qs[id]?⟩, w.given⟩

/-- Before the first step. The values of other networks are zero (`pywr-core/src/state/mod.rs:1263`). -/
def blank (S : Sim) (E : Setting) (s : SimState) : Area :=
  ⟨⟨S, s, ⟨fun _ => (0, 0), fun _ => (0, 0)⟩, fun _ => none⟩, List.replicate E.transfers.length 0⟩

/-- How a document ends. -/
inductive Ending
  | notCompiled (e : Schema.Err)
  | notBuilt (e : Schema.BuildErr)
  | leftOut
  | noSolver (e : SetupErr)
  | ran (o : Load.Outcome Area)

/-- A document is loaded, built and run for `n + 1` steps: the network at the end and the values of the metric sets. -/
def Document.run (D : Document) (E : Setting) (n : Nat) : Ending :=
  match D.net.compile D.numbers with
  | .error e => .notCompiled e
  | .ok F =>
    match F.build with
    | .error e => .notBuilt e
    | .ok C =>
      if D.listed F then
        match (D.sim F C).initial E.big E.negBig with
        | .error e => .noSolver e
        | .ok s => .ran (D.doc.run (D.args E F C) (volumeIds F) (start (D.sim F C) E) (allocate (D.sim F C) E) (blank (D.sim F C) E s) n)
      else .leftOut

end Verif.EndToEnd
