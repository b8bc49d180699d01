import Verif.Model.Solver

/-!
# Node types of the schema

Transcribed from `/repo/pywr-schema/src/nodes/*.rs`: which core nodes, edges, aggregated nodes and parameters a node of the
schema creates (`add_to_network`), which of them edges are attached to (`input_connectors`, `output_connectors`), which are
meant when the node is named in a constraint (`nodes_for_flow_constraints`, `nodes_for_storage_constraints`) and which
values its attributes report (`create_metric`).

Simplifications. A metric of the schema is given as loaded (`Metric::load`): a constant or the value with a number. The
parameters a node creates itself get numbers by an arbitrary function `P` of the node's name, the parameter's name and, for
parameters with several values, the key. Constants read from tables are given as numbers. Loading can fail; that is left out.
-/

namespace Verif.Schema

open Verif.State (NodeKind)
open Verif.Topology (Name EdgeDecl)
open Verif.Solver (Metric NodeData Factors Relationship)

/-- `NodeAttribute`, `nodes/attributes.rs`. -/
inductive Attr
  | inflow | outflow | volume | maxVolume | proportionalVolume | loss | deficit | power | compensation | rainfall
  | evaporation | abstraction
  deriving DecidableEq, Repr

/-- `NodeComponent`, `nodes/components.rs`. -/
inductive Comp
  | inflow | outflow | loss | compensation | rainfall | evaporation | abstraction
  deriving DecidableEq, Repr

/-- `NodeSlot`, `nodes/slots.rs`. -/
inductive Slot
  | storage | compensation | spill | river | abstraction
  | split (position : Nat)
  | user (name : String)
  deriving DecidableEq, Repr

/-- The variants of `SchemaError` that occur here. -/
inductive Err
  | inputSlot (s : Slot)
  | outputSlot (s : Slot)
  | slotNotFound (node : String) (s : Slot)
  | attribute (a : Attr)
  | component (c : Comp)
  | notInFlowConstraint
  | notInStorageConstraint
  | placeholder
  | missingAttribute (attr node : String)
  | invalidAttributes (node : String)
  | nodeNotFound (name : String)
  | duplicateNames (ds : List (String × Nat × Nat))
  deriving DecidableEq, Repr

/-- The variants of `UnresolvedMetricF64` that occur here. -/
inductive UMetric
  | const (q : ℚ)
  | nodeInFlow (n : Name)
  | nodeOutFlow (n : Name)
  | nodeVolume (n : Name)
  | nodeMaxVolume (n : Name)
  | nodeProportionalVolume (n : Name)
  | multiNodeInFlow (ns : List Name)
  | multiNodeOutFlow (ns : List Name)
  | multiEdgeFlow (es : List EdgeDecl)
  | aggStorageVolume (n : Name)
  | aggStorageProportionalVolume (n : Name)
  | parameter (parent name : String)
  deriving DecidableEq, Repr

/-- `UnresolvedStorageInitialVolume`, `/repo/pywr-core/src/node.rs:1010-1039`. -/
inductive Initial
  | absolute (v : ℚ)
  | proportional (p : ℚ)
  | distributedAbsolute (v : ℚ) (prior : Metric)
  | distributedProportional (total : Metric) (p : ℚ) (prior : Metric)
  deriving DecidableEq, Repr

/-- A core `NodeBuilder`. -/
structure Decl where
  name : Name
  kind : NodeKind
  data : NodeData
  initial : Option Initial := none
  deriving DecidableEq, Repr

/-- A core `AggregatedNodeBuilder`. -/
structure AggDecl where
  name : Name
  nodes : List (List Name)
  minFlow : Option Metric
  maxFlow : Option Metric
  relationship : Option Relationship
  deriving DecidableEq, Repr

/-- A core `AggregatedStorageNodeBuilder`. -/
structure StoreDecl where
  name : Name
  nodes : List Name
  deriving DecidableEq, Repr

/-- A core `VirtualStorageNodeBuilder`: what concerns members and cost. -/
structure VsDecl where
  name : Name
  nodes : List Name
  factors : Option (List ℚ)
  cost : Option Metric
  deriving DecidableEq, Repr

/-- Shape of a reservoir, `reservoir.rs:23-42`. -/
inductive Shape
  | interpolated (points : List (ℚ × ℚ))
  | polynomial (coeffs : List ℚ)
  deriving DecidableEq, Repr

/-- The parameters that nodes create. -/
inductive PDef
  | delay (of : UMetric) (delay : Nat) (initial : ℚ)
  | muskingum (inflow outflow : UMetric) (travelTime weight : Metric)
  | hydropower (flow : UMetric) (target elevation : Option Metric)
  | volumeBetween (total : Metric) (upper lower : Option Metric)
  | sum (ms : List Metric)
  | product (ms : List Metric)
  | difference (a b : Metric) (min max : Option Metric)
  | area (storage : UMetric) (shape : Shape)
  deriving DecidableEq, Repr

/-- What is added to the core `NetworkBuilder`, each kind in the order of the calls. `locals` are the parameters that users
define on nodes (parent and name). -/
structure Frag where
  nodes : List Decl := []
  edges : List EdgeDecl := []
  aggs : List AggDecl := []
  stores : List StoreDecl := []
  vs : List VsDecl := []
  params : List (String × String × PDef) := []
  locals : List (String × String) := []
  deriving DecidableEq, Repr

/-- One after the other. -/
def Frag.add (a b : Frag) : Frag :=
  ⟨a.nodes ++ b.nodes, a.edges ++ b.edges, a.aggs ++ b.aggs, a.stores ++ b.stores, a.vs ++ b.vs, a.params ++ b.params,
    a.locals ++ b.locals⟩

/-- A core node without any constraint. -/
def noData : NodeData := ⟨none, none, none, none, none, none⟩

/-- Constraints of a core node with flow. -/
def flowData (cost minFlow maxFlow : Option Metric) : NodeData := ⟨minFlow, maxFlow, none, none, cost, none⟩

/-- Constraints of a core storage node. -/
def volumeData (cost minVolume maxVolume : Option Metric) : NodeData := ⟨none, none, minVolume, maxVolume, cost, none⟩

/-! ## The nodes -/

/-- `InputNode` and `OutputNode`, `core.rs:62-72, 702-712`. -/
structure FlowN where
  maxFlow : Option Metric
  minFlow : Option Metric
  cost : Option Metric
  deriving DecidableEq, Repr

/-- `SoftConstraint`, `core.rs:187-192`. -/
structure Soft where
  cost : Option Metric
  flow : Option Metric
  deriving DecidableEq, Repr

/-- `LinkNode`, `core.rs:283-300`. -/
structure LinkN where
  maxFlow : Option Metric
  minFlow : Option Metric
  cost : Option Metric
  softMin : Option Soft
  softMax : Option Soft
  deriving DecidableEq, Repr

/-- `StorageInitialVolume`, `core.rs:859-862`. -/
inductive Start
  | absolute (v : ℚ)
  | proportional (p : ℚ)
  deriving DecidableEq, Repr

/-- `StorageNode`, `core.rs:910-920`. -/
structure StorageN where
  maxVolume : Option Metric
  minVolume : Option Metric
  cost : Option Metric
  initial : Start
  deriving DecidableEq, Repr

/-- `CatchmentNode`, `core.rs:1094-1103`. -/
structure CatchmentN where
  cost : Option Metric
  flow : Option Metric
  deriving DecidableEq, Repr

/-- `RiverGaugeNode`, `river_gauge.rs:49-59`. -/
structure GaugeN where
  mrf : Option Metric
  mrfCost : Option Metric
  bypassCost : Option Metric
  deriving DecidableEq, Repr

/-- `LossFactor`, `loss_link.rs:34-37`. -/
inductive Loss
  | gross (factor : Metric)
  | net (factor : Metric)
  deriving DecidableEq, Repr

/-- `LossLinkNode`, `loss_link.rs:116-127`. -/
structure LossLinkN where
  loss : Option Loss
  minNetFlow : Option Metric
  maxNetFlow : Option Metric
  netCost : Option Metric
  deriving DecidableEq, Repr

/-- `RoutingMethod`, `river.rs:65-76`, without the initial condition of the Muskingum method. -/
inductive Routing
  | delay (delay : Nat) (initial : ℚ)
  | muskingum (travelTime weight : Metric)
  deriving DecidableEq, Repr

/-- `RiverNode`, `river.rs:111-122`. -/
structure RiverN where
  loss : Option Loss
  routing : Option Routing
  deriving DecidableEq, Repr

/-- `RiverSplit`, `river_split_with_gauge.rs:22-28`. -/
structure Split where
  factor : Metric
  slotName : Option String
  deriving DecidableEq, Repr

/-- `RiverSplitWithGaugeNode`, `river_split_with_gauge.rs:93-100`. -/
structure SplitN where
  mrf : Option Metric
  mrfCost : Option Metric
  splits : List Split
  deriving DecidableEq, Repr

/-- `WaterTreatmentWorksNode`, `water_treatment_works.rs:56-77`. -/
structure WorksN where
  loss : Option Loss
  softMinFlow : Option Metric
  softMinFlowCost : Option Metric
  cost : Option Metric
  maxFlow : Option Metric
  minFlow : Option Metric
  deriving DecidableEq, Repr

/-- `PiecewiseLinkNode`, `piecewise_link.rs:22-27, 59-67`: its steps. -/
structure PieceLinkN where
  steps : List FlowN
  deriving DecidableEq, Repr

/-- `PiecewiseStore`, `piecewise_storage.rs:23-27`. -/
structure Piece where
  curve : Metric
  cost : Option Metric
  deriving DecidableEq, Repr

/-- `PiecewiseStorageNode`, `piecewise_storage.rs:60-69`. -/
structure PieceStoreN where
  maxVolume : Metric
  minVolume : Option Metric
  cost : Option Metric
  steps : List Piece
  initial : Start
  deriving DecidableEq, Repr

/-- `DelayNode`, `delay.rs:54-63`. -/
structure DelayN where
  delay : Nat
  initial : ℚ
  deriving DecidableEq, Repr

/-- `TargetType`, `turbine.rs:32-41`. -/
inductive TargetType | maxFlow | minFlow | both
  deriving DecidableEq, Repr

/-- `TurbineNode`, `turbine.rs:70-103`, without the physical constants. -/
structure TurbineN where
  cost : Option Metric
  target : Option Metric
  targetType : Option TargetType
  waterElevation : Option Metric
  deriving DecidableEq, Repr

/-- `SpillNodeType`, `reservoir.rs:17-22`. -/
inductive Spill | output | link
  deriving DecidableEq, Repr

/-- `Bathymetry`, `reservoir.rs:38-43`. -/
structure Bathymetry where
  data : Shape
  proportional : Bool
  deriving DecidableEq, Repr

/-- `Rainfall`, `reservoir.rs:68-74`. -/
structure Rain where
  data : Metric
  useMaxArea : Option Bool
  deriving DecidableEq, Repr

/-- `Evaporation`, `reservoir.rs:47-55`. -/
structure Evap where
  data : Metric
  cost : Option Metric
  useMaxArea : Option Bool
  deriving DecidableEq, Repr

/-- `Leakage`, `reservoir.rs:59-64`. -/
structure Leak where
  loss : Metric
  cost : Option Metric
  deriving DecidableEq, Repr

/-- `ReservoirNode`, `reservoir.rs:219-248`. -/
structure ReservoirN where
  storage : StorageN
  compensation : Option Metric
  spill : Option Spill
  connect : Option Bool
  area : Option Bathymetry
  rainfall : Option Rain
  evaporation : Option Evap
  leakage : Option Leak
  deriving DecidableEq, Repr

/-- `AbstractionNode`, `abstraction.rs:78-95`. -/
structure AbstractionN where
  mrf : Option Metric
  mrfCost : Option Metric
  absCost : Option Metric
  absMaxFlow : Option Metric
  absMinFlow : Option Metric
  deriving DecidableEq, Repr

/-- `Node`, `nodes/mod.rs:246-264`. -/
inductive Body
  | input (n : FlowN)
  | link (n : LinkN)
  | output (n : FlowN)
  | storage (n : StorageN)
  | catchment (n : CatchmentN)
  | riverGauge (n : GaugeN)
  | lossLink (n : LossLinkN)
  | river (n : RiverN)
  | riverSplit (n : SplitN)
  | works (n : WorksN)
  | pieceLink (n : PieceLinkN)
  | pieceStore (n : PieceStoreN)
  | delay (n : DelayN)
  | turbine (n : TurbineN)
  | reservoir (n : ReservoirN)
  | placeholder
  | abstraction (n : AbstractionN)
  deriving DecidableEq, Repr

/-- A node: its name, its type, and the names of the parameters defined on it. -/
structure SNode where
  name : String
  body : Body
  params : List String := []
  deriving DecidableEq, Repr

/-- The numbers of parameters that nodes create. -/
abbrev ParamNo := String → String → Option String → Nat

/-- `i:02`. -/
def pad2 (i : Nat) : String := if i < 10 then "0" ++ toString i else toString i

/-! ## Creating core nodes -/

/-- `LossFactor::load`, `loss_link.rs:41-78`. -/
def Loss.load : Loss → Option Relationship
  | .gross f => if f = .const 0 then none else some (.factored (.proportion [f]))
  | .net f => if f = .const 0 then none else some (.factored (.ratio [.const 1, f]))

/-- `InputNode::add_to_network`, `core.rs:116-141`. -/
def FlowN.inputFrag (nm : String) (n : FlowN) : Frag := { nodes := [⟨(nm, none), .input, flowData n.cost n.minFlow n.maxFlow, none⟩] }

/-- `OutputNode::add_to_network`, `core.rs:791-817`. -/
def FlowN.outputFrag (nm : String) (n : FlowN) : Frag := { nodes := [⟨(nm, none), .output, flowData n.cost n.minFlow n.maxFlow, none⟩] }

/-- `LinkNode::add_to_network`, `core.rs:392-573`. With both soft constraints the flow of the upper one is set as maximum of
the aggregated node of all three (line 544), after the maximum of the node itself (531); the second aggregated node gets no
constraint. -/
def LinkN.frag (nm : String) (n : LinkN) : Frag :=
  match n.softMin, n.softMax with
  | some lo, none =>
    { nodes := [⟨(nm, none), .link, flowData n.cost none none, none⟩, ⟨(nm, some "soft_min"), .link, flowData lo.cost none lo.flow, none⟩]
      aggs := [⟨(nm, some "aggregate_node"), [[(nm, none), (nm, some "soft_min")]], n.minFlow, n.maxFlow, none⟩] }
  | none, some hi =>
    { nodes := [⟨(nm, none), .link, flowData hi.cost none none, none⟩, ⟨(nm, some "soft_max"), .link, flowData n.cost none hi.flow, none⟩]
      aggs := [⟨(nm, some "aggregate_node"), [[(nm, none), (nm, some "soft_max")]], n.minFlow, n.maxFlow, none⟩] }
  | some lo, some hi =>
    { nodes := [⟨(nm, none), .link, flowData n.cost none none, none⟩, ⟨(nm, some "soft_min"), .link, flowData lo.cost none lo.flow, none⟩,
        ⟨(nm, some "soft_max"), .link, flowData hi.cost none none, none⟩]
      aggs := [⟨(nm, some "aggregate_node"), [[(nm, none), (nm, some "soft_min"), (nm, some "soft_max")]], n.minFlow,
          hi.flow.or n.maxFlow, none⟩,
        ⟨(nm, some "aggregate_node_l_l_min"), [[(nm, none), (nm, some "soft_min")]], none, none, none⟩] }
  | none, none => { nodes := [⟨(nm, none), .link, flowData n.cost n.minFlow n.maxFlow, none⟩] }

/-- `From<StorageInitialVolume>`, `core.rs:871-878`. -/
def Start.toInitial : Start → Initial
  | .absolute v => .absolute v
  | .proportional p => .proportional p

/-- `StorageNode::add_to_network`, `core.rs:949-986`. -/
def StorageN.frag (nm : String) (n : StorageN) : Frag :=
  { nodes := [⟨(nm, none), .storage, volumeData n.cost n.minVolume n.maxVolume, some n.initial.toInitial⟩] }

/-- `CatchmentNode::add_to_model`, `core.rs:1147-1168`. -/
def CatchmentN.frag (nm : String) (n : CatchmentN) : Frag := { nodes := [⟨(nm, none), .input, flowData n.cost n.flow n.flow, none⟩] }

/-- `RiverGaugeNode::add_to_network`, `river_gauge.rs:114-142`. The cost of the bypass becomes the minimum flow of the `mrf`
node (line 136). -/
def GaugeN.frag (nm : String) (n : GaugeN) : Frag :=
  { nodes := [⟨(nm, some "mrf"), .link, flowData n.mrfCost n.bypassCost n.mrf, none⟩, ⟨(nm, some "bypass"), .link, noData, none⟩] }

/-- `LossLinkNode::add_to_network`, `loss_link.rs:210-257`. -/
def LossLinkN.frag (nm : String) (n : LossLinkN) : Frag :=
  let net : Decl := ⟨(nm, some "net"), .link, flowData n.netCost n.minNetFlow n.maxNetFlow, none⟩
  match n.loss with
  | none => { nodes := [net] }
  | some l =>
    { nodes := [⟨(nm, some "loss"), .output, flowData none none (if l.load = none then some (.const 0) else none), none⟩, net]
      aggs := [⟨(nm, some "agg"), [[(nm, some "net")], [(nm, some "loss")]], none, none, l.load⟩] }

/-- `RiverNode::add_loss_to_network`, `river.rs:303-336`: the loss node and the aggregated node. -/
def RiverN.lossFrag (nm : String) (l : Loss) : Decl × List AggDecl :=
  match l.load with
  | some r => (⟨(nm, some "loss"), .output, noData, none⟩,
      [⟨(nm, some "aggregated_loss_node"), [[(nm, some "net")], [(nm, some "loss")]], none, none, some r⟩])
  | none => (⟨(nm, some "loss"), .output, flowData none none (some (.const 0)), none⟩, [])

/-- `RiverNode::add_routing_to_network`, `river.rs:338-413`: the node of the outflow, the aggregated node and the parameter. -/
def RiverN.routingFrag (P : ParamNo) (nm : String) : Routing → Decl × List AggDecl × List (String × String × PDef)
  | .delay d v =>
    (⟨(nm, some "outflow"), .input, flowData none (some (.dyn (P nm "delay" none))) (some (.dyn (P nm "delay" none))), none⟩, [],
      [(nm, "delay", .delay (.nodeInFlow (nm, some "inflow")) d v)])
  | .muskingum t w =>
    (⟨(nm, some "outflow"), .input, noData, none⟩,
      [⟨(nm, some "aggregated_routing_node"), [[(nm, some "outflow")], [(nm, some "inflow")]], none, none,
        some (.factored (.coefficients [.const 1, .dyn (P nm "muskingum" (some "inflow_factor"))]
          (some (.dyn (P nm "muskingum" (some "rhs"))))))⟩],
      [(nm, "muskingum", .muskingum (.nodeInFlow (nm, some "inflow")) (.nodeOutFlow (nm, some "outflow")) t w)])

/-- `RiverNode::add_to_network`, `river.rs:246-300`. -/
def RiverN.frag (P : ParamNo) (nm : String) (n : RiverN) : Frag :=
  let net : Decl := ⟨(nm, some "net"), .link, noData, none⟩
  let inflow : Decl := ⟨(nm, some "inflow"), .output, noData, none⟩
  match n.loss, n.routing with
  | none, none => { nodes := [net] }
  | some l, none => { nodes := [net, (lossFrag nm l).1], aggs := (lossFrag nm l).2 }
  | none, some r =>
    { nodes := [inflow, (routingFrag P nm r).1], aggs := (routingFrag P nm r).2.1, params := (routingFrag P nm r).2.2 }
  | some l, some r =>
    { nodes := [net, (lossFrag nm l).1, inflow, (routingFrag P nm r).1]
      edges := [⟨(nm, some "outflow"), (nm, some "net")⟩, ⟨(nm, some "outflow"), (nm, some "loss")⟩]
      aggs := (lossFrag nm l).2 ++ (routingFrag P nm r).2.1, params := (routingFrag P nm r).2.2 }

/-- `split_sub_name`, `river_split_with_gauge.rs:135-137`. -/
def splitName (nm : String) (i : Nat) : Name := (nm, some ("split-" ++ toString i))

/-- The loop over the splits, `river_split_with_gauge.rs:236-256`. -/
def splitLoop (nm : String) : List Split → Nat → Frag
  | [], _ => {}
  | s :: ss, i =>
    Frag.add
      { nodes := [⟨splitName nm i, .link, noData, none⟩]
        aggs := [⟨(nm, some ("split-agg-" ++ toString i)), [[(nm, some "bypass")], [splitName nm i]], none, none,
          some (.factored (.proportion [s.factor]))⟩] }
      (splitLoop nm ss (i + 1))

/-- `RiverSplitWithGaugeNode::add_to_network`, `river_split_with_gauge.rs:217-259`. -/
def SplitN.frag (nm : String) (n : SplitN) : Frag :=
  Frag.add (splitLoop nm n.splits 0)
    { nodes := [⟨(nm, some "mrf"), .link, flowData n.mrfCost none n.mrf, none⟩, ⟨(nm, some "bypass"), .link, noData, none⟩] }

/-- `WaterTreatmentWorksNode::add_to_network`, `water_treatment_works.rs:163-230`. -/
def WorksN.frag (nm : String) (n : WorksN) : Frag :=
  let nodes : List Decl := [⟨(nm, some "net"), .link, flowData n.cost n.minFlow n.maxFlow, none⟩,
    ⟨(nm, some "net_soft_min_flow"), .link, flowData n.softMinFlowCost none n.softMinFlow, none⟩,
    ⟨(nm, some "net_above_soft_min_flow"), .link, noData, none⟩]
  let edges : List EdgeDecl :=
    [⟨(nm, some "net"), (nm, some "net_soft_min_flow")⟩, ⟨(nm, some "net"), (nm, some "net_above_soft_min_flow")⟩]
  match n.loss with
  | none => { nodes := nodes, edges := edges }
  | some l =>
    match l.load with
    | some r =>
      { nodes := ⟨(nm, some "loss"), .output, noData, none⟩ :: nodes, edges := edges
        aggs := [⟨(nm, some "agg"), [[(nm, some "net")], [(nm, some "loss")]], none, none, some r⟩] }
    | none => { nodes := ⟨(nm, some "loss"), .output, flowData none none (some (.const 0)), none⟩ :: nodes, edges := edges }

/-- `step_sub_name`, `piecewise_link.rs:80-82`. -/
def stepName (nm : String) (i : Nat) : Name := (nm, some ("step-" ++ pad2 i))

/-- The names of the steps, `piecewise_link.rs:89-94` and elsewhere. -/
def PieceLinkN.names (nm : String) (n : PieceLinkN) : List Name := (List.range n.steps.length).map (stepName nm)

/-- The loop over the steps, `piecewise_link.rs:136-155`. -/
def stepLoop (nm : String) : List FlowN → Nat → List Decl
  | [], _ => []
  | s :: ss, i => ⟨stepName nm i, .link, flowData s.cost s.minFlow s.maxFlow, none⟩ :: stepLoop nm ss (i + 1)

/-- `PiecewiseLinkNode::add_to_network`, `piecewise_link.rs:130-157`. -/
def PieceLinkN.frag (nm : String) (n : PieceLinkN) : Frag := { nodes := stepLoop nm n.steps 0 }

/-- `step_sub_name`, `piecewise_storage.rs:81-83`. -/
def storeName (nm : String) (i : Nat) : Name := (nm, some ("store-" ++ pad2 i))

/-- The number of the parameter for the largest volume of a store. -/
def pieceMax (P : ParamNo) (nm : String) (i : Nat) : Metric := .dyn (P nm ("store-" ++ pad2 i ++ "-max-volume") none)

/-- The number of the parameter for the volume of the stores below. -/
def piecePrior (P : ParamNo) (nm : String) (i : Nat) : Metric := .dyn (P nm ("store-" ++ pad2 i ++ "-prior-max-volume") none)

/-- The number of the parameter for the least volume of a store. -/
def pieceMin (P : ParamNo) (nm : String) (i : Nat) : Metric := .dyn (P nm ("store-" ++ pad2 i ++ "-min-volume") none)

/-- `set_sub_node_initial_volume`, `piecewise_storage.rs:353-376`. -/
def pieceInitial (n : PieceStoreN) (prior : Metric) : Initial :=
  match n.initial with
  | .proportional p => .distributedProportional n.maxVolume p prior
  | .absolute v => .distributedAbsolute v prior

/-- One store: `piecewise_storage.rs:131-208` and, for the last one, 211-277, with the functions of 297-376. `prior` lists the
largest volumes of the stores below. -/
def pieceFrag (P : ParamNo) (nm : String) (n : PieceStoreN) (i : Nat) (upper lower : Option Metric) (cost : Option Metric)
    (prior : List Metric) : Frag :=
  { nodes := [⟨storeName nm i, .storage, volumeData cost (n.minVolume.map fun _ => pieceMin P nm i) (some (pieceMax P nm i)),
      some (pieceInitial n (piecePrior P nm i))⟩]
    edges := if i = 0 then [] else [⟨storeName nm i, storeName nm (i - 1)⟩, ⟨storeName nm (i - 1), storeName nm i⟩]
    params := [(nm, "store-" ++ pad2 i ++ "-max-volume", .volumeBetween n.maxVolume upper lower),
        (nm, "store-" ++ pad2 i ++ "-prior-max-volume", .sum prior)] ++
      match n.minVolume with
      | some m => [(nm, "store-" ++ pad2 i ++ "-min-volume", .difference m (piecePrior P nm i) (some (.const 0)) (some (pieceMax P nm i)))]
      | none => [] }

/-- The loop over the steps and the store above the last step, `piecewise_storage.rs:131-277`. -/
def pieceLoop (P : ParamNo) (nm : String) (n : PieceStoreN) : List Piece → Nat → Option Metric → List Metric → Frag
  | [], i, lower, prior => pieceFrag P nm n i none lower n.cost prior
  | s :: ss, i, lower, prior =>
    (pieceFrag P nm n i (some s.curve) lower s.cost prior).add
      (pieceLoop P nm n ss (i + 1) (some s.curve) (prior ++ [pieceMax P nm i]))

/-- `PiecewiseStorageNode::add_to_network`, `piecewise_storage.rs:113-289`. -/
def PieceStoreN.frag (P : ParamNo) (nm : String) (n : PieceStoreN) : Frag :=
  (pieceLoop P nm n n.steps 0 none []).add
    { stores := [⟨(nm, some "agg-store"), (List.range (n.steps.length + 1)).map (storeName nm)⟩] }

/-- `DelayNode::add_to_model`, `delay.rs:118-148`. -/
def DelayN.frag (P : ParamNo) (nm : String) (n : DelayN) : Frag :=
  { nodes := [⟨(nm, some "inflow"), .output, noData, none⟩,
      ⟨(nm, some "outflow"), .input, flowData none (some (.dyn (P nm "delay" none))) (some (.dyn (P nm "delay" none))), none⟩]
    params := [(nm, "delay", .delay (.nodeInFlow (nm, some "inflow")) n.delay n.initial)] }

/-- `TurbineNode::add_to_network`, `turbine.rs:172-237`. -/
def TurbineN.frag (P : ParamNo) (nm : String) (n : TurbineN) : Frag :=
  let power := some (Metric.dyn (P nm "power" none))
  let data : NodeData :=
    match n.target, n.targetType.getD .maxFlow with
    | none, _ => flowData n.cost none none
    | some _, .maxFlow => flowData n.cost none power
    | some _, .minFlow => flowData n.cost power none
    | some _, .both => flowData n.cost power power
  { nodes := [⟨(nm, none), .link, data, none⟩]
    params := [(nm, "power", .hydropower (.nodeInFlow (nm, none)) n.target n.waterElevation)] }

/-- `get_area_metric`, `reservoir.rs:531-588`: the storage the area is read from. -/
def areaStorage (nm : String) (b : Bathymetry) (useMax : Bool) : UMetric :=
  match b.proportional, useMax with
  | false, false => .nodeVolume (nm, none)
  | true, false => .nodeProportionalVolume (nm, none)
  | false, true => .nodeMaxVolume (nm, none)
  | true, true => .const 1

/-- Compensation and spill, `reservoir.rs:368-415`. -/
def ReservoirN.releaseFrag (nm : String) (n : ReservoirN) : Frag :=
  let comp : Frag := match n.compensation with
    | some c =>
      { nodes := [⟨(nm, some "compensation"), .link, flowData none (some c) none, none⟩]
        edges := [⟨(nm, none), (nm, some "compensation")⟩] }
    | none => {}
  let spill : Frag := match n.spill with
    | some k =>
      { nodes := [⟨(nm, some "spill"), match k with | .output => .output | .link => .link, noData, none⟩]
        edges := [⟨(nm, none), (nm, some "spill")⟩] }
    | none => {}
  let join : Frag :=
    if n.connect.getD true && n.spill.isSome && n.compensation.isSome then
      { edges := [⟨(nm, some "compensation"), (nm, some "spill")⟩] }
    else {}
  (comp.add spill).add join

/-- Rainfall, `reservoir.rs:432-462`. -/
def ReservoirN.rainFrag (P : ParamNo) (nm : String) (b : Bathymetry) (r : Rain) : Frag :=
  { nodes := [⟨(nm, some "rainfall"), .input,
      flowData none (some (.dyn (P nm "rainfall" none))) (some (.dyn (P nm "rainfall" none))), none⟩]
    edges := [⟨(nm, some "rainfall"), (nm, none)⟩]
    params := [(nm, "rainfall_area", .area (areaStorage nm b (r.useMaxArea.getD false)) b.data),
      (nm, "rainfall", .product [r.data, .dyn (P nm "rainfall_area" none)])] }

/-- Evaporation, `reservoir.rs:464-500`. The node is created as an input node (line 466) and connected from the storage. -/
def ReservoirN.evapFrag (P : ParamNo) (nm : String) (b : Bathymetry) (e : Evap) : Frag :=
  { nodes := [⟨(nm, some "evaporation"), .input, flowData e.cost none (some (.dyn (P nm "evaporation" none))), none⟩]
    edges := [⟨(nm, none), (nm, some "evaporation")⟩]
    params := [(nm, "evaporation_area", .area (areaStorage nm b (e.useMaxArea.getD false)) b.data),
      (nm, "evaporation", .product [e.data, .dyn (P nm "evaporation_area" none)])] }

/-- Leakage, `reservoir.rs:503-516`. -/
def ReservoirN.leakFrag (nm : String) (l : Leak) : Frag :=
  { nodes := [⟨(nm, some "leakage"), .output, flowData l.cost none (some l.loss), none⟩]
    edges := [⟨(nm, none), (nm, some "leakage")⟩] }

/-- `ReservoirNode::add_to_network`, `reservoir.rs:360-519`. -/
def ReservoirN.frag (P : ParamNo) (nm : String) (n : ReservoirN) : Except Err Frag :=
  if n.rainfall.isSome && n.area.isNone then .error (.missingAttribute "surface_area" nm)
  else if n.evaporation.isSome && n.area.isNone then .error (.missingAttribute "surface_area" nm)
  else
    let weather : Frag := match n.area with
      | none => {}
      | some b =>
        Frag.add
          (match n.rainfall with | some r => rainFrag P nm b r | none => {})
          (match n.evaporation with | some e => evapFrag P nm b e | none => {})
    let leak : Frag := match n.leakage with | some l => leakFrag nm l | none => {}
    .ok ((((n.storage.frag nm).add (n.releaseFrag nm)).add weather).add leak)

/-- `AbstractionNode::add_to_network`, `abstraction.rs:199-247`. -/
def AbstractionN.frag (nm : String) (n : AbstractionN) : Except Err Frag :=
  let rest : List Decl := [⟨(nm, some "bypass"), .link, noData, none⟩,
    ⟨(nm, some "abstraction"), .link, flowData n.absCost n.absMinFlow n.absMaxFlow, none⟩]
  match n.mrf with
  | some m => .ok { nodes := ⟨(nm, some "mrf"), .link, flowData n.mrfCost none (some m), none⟩ :: rest }
  | none => if n.mrfCost.isSome then .error (.invalidAttributes nm) else .ok { nodes := rest }

/-- `Node::add_to_network`, `nodes/mod.rs:504-528`; `placeholder.rs:37-39`. -/
def SNode.frag (P : ParamNo) (n : SNode) : Except Err Frag :=
  match n.body with
  | .input b => .ok (b.inputFrag n.name)
  | .link b => .ok (b.frag n.name)
  | .output b => .ok (b.outputFrag n.name)
  | .storage b => .ok (b.frag n.name)
  | .catchment b => .ok (b.frag n.name)
  | .riverGauge b => .ok (b.frag n.name)
  | .lossLink b => .ok (b.frag n.name)
  | .river b => .ok (b.frag P n.name)
  | .riverSplit b => .ok (b.frag n.name)
  | .works b => .ok (b.frag n.name)
  | .pieceLink b => .ok (b.frag n.name)
  | .pieceStore b => .ok (b.frag P n.name)
  | .delay b => .ok (b.frag P n.name)
  | .turbine b => .ok (b.frag P n.name)
  | .reservoir b => b.frag P n.name
  | .placeholder => .error .placeholder
  | .abstraction b => b.frag n.name

/-! ## Connectors -/

/-- The nodes of a link, `core.rs:322-352`. -/
def LinkN.names (nm : String) (n : LinkN) : List Name :=
  (nm, none) :: ((if n.softMin.isSome then [(nm, some "soft_min")] else []) ++ if n.softMax.isSome then [(nm, some "soft_max")] else [])

/-- `default_connectors`, `river_split_with_gauge.rs:144-150`. -/
def SplitN.names (nm : String) (n : SplitN) : List Name :=
  [(nm, some "mrf"), (nm, some "bypass")] ++ (List.range n.splits.length).map (splitName nm)

/-- Net and, if there is a loss, loss: `loss_link.rs:149-163`, `water_treatment_works.rs:109-121`. -/
def grossNames (nm : String) (loss : Option Loss) : List Name :=
  (nm, some "net") :: if loss.isSome then [(nm, some "loss")] else []

/-- `input_connectors` without a slot, one function per node type (see `nodes/mod.rs:452-474`). -/
def SNode.inputs (n : SNode) : Except Err (List Name) :=
  match n.body with
  | .input _ | .output _ | .storage _ | .catchment _ | .turbine _ | .reservoir _ => .ok [(n.name, none)]
  | .link b => .ok (b.names n.name)
  | .riverGauge _ => .ok [(n.name, some "mrf"), (n.name, some "bypass")]
  | .lossLink b => .ok (grossNames n.name b.loss)
  | .works b => .ok (grossNames n.name b.loss)
  | .river b =>
    .ok (match b.loss.isSome, b.routing.isSome with
      | false, false => [(n.name, some "net")]
      | true, false => [(n.name, some "net"), (n.name, some "loss")]
      | _, _ => [(n.name, some "inflow")])
  | .riverSplit b => .ok (b.names n.name)
  | .pieceLink b => .ok (b.names n.name)
  | .pieceStore b => .ok ((List.range b.steps.length).map (storeName n.name))
  | .delay _ => .ok [(n.name, some "inflow")]
  | .placeholder => .ok [(n.name, none)]
  | .abstraction b =>
    .ok ([(n.name, some "bypass"), (n.name, some "abstraction")] ++ if b.mrf.isSome then [(n.name, some "mrf")] else [])

/-- `Node::input_connectors`, `nodes/mod.rs:452-474`: no type but the placeholder (`placeholder.rs:30-36`)
accepts a slot. -/
def SNode.inputConnectors (n : SNode) (slot : Option Slot) : Except Err (List Name) :=
  match slot, n.body with
  | _, .placeholder => n.inputs
  | some s, _ => .error (.inputSlot s)
  | none, _ => n.inputs

/-- `output_connectors` without a slot, for the types without slots. -/
def SNode.outputs (n : SNode) : Except Err (List Name) :=
  match n.body with
  | .input _ | .output _ | .storage _ | .catchment _ | .turbine _ => .ok [(n.name, none)]
  | .link b => .ok (b.names n.name)
  | .riverGauge _ => .ok [(n.name, some "mrf"), (n.name, some "bypass")]
  | .lossLink _ => .ok [(n.name, some "net")]
  | .works _ => .ok [(n.name, some "net_soft_min_flow"), (n.name, some "net_above_soft_min_flow")]
  | .river b =>
    .ok (match b.loss.isSome, b.routing.isSome with
      | false, true => [(n.name, some "outflow")]
      | _, _ => [(n.name, some "net")])
  | .pieceLink b => .ok (b.names n.name)
  | .pieceStore b => .ok ((List.range b.steps.length).map (storeName n.name))
  | .delay _ => .ok [(n.name, some "outflow")]
  | _ => .ok [(n.name, none)]

/-- `Node::output_connectors`, `nodes/mod.rs:483-503`; `river_split_with_gauge.rs:160-196`, `abstraction.rs:142-159`,
`reservoir.rs:293-318`. -/
def SNode.outputConnectors (n : SNode) (slot : Option Slot) : Except Err (List Name) :=
  match n.body with
  | .placeholder => .ok [(n.name, none)]
  | .riverSplit b =>
    match slot with
    | none | some .river => .ok (b.names n.name)
    | some (.split i) => if i < b.splits.length then .ok [splitName n.name i] else .error (.slotNotFound n.name (.split i))
    | some (.user s) =>
      match b.splits.findIdx? (fun x => x.slotName = some s) with
      | some i => .ok [splitName n.name i]
      | none => .error (.slotNotFound n.name (.user s))
    | some s => .error (.outputSlot s)
  | .abstraction b =>
    match slot with
    | none | some .river =>
      .ok (if b.mrf.isSome then [(n.name, some "mrf"), (n.name, some "bypass")] else [(n.name, some "bypass")])
    | some .abstraction => .ok [(n.name, some "abstraction")]
    | some s => .error (.outputSlot s)
  | .reservoir b =>
    match slot with
    | none | some .storage => .ok [(n.name, none)]
    | some .compensation => .ok [(n.name, some "compensation")]
    | some .spill => if b.spill = some .link then .ok [(n.name, some "spill")] else .error (.outputSlot .spill)
    | some s => .error (.outputSlot s)
  | _ =>
    match slot with
    | some s => .error (.outputSlot s)
    | none => n.outputs

/-! ## Constraints and attributes -/

/-- `Node::nodes_for_flow_constraints`, `nodes/mod.rs:541-566`, with the functions of the node types. -/
def SNode.flowNodes (n : SNode) (c : Option Comp) : Except Err (List Name) :=
  match n.body with
  | .input _ | .catchment _ =>
    match c.getD .outflow with
    | .outflow => .ok [(n.name, none)]
    | c => .error (.component c)
  | .output _ =>
    match c.getD .inflow with
    | .inflow => .ok [(n.name, none)]
    | c => .error (.component c)
  | .turbine _ =>
    match c.getD .outflow with
    | .inflow | .outflow => .ok [(n.name, none)]
    | c => .error (.component c)
  | .link b =>
    match c.getD .outflow with
    | .inflow | .outflow => .ok (b.names n.name)
    | c => .error (.component c)
  | .storage _ | .pieceStore _ => .error .notInFlowConstraint
  | .riverGauge _ =>
    match c.getD .outflow with
    | .inflow | .outflow => .ok [(n.name, some "mrf"), (n.name, some "bypass")]
    | c => .error (.component c)
  | .lossLink b =>
    match c.getD .outflow with
    | .inflow => .ok (grossNames n.name b.loss)
    | .outflow => .ok [(n.name, some "net")]
    | .loss => .ok (if b.loss.isSome then [(n.name, some "loss")] else [])
    | c => .error (.component c)
  | .works b =>
    match c.getD .outflow with
    | .inflow => .ok (grossNames n.name b.loss)
    | .outflow => .ok [(n.name, some "net")]
    | .loss => .ok [(n.name, some "loss")]
    | c => .error (.component c)
  | .river b =>
    match c.getD .outflow with
    | .inflow =>
      .ok (match b.loss.isSome, b.routing.isSome with
        | false, false => [(n.name, some "net")]
        | true, false => [(n.name, some "net"), (n.name, some "loss")]
        | _, true => [(n.name, some "inflow")])
    | .outflow => .ok (if b.routing.isSome then [(n.name, some "outflow")] else [(n.name, some "net")])
    | .loss => .ok (if b.loss.isSome then [(n.name, some "loss")] else [])
    | c => .error (.component c)
  | .riverSplit b =>
    match c.getD .outflow with
    | .inflow | .outflow => .ok (b.names n.name)
    | c => .error (.component c)
  | .pieceLink b =>
    match c.getD .outflow with
    | .inflow | .outflow => .ok (b.names n.name)
    | c => .error (.component c)
  | .delay _ =>
    match c.getD .outflow with
    | .inflow => .ok [(n.name, some "inflow")]
    | .outflow => .ok [(n.name, some "outflow")]
    | c => .error (.component c)
  | .reservoir _ =>
    match c.getD .compensation with
    | .loss => .ok [(n.name, some "leakage")]
    | .compensation => .ok [(n.name, some "compensation")]
    | .rainfall => .ok [(n.name, some "rainfall")]
    | .evaporation => .ok [(n.name, some "evaporation")]
    | c => .error (.component c)
  | .placeholder => .error .placeholder
  | .abstraction b =>
    let mrf := if b.mrf.isSome then [(n.name, some "mrf")] else []
    match c.getD .abstraction with
    | .inflow => .ok (mrf ++ [(n.name, some "bypass"), (n.name, some "abstraction")])
    | .outflow => .ok (mrf ++ [(n.name, some "bypass")])
    | .abstraction => .ok [(n.name, some "abstraction")]
    | c => .error (.component c)

/-- `Node::nodes_for_storage_constraints`, `nodes/mod.rs:574-594`. -/
def SNode.storageNodes (n : SNode) : Except Err (List Name) :=
  match n.body with
  | .storage _ | .reservoir _ => .ok [(n.name, none)]
  | .pieceStore b => .ok ((List.range (b.steps.length + 1)).map (storeName n.name))
  | .placeholder => .error .placeholder
  | _ => .error .notInStorageConstraint

/-- `StorageNode::create_metric`, `core.rs:988-1006`. -/
def storageMetric (nm : String) : Attr → Except Err UMetric
  | .volume => .ok (.nodeVolume (nm, none))
  | .maxVolume => .ok (.nodeMaxVolume (nm, none))
  | .proportionalVolume => .ok (.nodeProportionalVolume (nm, none))
  | a => .error (.attribute a)

/-- `Node::create_metric`, `nodes/mod.rs:597-622`, with the functions of the node types. -/
def SNode.metric (n : SNode) (a : Option Attr) : Except Err UMetric :=
  match n.body with
  | .input _ | .catchment _ =>
    match a.getD .outflow with
    | .outflow => .ok (.nodeOutFlow (n.name, none))
    | a => .error (.attribute a)
  | .output _ =>
    match a.getD .inflow with
    | .inflow => .ok (.nodeInFlow (n.name, none))
    | .deficit => .ok (.parameter n.name "deficit")
    | a => .error (.attribute a)
  | .turbine _ =>
    match a.getD .outflow with
    | .outflow => .ok (.nodeOutFlow (n.name, none))
    | .inflow => .ok (.nodeInFlow (n.name, none))
    | .power => .ok (.parameter n.name "power")
    | a => .error (.attribute a)
  | .link b =>
    match a.getD .outflow with
    | .outflow => .ok (.multiNodeInFlow (b.names n.name))
    | .inflow => .ok (.multiNodeOutFlow (b.names n.name))
    | a => .error (.attribute a)
  | .storage _ => storageMetric n.name (a.getD .volume)
  | .pieceStore _ =>
    match a.getD .volume with
    | .volume => .ok (.aggStorageVolume (n.name, some "agg-store"))
    | .proportionalVolume => .ok (.aggStorageProportionalVolume (n.name, some "agg-store"))
    | a => .error (.attribute a)
  | .riverGauge _ =>
    match a.getD .outflow with
    | .inflow => .ok (.multiNodeInFlow [(n.name, some "mrf"), (n.name, some "bypass")])
    | .outflow => .ok (.multiNodeOutFlow [(n.name, some "mrf"), (n.name, some "bypass")])
    | a => .error (.attribute a)
  | .lossLink b =>
    match a.getD .outflow with
    | .inflow =>
      .ok (if b.loss.isSome then .multiNodeInFlow [(n.name, some "net"), (n.name, some "loss")] else .nodeInFlow (n.name, some "net"))
    | .outflow => .ok (.nodeOutFlow (n.name, some "net"))
    | .loss => .ok (if b.loss.isSome then .nodeInFlow (n.name, some "loss") else .const 0)
    | a => .error (.attribute a)
  | .works b =>
    match a.getD .outflow with
    | .inflow =>
      .ok (if b.loss.isSome then .multiNodeInFlow [(n.name, some "net"), (n.name, some "loss")] else .nodeInFlow (n.name, some "net"))
    | .outflow => .ok (.nodeOutFlow (n.name, some "net"))
    | .loss => .ok (if b.loss.isSome then .nodeInFlow (n.name, some "loss") else .const 0)
    | a => .error (.attribute a)
  | .river b =>
    match a.getD .outflow with
    | .inflow => (n.flowNodes (some .inflow)).map .multiNodeInFlow
    | .outflow => (n.flowNodes (some .outflow)).map .multiNodeOutFlow
    | .loss => .ok (if b.loss.isSome then .nodeInFlow (n.name, some "loss") else .const 0)
    | a => .error (.attribute a)
  | .riverSplit b =>
    match a.getD .outflow with
    | .inflow => .ok (.multiNodeInFlow (b.names n.name))
    | .outflow => .ok (.multiNodeOutFlow (b.names n.name))
    | a => .error (.attribute a)
  | .pieceLink b =>
    match a.getD .outflow with
    | .inflow => .ok (.multiNodeInFlow (b.names n.name))
    | .outflow => .ok (.multiNodeOutFlow (b.names n.name))
    | a => .error (.attribute a)
  | .delay _ =>
    match a.getD .outflow with
    | .outflow => .ok (.nodeOutFlow (n.name, some "outflow"))
    | .inflow => .ok (.nodeInFlow (n.name, some "inflow"))
    | a => .error (.attribute a)
  | .reservoir b =>
    match a.getD .volume with
    | .compensation => .ok (if b.compensation.isSome then .nodeInFlow (n.name, some "compensation") else .const 0)
    | .rainfall => .ok (if b.rainfall.isSome && b.area.isSome then .nodeInFlow (n.name, some "rainfall") else .const 0)
    | .evaporation => .ok (if b.rainfall.isSome && b.area.isSome then .nodeInFlow (n.name, some "evaporation") else .const 0)
    | a => storageMetric n.name a
  | .placeholder => .error .placeholder
  | .abstraction _ =>
    match a.getD .abstraction with
    | .inflow => (n.flowNodes (some .inflow)).map .multiNodeInFlow
    | .outflow => (n.flowNodes (some .outflow)).map .multiNodeInFlow
    | .abstraction => .ok (.nodeOutFlow (n.name, some "abstraction"))
    | a => .error (.attribute a)

end Verif.Schema
