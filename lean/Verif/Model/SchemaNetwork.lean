import Verif.Model.SchemaNodes

/-!
# From the schema of a network to the network

Transcribed from `/repo/pywr-schema/src/network.rs` (`validate`, `add_to_network`), `edge.rs` and `nodes/virtual_nodes/*.rs`,
and from the parts of the core `NetworkBuilder::build` that resolve names (`/repo/pywr-core/src/network.rs:1878-2200`,
`aggregated_node.rs:648-700`, `virtual_storage.rs:240-280`).

Left out: tables, time series, global parameters, metric sets and outputs, and of a virtual storage all but its members, factors
and cost. Checks of the core builder that are independent are made in the order of the model of `Topology`.
-/

namespace Verif.Schema

open Verif.Topology (Name EdgeDecl)
open Verif.Solver (Metric NodeData Factors Relationship)

/-- `NodeComponentReference`: a node and, if given, one of its components. -/
structure Ref where
  name : String
  component : Option Comp := none
  deriving DecidableEq, Repr

/-- `Relationship`, `aggregated.rs:42-57`. -/
inductive SRelationship
  | proportion (factors : List Metric)
  | ratio (factors : List Metric)
  | coefficients (factors : List Metric) (rhs : Option Metric)
  | exclusive (minActive maxActive : Option Nat)
  deriving DecidableEq, Repr

/-- `VirtualNode`, `virtual_nodes/mod.rs`. -/
inductive VBody
  | aggregated (nodes : List Ref) (maxFlow minFlow : Option Metric) (relationship : Option SRelationship)
  | aggregatedStorage (nodes : List String)
  | virtualStorage (nodes : List Ref) (factors : Option (List ℚ)) (cost : Option Metric)
  | placeholder
  deriving DecidableEq, Repr

/-- A virtual node: its name, its type, and the names of the parameters defined on it. -/
structure VNode where
  name : String
  body : VBody
  params : List String := []
  deriving DecidableEq, Repr

/-- `Edge`, `edge.rs`. -/
structure SEdge where
  src : String
  dst : String
  srcSlot : Option Slot := none
  dstSlot : Option Slot := none
  deriving DecidableEq, Repr

/-- `NetworkSchema`, without what is left out. -/
structure Net where
  nodes : List SNode
  virtualNodes : List VNode
  edges : List SEdge
  deriving DecidableEq, Repr

/-- `HashMap::entry(k).or_default()` followed by an update. -/
def bump (f : Nat × Nat → Nat × Nat) (k : String) : List (String × Nat × Nat) → List (String × Nat × Nat)
  | [] => [(k, f (0, 0))]
  | (k', c) :: rest => if k' = k then (k', f c) :: rest else (k', c) :: bump f k rest

/-- Insertion by name, for `sort_by`. -/
def insertByName (x : String × Nat × Nat) : List (String × Nat × Nat) → List (String × Nat × Nat)
  | [] => [x]
  | y :: ys => if x.1 ≤ y.1 then x :: y :: ys else y :: insertByName x ys

/-- `sort_by(|a, b| a.name.cmp(&b.name))`. -/
def sortByName : List (String × Nat × Nat) → List (String × Nat × Nat)
  | [] => []
  | x :: xs => insertByName x (sortByName xs)

/-- `NetworkSchema::validate`, `network.rs:517-546`. -/
def Net.validate (N : Net) : Except Err Unit :=
  let counts := N.nodes.foldl (fun m n => bump (fun c => (c.1 + 1, c.2)) n.name m) []
  let counts := N.virtualNodes.foldl (fun m n => bump (fun c => (c.1, c.2 + 1)) n.name m) counts
  let duplicates := counts.filter (fun x => x.2.1 + x.2.2 > 1)
  if duplicates.isEmpty then .ok () else .error (.duplicateNames (sortByName duplicates))

/-- `get_node_by_name`, `network.rs:462-464`. -/
def Net.node? (N : Net) (name : String) : Except Err SNode :=
  match N.nodes.find? (fun n => n.name = name) with
  | some n => .ok n
  | none => .error (.nodeNotFound name)

/-- `iter_node_connection_pairs`, `edge.rs:84-115`. -/
def Net.pairs (N : Net) (e : SEdge) : Except Err (List EdgeDecl) := do
  let src ← N.node? e.src
  let dst ← N.node? e.dst
  let froms ← src.outputConnectors e.srcSlot
  let tos ← dst.inputConnectors e.dstSlot
  return froms.flatMap (fun f => tos.map (fun t => ⟨f, t⟩))

/-- `Edge::create_metric`, `edge.rs:131-144`. -/
def Net.edgeMetric (N : Net) (e : SEdge) : Except Err UMetric := (N.pairs e).map .multiEdgeFlow

/-- The core nodes of a reference in a flow constraint, `aggregated.rs:136-146`, `virtual_storage.rs:228-236`. -/
def Net.refNodes (N : Net) (r : Ref) : Except Err (List Name) := do
  let n ← N.node? r.name
  n.flowNodes r.component

/-- The core nodes of a reference in an aggregated storage, `aggregated.rs:333-344`. -/
def Net.storageRefNodes (N : Net) (r : String) : Except Err (List Name) := do
  let n ← N.node? r
  n.storageNodes

/-- A loop with `?`. -/
def each {α β : Type} (f : α → Except Err β) : List α → Except Err (List β)
  | [] => .ok []
  | a :: as => do
    let b ← f a
    let bs ← each f as
    return b :: bs

/-- `aggregated.rs:158-205`, with the defaults of `ExclusivityBuilder` (`aggregated_node.rs:172-179`). -/
def SRelationship.load : SRelationship → Relationship
  | .proportion fs => .factored (.proportion fs)
  | .ratio fs => .factored (.ratio fs)
  | .coefficients fs rhs => .factored (.coefficients fs rhs)
  | .exclusive lo hi => .exclusive (lo.getD 0) (hi.getD 1)

/-- `VirtualNode::add_to_network`: `aggregated.rs:129-208, 326-356`, `virtual_storage.rs:241-296`. -/
def Net.virtualFrag (N : Net) (v : VNode) : Except Err Frag :=
  match v.body with
  | .aggregated refs hi lo rel => do
    let sets ← each N.refNodes refs
    return { aggs := [⟨(v.name, none), sets, lo, hi, rel.map SRelationship.load⟩] }
  | .aggregatedStorage refs => do
    let sets ← each N.storageRefNodes refs
    return { stores := [⟨(v.name, none), sets.flatten⟩] }
  | .virtualStorage refs factors cost => do
    let sets ← each N.refNodes refs
    return { vs := [⟨(v.name, none), sets.flatten, factors, cost⟩] }
  | .placeholder => .error .placeholder

/-- One after the other. -/
def Frag.join (fs : List Frag) : Frag := fs.foldr Frag.add {}

/-- `NetworkSchema::add_to_network`, `network.rs:549-640`: nodes, virtual nodes, edges, and the parameters defined on nodes
(604-616). -/
def Net.compile (P : ParamNo) (N : Net) : Except Err Frag := do
  N.validate
  let nodes ← each (SNode.frag P) N.nodes
  let virtuals ← each N.virtualFrag N.virtualNodes
  let edges ← each N.pairs N.edges
  let locals := N.nodes.flatMap (fun n => n.params.map (fun p => (n.name, p)))
  return (((Frag.join nodes).add (Frag.join virtuals)).add { edges := edges.flatten }).add { locals := locals }

/-! ## Resolving names -/

/-- The names, types, edges and virtual storages, as the core builder sees them. -/
def Frag.builder (F : Frag) : Topology.Builder :=
  ⟨F.nodes.map (fun d => ⟨d.name, d.kind⟩), F.edges, F.vs.map (fun v => ⟨v.name, v.nodes⟩)⟩

/-- Errors of resolving names. -/
inductive BuildErr
  | topology (e : Topology.Err)
  | duplicateAggregated (n : Name)
  | memberNotFound (n : Name)
  deriving DecidableEq, Repr

/-- `get_node_index` by name. -/
def Frag.index? (F : Frag) (n : Name) : Except BuildErr Nat :=
  match Topology.lookup n ((F.nodes.map (·.name)).zipIdx) with
  | some i => .ok i
  | none => .error (.memberNotFound n)

/-- A loop with `?`. -/
def eachB {α β : Type} (f : α → Except BuildErr β) : List α → Except BuildErr (List β)
  | [] => .ok []
  | a :: as => do
    let b ← f a
    let bs ← eachB f as
    return b :: bs

/-- The first name that occurs again: `aggregated_node_map` and `aggregated_storage_node_map`, `network.rs:1961-1995`. -/
def firstDuplicate : List Name → List Name → Option Name
  | _, [] => none
  | seen, n :: ns => if n ∈ seen then some n else firstDuplicate (n :: seen) ns

/-- `AggregatedNodeBuilder::build`, `aggregated_node.rs:648-700`. -/
def Frag.resolveAgg (F : Frag) (a : AggDecl) : Except BuildErr Solver.AggNode := do
  let sets ← eachB (eachB F.index?) a.nodes
  return ⟨sets, a.minFlow, a.maxFlow, a.relationship⟩

/-- `AggregatedStorageNodeBuilder::build`, `aggregated_storage_node.rs`. -/
def Frag.resolveStore (F : Frag) (s : StoreDecl) : Except BuildErr (List Nat) := eachB F.index? s.nodes

/-- `VirtualStorageNodeBuilder::build`, `virtual_storage.rs:240-280`, with `iter_nodes_with_factors` (467-469). -/
def Frag.resolveVs (F : Frag) (v : VsDecl) : Except BuildErr Solver.VStore := do
  let is ← eachB F.index? v.nodes
  return ⟨is.zip (v.factors.getD (is.map (fun _ => 1))), v.cost⟩

/-- The built network. -/
structure Core where
  model : Solver.Model
  stores : List (List Nat)

/-- `NetworkBuilder::build`. -/
def Frag.build (F : Frag) : Except BuildErr Core :=
  match F.builder.build with
  | .error e => .error (.topology e)
  | .ok net =>
    match firstDuplicate [] (F.aggs.map (·.name)), firstDuplicate [] (F.stores.map (·.name)) with
    | some n, _ => .error (.duplicateAggregated n)
    | none, some n => .error (.duplicateAggregated n)
    | none, none => do
      let aggs ← eachB F.resolveAgg F.aggs
      let stores ← eachB F.resolveStore F.stores
      let vs ← eachB F.resolveVs F.vs
      return ⟨⟨net, fun i => ((F.nodes[i]?).map (·.data)).getD noData, aggs, vs⟩, stores⟩

/-! ## Values of metrics -/

/-- `get_node_in_flow`: what the edges bring into a node. -/
def inFlowOf (net : Topology.Network) (f : Nat → ℚ) (n : Name) : Option ℚ :=
  (net.nodes.find? (fun d => d.name = n)).map (fun d => (d.incoming.map f).sum)

/-- `get_node_out_flow`. -/
def outFlowOf (net : Topology.Network) (f : Nat → ℚ) (n : Name) : Option ℚ :=
  (net.nodes.find? (fun d => d.name = n)).map (fun d => (d.outgoing.map f).sum)

/-- `get_edge_flow` of an edge by its ends. -/
def edgeFlowOf (F : Frag) (f : Nat → ℚ) (e : EdgeDecl) : Option ℚ := (F.edges.findIdx? (fun d => d = e)).map f

/-- The sum of optional values, none if one of them is missing. -/
def sumAll : List (Option ℚ) → Option ℚ
  | [] => some 0
  | none :: _ => none
  | some x :: xs => (sumAll xs).map (x + ·)

/-- `resolve` and `get_value` of metrics about flows, `/repo/pywr-core/src/metric.rs:182-322, 600-760`; other metrics are not
given a value here. -/
def UMetric.flow (F : Frag) (net : Topology.Network) (f : Nat → ℚ) : UMetric → Option ℚ
  | .const q => some q
  | .nodeInFlow n => inFlowOf net f n
  | .nodeOutFlow n => outFlowOf net f n
  | .multiNodeInFlow ns => sumAll (ns.map (inFlowOf net f))
  | .multiNodeOutFlow ns => sumAll (ns.map (outFlowOf net f))
  | .multiEdgeFlow es => sumAll (es.map (edgeFlowOf F f))
  | _ => none

end Verif.Schema
