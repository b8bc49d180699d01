import Verif.Model.Document

/-!
# Visitors of the schema and renaming

Transcribed from `/repo/pywr-schema/src/visit.rs`, the derived visitors (`/repo/pywr-schema-macros/src/lib.rs:39-590`), which visit
all fields in order, and the visitors of networks (`/repo/pywr-schema/src/network.rs:172-304`).

Simplifications: of the values of the schema the shape is kept as far as visitors tell it apart (`Item`); a visitor that
changes what it visits is the function it applies. In networks (`Schema.Net`) the metrics of nodes are numbers, so that what
is visited there are the ends of edges and the members of virtual nodes; the metrics are visited in `Target`.
-/

namespace Verif.Visit

open Verif.Schema (Attr SEdge VBody VNode Net)
open Verif.EndToEnd (Target Document)

/-! ## Values of the schema -/

/-- `Metric` (`metric.rs:97-150`) and `IndexMetric` (`metric.rs:690-740`), as far as visitors tell them apart. -/
inductive Met
  | node (name : String) (attr : Option Attr)
  | virtualNode (name : String) (attr : Option Attr)
  | edge (e : SEdge)
  | other (text : String)
  deriving DecidableEq, Repr

/-- The values that occur in nodes, virtual nodes and parameters of the schema. -/
inductive Item
  | metric (m : Met)
  | index (m : Met)
  | array (ms : List Met)
  | reference (name : String)
  | path (p : String)
  | plain (text : String)
  | list (items : List Item)
  deriving Repr

/-- `VisitNodeReferences` of `Metric` and `IndexMetric`, `visit.rs:253-310`, with `metric.rs:372-380, 472-480, 655-663` and
`edge.rs:45-55`. -/
def Met.references : Met → List String
  | .node x _ => [x]
  | .virtualNode x _ => [x]
  | .edge e => [e.src, e.dst]
  | .other _ => []

/-- The same, changing what is visited. -/
def Met.mapReferences (f : String → String) : Met → Met
  | .node x a => .node (f x) a
  | .virtualNode x a => .virtualNode (f x) a
  | .edge e => .edge { e with src := f e.src, dst := f e.dst }
  | .other t => .other t

mutual
/-- `visit_node_references`, `visit.rs:250-420`: arrays of metrics are visited (396-408), strings are not. -/
def Item.references : Item → List String
  | .metric m => m.references
  | .index m => m.references
  | .array ms => ms.flatMap Met.references
  | .reference x => [x]
  | .path _ => []
  | .plain _ => []
  | .list is => Item.referencesAll is
/-- One after the other. -/
def Item.referencesAll : List Item → List String
  | [] => []
  | i :: is => i.references ++ Item.referencesAll is
end

mutual
/-- `visit_node_references_mut`. -/
def Item.mapReferences (f : String → String) : Item → Item
  | .metric m => .metric (m.mapReferences f)
  | .index m => .index (m.mapReferences f)
  | .array ms => .array (ms.map (Met.mapReferences f))
  | .reference x => .reference (f x)
  | .path p => .path p
  | .plain t => .plain t
  | .list is => .list (Item.mapReferencesAll f is)
/-- One after the other. -/
def Item.mapReferencesAll (f : String → String) : List Item → List Item
  | [] => []
  | i :: is => i.mapReferences f :: Item.mapReferencesAll f is
end

mutual
/-- `visit_metrics`, `visit.rs:15-122`: nothing is visited in arrays of metrics (line 116) and in index metrics (29-33). -/
def Item.metrics : Item → List Met
  | .metric m => [m]
  | .index _ => []
  | .array _ => []
  | .reference _ => []
  | .path _ => []
  | .plain _ => []
  | .list is => Item.metricsAll is
/-- One after the other. -/
def Item.metricsAll : List Item → List Met
  | [] => []
  | i :: is => i.metrics ++ Item.metricsAll is
end

mutual
/-- `visit_metrics_mut`. -/
def Item.mapMetrics (f : Met → Met) : Item → Item
  | .metric m => .metric (f m)
  | .index m => .index m
  | .array ms => .array ms
  | .reference x => .reference x
  | .path p => .path p
  | .plain t => .plain t
  | .list is => .list (Item.mapMetricsAll f is)
/-- One after the other. -/
def Item.mapMetricsAll (f : Met → Met) : List Item → List Item
  | [] => []
  | i :: is => i.mapMetrics f :: Item.mapMetricsAll f is
end

mutual
/-- `visit_paths`, `visit.rs:131-236`. -/
def Item.paths : Item → List String
  | .metric _ => []
  | .index _ => []
  | .array _ => []
  | .reference _ => []
  | .path p => [p]
  | .plain _ => []
  | .list is => Item.pathsAll is
/-- One after the other. -/
def Item.pathsAll : List Item → List String
  | [] => []
  | i :: is => i.paths ++ Item.pathsAll is
end

/-- `NetworkSchema`, `network.rs:119-134`: what visitors see of it. -/
structure Schema where
  nodes : List Item
  virtualNodes : List Item
  edges : List SEdge
  parameters : List Item
  tables : List Item
  timeseries : List Item
  metricSets : List (List Met)
  outputs : List Item

/-- `visit_node_references` of a network, `network.rs:260-281`. -/
def Schema.references (S : Schema) : List String :=
  Item.referencesAll S.nodes ++ S.edges.flatMap (fun e => [e.src, e.dst]) ++ Item.referencesAll S.virtualNodes ++
    Item.referencesAll S.parameters ++ S.metricSets.flatMap (·.flatMap Met.references)

/-- `visit_metrics` of a network, `network.rs:210-233`. -/
def Schema.metrics (S : Schema) : List Met :=
  Item.metricsAll S.nodes ++ Item.metricsAll S.virtualNodes ++ Item.metricsAll S.parameters ++ S.metricSets.flatten

/-- `visit_paths` of a network, `network.rs:173-189`. -/
def Schema.paths (S : Schema) : List String :=
  Item.pathsAll S.nodes ++ Item.pathsAll S.parameters ++ Item.pathsAll S.timeseries ++ Item.pathsAll S.outputs

mutual
/-- `visit_paths_mut`, `visit.rs:131-236`. -/
def Item.mapPaths (f : String → String) : Item → Item
  | .metric m => .metric m
  | .index m => .index m
  | .array ms => .array ms
  | .reference x => .reference x
  | .path p => .path (f p)
  | .plain t => .plain t
  | .list is => .list (Item.mapPathsAll f is)
/-- One after the other. -/
def Item.mapPathsAll (f : String → String) : List Item → List Item
  | [] => []
  | i :: is => i.mapPaths f :: Item.mapPathsAll f is
end

/-- `visit_paths_mut` of a network, `network.rs:190-206`. -/
def Schema.mapPaths (f : String → String) (S : Schema) : Schema :=
  { S with nodes := Item.mapPathsAll f S.nodes, parameters := Item.mapPathsAll f S.parameters,
           timeseries := Item.mapPathsAll f S.timeseries, outputs := Item.mapPathsAll f S.outputs }

/-- `visit_metrics_mut` of a network, `network.rs:234-257`. -/
def Schema.mapMetrics (f : Met → Met) (S : Schema) : Schema :=
  { S with nodes := Item.mapMetricsAll f S.nodes, virtualNodes := Item.mapMetricsAll f S.virtualNodes,
           parameters := Item.mapMetricsAll f S.parameters, metricSets := S.metricSets.map (·.map f) }

/-- `visit_node_references_mut` of a network, `network.rs:283-303`, with `edge.rs:51-54`. -/
def Schema.mapReferences (f : String → String) (S : Schema) : Schema :=
  { S with nodes := Item.mapReferencesAll f S.nodes, edges := S.edges.map (fun e => { e with src := f e.src, dst := f e.dst }),
           virtualNodes := Item.mapReferencesAll f S.virtualNodes, parameters := Item.mapReferencesAll f S.parameters,
           metricSets := S.metricSets.map (·.map (Met.mapReferences f)) }

/-! ## Networks -/

/-- `visit_node_references_mut` of an edge, `edge.rs:51-54`. -/
def mapEdge (f : String → String) (e : SEdge) : SEdge := { e with src := f e.src, dst := f e.dst }

/-- `visit_node_references_mut` of a virtual node, `virtual_nodes/mod.rs:196-204` with `metric.rs:503-511`. -/
def mapVirtual (f : String → String) (v : VNode) : VNode :=
  { v with body := match v.body with
      | .aggregated refs hi lo rel => .aggregated (refs.map fun r => { r with name := f r.name }) hi lo rel
      | .aggregatedStorage refs => .aggregatedStorage (refs.map f)
      | .virtualStorage refs factors cost => .virtualStorage (refs.map fun r => { r with name := f r.name }) factors cost
      | .placeholder => .placeholder }

/-- `visit_node_references_mut` of a network, `network.rs:283-303`. -/
def mapNet (f : String → String) (N : Net) : Net :=
  ⟨N.nodes, N.virtualNodes.map (mapVirtual f), N.edges.map (mapEdge f)⟩

/-- The names visited in a virtual node. -/
def virtualReferences (v : VNode) : List String :=
  match v.body with
  | .aggregated refs _ _ _ => refs.map (·.name)
  | .aggregatedStorage refs => refs
  | .virtualStorage refs _ _ => refs.map (·.name)
  | .placeholder => []

/-- `visit_node_references` of a network, `network.rs:260-281`. -/
def netReferences (N : Net) : List String :=
  N.edges.flatMap (fun e => [e.src, e.dst]) ++ N.virtualNodes.flatMap virtualReferences

/-- `visit_node_references_mut` of a metric, `visit.rs:271-285`. What a parameter made by a node is about is not part of the
document, and a transfer names no node. -/
def mapTarget (f : String → String) : Target → Target
  | .node x a => .node (f x) a
  | .virtual x a => .virtual (f x) a
  | .edge e => .edge (mapEdge f e)
  | .made u => .made u
  | .transfer x => .transfer x

end Verif.Visit
