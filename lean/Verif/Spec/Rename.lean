import Verif.Model.Visit

/-!
# Renaming: what is claimed

A user renames the nodes and virtual nodes of a network by a function `ρ` that gives different names different names, and
applies the visitor of node references with the same function. Core nodes have a name and a sub-name; renaming changes the
first.
-/

namespace Verif.Rename

open Verif.Topology (Name EdgeDecl TNode Network)
open Verif.Schema (Net SNode VNode Frag Decl AggDecl StoreDecl VsDecl UMetric PDef Core ParamNo)
open Verif.EndToEnd (Licence)

/-- Renaming the nodes and virtual nodes, and what is visited. -/
def net (ρ : String → String) (N : Net) : Net :=
  let M := Visit.mapNet ρ N
  { M with
    nodes := M.nodes.map fun n => { n with name := ρ n.name }
    virtualNodes := M.virtualNodes.map fun v => { v with name := ρ v.name } }

/-- All names in a network. -/
def namesOf (N : Net) : List String :=
  N.nodes.map (·.name) ++ N.virtualNodes.map (·.name) ++ Visit.netReferences N

/-- The function that renames one node. -/
def one (a b : String) (x : String) : String := if x = a then b else x

/-- A core name. -/
def nm (ρ : String → String) (n : Name) : Name := (ρ n.1, n.2)

/-- A core edge. -/
def edge (ρ : String → String) (e : EdgeDecl) : EdgeDecl := ⟨nm ρ e.src, nm ρ e.dst⟩

/-- A metric. -/
def metric (ρ : String → String) : UMetric → UMetric
  | .const q => .const q
  | .nodeInFlow n => .nodeInFlow (nm ρ n)
  | .nodeOutFlow n => .nodeOutFlow (nm ρ n)
  | .nodeVolume n => .nodeVolume (nm ρ n)
  | .nodeMaxVolume n => .nodeMaxVolume (nm ρ n)
  | .nodeProportionalVolume n => .nodeProportionalVolume (nm ρ n)
  | .multiNodeInFlow ns => .multiNodeInFlow (ns.map (nm ρ))
  | .multiNodeOutFlow ns => .multiNodeOutFlow (ns.map (nm ρ))
  | .multiEdgeFlow es => .multiEdgeFlow (es.map (edge ρ))
  | .aggStorageVolume n => .aggStorageVolume (nm ρ n)
  | .aggStorageProportionalVolume n => .aggStorageProportionalVolume (nm ρ n)
  | .parameter p x => .parameter (ρ p) x

/-- A parameter made by a node. -/
def pdef (ρ : String → String) : PDef → PDef
  | .delay u d v => .delay (metric ρ u) d v
  | .muskingum i o t w => .muskingum (metric ρ i) (metric ρ o) t w
  | .hydropower u t e => .hydropower (metric ρ u) t e
  | .volumeBetween t u l => .volumeBetween t u l
  | .sum ms => .sum ms
  | .product ms => .product ms
  | .difference a b lo hi => .difference a b lo hi
  | .area u s => .area (metric ρ u) s

/-- What is handed to the core. -/
def frag (ρ : String → String) (F : Frag) : Frag where
  nodes := F.nodes.map fun d => { d with name := nm ρ d.name }
  edges := F.edges.map (edge ρ)
  aggs := F.aggs.map fun a => { a with name := nm ρ a.name, nodes := a.nodes.map (·.map (nm ρ)) }
  stores := F.stores.map fun s => ⟨nm ρ s.name, s.nodes.map (nm ρ)⟩
  vs := F.vs.map fun v => { v with name := nm ρ v.name, nodes := v.nodes.map (nm ρ) }
  params := F.params.map fun p => (ρ p.1, p.2.1, pdef ρ p.2.2)
  locals := F.locals.map fun p => (ρ p.1, p.2)

/-- The built network: only the names of its nodes change. -/
def network (ρ : String → String) (M : Network) : Network :=
  ⟨M.nodes.map fun n => { n with name := nm ρ n.name }, M.edges⟩

/-- The same with its aggregated nodes and licences, which refer to nodes by position. -/
def core (ρ : String → String) (C : Core) : Core := ⟨{ C.model with net := network ρ C.model.net }, C.stores⟩

/-- The numbers of the parameters that nodes make are those of before. -/
def SameNumbers (ρ : String → String) (P P' : ParamNo) : Prop := ∀ x p k, P' (ρ x) p k = P x p k

/-- What a document without parameters does in a run: the records of its steps and how it ends. -/
def simulate (P : ParamNo) (N : Net) (licences : Nat → Licence) (big negBig : ℚ) (inps : List Simulation.Inp) :
    Option (List Simulation.Record × Except Simulation.SimErr Simulation.SimState) :=
  match N.compile P with
  | .error _ => none
  | .ok F =>
    match F.build with
    | .error _ => none
    | .ok C =>
      let S := EndToEnd.Document.sim ⟨N, ⟨[], [], [], [], []⟩, fun _ => .transfer "", P, licences⟩ F C
      match S.initial big negBig with
      | .error _ => none
      | .ok s => some (S.run inps s)

end Verif.Rename

/-! # Visitors: what is claimed -/

namespace Verif.Visit

/-- A metric names a node. -/
inductive Says : Met → String → Prop
  | node (x a) : Says (.node x a) x
  | virtualNode (x a) : Says (.virtualNode x a) x
  | source (e) : Says (.edge e) e.src
  | target (e) : Says (.edge e) e.dst

/-- A value of the schema names a node somewhere. -/
inductive Refers : Item → String → Prop
  | metric {m x} : Says m x → Refers (.metric m) x
  | index {m x} : Says m x → Refers (.index m) x
  | array {ms m x} : m ∈ ms → Says m x → Refers (.array ms) x
  | reference (x) : Refers (.reference x) x
  | list {is i x} : i ∈ is → Refers i x → Refers (.list is) x

/-- A metric is somewhere in a value of the schema. -/
inductive Holds : Item → Met → Prop
  | metric (m) : Holds (.metric m) m
  | array {ms m} : m ∈ ms → Holds (.array ms) m
  | list {is i m} : i ∈ is → Holds i m → Holds (.list is) m

/-- There is no array of metrics in a value of the schema. -/
inductive Plain : Item → Prop
  | metric (m) : Plain (.metric m)
  | index (m) : Plain (.index m)
  | reference (x) : Plain (.reference x)
  | path (p) : Plain (.path p)
  | plain (t) : Plain (.plain t)
  | list {is} : (∀ i ∈ is, Plain i) → Plain (.list is)

/-- A file is named somewhere in a value of the schema. -/
inductive Written : Item → String → Prop
  | path (p) : Written (.path p) p
  | list {is i p} : i ∈ is → Written i p → Written (.list is) p

/-- The files a network names: those of its nodes, virtual nodes, parameters, tables, series and outputs. -/
def Schema.Needs (S : Schema) (p : String) : Prop :=
  ∃ i ∈ S.nodes ++ S.virtualNodes ++ S.parameters ++ S.tables ++ S.timeseries ++ S.outputs, Written i p

/-- Two values are of the same shape, with these changes of metrics, of index metrics and metrics in arrays, of references and of paths. -/
inductive Changed (metric inner : Met → Met) (reference path : String → String) : Item → Item → Prop
  | metric (m) : Changed metric inner reference path (.metric m) (.metric (metric m))
  | index (m) : Changed metric inner reference path (.index m) (.index (inner m))
  | array {ms ms'} : List.Forall₂ (fun m m' => m' = inner m) ms ms' → Changed metric inner reference path (.array ms) (.array ms')
  | reference (x) : Changed metric inner reference path (.reference x) (.reference (reference x))
  | path (p) : Changed metric inner reference path (.path p) (.path (path p))
  | plain (t) : Changed metric inner reference path (.plain t) (.plain t)
  | list {is js} : List.Forall₂ (Changed metric inner reference path) is js → Changed metric inner reference path (.list is) (.list js)

/-- A metric with the nodes it names renamed. -/
def Met.called (f : String → String) : Met → Met
  | .node x a => .node (f x) a
  | .virtualNode x a => .virtualNode (f x) a
  | .edge e => .edge ⟨f e.src, f e.dst, e.srcSlot, e.dstSlot⟩
  | .other t => .other t

/-- A network names a node in an edge, a node, a virtual node, a parameter or a metric set. -/
def Schema.Refers (S : Schema) (x : String) : Prop :=
  (∃ i ∈ S.nodes ++ S.virtualNodes ++ S.parameters, Visit.Refers i x) ∨ (∃ e ∈ S.edges, e.src = x ∨ e.dst = x) ∨
    ∃ ms ∈ S.metricSets, ∃ m ∈ ms, Says m x

end Verif.Visit
