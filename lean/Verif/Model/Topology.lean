import Verif.Model.State

/-!
# Building the network topology

Transcribed from `/repo/pywr-core/src/network.rs` (`NetworkBuilder`) and `/repo/pywr-core/src/node.rs` (`NodeBuilder`).
Only names, edges, node types and virtual storage members are modelled; costs, constraints, parameters, metric sets and
recorders, which are built by other code and can fail on their own, are left out.
-/

namespace Verif.Topology

open Verif.State (NodeKind Edge)

/-- `UnresolvedNode`, `node.rs:740-743`: name and sub-name. -/
abbrev Name := String × Option String

/-- `UnresolvedEdge`, `network.rs:1556-1559`. -/
structure EdgeDecl where
  src : Name
  dst : Name
  deriving DecidableEq, Repr

/-- The parts of `NodeBuilder` (`node.rs`) that concern topology. -/
structure NodeDecl where
  name : Name
  kind : NodeKind
  deriving DecidableEq, Repr

/-- The parts of `VirtualStorageBuilder` that concern topology. -/
structure VSDecl where
  name : Name
  members : List Name
  deriving DecidableEq, Repr

/-- `NetworkBuilder`. -/
structure Builder where
  nodes : List NodeDecl
  edges : List EdgeDecl
  vs : List VSDecl
  deriving DecidableEq, Repr

/-- `NetworkBuildError` and `NodeBuilderError`, the ones about topology. -/
inductive Err
  | duplicateNodeName (n : Name)
  | duplicateEdge (e : EdgeDecl)
  | nodeNotFoundForEdge (n : Name)
  | nodeConnectToSelf (n : Name)
  | duplicateVirtualStorageName (n : Name)
  | nodeNotFoundForVirtualStorage (n : Name)
  | indexNotFound
  | noOutgoingEdges (n : Name)
  | noIncomingEdges (n : Name)
  | unexpectedIncomingEdges (n : Name) (num : Nat)
  | unexpectedOutgoingEdges (n : Name) (num : Nat)
  deriving DecidableEq, Repr

/-- `HashMap::get` on a map kept as an association list. -/
def lookup {κ ν : Type} [DecidableEq κ] (k : κ) : List (κ × ν) → Option ν
  | [] => none
  | (k', v) :: rest => if k' = k then some v else lookup k rest

/-- `map.entry(k).or_default().push(v)` on a map of vectors. -/
def pushEntry (k v : Nat) : List (Nat × List Nat) → List (Nat × List Nat)
  | [] => [(k, [v])]
  | (k', vs) :: rest => if k' = k then (k', vs ++ [v]) :: rest else (k', vs) :: pushEntry k v rest

/-- The loop shared by `node_index_map` (`network.rs:1891-1906`), `edge_index_map` (1908-1922) and
`virtual_storage_node_map` (1996-2011): number the keys, stop at the first repeated one. -/
def indexLoop {κ : Type} [DecidableEq κ] (dup : κ → Err) : List κ → Nat → List (κ × Nat) → Except Err (List (κ × Nat))
  | [], _, map => .ok map
  | k :: ks, i, map =>
    match lookup k map with
    | some _ => .error (dup k)
    | none => indexLoop dup ks (i + 1) (map ++ [(k, i)])

/-- Incoming and outgoing edges of each node. -/
structure EdgeMaps where
  incoming : List (Nat × List Nat)
  outgoing : List (Nat × List Nat)

/-- `node_edge_maps`, `network.rs:1924-1959`. -/
def edgeMapsLoop (names : List (Name × Nat)) : List EdgeDecl → Nat → EdgeMaps → Except Err EdgeMaps
  | [], _, m => .ok m
  | e :: es, i, m =>
    match lookup e.src names with
    | none => .error (.nodeNotFoundForEdge e.src)
    | some f =>
      match lookup e.dst names with
      | none => .error (.nodeNotFoundForEdge e.dst)
      | some t =>
        if f = t then .error (.nodeConnectToSelf e.dst)
        else edgeMapsLoop names es (i + 1) ⟨pushEntry t i m.incoming, pushEntry f i m.outgoing⟩

/-- Inner loop of `node_associated_vs_nodes`, `network.rs:2020-2029`. -/
def membersLoop (names : List (Name × Nat)) (vi : Nat) : List Name → List (Nat × List Nat) →
    Except Err (List (Nat × List Nat))
  | [], m => .ok m
  | n :: ns, m =>
    match lookup n names with
    | none => .error (.nodeNotFoundForVirtualStorage n)
    | some i => membersLoop names vi ns (pushEntry i vi m)

/-- `node_associated_vs_nodes`, `network.rs:2013-2034`. -/
def associatedLoop (names : List (Name × Nat)) : List VSDecl → Nat → List (Nat × List Nat) →
    Except Err (List (Nat × List Nat))
  | [], _, m => .ok m
  | v :: vs, vi, m =>
    match membersLoop names vi v.members m with
    | .error e => .error e
    | .ok m' => associatedLoop names vs (vi + 1) m'

/-- A built node: index, type, incoming and outgoing edges (`node.rs:335-424`), and the virtual storages it belongs to
(`node.rs` `build_cost` reads `virtual_storage_associated_nodes`). Input nodes keep no incoming and output nodes no
outgoing edges; the lists are then empty. -/
structure TNode where
  index : Nat
  name : Name
  kind : NodeKind
  incoming : List Nat
  outgoing : List Nat
  associatedVs : List Nat
  deriving DecidableEq, Repr

/-- `NodeBuilder::build`, `node.rs:335-424`. -/
def buildNode (names : List (Name × Nat)) (m : EdgeMaps) (assoc : List (Nat × List Nat)) (d : NodeDecl) :
    Except Err TNode :=
  match lookup d.name names with
  | none => .error .indexNotFound
  | some i =>
    let incoming := (lookup i m.incoming).getD []
    let outgoing := (lookup i m.outgoing).getD []
    let vs := (lookup i assoc).getD []
    match d.kind with
    | .input =>
      if outgoing.isEmpty then .error (.noOutgoingEdges d.name)
      else if !incoming.isEmpty then .error (.unexpectedIncomingEdges d.name incoming.length)
      else .ok ⟨i, d.name, .input, [], outgoing, vs⟩
    | .output =>
      if !outgoing.isEmpty then .error (.unexpectedOutgoingEdges d.name outgoing.length)
      else if incoming.isEmpty then .error (.noIncomingEdges d.name)
      else .ok ⟨i, d.name, .output, incoming, [], vs⟩
    | .link =>
      if outgoing.isEmpty then .error (.noOutgoingEdges d.name)
      else if incoming.isEmpty then .error (.noIncomingEdges d.name)
      else .ok ⟨i, d.name, .link, incoming, outgoing, vs⟩
    | .storage => .ok ⟨i, d.name, .storage, incoming, outgoing, vs⟩

/-- The loop over node builders, `network.rs:2105-2116`. -/
def buildNodes (names : List (Name × Nat)) (m : EdgeMaps) (assoc : List (Nat × List Nat)) :
    List NodeDecl → Except Err (List TNode)
  | [] => .ok []
  | d :: ds =>
    match buildNode names m assoc d with
    | .error e => .error e
    | .ok n =>
      match buildNodes names m assoc ds with
      | .error e => .error e
      | .ok ns => .ok (n :: ns)

/-- The loop over edges, `network.rs:2158-2186`. -/
def buildEdges (names : List (Name × Nat)) : List EdgeDecl → Nat → Except Err (List Edge)
  | [], _ => .ok []
  | e :: es, i =>
    match lookup e.src names with
    | none => .error (.nodeNotFoundForEdge e.src)
    | some f =>
      match lookup e.dst names with
      | none => .error (.nodeNotFoundForEdge e.dst)
      | some t =>
        match buildEdges names es (i + 1) with
        | .error e => .error e
        | .ok rest => .ok (⟨i, f, t⟩ :: rest)

/-- A built network. -/
structure Network where
  nodes : List TNode
  edges : List Edge
  deriving DecidableEq, Repr

/-- `NetworkBuilder::build`, `network.rs:2089-2225`, with `build_resolution_map` (2053-2086). -/
def Builder.build (b : Builder) : Except Err Network :=
  match indexLoop .duplicateNodeName (b.nodes.map (·.name)) 0 [] with
  | .error e => .error e
  | .ok names =>
    match indexLoop .duplicateEdge b.edges 0 [] with
    | .error e => .error e
    | .ok _ =>
      match edgeMapsLoop names b.edges 0 ⟨[], []⟩ with
      | .error e => .error e
      | .ok maps =>
        match indexLoop .duplicateVirtualStorageName (b.vs.map (·.name)) 0 [] with
        | .error e => .error e
        | .ok _ =>
          match associatedLoop names b.vs 0 [] with
          | .error e => .error e
          | .ok assoc =>
            match buildNodes names maps assoc b.nodes with
            | .error e => .error e
            | .ok nodes =>
              match buildEdges names b.edges 0 with
              | .error e => .error e
              | .ok edges => .ok ⟨nodes, edges⟩

end Verif.Topology
