import Verif.Model.Topology

/-! # Specification of the network topology -/

namespace Verif.Topology

open Verif.State (NodeKind Edge)

/-- Positions (in order) of the declared edges that end at a node. -/
def edgesInto (b : Builder) (n : Name) : List Nat :=
  (b.edges.zipIdx.filter (fun p => p.1.dst = n)).map (·.2)

/-- Positions (in order) of the declared edges that start at a node. -/
def edgesFrom (b : Builder) (n : Name) : List Nat :=
  (b.edges.zipIdx.filter (fun p => p.1.src = n)).map (·.2)

/-- Positions (in order) of the virtual storages that list a node, once for every time it is listed. -/
def storagesOf (b : Builder) (n : Name) : List Nat :=
  b.vs.zipIdx.flatMap (fun p => (p.1.members.filter (fun m => m = n)).map (fun _ => p.2))

/-- Connectivity rule of a node type. -/
def Connected (kind : NodeKind) (incoming outgoing : List Nat) : Prop :=
  match kind with
  | .input => incoming = [] ∧ outgoing ≠ []
  | .output => incoming ≠ [] ∧ outgoing = []
  | .link => incoming ≠ [] ∧ outgoing ≠ []
  | .storage => True

/-- What a declaration must satisfy. -/
structure Valid (b : Builder) : Prop where
  nodes : (b.nodes.map (·.name)).Nodup
  edges : b.edges.Nodup
  ends : ∀ e ∈ b.edges, e.src ∈ b.nodes.map (·.name) ∧ e.dst ∈ b.nodes.map (·.name)
  noSelf : ∀ e ∈ b.edges, e.src ≠ e.dst
  storages : (b.vs.map (·.name)).Nodup
  members : ∀ v ∈ b.vs, ∀ n ∈ v.members, n ∈ b.nodes.map (·.name)
  connected : ∀ d ∈ b.nodes, Connected d.kind (edgesInto b d.name) (edgesFrom b d.name)

end Verif.Topology
