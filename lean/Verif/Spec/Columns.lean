import Verif.Model.Columns
import Verif.Spec.Lp
import Mathlib.Logic.Relation

/-! # Specification of the columns and of mass balance -/

namespace Verif.Solver

open Verif.State (NodeKind Edge)
open Verif.Topology (Network TNode)

/-- Edge `e'` carries on edge `e` through a link that has no other edges. -/
def PassThrough (net : Network) (e e' : Nat) : Prop :=
  ∃ n ∈ net.nodes, n.kind = .link ∧ n.incoming = [e] ∧ n.outgoing = [e']

/-- Two edges joined by a chain of such links, in either direction. -/
def SameChain (net : Network) : Nat → Nat → Prop := Relation.EqvGen (PassThrough net)

/-- A link passes on what it receives. -/
def Balanced (net : Network) (f : Nat → ℚ) : Prop :=
  ∀ n ∈ net.nodes, n.kind = .link → (n.incoming.map f).sum = (n.outgoing.map f).sum

/-- A network as produced by the network builder: edges numbered in order with their ends in range; the edges of a node are
those that end or start at it, and links have both. -/
structure WF (net : Network) : Prop where
  index : ∀ (k : Nat) (e : Edge), net.edges[k]? = some e → e.index = k ∧ e.fromNode < net.nodes.length ∧ e.toNode < net.nodes.length
  nodeIndex : ∀ (k : Nat) (n : TNode), net.nodes[k]? = some n → n.index = k
  incoming : ∀ (k : Nat) (n : TNode), net.nodes[k]? = some n → n.incoming = (net.edges.filter (fun e => e.toNode = k)).map (·.index)
  outgoing : ∀ (k : Nat) (n : TNode), net.nodes[k]? = some n → n.outgoing = (net.edges.filter (fun e => e.fromNode = k)).map (·.index)
  links : ∀ n ∈ net.nodes, n.kind = .link → n.incoming ≠ [] ∧ n.outgoing ≠ []

end Verif.Solver
