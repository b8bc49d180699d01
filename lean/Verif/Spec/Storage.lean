import Verif.Model.State
import Mathlib.Algebra.BigOperators.Group.List.Basic

/-! # Specification of the water balance -/

namespace Verif.State

/-- Sum of the flows of the edges into node `i`. -/
def inSum (edges : List Edge) (flow : Nat → ℚ) (i : Nat) : ℚ :=
  ((edges.filter fun e => e.toNode == i).map fun e => flow e.index).sum

/-- Sum of the flows of the edges out of node `i`. -/
def outSum (edges : List Edge) (flow : Nat → ℚ) (i : Nat) : ℚ :=
  ((edges.filter fun e => e.fromNode == i).map fun e => flow e.index).sum

/-- Change of the volume of node `i` in one step. -/
def gain (edges : List Edge) (i : Nat) (inp : StepIn) : ℚ :=
  (inSum edges inp.flow i - outSum edges inp.flow i) * inp.t.days

/-- Change of the volume of node `i` over several steps. -/
def totalGain (edges : List Edge) (i : Nat) (inputs : List StepIn) : ℚ := (inputs.map (gain edges i)).sum

/-- The exact balance, started from `v`, stays within the bounds of every step. -/
def StaysInBounds (edges : List Edge) (i : Nat) : ℚ → List StepIn → Prop
  | _, [] => True
  | v, inp :: rest =>
    (inp.b.node i).1 ≤ v + gain edges i inp ∧ v + gain edges i inp ≤ (inp.b.node i).2 ∧
    StaysInBounds edges i (v + gain edges i inp) rest

/-- The storage row that the solver is given for node `i` (`solvers/builder.rs:485-501`, `node.rs:708-715`): net inflow
between `-available / dt` and `missing / dt`, with the volume at the time of the solve. -/
def StorageRow (edges : List Edge) (i : Nat) (volume : ℚ) (inp : StepIn) : Prop :=
  -(volume - (inp.b.node i).1) / inp.t.days ≤ inSum edges inp.flow i - outSum edges inp.flow i ∧
  inSum edges inp.flow i - outSum edges inp.flow i ≤ ((inp.b.node i).2 - volume) / inp.t.days

/-- Indices of nodes and edges exist in the state, and edge indices are not repeated. -/
structure WellFormed (net : Net) (s : NetworkState) : Prop where
  nodes : s.nodes.length = net.kinds.length
  vs : s.vs.length = net.vsNodes.length
  edge : ∀ e ∈ net.edges, e.fromNode < s.nodes.length ∧ e.toNode < s.nodes.length ∧ e.index < s.edges.length
  nodup : (net.edges.map (·.index)).Nodup

end Verif.State
