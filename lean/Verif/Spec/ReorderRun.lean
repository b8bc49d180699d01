import Verif.Spec.Reorder
import Verif.Spec.Simulation

/-!
# Runs of a network in another order: what is claimed

Nodes are known by name and edges by their ends, virtual storages by their place.
-/

namespace Verif.Reorder

open Verif.Solver Verif.Topology
open Verif.State (NetworkState)
open Verif.Simulation (Sim SimState SimErr Inp Record)

/-- Limits, costs, groups, licences and initial volumes of the same nodes. -/
structure SameSim (ρ : Nat → Nat) (S S' : Sim) : Prop where
  data : ∀ i, S'.data (ρ i) = S.data i
  aggs : S'.aggs = S.aggs.map fun a => { a with nodes := a.nodes.map (·.map ρ) }
  vsNodes : S'.vsNodes = S.vsNodes.map fun n => { n with nodes := n.nodes.map ρ }
  vsMin : S'.vsMin = S.vsMin
  vsMax : S'.vsMax = S.vsMax
  vsCost : S'.vsCost = S.vsCost
  iv : ∀ σ i, S'.iv σ (ρ i) = S.iv σ i

/-- The same time step and values of metrics; solvers may differ. -/
structure SameInp (inp inp' : Inp) : Prop where
  t : inp'.t = inp.t
  metric : inp'.metric = inp.metric

/-- A solver returns solutions of least objective, and one whenever there is one. -/
structure Finds (solve : Lp → Option (Nat → ℚ)) : Prop where
  sound : ∀ lp x, solve lp = some x → lp.Feasible x
  least : ∀ lp x, solve lp = some x → ∀ y, lp.Feasible y → lp.objective x ≤ lp.objective y
  finds : ∀ lp : Lp, (∃ x, lp.Feasible x ∧ ∀ y, lp.Feasible y → lp.objective x ≤ lp.objective y) → ∃ x, solve lp = some x

/-- The same flows along edges. -/
def SameFlow (b b' : Builder) (f f' : Nat → ℚ) : Prop := ∀ (k k' : Nat) (e : EdgeDecl), b.edges[k]? = some e → b'.edges[k']? = some e → f' k' = f k

/-- The same states of nodes, flows of edges and states of virtual storages. -/
structure SameNet (ρ : Nat → Nat) (b b' : Builder) (s s' : NetworkState) : Prop where
  nodes : ∀ i, s'.nodes[ρ i]? = s.nodes[i]?
  edges : ∀ (k k' : Nat) (e : EdgeDecl), b.edges[k]? = some e → b'.edges[k']? = some e → s'.edges[k']? = s.edges[k]?
  vs : s'.vs = s.vs

/-- The same happened in a step. -/
structure SameRecord (ρ : Nat → Nat) (b b' : Builder) (r r' : Record) : Prop where
  inp : SameInp r.inp r'.inp
  pre : SameNet ρ b b' r.pre r'.pre
  flow : SameFlow b b' r.flow r'.flow
  post : SameNet ρ b b' r.post r'.post

/-- The same kind of error: a missing volume, another missing value, or no solution. -/
def SameErr : SimErr → SimErr → Prop
  | .volumeBounds, .volumeBounds => True
  | .solve _, .solve _ => True
  | .infeasible, .infeasible => True
  | _, _ => False

/-- Runs end in the same way. -/
def SameEnd (ρ : Nat → Nat) (b b' : Builder) : Except SimErr SimState → Except SimErr SimState → Prop
  | .ok s, .ok s' => SameNet ρ b b' s.network s'.network
  | .error e, .error e' => SameErr e e'
  | _, _ => False

/-- No other flows were as cheap in a step. -/
def Unique (S : Sim) (big negBig : ℚ) (r : Record) : Prop :=
  ∀ f, S.Allowed r.inp r.pre f → S.Within big negBig r.inp.metric f →
    (∀ cost : TNode → ℚ, (∀ n ∈ S.net.nodes, n.incoming ≠ [] ∨ n.outgoing ≠ [] → S.CostIs r.inp.metric n (cost n)) →
      S.totalCost cost f ≤ S.totalCost cost r.flow) →
    ∀ e < S.net.edges.length, f e = r.flow e

end Verif.Reorder
