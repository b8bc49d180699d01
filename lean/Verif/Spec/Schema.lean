import Verif.Model.SchemaNetwork
import Verif.Spec.Solver

/-!
# Specification of what the schema of a network means

Flows are given on the edges of the built network, in the order of their creation. Edges and core nodes are spoken of by name.
-/

namespace Verif.Schema

open Verif.Topology (Name EdgeDecl)
open Verif.Solver (Metric)

/-- Flow on an edge. -/
def flowOn (F : Frag) (f : Nat → ℚ) (e : EdgeDecl) : ℚ := f (F.edges.idxOf e)

/-- What flows into a core node. -/
def into (F : Frag) (f : Nat → ℚ) (n : Name) : ℚ := ((F.edges.filter (fun e => e.dst = n)).map (flowOn F f)).sum

/-- What flows out of a core node. -/
def outOf (F : Frag) (f : Nat → ℚ) (n : Name) : ℚ := ((F.edges.filter (fun e => e.src = n)).map (flowOn F f)).sum

/-- Flow of a core node: what leaves an input or link, what enters an output, the net inflow of a storage. -/
def coreFlow (F : Frag) (f : Nat → ℚ) (d : Decl) : ℚ :=
  match d.kind with
  | .input => outOf F f d.name
  | .link => outOf F f d.name
  | .output => into F f d.name
  | .storage => into F f d.name - outOf F f d.name

/-- Flow of the core node of a name. -/
def nameFlow (F : Frag) (f : Nat → ℚ) (n : Name) : ℚ := ((F.nodes.find? (fun d => d.name = n)).map (coreFlow F f)).getD 0

/-- Flow along an edge of the schema: along all the edges it stands for. -/
def edgeFlow (N : Net) (F : Frag) (f : Nat → ℚ) (e : SEdge) : ℚ :=
  match N.pairs e with
  | .ok ps => (ps.map (flowOn F f)).sum
  | .error _ => 0

/-- What a node of the schema receives along edges of the schema. -/
def received (N : Net) (F : Frag) (f : Nat → ℚ) (x : String) : ℚ :=
  ((N.edges.filter (fun e => e.dst = x)).map (edgeFlow N F f)).sum

/-- What a node of the schema sends along edges of the schema. -/
def sent (N : Net) (F : Frag) (f : Nat → ℚ) (x : String) : ℚ :=
  ((N.edges.filter (fun e => e.src = x)).map (edgeFlow N F f)).sum

/-- What a node of the schema sends along edges that start at certain slots. -/
def sentVia (N : Net) (F : Frag) (f : Nat → ℚ) (x : String) (p : Option Slot → Bool) : ℚ :=
  ((N.edges.filter (fun e => e.src = x ∧ p e.srcSlot = true)).map (edgeFlow N F f)).sum

/-- A network of the schema, what it adds to the builder, and the network built. -/
structure Built (P : ParamNo) (N : Net) (F : Frag) (C : Core) : Prop where
  compiled : N.compile P = .ok F
  built : F.build = .ok C

/-- The value a metric has, or that is reported for it, is `v`. -/
def Reports (F : Frag) (C : Core) (f : Nat → ℚ) (m : Except Err UMetric) (v : ℚ) : Prop :=
  ∃ u, m = .ok u ∧ u.flow F C.model.net f = some v

/-- Node types that pass on whatever they receive. -/
def Body.Through : Body → Bool
  | .link _ | .riverGauge _ | .riverSplit _ | .pieceLink _ | .turbine _ | .abstraction _ => true
  | _ => false

/-- Node types that pass on what they receive, but for a loss. -/
def Body.Lossy : Body → Bool
  | .lossLink _ | .works _ => true
  | .river b => b.routing.isNone
  | _ => false

/-- Node types that pass on what they receive in later steps. -/
def Body.Routed : Body → Bool
  | .delay _ => true
  | .river b => b.routing.isSome
  | _ => false

/-- The loss given on a node. -/
def Body.loss : Body → Option Loss
  | .lossLink b => b.loss
  | .works b => b.loss
  | .river b => b.loss
  | _ => none

/-- Loss of a node that receives `r` and sends `s`: a share of what is received (gross) or of what is sent (net). -/
def LossIs (σ : Nat → Option ℚ) (l : Option Loss) (r s v : ℚ) : Prop :=
  match l with
  | none => v = 0
  | some (.gross m) => ∃ g, m.get σ = some g ∧ v = g * r
  | some (.net m) => ∃ g, m.get σ = some g ∧ v = g * s

/-- Volume of the core node of a name at the beginning of a step. -/
def stored (F : Frag) (st : Solver.StepState) (n : Name) : Option ℚ := st.volume ((F.nodes.map (·.name)).idxOf n)

/-- The component meant by a reference to a node: its outflow unless stated otherwise, for an output its inflow, for an abstraction its
abstraction, for a reservoir its compensation. -/
def Body.component (b : Body) (c : Option Comp) : Comp :=
  match c with
  | some c => c
  | none =>
    match b with
    | .output _ => .inflow
    | .abstraction _ => .abstraction
    | .reservoir _ => .compensation
    | _ => .outflow

/-- Flow of a component of a node. -/
def ComponentIs (P : ParamNo) (N : Net) (F : Frag) (C : Core) (st : Solver.StepState) (f : Nat → ℚ) (n : SNode) (c : Comp) (v : ℚ) : Prop :=
  match c with
  | .inflow => v = received N F f n.name
  | .outflow =>
    match n.body with
    | .abstraction _ => v = sentVia N F f n.name (fun s => s ≠ some .abstraction)
    | _ => v = sent N F f n.name
  | .abstraction => v = sentVia N F f n.name (fun s => s = some .abstraction)
  | .loss =>
    match n.body with
    | .reservoir b => ∃ l u, b.leakage = some l ∧ l.loss.get st.metric = some u ∧ 0 ≤ v ∧ v ≤ u
    | _ => Reports F C f (n.metric (some .loss)) v
  | .compensation => Reports F C f (n.metric (some .compensation)) v
  | .rainfall => st.metric (P n.name "rainfall" none) = some v
  | .evaporation => False

/-- Flow of a reference. -/
def RefIs (P : ParamNo) (N : Net) (F : Frag) (C : Core) (st : Solver.StepState) (f : Nat → ℚ) (r : Ref) (v : ℚ) : Prop :=
  ∃ n ∈ N.nodes, n.name = r.name ∧ ComponentIs P N F C st f n (n.body.component r.component) v

/-- What a relationship demands of the flows it relates. -/
def SRelationship.Demands (σ : Nat → Option ℚ) (qs : List ℚ) : SRelationship → Prop
  | .proportion fs => ∃ vs : List ℚ, fs.map (Metric.get σ) = vs.map some ∧ (∀ v ∈ vs, 0 < v) ∧ vs.sum < 1 ∧
      List.Forall₂ (fun q v => q = v * qs.sum) qs.tail vs
  | .ratio fs => ∃ (q0 v0 : ℚ) (vs : List ℚ), fs.map (Metric.get σ) = (v0 :: vs).map some ∧ 0 ≤ v0 ∧ qs.head? = some q0 ∧
      (∀ v ∈ vs, v ≠ 0) ∧ List.Forall₂ (fun q v => q * v0 = q0 * v) qs.tail vs
  | .coefficients fs rhs => ∃ v0 v1 q0 q1 c : ℚ, fs.map (Metric.get σ) = [some v0, some v1] ∧ qs = [q0, q1] ∧
      (match rhs with | none => c = 0 | some m => m.get σ = some c) ∧ v0 * q0 + v1 * q1 = c
  | .exclusive _ _ => True

end Verif.Schema
