import Verif.Model.Lp
import Verif.Model.Topology

/-!
# Columns of the linear program and mass balance rows

Transcribed from `/repo/pywr-core/src/solvers/col_edge_map.rs` and `/repo/pywr-core/src/solvers/builder.rs`, lines 666-723
and 743-780. Looking up an edge without a column is a panic, `none` here.
-/

namespace Verif.Solver

open Verif.State (NodeKind Edge)
open Verif.Topology (Network TNode)

/-- `ColumnEdgeMapBuilder`, `col_edge_map.rs:25-28`. -/
structure ColMap where
  colToEdges : List (List Nat)
  edgeToCol : OMap Nat
  deriving DecidableEq, Repr

/-- `add_simple_edge`, `col_edge_map.rs:74-84`. -/
def ColMap.addSimple (m : ColMap) (e : Nat) : ColMap :=
  match m.edgeToCol.find e with
  | some _ => m
  | none => ⟨m.colToEdges ++ [[e]], m.edgeToCol.insert e m.colToEdges.length⟩

/-- `add_equal_edges`, `col_edge_map.rs:89-120`. -/
def ColMap.addEqual (m : ColMap) (e₁ e₂ : Nat) : ColMap :=
  match m.edgeToCol.find e₁, m.edgeToCol.find e₂ with
  | some _, some _ => m
  | none, some c => ⟨m.colToEdges.modify c (· ++ [e₁]), m.edgeToCol.insert e₁ c⟩
  | some c, none => ⟨m.colToEdges.modify c (· ++ [e₂]), m.edgeToCol.insert e₂ c⟩
  | none, none =>
    ⟨m.colToEdges ++ [[e₁, e₂]], (m.edgeToCol.insert e₁ m.colToEdges.length).insert e₂ m.colToEdges.length⟩

/-- Errors and panics while the program is created. -/
inductive SetupErr
  | noEdgesDefined
  | nodeIndexNotFound
  | panic
  deriving DecidableEq, Repr

/-- One edge of the loop in `create_columns`, `builder.rs:673-699`. -/
def columnStep (net : Network) (m : ColMap) (e : Edge) : Except SetupErr ColMap :=
  match net.nodes[e.fromNode]? with
  | none => .error .nodeIndexNotFound
  | some n =>
    match n.kind with
    | .link =>
      if n.outgoing.contains e.index then
        match n.incoming, n.outgoing with
        | [i], [_] => .ok (m.addEqual e.index i)
        | _, _ => .ok (m.addSimple e.index)
      else .error .panic
    | _ => .ok (m.addSimple e.index)

/-- The loop over edges in `create_columns`, `builder.rs:673-699`. -/
def columnLoop (net : Network) : List Edge → ColMap → Except SetupErr ColMap
  | [], m => .ok m
  | e :: es, m =>
    match columnStep net m e with
    | .error x => .error x
    | .ok m' => columnLoop net es m'

/-- The edges part of `create_columns`, `builder.rs:666-699`. -/
def createColMap (net : Network) : Except SetupErr ColMap :=
  if net.edges.length < 1 then .error .noEdgesDefined else columnLoop net net.edges ⟨[], []⟩

/-- `ColumnEdgeMapBuilder::build`, `col_edge_map.rs:46-57`: the columns as a vector by edge; `none` is the failed
assertion that every edge has an entry. -/
def ColMap.build (m : ColMap) : Option (List Nat) :=
  match m.edgeToCol.getLast? with
  | none => none
  | some (k, _) => if k = m.edgeToCol.length - 1 then some (m.edgeToCol.map (·.2)) else none

/-- `col_for_edge` of the builder, `col_edge_map.rs:64-69`. -/
def ColMap.col (m : ColMap) (e : Nat) : Option Nat := m.edgeToCol.find e

/-- Add one element for each edge of a list (`none`: an edge without a column). -/
def addEdges (m : ColMap) (factor : ℚ) : List Nat → Row → Option Row
  | [], r => some r
  | e :: es, r =>
    match m.col e with
    | none => none
    | some c => addEdges m factor es (r.addElement c factor)

/-- One node of `create_mass_balance_constraints`, `builder.rs:744-779`: `some none` for a node without a row,
`none` for a panic. -/
def massBalanceRow (m : ColMap) (n : TNode) : Option (Option Row) :=
  match n.kind with
  | .link =>
    if n.incoming.isEmpty then none
    else if n.outgoing.isEmpty then none
    else
      match addEdges m 1 n.incoming Row.default with
      | none => none
      | some r =>
        match addEdges m (-1) n.outgoing r with
        | none => none
        | some r =>
          if r.columns.isEmpty then none
          else if r.columns.length = 1 then some none
          else some (some ((r.setUpper 0).setLower 0))
  | _ => some none

/-- `create_mass_balance_constraints`, `builder.rs:743-780`. -/
def createMassBalance (m : ColMap) : List TNode → LpBuilder → Option LpBuilder
  | [], b => some b
  | n :: ns, b =>
    match massBalanceRow m n with
    | none => none
    | some none => createMassBalance m ns b
    | some (some r) => createMassBalance m ns (b.addFixedRow r)

end Verif.Solver
