import Verif.Model.Columns
import Verif.Model.Factors

/-!
# Creating and updating the linear program

Transcribed from `/repo/pywr-core/src/solvers/builder.rs`, lines 90-121 and 290-1075, with the parts of `node.rs`,
`aggregated_node.rs`, `virtual_storage.rs` and `edge.rs` they call.

Simplifications. The data of a node other than its edges are given by a function of its index. A failing look-up of a
constant parameter at setup is left out. The iteration order of a `HashSet` is a parameter (`sets`). A panic is the error
`panic`. An update that fails gives an error only; the half-updated program is not described. A coefficient that is not
finite and is handed to the solver by an update is the error `nonFinite`.
-/

namespace Verif.Solver

open Verif.State (NodeKind Edge)
open Verif.Topology (Network TNode pushEntry lookup)

/-- `f64::MAX`. -/
def f64MAX : ℚ := (2 ^ 53 - 1) * 2 ^ 971

/-- `CostAggFunc`, `node.rs`. -/
inductive CostAgg | sum | max | min
  deriving DecidableEq, Repr

/-- `FlowConstraints`, `StorageConstraints` and `NodeCost` of a node, `node.rs:812-904`. -/
structure NodeData where
  minFlow : Option Metric
  maxFlow : Option Metric
  minVolume : Option Metric
  maxVolume : Option Metric
  cost : Option Metric
  costAgg : Option CostAgg
  deriving DecidableEq, Repr

/-- `Relationship`, `aggregated_node.rs:203-209`. -/
inductive Relationship
  | factored (f : Factors)
  | exclusive (minActive maxActive : Nat)
  deriving DecidableEq, Repr

/-- `AggregatedNode`. -/
structure AggNode where
  nodes : List (List Nat)
  minFlow : Option Metric
  maxFlow : Option Metric
  relationship : Option Relationship
  deriving DecidableEq, Repr

/-- The parts of `VirtualStorage` the solver reads: members with factors (`iter_nodes_with_factors`,
`virtual_storage.rs:467-469`) and cost. -/
structure VStore where
  members : List (Nat × ℚ)
  cost : Option Metric
  deriving DecidableEq, Repr

/-- The network as the solver sees it. -/
structure Model where
  net : Network
  data : Nat → NodeData
  aggs : List AggNode
  vs : List VStore

/-- `get_factors`, `aggregated_node.rs:411-416`. -/
def AggNode.factors (a : AggNode) : Option Factors :=
  match a.relationship with
  | some (.factored f) => some f
  | _ => none

/-- `get_exclusivity`, `aggregated_node.rs:403-408`. -/
def AggNode.exclusivity (a : AggNode) : Option (Nat × Nat) :=
  match a.relationship with
  | some (.exclusive lo hi) => some (lo, hi)
  | _ => none

/-! ## Bounds and costs -/

/-- `get_min_flow` and the like with a default, `node.rs:826-853`. -/
def valueOr (d : ℚ) (σ : Nat → Option ℚ) : Option Metric → Option ℚ
  | none => some d
  | some m => m.get σ

/-- `get_const_min_flow` and the like with a default, `node.rs:836-861`. -/
def constOr (d : ℚ) : Option Metric → Option ℚ
  | none => some d
  | some m => m.const?

/-- `get_const_bounds`, `node.rs:658-692`: storage nodes never have constant bounds. -/
def constBounds (n : TNode) (d : NodeData) : Option (ℚ × ℚ) :=
  match n.kind with
  | .storage => none
  | _ =>
    match constOr 0 d.minFlow, constOr f64MAX d.maxFlow with
    | some lo, some hi => some (lo, hi)
    | _, _ => none

/-- State of a step as the solver sees it: values of metrics, volumes of storage nodes, whether virtual storages are active
and their available and missing volumes, and the length of the timestep in days. -/
structure StepState where
  metric : Nat → Option ℚ
  volume : Nat → Option ℚ
  vsActive : Nat → Bool
  vsBounds : Nat → Option (ℚ × ℚ)
  days : ℚ

/-- `get_bounds`, `node.rs:694-717`, turned into bounds of the row as in `builder.rs:484-496`. -/
def nodeBounds (n : TNode) (d : NodeData) (st : StepState) : Option (ℚ × ℚ) :=
  match n.kind with
  | .storage =>
    match st.volume n.index, valueOr 0 st.metric d.minVolume, valueOr f64MAX st.metric d.maxVolume with
    | some v, some lo, some hi => some (-(v - lo) / st.days, (hi - v) / st.days)
    | _, _, _ => none
  | _ =>
    match valueOr 0 st.metric d.minFlow, valueOr f64MAX st.metric d.maxFlow with
    | some lo, some hi => some (lo, hi)
    | _, _ => none

/-- The loops over costs of virtual storages in `NodeCost::get_cost`, `node.rs:923-937`. -/
def costLoop (vs : List VStore) (σ : Nat → Option ℚ) (f : ℚ → ℚ → ℚ) : List Nat → ℚ → Option ℚ
  | [], c => some c
  | i :: is, c =>
    match vs[i]? with
    | none => none
    | some v =>
      match valueOr 0 σ v.cost with
      | none => none
      | some k => costLoop vs σ f is (f c k)

/-- `NodeCost::get_cost`, `node.rs:907-942`. -/
def nodeCost (M : Model) (σ : Nat → Option ℚ) (n : TNode) : Option ℚ :=
  match valueOr 0 σ (M.data n.index).cost with
  | none => none
  | some c =>
    match (M.data n.index).costAgg with
    | none => some c
    | some .sum => costLoop M.vs σ (· + ·) n.associatedVs c
    | some .max => costLoop M.vs σ max n.associatedVs c
    | some .min => costLoop M.vs σ min n.associatedVs c

/-- `get_outgoing_cost`, `node.rs:719-726`. -/
def outgoingCost (M : Model) (σ : Nat → Option ℚ) (n : TNode) : Option ℚ :=
  match n.kind with
  | .input => nodeCost M σ n
  | .link => (nodeCost M σ n).map (· / 2)
  | .output => nodeCost M σ n
  | .storage => (nodeCost M σ n).map (fun c => -c)

/-- `get_incoming_cost`, `node.rs:728-735`. -/
def incomingCost (M : Model) (σ : Nat → Option ℚ) (n : TNode) : Option ℚ :=
  match n.kind with
  | .input => nodeCost M σ n
  | .link => (nodeCost M σ n).map (· / 2)
  | .output => nodeCost M σ n
  | .storage => nodeCost M σ n

/-- `Edge::cost`, `edge.rs:45-62`. -/
def edgeCost (M : Model) (σ : Nat → Option ℚ) (e : Edge) : Option ℚ :=
  match M.net.nodes[e.fromNode]?, M.net.nodes[e.toNode]? with
  | some f, some t =>
    match outgoingCost M σ f, incomingCost M σ t with
    | some a, some b => some (a + b)
    | _, _ => none
  | _, _ => none

/-! ## Rows of nodes -/

/-- `add_node`, `builder.rs:792-823`. -/
def addNode (m : ColMap) (n : TNode) (factor : ℚ) (r : Row) : Option Row :=
  match n.kind with
  | .link => addEdges m factor n.outgoing r
  | .input => addEdges m factor n.outgoing r
  | .output => addEdges m factor n.incoming r
  | .storage =>
    match addEdges m factor n.incoming r with
    | none => none
    | some r => addEdges m (-factor) n.outgoing r

/-- A loop of `add_node` over node indices with a factor each (`none`: panic). -/
def addNodes (m : ColMap) (net : Network) : List (Nat × ℚ) → Row → Option Row
  | [], r => some r
  | (i, k) :: is, r =>
    match net.nodes[i]? with
    | none => none
    | some n =>
      match addNode m n k r with
      | none => none
      | some r => addNodes m net is r

/-! ## Creation -/

/-- Binary columns: of nodes (`node_bin_col_map`) and of sets (`node_set_bin_col_map`). -/
structure Bins where
  ofNode : List (Nat × List Nat)
  ofSet : List (List Nat × Nat)
  deriving DecidableEq, Repr

/-- Columns of edges, `builder.rs:714-717`. -/
def addEdgeColumns : Nat → LpBuilder → LpBuilder
  | 0, b => b
  | n + 1, b => addEdgeColumns n (b.addColumn 0 (.lower 0) .continuous).2

/-- Binary columns of the sets in exclusivity relationships, `builder.rs:733-742`. -/
def addBinaries : List (List Nat) → LpBuilder → Bins → LpBuilder × Bins
  | [], b, bins => (b, bins)
  | s :: ss, b, bins =>
    let (c, b) := b.addColumn 0 (.double 0 1) .integer
    addBinaries ss b ⟨s.foldl (fun acc i => pushEntry i c acc) bins.ofNode, bins.ofSet ++ [(s, c)]⟩

/-- `NodeRowType`, `builder.rs:300-308`. -/
inductive RowType
  | continuous
  | binaryUpper (col : Nat)
  | binaryLower (col : Nat)
  deriving DecidableEq, Repr

/-- `NodeRowId`, `builder.rs:310-314`. -/
structure NodeRow where
  row : Nat
  node : Nat
  type : RowType
  deriving DecidableEq, Repr

/-- The loop over the binary columns of a node, `builder.rs:860-905`. -/
def binaryRows (m : ColMap) (n : TNode) (bounds : Option (ℚ × ℚ)) : List Nat → LpBuilder → List NodeRow →
    Option (LpBuilder × List NodeRow)
  | [], b, ids => some (b, ids)
  | c :: cs, b, ids =>
    match addNode m n (-1) Row.default, addNode m n 1 Row.default with
    | some ub, some lb =>
      match bounds with
      | some (lo, hi) =>
        let b := b.addFixedRow (((ub.addElement c (min hi 1000000)).setLower 0).setUpper b.f64Max)
        let b := if lo ≠ 0 then b.addFixedRow (((lb.addElement c (-(max lo (1 / 1000000)))).setLower 0).setUpper b.f64Max)
          else b
        binaryRows m n bounds cs b ids
      | none =>
        let (i, b) := b.addVariableRow (ub.addElement c 1)
        let (j, b) := b.addVariableRow (lb.addElement c (-1))
        binaryRows m n bounds cs b (ids ++ [⟨i, n.index, .binaryUpper c⟩, ⟨j, n.index, .binaryLower c⟩])
    | _, _ => none

/-- `create_node_constraints`, `builder.rs:838-933`. -/
def createNodeRows (m : ColMap) (data : Nat → NodeData) (bins : List (Nat × List Nat)) : List TNode → LpBuilder →
    List NodeRow → Option (LpBuilder × List NodeRow)
  | [], b, ids => some (b, ids)
  | n :: ns, b, ids =>
    match lookup n.index bins with
    | some cols =>
      match binaryRows m n (constBounds n (data n.index)) cols b ids with
      | none => none
      | some (b, ids) => createNodeRows m data bins ns b ids
    | none =>
      match addNode m n 1 Row.default with
      | none => none
      | some r =>
        match constBounds n (data n.index) with
        | some (lo, hi) => createNodeRows m data bins ns (b.addFixedRow ((r.setLower lo).setUpper hi)) ids
        | none =>
          let (i, b) := b.addVariableRow r
          createNodeRows m data bins ns b (ids ++ [⟨i, n.index, .continuous⟩])

/-- `create_aggregated_node_constraints`, `builder.rs:1005-1023`. -/
def createAggRows (m : ColMap) (net : Network) : List AggNode → LpBuilder → List Nat → Option (LpBuilder × List Nat)
  | [], b, ids => some (b, ids)
  | a :: as, b, ids =>
    match addNodes m net (a.nodes.flatten.map (fun i => (i, 1))) Row.default with
    | none => none
    | some r =>
      let (i, b) := b.addVariableRow r
      createAggRows m net as b (ids ++ [i])

/-- Add nodes with a factor that may be unknown (then 1) or not finite (then `add_element` panics, unless there is no
element to add). -/
def addFactored (m : ColMap) (net : Network) (nodes : List Nat) (f : Option Fin?) (r : Row) : Option Row :=
  match f with
  | none => addNodes m net (nodes.map (fun i => (i, 1))) r
  | some (some k) => addNodes m net (nodes.map (fun i => (i, k))) r
  | some none =>
    match addNodes m net (nodes.map (fun i => (i, 1))) Row.default with
    | none => none
    | some r' => if r'.columns.isEmpty then some r else none

/-- The row of a factor pair, `builder.rs:953-979`. -/
def factorRow (m : ColMap) (net : Network) (p : CPair) : Option Row :=
  match addFactored m net p.nodes0 p.f0 Row.default with
  | none => none
  | some r =>
    match addFactored m net p.nodes1 p.f1 r with
    | none => none
    | some r => some ((r.setLower p.rhs).setUpper p.rhs)

/-- The loop over pairs, `builder.rs:951-990`. -/
def factorRows (m : ColMap) (net : Network) : List CPair → LpBuilder → List (Option Nat) →
    Option (LpBuilder × List (Option Nat))
  | [], b, ids => some (b, ids)
  | p :: ps, b, ids =>
    match factorRow m net p with
    | none => none
    | some r =>
      if p.f0.isSome ∧ p.f1.isSome then factorRows m net ps (b.addFixedRow r) (ids ++ [none])
      else
        let (i, b) := b.addVariableRow r
        factorRows m net ps b (ids ++ [some i])

/-- `create_aggregated_node_factor_constraints`, `builder.rs:939-1000`: an error in the constant factors is skipped
silently; an index or length panic is a panic. -/
def createFactorRows (m : ColMap) (net : Network) : List AggNode → Nat → LpBuilder → List (Nat × List (Option Nat)) →
    Option (LpBuilder × List (Nat × List (Option Nat)))
  | [], _, b, ids => some (b, ids)
  | a :: as, k, b, ids =>
    match a.factors with
    | none => createFactorRows m net as (k + 1) b ids
    | some f =>
      match f.constPairs a.nodes with
      | .error .panic => none
      | .error _ => createFactorRows m net as (k + 1) b ids
      | .ok ps =>
        match factorRows m net ps b [] with
        | none => none
        | some (b, rows) => createFactorRows m net as (k + 1) b (ids ++ [(k, rows)])

/-- `create_virtual_storage_constraints`, `builder.rs:1028-1049`. -/
def createVsRows (m : ColMap) (net : Network) : List VStore → LpBuilder → List Nat → Option (LpBuilder × List Nat)
  | [], b, ids => some (b, ids)
  | v :: vs, b, ids =>
    match addNodes m net (v.members.map (fun p => (p.1, -p.2))) Row.default with
    | none => none
    | some r =>
      let (i, b) := b.addVariableRow r
      createVsRows m net vs b (ids ++ [i])

/-- The elements of an exclusivity row, `builder.rs:1056-1063`. -/
def exclusivityRow (bins : List (List Nat × Nat)) : List (List Nat) → Row → Option Row
  | [], r => some r
  | s :: ss, r =>
    match lookup s bins with
    | none => none
    | some c => exclusivityRow bins ss (r.addElement c 1)

/-- `create_mutual_exclusivity_constraints`, `builder.rs:1052-1071`. -/
def createExclusivityRows (bins : List (List Nat × Nat)) : List AggNode → LpBuilder → Option LpBuilder
  | [], b => some b
  | a :: as, b =>
    match a.exclusivity with
    | none => createExclusivityRows bins as b
    | some (lo, hi) =>
      match exclusivityRow bins a.nodes Row.default with
      | none => none
      | some r => createExclusivityRows bins as (b.addFixedRow ((r.setUpper hi).setLower lo))

/-- `BuiltSolver`, `builder.rs:316-323`. -/
structure Built where
  lp : Lp
  cols : List Nat
  nodeRows : List NodeRow
  factorRows : List (Nat × List (Option Nat))
  aggRows : List Nat
  vsRows : List Nat
  deriving DecidableEq, Repr

/-- The rows of `create`, after the columns. -/
def createRows (M : Model) (m : ColMap) (b : LpBuilder) (bins : Bins) : Option Built :=
  match createMassBalance m M.net.nodes b with
  | none => none
  | some b =>
    match createNodeRows m M.data bins.ofNode M.net.nodes b [] with
    | none => none
    | some (b, nodeRows) =>
      match createAggRows m M.net M.aggs b [] with
      | none => none
      | some (b, aggRows) =>
        match createFactorRows m M.net M.aggs 0 b [] with
        | none => none
        | some (b, factorRows) =>
          match createVsRows m M.net M.vs b [] with
          | none => none
          | some (b, vsRows) =>
            match createExclusivityRows bins.ofSet M.aggs b with
            | none => none
            | some b =>
              match m.build with
              | none => none
              | some cols => some ⟨b.build, cols, nodeRows, factorRows, aggRows, vsRows⟩

/-- `create`, `builder.rs:649-679`, with `create_columns` (685-745). `sets` is the set of node sets in exclusivity
relationships in the order the `HashSet` yields them. -/
def create (M : Model) (f64Max f64NegMax : ℚ) (sets : List (List Nat)) : Except SetupErr Built :=
  match createColMap M.net with
  | .error e => .error e
  | .ok m =>
    let b := addEdgeColumns m.colToEdges.length (LpBuilder.new f64Max f64NegMax)
    let (b, bins) := addBinaries sets b ⟨[], []⟩
    match createRows M m b bins with
    | none => .error .panic
    | some s => .ok s

/-! ## Update -/

/-- Errors of an update. -/
inductive SolveErr
  | metric
  | nodeIndexNotFound
  | nonFinite
  | panic
  deriving DecidableEq, Repr

/-- `update_edge_objectives`, `builder.rs:442-470`, after the reset. -/
def objectiveLoop (M : Model) (σ : Nat → Option ℚ) (cols : List Nat) : List Edge → Lp → Except SolveErr Lp
  | [], lp => .ok lp
  | e :: es, lp =>
    match edgeCost M σ e with
    | none => .error .metric
    | some c =>
      match cols[e.index]? with
      | none => .error .panic
      | some col =>
        match lp.addObj col c with
        | none => .error .panic
        | some lp => objectiveLoop M σ cols es lp

/-- `update_node_constraint_bounds`, `builder.rs:472-516`. -/
def nodeBoundsLoop (M : Model) (st : StepState) : List NodeRow → Lp → Except SolveErr Lp
  | [], lp => .ok lp
  | r :: rs, lp =>
    match M.net.nodes[r.node]? with
    | none => .error .nodeIndexNotFound
    | some n =>
      match nodeBounds n (M.data n.index) st with
      | none => .error .metric
      | some (lo, hi) =>
        match r.type with
        | .continuous =>
          match lp.applyRowBounds r.row lo hi with
          | none => .error .panic
          | some lp => nodeBoundsLoop M st rs lp
        | .binaryUpper c => nodeBoundsLoop M st rs (lp.pushCoefficient r.row c hi)
        | .binaryLower c => nodeBoundsLoop M st rs (lp.pushCoefficient r.row c (-lo))

/-- Push a coefficient for each edge. -/
def pushEdges (cols : List Nat) (row : Nat) (k : ℚ) : List Nat → Lp → Option Lp
  | [], lp => some lp
  | e :: es, lp =>
    match cols[e]? with
    | none => none
    | some c => pushEdges cols row k es (lp.pushCoefficient row c k)

/-- `update_row_coefficients`, `builder.rs:90-121`: storage nodes get the factor on outgoing edges too, without a sign. -/
def pushNode (cols : List Nat) (row : Nat) (n : TNode) (k : ℚ) (lp : Lp) : Option Lp :=
  match n.kind with
  | .link => pushEdges cols row k n.outgoing lp
  | .input => pushEdges cols row k n.outgoing lp
  | .output => pushEdges cols row k n.incoming lp
  | .storage =>
    match pushEdges cols row k n.incoming lp with
    | none => none
    | some lp => pushEdges cols row k n.outgoing lp

/-- The loops over the nodes of a pair, `builder.rs:546-566`. -/
def pushNodes (net : Network) (cols : List Nat) (row : Nat) (k : ℚ) : List Nat → Lp → Option Lp
  | [], lp => some lp
  | i :: is, lp =>
    match net.nodes[i]? with
    | none => none
    | some n =>
      match pushNode cols row n k lp with
      | none => none
      | some lp => pushNodes net cols row k is lp

/-- One pair with a variable row, `builder.rs:541-570`. -/
def updatePair (net : Network) (cols : List Nat) (row : Nat) (p : Pair) (lp : Lp) : Except SolveErr Lp :=
  match p.f0, p.f1 with
  | some k0, some k1 =>
    match pushNodes net cols row k0 p.nodes0 lp with
    | none => .error .panic
    | some lp =>
      match pushNodes net cols row k1 p.nodes1 lp with
      | none => .error .panic
      | some lp =>
        match lp.applyRowBounds row p.rhs p.rhs with
        | none => .error .panic
        | some lp => .ok lp
  | _, _ => .error .nonFinite

/-- The loop over pairs and row ids, `builder.rs:538-571`. -/
def updatePairs (net : Network) (cols : List Nat) : List (Pair × Option Nat) → Lp → Except SolveErr Lp
  | [], lp => .ok lp
  | (_, none) :: rest, lp => updatePairs net cols rest lp
  | (p, some row) :: rest, lp =>
    match updatePair net cols row p lp with
    | .error e => .error e
    | .ok lp => updatePairs net cols rest lp

/-- `update_aggregated_node_factor_constraints`, `builder.rs:518-575`: any error in the factors is a panic. -/
def factorLoop (M : Model) (σ : Nat → Option ℚ) (cols : List Nat) : List (Nat × List (Option Nat)) → Lp → Except SolveErr Lp
  | [], lp => .ok lp
  | (k, rows) :: rest, lp =>
    match M.aggs[k]? with
    | none => .error .nodeIndexNotFound
    | some a =>
      match a.factors with
      | none => .error .panic
      | some f =>
        match f.pairs a.nodes σ with
        | .error _ => .error .panic
        | .ok ps =>
          if rows.length = ps.length then
            match updatePairs M.net cols (ps.zip rows) lp with
            | .error e => .error e
            | .ok lp => factorLoop M σ cols rest lp
          else .error .panic

/-- `update_aggregated_node_constraint_bounds`, `builder.rs:577-595`. -/
def aggLoop (st : StepState) : List (Nat × AggNode) → Lp → Except SolveErr Lp
  | [], lp => .ok lp
  | (row, a) :: rest, lp =>
    match valueOr 0 st.metric a.minFlow, valueOr f64MAX st.metric a.maxFlow with
    | some lo, some hi =>
      match lp.applyRowBounds row lo hi with
      | none => .error .panic
      | some lp => aggLoop st rest lp
    | _, _ => .error .metric

/-- `update_virtual_storage_node_constraint_bounds`, `builder.rs:597-622`, over row ids and indices of virtual storages. -/
def vsLoop (st : StepState) : List (Nat × Nat) → Lp → Except SolveErr Lp
  | [], lp => .ok lp
  | (row, v) :: rest, lp =>
    if st.vsActive v then
      match st.vsBounds v with
      | none => .error .metric
      | some (avail, missing) =>
        match lp.applyRowBounds row (-avail / st.days) (missing / st.days) with
        | none => .error .panic
        | some lp => vsLoop st rest lp
    else
      match lp.applyRowBounds row lp.f64NegMax lp.f64Max with
      | none => .error .panic
      | some lp => vsLoop st rest lp

/-- `update`, `builder.rs:416-439`. -/
def update (M : Model) (s : Built) (st : StepState) : Except SolveErr Built :=
  match objectiveLoop M st.metric s.cols M.net.edges s.lp.zeroObj with
  | .error e => .error e
  | .ok lp =>
    match nodeBoundsLoop M st s.nodeRows lp.resetRowBounds.resetCoefficients with
    | .error e => .error e
    | .ok lp =>
      match factorLoop M st.metric s.cols s.factorRows lp with
      | .error e => .error e
      | .ok lp =>
        match aggLoop st (s.aggRows.zip M.aggs) lp with
        | .error e => .error e
        | .ok lp =>
          match vsLoop st (s.vsRows.zip (List.range M.vs.length)) lp with
          | .error e => .error e
          | .ok lp => .ok { s with lp := lp }

/-- What is solved in a step: the updated program with the changed coefficients put in place
(`clp/mod.rs:407`, `highs/mod.rs:392`, `builder.rs:397-414`). -/
def step (M : Model) (s : Built) (st : StepState) : Except SolveErr Built :=
  match update M s st with
  | .error e => .error e
  | .ok s =>
    match s.lp.applyUpdatedCoefficients with
    | none => .error .panic
    | some lp => .ok { s with lp := lp }

end Verif.Solver
