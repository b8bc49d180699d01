import Verif.Model.Solver
import Verif.Model.IpmIndices

/-!
# The program of the interior point solver

Transcribed from `/repo/pywr-core/src/solvers/ipm_simd/mod.rs`, lines 20-420 (rows, matrices, update) and 420-600 (creation), with
`required_features` of `/repo/pywr-core/src/network.rs`, lines 652-668 and 953-985. A group of up to four scenarios shares the
matrix; bounds and costs have one number per lane. A row is given by its columns: whether it is an inequality or an equality is
decided by the list it is in. `f64` is `ℚ`. Panics and errors (which the caller unwraps) are `none`.
-/

namespace Verif.IpmLp

open Verif.State (NodeKind Edge)
open Verif.Topology (Network TNode)
open Verif.Solver (OMap ColMap createColMap SetupErr addEdges addNode NodeData StepState Metric valueOr f64MAX edgeCost Model
  Factors AggNode)
open Verif.Ipm (Csr)

/-- `B_MAX`, line 21. -/
def bMax : ℚ := 999999

/-- `f64x4`. -/
abbrev Lanes := Fin 4 → ℚ

/-- The columns of a `RowBuilder`, lines 232-236. -/
abbrev Cols := OMap ℚ

/-! ## Matrices -/

/-- `Matrix`, lines 23-28. -/
structure Matrix where
  rowStarts : List Nat
  columns : List Nat
  elements : List ℚ
  deriving DecidableEq, Repr

/-- `Matrix::default`, lines 30-38. -/
def Matrix.default : Matrix := ⟨[0], [], []⟩

/-- `Matrix::add_row`, lines 41-48. -/
def Matrix.addRow (a : Matrix) (row : Cols) : Matrix :=
  ⟨a.rowStarts ++ [a.rowStarts.getLastD 0 + row.length], a.columns ++ row.map (·.1), a.elements ++ row.map (·.2)⟩

/-- `nrows`, lines 50-52. -/
def Matrix.nrows (a : Matrix) : Nat := a.rowStarts.length - 1

/-- `Lp`, lines 55-61. -/
structure Lp where
  inequality : Matrix
  equality : Matrix
  numCols : Nat
  rowUpper : List Lanes
  colObj : List Lanes

/-- `get_full_matrix`, lines 107-128. -/
def Lp.fullMatrix (lp : Lp) : Matrix :=
  ⟨lp.inequality.rowStarts.dropLast ++ lp.equality.rowStarts.map (lp.inequality.rowStarts.getLastD 0 + ·),
    lp.inequality.columns ++ lp.equality.columns, lp.inequality.elements ++ lp.equality.elements⟩

/-- The matrix handed to the solver in `setup`, lines 632-644. -/
def Lp.csr (lp : Lp) : Csr ℚ :=
  ⟨lp.fullMatrix.rowStarts.length - 1, lp.numCols, lp.fullMatrix.rowStarts, lp.fullMatrix.columns, lp.fullMatrix.elements⟩

/-! ## Lanes -/

/-- The padding in `add_obj_coefficient` and `apply_row_bounds`, lines 69-81 and 92-103. -/
def pad (l : List ℚ) : Option Lanes :=
  match l.getLast? with
  | none => none
  | some last => if l.length > 4 then none else some (fun k => l.getD k last)

/-- `zero_obj_coefficients`, lines 65-67. -/
def Lp.zeroObj (lp : Lp) : Lp := { lp with colObj := lp.colObj.map (fun _ _ => 0) }

/-- `add_obj_coefficient`, lines 69-84. -/
def Lp.addObj (lp : Lp) (col : Nat) (coef : List ℚ) : Option Lp :=
  match pad coef, lp.colObj[col]? with
  | some v, some old => some { lp with colObj := lp.colObj.set col (fun k => old k + v k) }
  | _, _ => none

/-- `reset_row_bounds`, lines 87-91. -/
def Lp.resetBounds (lp : Lp) : Lp :=
  { lp with rowUpper := (lp.rowUpper.take lp.inequality.nrows).map (fun _ _ => bMax) ++ lp.rowUpper.drop lp.inequality.nrows }

/-- `apply_row_bounds`, lines 93-106. -/
def Lp.applyBounds (lp : Lp) (row : Nat) (ub : List ℚ) : Option Lp :=
  match pad ub, lp.rowUpper[row]? with
  | some v, some old => some { lp with rowUpper := lp.rowUpper.set row (fun k => min (old k) (v k)) }
  | _, _ => none

/-! ## The builder -/

/-- `LpBuilder`, lines 132-136, without the number of columns. -/
structure Builder where
  inequality : List Cols
  equality : List Cols
  deriving DecidableEq, Repr

/-- `iter().position(|r| r == &row)`, line 163. -/
def position (row : Cols) : List Cols → Option Nat
  | [] => none
  | r :: rs => if r = row then some 0 else (position row rs).map (· + 1)

/-- `add_row` of an `Upper` row, lines 155-172. -/
def Builder.addUpper (b : Builder) (row : Cols) : Nat × Builder :=
  match position row b.inequality with
  | some i => (i, b)
  | none => (b.inequality.length, { b with inequality := b.inequality ++ [row] })

/-- `add_row` of a `Fixed` row, lines 173-176. -/
def Builder.addFixed (b : Builder) (row : Cols) : Builder := { b with equality := b.equality ++ [row] }

/-- `LpBuilder::build`, lines 180-224. -/
def Builder.build (b : Builder) (numCols : Nat) : Lp :=
  { inequality := b.inequality.foldl Matrix.addRow Matrix.default
    equality := b.equality.foldl Matrix.addRow Matrix.default
    numCols := numCols
    rowUpper := List.replicate (b.equality.length + b.inequality.length) (fun _ => 0)
    colObj := List.replicate numCols (fun _ => 0) }

/-- `clone_negative`, lines 254-259. -/
def negative (row : Cols) : Cols := row.map (fun p => (p.1, -p.2))

/-! ## Creation -/

/-- One node of `create_mass_balance_constraints`, lines 496-525: `some none` for a node without a row. -/
def massRow (m : ColMap) (n : TNode) : Option (Option Cols) :=
  match n.kind with
  | .link =>
    match addEdges m 1 n.incoming Solver.Row.default with
    | none => none
    | some r =>
      match addEdges m (-1) n.outgoing r with
      | none => none
      | some r =>
        if r.columns.isEmpty then none
        else if r.columns.length = 1 then some none
        else some (some r.columns)
  | _ => some none

/-- `create_mass_balance_constraints`, lines 495-526. -/
def massRows (m : ColMap) : List TNode → Builder → Option Builder
  | [], b => some b
  | n :: ns, b =>
    match massRow m n with
    | none => none
    | some none => massRows m ns b
    | some (some row) => massRows m ns (b.addFixed row)

/-- `is_max_flow_unconstrained`, `node.rs:862-864`. -/
def maxFlowUnconstrained (d : NodeData) : Bool := d.maxFlow.isNone

/-- `create_node_constraints`, lines 565-600, with the indices of the rows. `add_node`, lines 528-560, is that of `builder.rs`. -/
def nodeRows (m : ColMap) (data : Nat → NodeData) : List TNode → Builder → Option (List Nat × Builder)
  | [], b => some ([], b)
  | n :: ns, b =>
    match n.kind with
    | .storage =>
      match addNode m n 1 Solver.Row.default with
      | none => none
      | some r =>
        let (i, b₁) := b.addUpper r.columns
        let (j, b₂) := b₁.addUpper (negative r.columns)
        match nodeRows m data ns b₂ with
        | none => none
        | some (ids, b₃) => some (i :: j :: ids, b₃)
    | _ =>
      if maxFlowUnconstrained (data n.index) then nodeRows m data ns b
      else
        match addNode m n 1 Solver.Row.default with
        | none => none
        | some r =>
          let (i, b₁) := b.addUpper r.columns
          match nodeRows m data ns b₁ with
          | none => none
          | some (ids, b₂) => some (i :: ids, b₂)

/-- `BuiltSolver`, lines 275-279. -/
structure Built where
  lp : Lp
  cols : List Nat
  rowIds : List Nat

/-- `create`, lines 427-447; `create_columns`, lines 449-493, is that of `builder.rs`. -/
def create (M : Model) : Except SetupErr Built :=
  match createColMap M.net with
  | .error e => .error e
  | .ok m =>
    match massRows m M.net.nodes ⟨[], []⟩ with
    | none => .error .panic
    | some b =>
      match nodeRows m M.data M.net.nodes b with
      | none => .error .panic
      | some (ids, b) =>
        match m.build with
        | none => .error .panic
        | some cols => .ok ⟨b.build m.colToEdges.length, cols, ids⟩

/-! ## Update -/

/-- `Result<Vec<_>, _>::collect` over the states of a group. -/
def collect {α : Type} : List (Option α) → Option (List α)
  | [] => some []
  | none :: _ => none
  | some v :: vs => (collect vs).map (v :: ·)

/-- `update_edge_objectives` after the reset, lines 319-351. -/
def objLoop (M : Model) (states : List StepState) (cols : List Nat) : List Edge → Lp → Option Lp
  | [], lp => some lp
  | e :: es, lp =>
    match collect (states.map (fun s => (edgeCost M s.metric e).map (fun c => if c ≠ 0 then -c else 0))), cols[e.index]? with
    | some cost, some col =>
      match lp.addObj col cost with
      | none => none
      | some lp => objLoop M states cols es lp
    | _, _ => none

/-- The limit of a flow node, lines 371-383 with `get_bounds`, `node.rs:694-709`: the minimum is looked up and not used. -/
def flowLimit (d : NodeData) (s : StepState) : Option ℚ :=
  match valueOr 0 s.metric d.minFlow, valueOr f64MAX s.metric d.maxFlow with
  | some _, some hi => some (min hi bMax)
  | _, _ => none

/-- Available and missing volume per day of a storage, lines 390-401 with `get_bounds`, `node.rs:710-716`. -/
def volumeLimits (n : TNode) (d : NodeData) (s : StepState) : Option (ℚ × ℚ) :=
  match s.volume n.index, valueOr 0 s.metric d.minVolume, valueOr f64MAX s.metric d.maxVolume with
  | some v, some lo, some hi => some ((v - lo) / s.days, (hi - v) / s.days)
  | _, _, _ => none

/-- One node of `update_node_constraint_bounds`, lines 363-411: the row ids left, and the program. -/
def boundsStep (M : Model) (states : List StepState) (n : TNode) (ids : List Nat) (lp : Lp) : Option (List Nat × Lp) :=
  match n.kind with
  | .storage =>
    match collect (states.map (volumeLimits n (M.data n.index))), ids with
    | some vols, i :: j :: ids =>
      match lp.applyBounds i (vols.map (·.2)) with
      | none => none
      | some lp => (lp.applyBounds j (vols.map (·.1))).map (ids, ·)
    | _, _ => none
  | _ =>
    if maxFlowUnconstrained (M.data n.index) then some (ids, lp)
    else
      match collect (states.map (flowLimit (M.data n.index))), ids with
      | some ubs, i :: ids => (lp.applyBounds i ubs).map (ids, ·)
      | _, _ => none

/-- `update_node_constraint_bounds`, lines 354-415. -/
def boundsLoop (M : Model) (states : List StepState) : List TNode → List Nat → Lp → Option Lp
  | [], _, lp => some lp
  | n :: ns, ids, lp =>
    match boundsStep M states n ids lp with
    | none => none
    | some (ids, lp) => boundsLoop M states ns ids lp

/-- `update`, lines 294-313. -/
def update (M : Model) (states : List StepState) (s : Built) : Option Built :=
  match objLoop M states s.cols M.net.edges s.lp.zeroObj with
  | none => none
  | some lp =>
    match boundsLoop M states M.net.nodes s.rowIds lp.resetBounds with
    | none => none
    | some lp => some { s with lp := lp }

/-- What `solve` passes to the solver for a lane, lines 673-678: bounds and objective. -/
def Built.lane (s : Built) (k : Fin 4) : List ℚ × List ℚ := (s.lp.rowUpper.map (· k), s.lp.colObj.map (· k))

/-- Flow of an edge in a lane of a solution, lines 689-700. -/
def Built.edgeFlow (s : Built) (x : Nat → ℚ) (e : Nat) : ℚ := x (s.cols.getD e 0)

/-! ## Features -/

/-- `SolverFeatures`, `solvers/mod.rs`. -/
inductive Feature
  | aggregatedNode | virtualStorage | aggregatedNodeFactors | aggregatedNodeDynamicFactors | mutualExclusivity
  deriving DecidableEq, Repr

/-- `Factors::is_constant`, `aggregated_node.rs:34-43`. -/
def isConstant : Factors → Bool
  | .proportion fs => fs.all (·.const?.isSome)
  | .ratio fs => fs.all (·.const?.isSome)
  | .coefficients fs rhs => fs.all (·.const?.isSome) && (match rhs with | none => true | some m => m.const?.isSome)

/-- `has_factors() && !has_const_factors()`, `aggregated_node.rs:384-397`. -/
def dynamicFactors (a : AggNode) : Bool :=
  match a.factors with
  | some f => !isConstant f
  | none => false

/-- `required_features`, `network.rs:953-985`; the set as a list. -/
def requiredFeatures (M : Model) : List Feature :=
  (if M.aggs.isEmpty then [] else [.aggregatedNode]) ++
  (if M.aggs.any (·.factors.isSome) then [.aggregatedNodeFactors] else []) ++
  (if M.aggs.any dynamicFactors then [.aggregatedNodeDynamicFactors] else []) ++
  (if M.aggs.any (·.exclusivity.isSome) then [.mutualExclusivity] else []) ++
  (if M.vs.isEmpty then [] else [.virtualStorage])

/-- `features` of the interior point solver, `ipm_simd/mod.rs:619-621`. -/
def ipmFeatures : List Feature := []

/-- `features` of Clp, `clp/mod.rs:368-375`. -/
def clpFeatures : List Feature := [.aggregatedNode, .aggregatedNodeFactors, .aggregatedNodeDynamicFactors, .virtualStorage]

/-- `features` of Cbc, `cbc/mod.rs:245-252`. -/
def cbcFeatures : List Feature := [.aggregatedNode, .virtualStorage, .aggregatedNodeFactors, .mutualExclusivity]

/-- `features` of HiGHS, `highs/mod.rs:320-329`. -/
def highsFeatures : List Feature :=
  [.virtualStorage, .mutualExclusivity, .aggregatedNode, .aggregatedNodeFactors, .aggregatedNodeDynamicFactors, .virtualStorage]

/-- `check_solver_features` and `check_multi_scenario_solver_features`, `network.rs:650-668`. -/
def accepted (features : List Feature) (M : Model) : Bool := (requiredFeatures M).all (features.contains ·)

end Verif.IpmLp
