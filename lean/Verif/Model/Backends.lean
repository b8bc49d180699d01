import Verif.Model.Solver

/-!
# The solvers that call a library

Transcribed from `/repo/pywr-core/src/solvers/{clp,cbc,highs,microlp}/mod.rs`. A library is a store for a program that is changed
by the calls made on it, as the libraries document them, and that gives an arbitrary answer when it is run. The reading of arrays
handed over as pointers stops at the end of the array. Log levels, options and timings are left out.
-/

namespace Verif.Backends

open Verif.Solver

/-- The program held by a library. -/
structure Held where
  colLower : List ℚ
  colUpper : List ℚ
  colObj : List ℚ
  integer : List Bool
  rowLower : List ℚ
  rowUpper : List ℚ
  rows : List (List (Nat × ℚ))
  deriving DecidableEq, Repr

/-- A new program. -/
def Held.empty : Held := ⟨[], [], [], [], [], [], []⟩

/-- An array of the library overwritten by one that is handed over. -/
def overwrite : List ℚ → List ℚ → List ℚ
  | _ :: os, n :: ns => n :: overwrite os ns
  | os, _ => os

/-- Part of an array overwritten: where the mask is one (`Highs_changeRowsBoundsByMask`). -/
def overwriteMasked : List Nat → List ℚ → List ℚ → List ℚ
  | m :: ms, o :: os, n :: ns => (if m = 0 then o else n) :: overwriteMasked ms os ns
  | _, os, _ => os

/-- The entries of one row: from `start` up to `stop`. -/
def slice (columns : List Nat) (elements : List ℚ) (start stop : Nat) : List (Nat × ℚ) :=
  ((columns.zip elements).drop start).take (stop - start)

/-- The rows of a sparse matrix handed over (`Clp_addRows`, `Highs_addRows`). -/
def sparseRows (n : Nat) (starts columns : List Nat) (elements : List ℚ) : List (List (Nat × ℚ)) :=
  match n, starts with
  | n + 1, s :: e :: rest => slice columns elements s e :: sparseRows n (e :: rest) columns elements
  | _, _ => []

/-- Set the coefficient of a column, which is added if the row does not have it. -/
def setEntry (c : Nat) (v : ℚ) : List (Nat × ℚ) → List (Nat × ℚ)
  | [] => [(c, v)]
  | (c', v') :: rest => if c' = c then (c, v) :: rest else (c', v') :: setEntry c v rest

/-- `Clp_modifyCoefficient` and `Highs_changeCoeff`. -/
def Held.modify (h : Held) (row col : Nat) (v : ℚ) : Held := { h with rows := h.rows.modify row (setEntry col v) }

/-! ## Clp -/

/-- `Clp_resize` of a new program to `n` columns. -/
def Held.resize (n : Nat) : Held :=
  { Held.empty with colLower := List.replicate n 0, colUpper := List.replicate n f64MAX, colObj := List.replicate n 0,
                    integer := List.replicate n false }

/-- `ClpSolver::from_builder`, `clp/mod.rs` 328-350. -/
def clpSetup (lp : Lp) : Held :=
  let h := Held.resize lp.colUpper.length
  { h with
    colLower := overwrite h.colLower lp.colLower
    colUpper := overwrite h.colUpper lp.colUpper
    colObj := overwrite h.colObj lp.colObj
    rowLower := lp.rowLower
    rowUpper := lp.rowUpper
    rows := sparseRows lp.rowLower.length lp.rowStarts lp.columns lp.elements }

/-- The calls of `solve`, `clp/mod.rs` 398-408. -/
def clpUpdate (lp : Lp) (h : Held) : Held :=
  lp.coefficientsToUpdate.foldl (fun h t => h.modify t.1 t.2.1 t.2.2)
    { h with
      colObj := overwrite h.colObj lp.colObj
      rowLower := overwrite h.rowLower lp.rowLower
      rowUpper := overwrite h.rowUpper lp.rowUpper }

/-! ## Cbc -/

/-- `add_cols`, `cbc/mod.rs` 87-120: the loop over the columns; `none` is an index out of range. -/
def cbcAddCols : List ℚ → List ℚ → List ColType → List ℚ → Held → Option Held
  | [], _, _, _, h => some h
  | l :: ls, u :: us, t :: ts, o :: os, h =>
    cbcAddCols ls us ts os
      { h with colLower := h.colLower ++ [l], colUpper := h.colUpper ++ [u], colObj := h.colObj ++ [o],
               integer := h.integer ++ [match t with | .continuous => false | .integer => true] }
  | _ :: _, _, _, _, _ => none

/-- `add_rows`, `cbc/mod.rs` 122-156: each row is added as an equation with zero, then its bounds are set. -/
def cbcAddRows (columns : List Nat) (elements : List ℚ) : List ℚ → List ℚ → List Nat → Held → Option Held
  | [], _, _, h => some h
  | l :: ls, u :: us, s :: e :: rest, h =>
    cbcAddRows columns elements ls us (e :: rest)
      { h with rowLower := h.rowLower ++ [l], rowUpper := h.rowUpper ++ [u], rows := h.rows ++ [slice columns elements s e] }
  | _ :: _, _, _, _ => none

/-- `CbcSolver::from_builder`, `cbc/mod.rs` 208-227. -/
def cbcSetup (lp : Lp) : Option Held :=
  match cbcAddCols lp.colLower lp.colUpper lp.colType lp.colObj Held.empty with
  | none => none
  | some h => cbcAddRows lp.columns lp.elements lp.rowLower lp.rowUpper lp.rowStarts h

/-- The loops of `change_row_lower`, `change_row_upper` and `change_objective_coefficients`, `cbc/mod.rs` 63-85. -/
def setEach (new : List ℚ) (old : List ℚ) : List ℚ := new.zipIdx.foldl (fun l p => l.set p.2 p.1) old

/-- The calls of `solve`, `cbc/mod.rs` 275-287; `none` is `MissingSolverFeatures`. -/
def cbcUpdate (lp : Lp) (h : Held) : Option Held :=
  if lp.coefficientsToUpdate.isEmpty then
    some { h with
      colObj := setEach lp.colObj h.colObj
      rowLower := setEach lp.rowLower h.rowLower
      rowUpper := setEach lp.rowUpper h.rowUpper }
  else none

/-! ## HiGHS -/

/-- The type handed over for a column, `highs/mod.rs` 192-195. -/
def whole : ColType → Bool
  | .continuous => false
  | .integer => true

/-- `add_cols`, `highs/mod.rs` 167-203: the columns, and then their types one by one. -/
def highsAddCols (lp : Lp) : Held :=
  { Held.empty with
    colLower := lp.colLower
    colUpper := lp.colUpper
    colObj := lp.colObj
    integer := lp.colType.zipIdx.foldl (fun l p => l.set p.2 (whole p.1)) (List.replicate lp.colUpper.length false) }

/-- `setup`, `highs/mod.rs` 331-366. -/
def highsSetup (lp : Lp) : Held :=
  { highsAddCols lp with
    rowLower := lp.rowLower
    rowUpper := lp.rowUpper
    rows := sparseRows lp.rowUpper.length lp.rowStarts lp.columns lp.elements }

/-- `coefficient.clamp(-1e10, 1e10)`, `highs/mod.rs` 395. -/
def clamp (v : ℚ) : ℚ := max (-10000000000) (min v 10000000000)

/-- The calls of `solve`, `highs/mod.rs` 379-396. -/
def highsUpdate (lp : Lp) (h : Held) : Held :=
  lp.coefficientsToUpdate.foldl (fun h t => h.modify t.1 t.2.1 (clamp t.2.2))
    { h with
      colObj := overwrite h.colObj lp.colObj
      rowLower := overwriteMasked lp.rowMask h.rowLower lp.rowLower
      rowUpper := overwriteMasked lp.rowMask h.rowUpper lp.rowUpper }

/-! ## A solver of one scenario -/

/-- The solvers whose library keeps the program from step to step. -/
inductive Library | clp | cbc | highs
  deriving DecidableEq, Repr

/-- `ClpSolver`, `CbcSolver` and `HighsSolver`. -/
structure Session where
  built : Built
  held : Held
  deriving DecidableEq, Repr

/-- The program given to the library at setup. -/
def Library.given (L : Library) (lp : Lp) : Option Held :=
  match L with
  | .clp => some (clpSetup lp)
  | .cbc => cbcSetup lp
  | .highs => some (highsSetup lp)

/-- The changes made to it in a step. -/
def Library.change (L : Library) (lp : Lp) (h : Held) : Option Held :=
  match L with
  | .clp => some (clpUpdate lp h)
  | .cbc => cbcUpdate lp h
  | .highs => some (highsUpdate lp h)

/-- `Solver::setup`: the builder is given the largest number for infinity (e.g. `clp/mod.rs` 382-383). -/
def Library.setup (L : Library) (M : Model) (sets : List (List Nat)) : Except SetupErr Session :=
  match create M f64MAX (-f64MAX) sets with
  | .error e => .error e
  | .ok s =>
    match L.given s.lp with
    | none => .error .panic
    | some h => .ok ⟨s, h⟩

/-- What stops a step before the library is run. -/
inductive Stop
  | builder (e : SolveErr)
  | missingFeatures
  deriving DecidableEq, Repr

/-- `Solver::solve` up to the run of the library. The builder keeps its matrix as it was at setup. -/
def Library.prepare (L : Library) (M : Model) (S : Session) (st : StepState) : Except Stop Session :=
  match update M S.built st with
  | .error e => .error (.builder e)
  | .ok s =>
    match L.change s.lp S.held with
    | none => .error .missingFeatures
    | some h => .ok ⟨s, h⟩

/-- Many steps, one after the other. -/
def Library.prepareAll (L : Library) (M : Model) : List StepState → Session → Except Stop Session
  | [], S => .ok S
  | st :: sts, S =>
    match L.prepare M S st with
    | .error e => .error e
    | .ok S => L.prepareAll M sts S

/-! ## Microlp -/

/-- `ComparisonOp`. -/
inductive Op | eq | ge | le
  deriving DecidableEq, Repr

/-- A variable: cost, bounds, and whether it is whole. -/
structure Var where
  obj : ℚ
  lower : ℚ
  upper : ℚ
  integer : Bool
  deriving DecidableEq, Repr

/-- `microlp::Problem`. -/
structure Problem where
  vars : List Var
  constraints : List (List (Nat × ℚ) × Op × ℚ)
  deriving DecidableEq, Repr

/-- `as i32`: towards zero, and not beyond the range. -/
def asI32 (q : ℚ) : Int :=
  max (-2147483648) (min (Int.tdiv q.num q.den) 2147483647)

/-- The variables, `microlp/mod.rs` 29-50; a binary variable is a whole one from 0 to 1. -/
def microVars : List ℚ → List ℚ → List ℚ → List ColType → List Var
  | l :: ls, u :: us, o :: os, t :: ts =>
    (match t with
    | .continuous => ⟨o, l, u, false⟩
    | .integer => if asI32 l = 0 ∧ asI32 u = 1 then ⟨o, 0, 1, true⟩ else ⟨o, asI32 l, asI32 u, true⟩) :: microVars ls us os ts
  | _, _, _, _ => []

/-- The constraints of the rows, `microlp/mod.rs` 52-77, with `big` for infinity. `none` is the assertion that fails. The
number of a variable is that of its column. -/
def microRows (big : ℚ) (columns : List Nat) (elements : List ℚ) : List ℚ → List ℚ → List Nat →
    Option (List (List (Nat × ℚ) × Op × ℚ))
  | l :: ls, u :: us, s :: e :: rest =>
    match microRows big columns elements ls us (e :: rest) with
    | none => none
    | some cs =>
      let row := slice columns elements s e
      if l = u then some ((row, .eq, l) :: cs)
      else if l < u then some ((row, .ge, l) :: if u = big then cs else (row, .le, u) :: cs)
      else none
  | _, _, _ => some []

/-- `make_problem`, `microlp/mod.rs` 26-81. -/
def makeProblem (lp : Lp) : Option Problem :=
  match microRows lp.f64Max lp.columns lp.elements lp.rowLower lp.rowUpper lp.rowStarts with
  | none => none
  | some cs => some ⟨microVars lp.colLower lp.colUpper lp.colObj lp.colType, cs⟩

/-- `solve` up to the run of the library, `microlp/mod.rs` 119-125: the coefficients are written to the matrix of the builder, and a
new problem is made. -/
def microPrepare (M : Model) (s : Built) (st : StepState) : Except SolveErr (Built × Problem) :=
  match step M s st with
  | .error e => .error e
  | .ok s =>
    match makeProblem s.lp with
    | none => .error .panic
    | some p => .ok (s, p)

/-! ## Answers -/

/-- What `solve` returns: the flows of the edges, an error, or a panic. -/
inductive Result
  | flows (f : List ℚ)
  | error
  | panic
  deriving DecidableEq, Repr

/-- The flows of the edges from the values of the columns, e.g. `clp/mod.rs` 425-429; an index out of range panics. -/
def saved (cols : List Nat) (values : List ℚ) : Result :=
  match cols.mapM (fun c => values[c]?) with
  | some f => .flows f
  | none => .panic

/-- `to_clp_result` and `dual_solve`, `clp/mod.rs` 35-57 and 260-267: the status decides; what `Clp_dual` returns is not looked at. -/
def clpResult (cols : List Nat) (status : Int) (values : List ℚ) : Result :=
  if status = 0 then saved cols values else .error

/-- What HiGHS returns from a call. -/
inductive HighsReturn | ok | warning | error | other
  deriving DecidableEq, Repr

/-- The status of a model; the statuses of `highs/mod.rs` 129-146 other than these two are one, and lines 147-152 another. -/
inductive HighsStatus
  | optimal | unknown | notOptimal | unlisted
  deriving DecidableEq, Repr

/-- The outcome of a part: carry on, an error of the model (`unknown` is tried again), another error, or a panic. -/
inductive HighsOutcome | ok | model (unknown : Bool) | panic
  deriving DecidableEq, Repr

/-- `to_highs_result`, `highs/mod.rs` 66-87; the error is `none`. -/
def highsCall : HighsReturn → Option (Option Unit)
  | .ok => some (some ())
  | .warning => some (some ())
  | .error => some none
  | .other => none

/-- `run`, `highs/mod.rs` 253-260, and `to_highs_model_result`, lines 128-155. -/
def highsRun (ret : HighsReturn) (status : HighsStatus) : HighsOutcome :=
  match highsCall ret with
  | none => .panic
  | some none => .model true
  | some (some ()) =>
    match status with
    | .optimal => .ok
    | .unknown => .model true
    | .notOptimal => .model false
    | .unlisted => .panic

/-- What the library answers to the calls of one step. -/
structure HighsAnswers where
  first : HighsReturn × HighsStatus
  clear : HighsReturn
  second : HighsReturn × HighsStatus
  write : HighsReturn
  solution : HighsReturn
  values : List ℚ

/-- `primal_column_solution`, lines 276-296, and the rest of `solve`. -/
def highsSave (cols : List Nat) (a : HighsAnswers) : Result :=
  match highsCall a.solution with
  | none => .panic
  | some none => .error
  | some (some ()) => saved cols a.values

/-- The model is written to a file and an error is returned, `highs/mod.rs` 412-416. -/
def highsFailed (a : HighsAnswers) : Result :=
  match highsCall a.write with
  | none => .panic
  | some _ => .error

/-- `solve` from the run on, `highs/mod.rs` 402-436: a run of unknown outcome is repeated once. -/
def highsResult (cols : List Nat) (a : HighsAnswers) : Result :=
  match highsRun a.first.1 a.first.2 with
  | .panic => .panic
  | .ok => highsSave cols a
  | .model false => highsFailed a
  | .model true =>
    match highsCall a.clear with
    | none => .panic
    | some none => .error
    | some (some ()) =>
      match highsRun a.second.1 a.second.2 with
      | .panic => .panic
      | .ok => highsSave cols a
      | .model _ => highsFailed a

/-- What Cbc has found, by `Cbc_isProvenOptimal` and `Cbc_isProvenInfeasible`. -/
inductive CbcFound | optimal | infeasible | neither
  deriving DecidableEq, Repr

/-- `solve`, `cbc/mod.rs` 158-165 and 292-306: only the returned number is looked at; flows below `1e-10` become zero. -/
def cbcResult (cols : List Nat) (ret : Int) (_found : CbcFound) (values : List ℚ) : Result :=
  if ret ≠ 0 then .panic
  else
    match saved cols values with
    | .flows f => .flows (f.map fun q => if |q| < 1 / 10000000000 then 0 else q)
    | r => r

/-- `microlp::Problem::solve`. -/
inductive MicroAnswer
  | failed
  | interrupted
  | solution (values : List ℚ)

/-- `solve`, `microlp/mod.rs` 129-153. -/
def microResult (cols : List Nat) : MicroAnswer → Result
  | .failed => .error
  | .interrupted => .error
  | .solution values => saved cols values

end Verif.Backends
