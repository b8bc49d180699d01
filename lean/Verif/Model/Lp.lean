import Mathlib.Algebra.Order.Field.Rat

/-!
# The linear program and its builder

Transcribed from `/repo/pywr-core/src/solvers/builder.rs`, lines 11-288 and 391-414. The index type `I` is `Nat` (no
overflow), `f64` is `ℚ`, so the panic of `add_element` on a non-finite value cannot occur.
-/

namespace Verif.Solver

/-! ## `BTreeMap` with natural number keys, as a sorted association list -/

/-- `BTreeMap<I, _>`. -/
abbrev OMap (α : Type) := List (Nat × α)

/-- `BTreeMap::get`. -/
def OMap.find {α : Type} (k : Nat) : OMap α → Option α
  | [] => none
  | (k', v) :: rest => if k' = k then some v else OMap.find k rest

/-- `BTreeMap::insert`. -/
def OMap.insert {α : Type} (k : Nat) (v : α) : OMap α → OMap α
  | [] => [(k, v)]
  | (k', v') :: rest =>
    if k < k' then (k, v) :: (k', v') :: rest
    else if k = k' then (k, v) :: rest
    else (k', v') :: OMap.insert k v rest

/-! ## Rows -/

/-- `RowBuilder`, lines 246-251. -/
structure Row where
  lower : ℚ
  upper : Option ℚ
  columns : OMap ℚ
  deriving DecidableEq, Repr

/-- `RowBuilder::default`, lines 253-261. -/
def Row.default : Row := ⟨0, none, []⟩

/-- `set_upper`, lines 267-269. -/
def Row.setUpper (r : Row) (u : ℚ) : Row := { r with upper := some u }

/-- `set_lower`, lines 271-273. -/
def Row.setLower (r : Row) (l : ℚ) : Row := { r with lower := l }

/-- `add_element`, lines 282-287: `*entry(column).or_insert(0.0) += value`. -/
def Row.addElement (r : Row) (column : Nat) (value : ℚ) : Row :=
  { r with columns := r.columns.insert column ((r.columns.find column).getD 0 + value) }

/-! ## The builder -/

/-- `ColType`, lines 20-23. -/
inductive ColType | continuous | integer
  deriving DecidableEq, Repr

/-- `LpBuilder`, lines 129-138. -/
structure LpBuilder where
  f64Max : ℚ
  f64NegMax : ℚ
  colLower : List ℚ
  colUpper : List ℚ
  colObj : List ℚ
  colType : List ColType
  rows : List Row
  fixedRows : List Row
  deriving DecidableEq, Repr

/-- `LpBuilder::new`, lines 144-155. -/
def LpBuilder.new (f64Max f64NegMax : ℚ) : LpBuilder := ⟨f64Max, f64NegMax, [], [], [], [], [], []⟩

/-- `Bounds`, lines 11-17. -/
inductive Bounds
  | lower (l : ℚ)
  | double (l u : ℚ)

/-- `add_column`, lines 157-171: the column id and the new builder. -/
def LpBuilder.addColumn (b : LpBuilder) (obj : ℚ) (bounds : Bounds) (ty : ColType) : Nat × LpBuilder :=
  let (lb, ub) := match bounds with
    | .double l u => (l, u)
    | .lower l => (l, b.f64Max)
  (b.colLower.length,
    { b with colLower := b.colLower ++ [lb], colUpper := b.colUpper ++ [ub], colObj := b.colObj ++ [obj],
             colType := b.colType ++ [ty] })

/-- `add_fixed_row`, lines 177-179. -/
def LpBuilder.addFixedRow (b : LpBuilder) (r : Row) : LpBuilder := { b with fixedRows := b.fixedRows ++ [r] }

/-- `iter().position(|r| r == &row)`, line 183. -/
def rowPosition (r : Row) : List Row → Option Nat
  | [] => none
  | x :: xs => if x = r then some 0 else (rowPosition r xs).map (· + 1)

/-- `add_variable_row`, lines 182-192: the row id and the new builder. -/
def LpBuilder.addVariableRow (b : LpBuilder) (r : Row) : Nat × LpBuilder :=
  match rowPosition r b.rows with
  | some i => (i, b)
  | none => (b.rows.length, { b with rows := b.rows ++ [r] })

/-! ## The sparse form -/

/-- `Lp`, lines 29-46. -/
structure Lp where
  f64Max : ℚ
  f64NegMax : ℚ
  colLower : List ℚ
  colUpper : List ℚ
  colObj : List ℚ
  colType : List ColType
  rowLower : List ℚ
  rowUpper : List ℚ
  rowMask : List Nat
  rowStarts : List Nat
  columns : List Nat
  elements : List ℚ
  coefficientsToUpdate : List (Nat × Nat × ℚ)
  deriving DecidableEq, Repr

/-- The arrays filled by the loop of lines 214-226. -/
structure Arrays where
  rowLower : List ℚ
  rowUpper : List ℚ
  rowMask : List Nat
  rowStarts : List Nat
  columns : List Nat
  elements : List ℚ

/-- One row of the loop of lines 215-225. -/
def Arrays.push (a : Arrays) (f64Max : ℚ) (mask : Nat) (r : Row) : Arrays :=
  { rowLower := a.rowLower ++ [r.lower]
    rowUpper := a.rowUpper ++ [r.upper.getD f64Max]
    rowMask := a.rowMask ++ [mask]
    rowStarts := a.rowStarts ++ [a.rowStarts.getLastD 0 + r.columns.length]
    columns := a.columns ++ r.columns.map (·.1)
    elements := a.elements ++ r.columns.map (·.2) }

/-- `build`, lines 200-243: variable rows first with mask one, then fixed rows with mask zero. -/
def LpBuilder.build (b : LpBuilder) : Lp :=
  let a₀ : Arrays := ⟨[], [], [], [0], [], []⟩
  let a₁ := b.rows.foldl (fun a r => a.push b.f64Max 1 r) a₀
  let a := b.fixedRows.foldl (fun a r => a.push b.f64Max 0 r) a₁
  { f64Max := b.f64Max, f64NegMax := b.f64NegMax, colLower := b.colLower, colUpper := b.colUpper, colObj := b.colObj,
    colType := b.colType, rowLower := a.rowLower, rowUpper := a.rowUpper, rowMask := a.rowMask, rowStarts := a.rowStarts,
    columns := a.columns, elements := a.elements, coefficientsToUpdate := [] }

/-- `zero_obj_coefficients`, lines 53-55. -/
def Lp.zeroObj (lp : Lp) : Lp := { lp with colObj := lp.colObj.map (fun _ => 0) }

/-- `add_obj_coefficient`, lines 58-60 (`none`: index out of range). -/
def Lp.addObj (lp : Lp) (col : Nat) (c : ℚ) : Option Lp :=
  if col < lp.colObj.length then some { lp with colObj := lp.colObj.modify col (· + c) } else none

/-- Bounds of the rows with a mask, lines 65-74. -/
def resetBounds (v : ℚ) : List Nat → List ℚ → List ℚ
  | m :: ms, b :: bs => (if m = 1 then v else b) :: resetBounds v ms bs
  | _, bs => bs

/-- `reset_row_bounds`, lines 63-76. -/
def Lp.resetRowBounds (lp : Lp) : Lp :=
  { lp with rowLower := resetBounds lp.f64NegMax lp.rowMask lp.rowLower
            rowUpper := resetBounds lp.f64Max lp.rowMask lp.rowUpper }

/-- `reset_coefficients_to_update`, lines 78-80. -/
def Lp.resetCoefficients (lp : Lp) : Lp := { lp with coefficientsToUpdate := [] }

/-- `apply_row_bounds`, lines 85-88 (`none`: index out of range). -/
def Lp.applyRowBounds (lp : Lp) (row : Nat) (lb ub : ℚ) : Option Lp :=
  if row < lp.rowLower.length ∧ row < lp.rowUpper.length then
    some { lp with rowLower := lp.rowLower.modify row (fun x => max x lb)
                   rowUpper := lp.rowUpper.modify row (fun x => min x ub) }
  else none

/-- `coefficients_to_update.push(..)`. -/
def Lp.pushCoefficient (lp : Lp) (row col : Nat) (v : ℚ) : Lp :=
  { lp with coefficientsToUpdate := lp.coefficientsToUpdate ++ [(row, col, v)] }

/-- `iter().position(|c| c == col)`, lines 403-405. -/
def colPosition (col : Nat) : List Nat → Option Nat
  | [] => none
  | c :: cs => if c = col then some 0 else (colPosition col cs).map (· + 1)

/-- One entry of `apply_updated_coefficients`, lines 394-413 (`none` is a panic). -/
def Lp.applyCoefficient (lp : Lp) (row col : Nat) (v : ℚ) : Option Lp :=
  match lp.rowStarts[row]?, lp.rowStarts[row + 1]? with
  | some s, some e =>
    match colPosition col ((lp.columns.take e).drop s) with
    | some p => some { lp with elements := lp.elements.set (s + p) v }
    | none => none
  | _, _ => none

/-- The loop of `apply_updated_coefficients`, lines 393-414. -/
def Lp.applyAll (lp : Lp) : List (Nat × Nat × ℚ) → Option Lp
  | [] => some lp
  | (r, c, v) :: rest =>
    match lp.applyCoefficient r c v with
    | none => none
    | some lp' => lp'.applyAll rest

/-- `apply_updated_coefficients`, lines 393-414: the list is drained. -/
def Lp.applyUpdatedCoefficients (lp : Lp) : Option Lp :=
  (lp.applyAll lp.coefficientsToUpdate).map (fun l => { l with coefficientsToUpdate := [] })

end Verif.Solver
