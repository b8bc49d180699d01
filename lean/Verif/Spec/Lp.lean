import Verif.Model.Lp
import Mathlib.Algebra.BigOperators.Group.List.Basic

/-! # What a linear program in sparse form means -/

namespace Verif.Solver

/-- The entries (column, coefficient) of row `i` of the sparse matrix. -/
def Lp.entries (lp : Lp) (i : Nat) : List (Nat × ℚ) :=
  ((lp.columns.zip lp.elements).take (lp.rowStarts.getD (i + 1) 0)).drop (lp.rowStarts.getD i 0)

/-- Value of a list of entries at `x`. -/
def value (entries : List (Nat × ℚ)) (x : Nat → ℚ) : ℚ := (entries.map fun p => p.2 * x p.1).sum

/-- `x` satisfies all rows of the program. -/
def Lp.RowsHold (lp : Lp) (x : Nat → ℚ) : Prop :=
  ∀ (i : Nat) (lo hi : ℚ), lp.rowLower[i]? = some lo → lp.rowUpper[i]? = some hi →
    lo ≤ value (lp.entries i) x ∧ value (lp.entries i) x ≤ hi

/-- `x` satisfies the bounds of all columns; integer columns take whole values. -/
def Lp.ColsHold (lp : Lp) (x : Nat → ℚ) : Prop :=
  ∀ (c : Nat) (lo hi : ℚ), lp.colLower[c]? = some lo → lp.colUpper[c]? = some hi →
    lo ≤ x c ∧ x c ≤ hi ∧ (lp.colType[c]? = some .integer → ∃ n : Int, x c = n)

/-- Feasibility. -/
def Lp.Feasible (lp : Lp) (x : Nat → ℚ) : Prop := lp.RowsHold x ∧ lp.ColsHold x

/-- Value of the objective. -/
def Lp.objective (lp : Lp) (x : Nat → ℚ) : ℚ := (lp.colObj.zipIdx.map fun p => p.1 * x p.2).sum

/-- `x` satisfies one row of the builder, with `big` for a missing upper bound. -/
def Row.Holds (r : Row) (big : ℚ) (x : Nat → ℚ) : Prop := r.lower ≤ value r.columns x ∧ value r.columns x ≤ r.upper.getD big

/-- Operations on the builder. -/
inductive Op
  | column (obj : ℚ) (bounds : Bounds) (ty : ColType)
  | fixedRow (r : Row)
  | variableRow (r : Row)

/-- Perform operations, collecting the rows added as variable rows with the ids returned. -/
def LpBuilder.run (b : LpBuilder) : List Op → LpBuilder × List (Row × Nat)
  | [] => (b, [])
  | .column o bd t :: ops => (b.addColumn o bd t).2.run ops
  | .fixedRow r :: ops => (b.addFixedRow r).run ops
  | .variableRow r :: ops =>
    (((b.addVariableRow r).2.run ops).1, (r, (b.addVariableRow r).1) :: ((b.addVariableRow r).2.run ops).2)

/-- Apply bounds one after the other (`none` if a row does not exist). -/
def Lp.applyBounds (lp : Lp) : List (Nat × ℚ × ℚ) → Option Lp
  | [] => some lp
  | (r, l, u) :: rest => (lp.applyRowBounds r l u).bind (·.applyBounds rest)

end Verif.Solver
