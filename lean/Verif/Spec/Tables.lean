import Verif.Model.Tables

/-!
# Specification of data tables

A file is a grid of fields. A kind of look-up says which rows are headers, which of them are labels of columns, and how many columns are labels of
rows.
-/

namespace Verif.Tables

/-- Which part of a grid are labels: `header` rows are not data, the first `rows` of them are labels of columns, and the first `cols` columns
are labels of rows. -/
structure Layout where
  header : Nat
  rows : Nat
  cols : Nat
  deriving DecidableEq, Repr

/-- The layout of a table: labels of rows with a header row that is ignored, labels of columns, or both. -/
def Lookup.layout : Lookup → Layout
  | .row n => ⟨1, 0, n⟩
  | .col n => ⟨n, n, 0⟩
  | .both r c => ⟨r, r, c⟩

/-- The layouts for which tables of single values work. -/
def Lookup.Works : Lookup → Prop
  | .row n => n = 1 ∨ n = 2
  | .col n => n = 1 ∨ n = 2
  | .both r c => (r = 1 ∨ r = 2) ∧ (c = 1 ∨ c = 2)

/-- The field in row `i` and column `j`. -/
def field (file : List Record) (i j : Nat) : Option String := (file.getD i [])[j]?

/-- The labels of row `i`. -/
def rowLabels (L : Layout) (file : List Record) (i : Nat) : Key := (file.getD i []).take L.cols

/-- The labels of column `j`. -/
def colLabels (L : Layout) (file : List Record) (j : Nat) : Key := (file.take L.rows).map fun r => r.getD j ""

/-- A cell with data. -/
structure Cell (L : Layout) (file : List Record) (i j : Nat) (s : String) : Prop where
  below : L.header ≤ i
  right : L.cols ≤ j
  text : field file i j = some s

/-- The cell in row `i` and column `j` has these labels, those of the row first. -/
def Labelled (L : Layout) (file : List Record) (key : Key) (i j : Nat) : Prop :=
  (∃ s, Cell L file i j s) ∧ rowLabels L file i ++ colLabels L file j = key

/-- The cell has these labels and is a number. -/
def Number (num : String → Option ℚ) (L : Layout) (file : List Record) (key : Key) (i j : Nat) (v : ℚ) : Prop :=
  Labelled L file key i j ∧ ∃ s, field file i j = some s ∧ num s = some v

/-- No two cells have the same labels. -/
def Distinct (L : Layout) (file : List Record) : Prop :=
  ∀ key i j i' j', Labelled L file key i j → Labelled L file key i' j' → i = i' ∧ j = j'

/-- All records have the same number of fields. -/
def Rectangular (file : List Record) : Prop := ∀ r ∈ file, r.length = (file.headD []).length

/-- What a file must be like for a table of single values: enough header rows, a column of values only, or a row of values only. -/
def Fits (k : Lookup) (file : List Record) : Prop :=
  Rectangular file ∧
  match k with
  | .row n => file.length ≤ 1 ∨ (file.headD []).length = n + 1
  | .col n => file.length = n + 1
  | .both r c => (r ≤ file.length ∨ r = 1) ∧ (file.length ≤ r ∨ c ≤ (file.headD []).length)

/-- What a file must be like for a table of arrays: all data are numbers. -/
def FitsArray (num : String → Option ℚ) (k : Lookup) (file : List Record) : Prop :=
  Rectangular file ∧ (∀ i j s, Cell k.layout file i j s → (num s).isSome) ∧
  match k with
  | .row n => file.length ≤ 1 ∨ n ≤ (file.headD []).length
  | .col n => n ≤ file.length ∨ n = 1
  | .both _ _ => False

/-- The numbers in the data of row `i`. -/
def RowIs (num : String → Option ℚ) (L : Layout) (file : List Record) (i : Nat) (vs : List ℚ) : Prop :=
  ((file.getD i []).drop L.cols).map num = vs.map some

/-- The numbers in the data of column `j`. -/
def ColIs (num : String → Option ℚ) (L : Layout) (file : List Record) (j : Nat) (vs : List ℚ) : Prop :=
  ((file.drop L.header).map fun r => num (r.getD j "")) = vs.map some

end Verif.Tables
