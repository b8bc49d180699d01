import Mathlib.Data.Rat.Floor

/-!
# Data tables

Transcribed from `/repo/pywr-schema/src/data_tables/{mod,scalar,vec}.rs`.

Simplifications. A file is the list of the records that the CSV reader finds in it, which are lists of fields; the reader reports an error for
a record with another number of fields than the first. Reading the file, its path and its checksum are left out. `f64` is `ℚ`, and which texts
are numbers is given by a function (`str::parse::<f64>`; infinities and `NaN` are left out). As every text of an `i64` is also one
of an `f64`, the variant `TableScalarValue::Int` never occurs. A `HashMap` is the function that looks up its keys. Loops that push one field on each
column header are `zipWith`. Panics are errors.
-/

namespace Verif.Tables

abbrev Record := List String
abbrev Key := List String

/-- `TableError`, mod.rs 155-193. -/
inductive Err
  | csv
  | keyParse
  | parseFloat
  | tooManyColumns (expected found : Nat)
  | tooManyRows (expected found : Nat)
  | formatNotSupported
  | entryNotFound
  | wrongKeySize (expected given : Nat)
  | wrongTableFormat
  | u64Conversion
  | panic
  deriving DecidableEq, Repr

/-- `HashMap::insert` for all pairs in turn. -/
def insertAll {V : Type} : List (Key × V) → (Key → Option V) → Key → Option V
  | [], m => m
  | (k, v) :: l, m => insertAll l fun k' => if k' = k then some v else m k'

/-- `collect::<Result<Vec<_>, _>>()`. -/
def collect {α : Type} : List (Except Err α) → Except Err (List α)
  | [] => .ok []
  | .error e :: _ => .error e
  | .ok a :: l =>
    match collect l with
    | .error e => .error e
    | .ok as => .ok (a :: as)

/-- A record as the reader gives it, if the first has `w` fields. -/
def readRecord (w : Nat) (r : Record) : Except Err Record := if r.length = w then .ok r else .error .csv

/-! ## Tables of single values -/

/-- The closure for a record in `load_csv_rows_scalar_table`, scalar.rs 241-267. -/
def rowEntry (num : String → Option ℚ) (n w : Nat) (r : Record) : Except Err (Key × Option ℚ) :=
  match readRecord w r with
  | .error e => .error e
  | .ok r =>
    if r.length < n then .error .keyParse
    else
      match (r.drop n).map num with
      | [] => .error .panic
      | [v] => .ok (r.take n, v)
      | vs => .error (.tooManyColumns (1 + n) (vs.length + n))

/-- `load_csv_rows_scalar_table`, scalar.rs 233-275. -/
def loadRows (num : String → Option ℚ) (n : Nat) (file : List Record) : Except Err (Key → Option ℚ) :=
  match file with
  | [] => .ok fun _ => none
  | hdr :: recs =>
    match collect (recs.map (rowEntry num n hdr.length)) with
    | .error e => .error e
    | .ok es => .ok fun k => (insertAll es (fun _ => none) k).join

/-- The loop over further header rows, scalar.rs 172-181, 303-312 and vec.rs 139-148, with the rows left. -/
def moreHeaders (w skip : Nat) : Nat → List Key → List Record → Except Err (List Key × List Record)
  | 0, hs, recs => .ok (hs, recs)
  | _ + 1, _, [] => .error .csv
  | k + 1, hs, r :: recs =>
    match readRecord w r with
    | .error _ => .error .csv
    | .ok r => moreHeaders w skip k (List.zipWith (fun h s => h ++ [s]) hs (r.drop skip)) recs

/-- Column headers and records, scalar.rs 156-181, 288-312 and vec.rs 124-148, for `n` header rows of which the first `skip` fields are
passed over. -/
def headers (n skip : Nat) (file : List Record) : Except Err (List Key × List Record) :=
  let hdr := file.headD []
  moreHeaders hdr.length skip (n - 1) ((hdr.drop skip).map fun s => [s]) file.tail

/-- The closure for a record in `load_csv_row_col_scalar_table`, scalar.rs 189-206. -/
def bothEntry (num : String → Option ℚ) (c w : Nat) (r : Record) : Except Err (Key × List (Option ℚ)) :=
  match readRecord w r with
  | .error e => .error e
  | .ok r => if r.length < c then .error .keyParse else .ok (r.take c, (r.drop c).map num)

/-- `load_csv_row_col_scalar_table`, scalar.rs 142-230. -/
def loadBoth (num : String → Option ℚ) (r c : Nat) (file : List Record) : Except Err (Key → Option ℚ) :=
  match headers r c file with
  | .error e => .error e
  | .ok (hs, recs) =>
    match collect (recs.map (bothEntry num c (file.headD []).length)) with
    | .error e => .error e
    | .ok rows => .ok (insertAll (rows.flatMap fun row =>
        (hs.zip row.2).filterMap fun p => p.2.map fun v => (row.1 ++ p.1, v)) fun _ => none)

/-- The closure for a record in `load_csv_cols_scalar_table`, scalar.rs 315-324. -/
def colEntry (num : String → Option ℚ) (w : Nat) (r : Record) : Except Err (List (Option ℚ)) :=
  match readRecord w r with
  | .error e => .error e
  | .ok r => .ok (r.map num)

/-- `load_csv_cols_scalar_table`, scalar.rs 281-348. -/
def loadCols (num : String → Option ℚ) (n : Nat) (file : List Record) : Except Err (Key → Option ℚ) :=
  match headers n 0 file with
  | .error e => .error e
  | .ok (hs, recs) =>
    match collect (recs.map (colEntry num (file.headD []).length)) with
    | .error e => .error e
    | .ok rows =>
      match rows with
      | [] => .error .panic
      | [row] => .ok (insertAll ((hs.zip row).filterMap fun p => p.2.map fun v => (p.1, v)) fun _ => none)
      | rows => .error (.tooManyRows (1 + n) (rows.length + n))

/-- `LoadedScalarTable` and `ScalarTable`, scalar.rs 58-93: the number of parts of a key, and the values. -/
structure Scalar where
  n : Nat
  values : Key → Option ℚ

/-- `get_scalar`, scalar.rs 64-78. -/
def Scalar.get (t : Scalar) (key : Key) : Except Err ℚ :=
  if key.length = t.n then
    match t.values key with
    | some v => .ok v
    | none => .error .entryNotFound
  else .error (.wrongKeySize t.n key.length)

/-- A loaded table with keys of `n` parts. -/
def scalarOf (n : Nat) (r : Except Err (Key → Option ℚ)) : Except Err Scalar :=
  match r with
  | .error e => .error e
  | .ok m => .ok ⟨n, m⟩

/-- `from_csv_row`, scalar.rs 96-107: for three and four columns the type of the table is that of two. -/
def scalarRow (num : String → Option ℚ) (rows : Nat) (file : List Record) : Except Err Scalar :=
  match rows with
  | 1 => scalarOf 1 (loadRows num 1 file)
  | 2 => scalarOf 2 (loadRows num 2 file)
  | 3 => scalarOf 2 (loadRows num 2 file)
  | 4 => scalarOf 2 (loadRows num 2 file)
  | _ => .error .formatNotSupported

/-- `from_csv_col`, scalar.rs 110-121; the same. -/
def scalarCol (num : String → Option ℚ) (cols : Nat) (file : List Record) : Except Err Scalar :=
  match cols with
  | 1 => scalarOf 1 (loadCols num 1 file)
  | 2 => scalarOf 2 (loadCols num 2 file)
  | 3 => scalarOf 2 (loadCols num 2 file)
  | 4 => scalarOf 2 (loadCols num 2 file)
  | _ => .error .formatNotSupported

/-- `from_csv_row_col`, scalar.rs 123-137. -/
def scalarBoth (num : String → Option ℚ) (rows cols : Nat) (file : List Record) : Except Err Scalar :=
  match rows, cols with
  | 1, 1 => scalarOf 2 (loadBoth num 1 1 file)
  | 1, 2 => scalarOf 3 (loadBoth num 1 2 file)
  | 2, 1 => scalarOf 3 (loadBoth num 2 1 file)
  | 2, 2 => scalarOf 4 (loadBoth num 2 2 file)
  | _, _ => .error .formatNotSupported

/-! ## Tables of arrays -/

/-- `parse` of all fields. -/
def parseAll (num : String → Option ℚ) : List String → Option (List ℚ)
  | [] => some []
  | s :: l =>
    match num s, parseAll num l with
    | some v, some vs => some (v :: vs)
    | _, _ => none

/-- The closure for a record in `load_csv_row_vec_table`, vec.rs 97-113. -/
def rowVecEntry (num : String → Option ℚ) (n w : Nat) (r : Record) : Except Err (Key × List ℚ) :=
  match readRecord w r with
  | .error e => .error e
  | .ok r =>
    if r.length < n then .error .keyParse
    else
      match parseAll num (r.drop n) with
      | none => .error .parseFloat
      | some vs => .ok (r.take n, vs)

/-- `load_csv_row_vec_table`, vec.rs 86-117. -/
def loadRowVec (num : String → Option ℚ) (n : Nat) (file : List Record) : Except Err (Key → Option (List ℚ)) :=
  match file with
  | [] => .ok fun _ => none
  | hdr :: recs =>
    match collect (recs.map (rowVecEntry num n hdr.length)) with
    | .error e => .error e
    | .ok es => .ok (insertAll es fun _ => none)

/-- The closure for a record in `load_csv_col_vec_table`, vec.rs 151-168; `m` is the number of columns. -/
def colVecEntry (num : String → Option ℚ) (w m : Nat) (r : Record) : Except Err (List ℚ) :=
  match readRecord w r with
  | .error e => .error e
  | .ok r =>
    match parseAll num r with
    | none => .error .parseFloat
    | some vs => if vs.length = m then .ok vs else .error .csv

/-- `load_csv_col_vec_table`, vec.rs 119-185. -/
def loadColVec (num : String → Option ℚ) (n : Nat) (file : List Record) : Except Err (Key → Option (List ℚ)) :=
  match headers n 0 file with
  | .error e => .error e
  | .ok (hs, recs) =>
    match collect (recs.map (colVecEntry num (file.headD []).length hs.length)) with
    | .error e => .error e
    | .ok rows => .ok (insertAll (hs.mapIdx fun i h => (h, rows.map fun r => r.getD i 0)) fun _ => none)

/-- `LoadedVecTable` and `VecTable`, vec.rs 8-53. -/
structure Vec where
  n : Nat
  values : Key → Option (List ℚ)

/-- `get_vec`, vec.rs 14-31. -/
def Vec.get (t : Vec) (key : Key) : Except Err (List ℚ) :=
  if key.length = t.n then
    match t.values key with
    | some v => .ok v
    | none => .error .entryNotFound
  else .error (.wrongKeySize t.n key.length)

/-- A loaded table with keys of `n` parts. -/
def vecOf (n : Nat) (r : Except Err (Key → Option (List ℚ))) : Except Err Vec :=
  match r with
  | .error e => .error e
  | .ok m => .ok ⟨n, m⟩

/-- `from_csv_row`, vec.rs 55-69. -/
def vecRow (num : String → Option ℚ) (rows : Nat) (file : List Record) : Except Err Vec :=
  match rows with
  | 1 => vecOf 1 (loadRowVec num 1 file)
  | 2 => vecOf 2 (loadRowVec num 2 file)
  | 3 => vecOf 3 (loadRowVec num 3 file)
  | 4 => vecOf 4 (loadRowVec num 4 file)
  | _ => .error .formatNotSupported

/-- `from_csv_col`, vec.rs 71-84. -/
def vecCol (num : String → Option ℚ) (cols : Nat) (file : List Record) : Except Err Vec :=
  match cols with
  | 1 => vecOf 1 (loadColVec num 1 file)
  | 2 => vecOf 2 (loadColVec num 2 file)
  | 3 => vecOf 3 (loadColVec num 3 file)
  | 4 => vecOf 4 (loadColVec num 4 file)
  | _ => .error .formatNotSupported

/-! ## Definitions and references -/

/-- `CsvDataTableLookup`, mod.rs 83-87. -/
inductive Lookup
  | row (cols : Nat)
  | col (rows : Nat)
  | both (rows cols : Nat)
  deriving DecidableEq, Repr

/-- `LoadedTable`, mod.rs 195-199. -/
inductive Loaded
  | scalar (t : Scalar)
  | vec (t : Vec)

/-- `CsvDataTable`, mod.rs 91-98, with the records of its file; `array` is its value type. -/
structure Def where
  name : String
  array : Bool
  lookup : Lookup
  file : List Record
  deriving DecidableEq, Repr

/-- `load_f64`, mod.rs 102-132. -/
def Def.load (num : String → Option ℚ) (d : Def) : Except Err Loaded :=
  if d.array then
    match d.lookup with
    | .row n => (vecRow num n d.file).map .vec
    | .col n => (vecCol num n d.file).map .vec
    | .both _ _ => .error .formatNotSupported
  else
    match d.lookup with
    | .row n => (scalarRow num n d.file).map .scalar
    | .col n => (scalarCol num n d.file).map .scalar
    | .both r c => (scalarBoth num r c d.file).map .scalar

/-- `get_vec_f64`, mod.rs 203-210. -/
def Loaded.getVec (t : Loaded) (key : Key) : Except Err (List ℚ) :=
  match t with
  | .vec t => t.get key
  | .scalar _ => .error .wrongTableFormat

/-- `get_scalar_f64`, mod.rs 212-219. -/
def Loaded.getScalar (t : Loaded) (key : Key) : Except Err ℚ :=
  match t with
  | .scalar t => t.get key
  | .vec _ => .error .wrongTableFormat

/-- `try_as_u64`, scalar.rs 24-41; the conversion of a number that is too large gives the largest. -/
def tryU64 (v : ℚ) : Option Nat := if 0 ≤ v ∧ v.den = 1 then some (min v.num.toNat (2 ^ 64 - 1)) else none

/-- `get_scalar_u64`, mod.rs 221-231. -/
def Loaded.getIndex (t : Loaded) (key : Key) : Except Err Nat :=
  match t with
  | .scalar t =>
    match t.get key with
    | .error e => .error e
    | .ok v =>
      match tryU64 v with
      | some n => .ok n
      | none => .error .u64Conversion
  | .vec _ => .error .wrongTableFormat

/-- `TableIndex`, parameters/mod.rs 946-949. -/
inductive Index
  | single (k : String)
  | multi (ks : List String)
  deriving DecidableEq, Repr

/-- The parts of a key pushed for an index, mod.rs 352-362. -/
def Index.parts : Option Index → Key
  | none => []
  | some (.single k) => [k]
  | some (.multi ks) => ks

/-- `TableDataRef`, mod.rs 340-344. -/
structure Ref where
  table : String
  column : Option Index
  row : Option Index
  deriving DecidableEq, Repr

/-- `key`, mod.rs 348-364. -/
def Ref.key (r : Ref) : Key := Index.parts r.row ++ Index.parts r.column

/-- `TableCollectionLoadError`, mod.rs 236-246, and `TableCollectionError`, mod.rs 250-260. -/
inductive CollErr
  | table (name : String) (e : Err)
  | duplicate (name : String)
  | notFound (name : String)
  deriving DecidableEq, Repr

/-- The loop of `from_schema`, mod.rs 268-294. -/
def fromSchema (num : String → Option ℚ) : List Def → (String → Option Loaded) → Except CollErr (String → Option Loaded)
  | [], m => .ok m
  | d :: ds, m =>
    match d.load num with
    | .error e => .error (.table d.name e)
    | .ok t => if (m d.name).isSome then .error (.duplicate d.name) else fromSchema num ds fun n => if n = d.name then some t else m n

/-- `get_scalar_f64`, `get_scalar_u64` and `get_vec_f64` of a collection, mod.rs 296-334. -/
def lookupWith {α : Type} (get : Loaded → Key → Except Err α) (m : String → Option Loaded) (r : Ref) : Except CollErr α :=
  match m r.table with
  | none => .error (.notFound r.table)
  | some t =>
    match get t r.key with
    | .error e => .error (.table r.table e)
    | .ok v => .ok v

end Verif.Tables
