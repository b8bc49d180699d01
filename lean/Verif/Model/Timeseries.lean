import Verif.Model.Timestep
import Verif.Model.ArrayParam

/-!
# Time series

Transcribed from `/repo/pywr-schema/src/timeseries/{align_and_resample,mod}.rs`. The operations of polars are modelled by what its
documentation says about them: `sort` (stable), `filter`, `diff`/`unique`, `group_by_dynamic`, `upsample`, `fill_null`. Times are
milliseconds since 31 December of year 0; missing values are `none`. All operations choose rows by time only, so that columns are
treated one at a time.
-/

namespace Verif.Timeseries

open Verif.Calendar Verif.Time

/-- A row of one column. -/
structure Row where
  time : Int
  value : Option ℚ
  deriving DecidableEq, Repr

/-- `TimeseriesError` (mod.rs 39-80) as far as it occurs here; `panic` for `todo!` and `expect`. -/
inductive Err
  | durationNotFound
  | mismatch
  | notFound
  | columnNotFound
  | columnRequired
  | missingValues
  | duplicateName
  | panic
  deriving DecidableEq, Repr

/-- The date of a step as polars sees it (align_and_resample.rs 95-100, 114-117): fractions of seconds are dropped. -/
def stepTime (t : DateTime) : Int := t.date.dayNumber * 86400000 + (t.ns / 1000000000 : Nat) * 1000

/-- One insertion of a stable sort by time. -/
def insertRow (r : Row) : List Row → List Row
  | [] => [r]
  | a :: l => if r.time ≤ a.time then r :: a :: l else a :: insertRow r l

/-- `sort([time_col])` with `maintain_order`, align_and_resample.rs 15-24. -/
def sortRows : List Row → List Row
  | [] => []
  | r :: l => insertRow r (sortRows l)

/-- `diff(1)` without the first, align_and_resample.rs 33-35. -/
def diffs : List Row → List Int
  | a :: b :: l => (b.time - a.time) :: diffs (b :: l)
  | _ => []

/-- The only difference of times, align_and_resample.rs 29-48: `todo!` if there are several. -/
def gap (l : List Row) : Except Err Int :=
  match diffs l with
  | [] => .error .durationNotFound
  | g :: gs => if gs.all (· == g) then .ok g else .error .panic

/-- `mean`: of the values that are not missing. -/
def mean (l : List (Option ℚ)) : Option ℚ :=
  match l.filterMap id with
  | [] => none
  | vs => some (vs.sum / vs.length)

/-- The time of the last row. -/
def lastTime (l : List Row) : Int := (l.getLast?.map (·.time)).getD 0

/-- `group_by_dynamic` with `every = period = d`, closed and labelled on the left, from the first row on, and `mean`;
align_and_resample.rs 55-72. Windows without rows are left out. -/
def downsample (d : Int) : List Row → List Row
  | [] => []
  | r :: l =>
    (List.range (((lastTime (r :: l) - r.time) / d).toNat + 1)).filterMap fun (k : Nat) =>
      match (r :: l).filter fun x => decide (r.time + k * d ≤ x.time) && decide (x.time < r.time + k * d + d) with
      | [] => none
      | w => some ⟨r.time + k * d, mean (w.map (·.value))⟩

/-- `fill_null(Forward)`. -/
def fill : Option ℚ → List Row → List Row
  | _, [] => []
  | prev, r :: l => ⟨r.time, r.value <|> prev⟩ :: fill (r.value <|> prev) l

/-- `upsample`: all times from the first to the last with step `d`, joined with the rows; align_and_resample.rs 73-80. -/
def upsample (d : Int) : List Row → List Row
  | [] => []
  | r :: l =>
    fill none ((List.range (((lastTime (r :: l) - r.time) / d).toNat + 1)).map fun (k : Nat) =>
      ⟨r.time + k * d, ((r :: l).find? fun x => x.time == r.time + k * d).bind (·.value)⟩)

/-- `align_and_resample`, align_and_resample.rs 7-92. -/
def align (steps : List Timestep) (rows : List Row) : Except Err (List Row) :=
  match steps.head?, steps.getLast? with
  | some first, some last =>
    let sorted := (sortRows rows).filter fun r => decide (stepTime first.date ≤ r.time)
    match gap sorted with
    | .error e => .error e
    | .ok g =>
      let d := milliseconds first.duration
      let resampled := if g < d then downsample d sorted else if d < g then upsample d sorted else sorted
      let df := resampled.filter fun r => decide (r.time ≤ stepTime last.date)
      if df.length = steps.length then .ok df else .error .mismatch
  | _, _ => .error .panic

/-- A data frame: the names of its columns and its rows. -/
structure Frame where
  columns : List String
  rows : List (Int × List (Option ℚ))
  deriving DecidableEq, Repr

/-- Column `j` with the times. -/
def Frame.column (f : Frame) (j : Nat) : List Row := f.rows.map fun r => ⟨r.1, r.2.getD j none⟩

/-- The columns of a frame without times, in order. -/
abbrev Columns := List (String × List (Option ℚ))

/-- `align_and_resample` for all columns; without columns the checks are made all the same. -/
def Frame.alignFrom (steps : List Timestep) (f : Frame) : Nat → List String → Except Err Columns
  | _, [] =>
    match align steps (f.rows.map fun r => ⟨r.1, none⟩) with
    | .error e => .error e
    | .ok _ => .ok []
  | j, c :: cs =>
    match align steps (f.column j), Frame.alignFrom steps f (j + 1) cs with
    | .error e, _ => .error e
    | .ok _, .error e => .error e
    | .ok l, .ok out => .ok ((c, l.map (·.value)) :: out)

def Frame.load (steps : List Timestep) (f : Frame) : Except Err Columns := f.alignFrom steps 0 f.columns

/-- `LoadedTimeseriesCollection::from_schema`, mod.rs 162-184. -/
def fromSchema (steps : List Timestep) : List (String × Frame) → (String → Option Columns) → Except Err (String → Option Columns)
  | [], m => .ok m
  | (name, f) :: l, m =>
    match f.load steps with
    | .error e => .error e
    | .ok cols =>
      if (m name).isSome then .error .duplicateName
      else fromSchema steps l fun x => if x = name then some cols else m x

/-- `ParameterName`: a name and the name of a parent. -/
structure Name where
  name : String
  parent : Option String
  deriving DecidableEq, Repr

/-- The data of an array parameter: one column, or all columns for a scenario group. Missing values among all columns are not
numbers (`none`). -/
inductive Data
  | one (values : List ℚ)
  | two (columns : List (List (Option ℚ))) (group : String)
  | other (id : Nat)
  deriving DecidableEq, Repr

/-- The parameters of the network so far; `other` stands for any parameter that is not from a time series. -/
abbrev Net := List (Name × Data)

/-- `contains_name`, parameters/mod.rs 2999-3003. -/
def Net.contains (net : Net) (n : Name) : Bool := net.any fun e => e.1 == n

/-- The data that a name means. -/
def Net.find (net : Net) (n : Name) : Option Data := (net.find? fun e => e.1 == n).map (·.2)

/-- Adding a parameter unless the name exists. -/
def Net.addNew (net : Net) (n : Name) (d : Data) : Net := if net.contains n then net else net ++ [(n, d)]

/-- `to_ndarray` of a column: an error if values are missing. -/
def toArray : List (Option ℚ) → Option (List ℚ)
  | [] => some []
  | none :: _ => none
  | some v :: l => (toArray l).map (v :: ·)

/-- `TimeseriesColumns`, mod.rs 419-422. -/
inductive Cols
  | scenario (name : String)
  | column (name : String)
  deriving DecidableEq, Repr

/-- `TimeseriesReference`, mod.rs 428-431. -/
structure Ref where
  series : String
  columns : Option Cols
  deriving DecidableEq, Repr

/-- The column of a name. -/
def lookup (cols : Columns) (c : String) : Option (List (Option ℚ)) := (cols.find? fun e => e.1 == c).map (·.2)

/-- `load_column_f64`, mod.rs 186-207. -/
def loadColumn (ts : String → Option Columns) (net : Net) (series col : String) : Except Err (Name × Net) :=
  match ts series with
  | none => .error .notFound
  | some cols =>
    match lookup cols col with
    | none => .error .columnNotFound
    | some l =>
      match toArray l with
      | none => .error .missingValues
      | some vs => .ok (⟨col, some series⟩, net.addNew ⟨col, some series⟩ (.one vs))

/-- `load_df_f64`, mod.rs 301-324. -/
def loadAll (ts : String → Option Columns) (net : Net) (series group : String) : Except Err (Name × Net) :=
  match ts series with
  | none => .error .notFound
  | some cols => .ok (⟨group, some series⟩, net.addNew ⟨group, some series⟩ (.two (cols.map (·.2)) group))

/-- `load_single_column_f64`, mod.rs 232-265. -/
def loadSingle (ts : String → Option Columns) (net : Net) (series : String) : Except Err (Name × Net) :=
  match ts series with
  | none => .error .notFound
  | some cols =>
    match cols with
    | [] => .error .columnNotFound
    | [(c, _)] => loadColumn ts net series c
    | _ => .error .columnRequired

/-- `Metric::load` for a time series, `/repo/pywr-schema/src/metric.rs` 129-142. -/
def Ref.load (ts : String → Option Columns) (net : Net) (r : Ref) : Except Err (Name × Net) :=
  match r.columns with
  | some (.scenario g) => loadAll ts net r.series g
  | some (.column c) => loadColumn ts net r.series c
  | none => loadSingle ts net r.series

/-- The references of a model, in the order in which they are loaded. -/
def loadRefs (ts : String → Option Columns) : Net → List Ref → Except Err (List Name × Net)
  | net, [] => .ok ([], net)
  | net, r :: rs =>
    match r.load ts net with
    | .error e => .error e
    | .ok (n, net) =>
      match loadRefs ts net rs with
      | .error e => .error e
      | .ok (ns, net) => .ok (n :: ns, net)

end Verif.Timeseries
