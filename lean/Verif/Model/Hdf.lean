import Verif.Model.Outputs
import Verif.Model.Scenario

/-!
# HDF5 output

Model of `pywr-core/src/recorders/hdf.rs` and of what it uses of the HDF5 library. A file is a tree of groups and data sets,
written as the list of its objects with their paths; the root is always there. Names given to the library are split at `/`,
empty parts and `.` are dropped, and groups on the way to a new object are made when they are missing
(`create_intermediate_group`, which `hdf5_metno` switches on for groups and data sets). Writing to disk always succeeds, and
no name has a NUL in it. The version of the program, an attribute of the root, is left out.
-/

namespace Verif.Hdf

open Verif.Calendar Verif.Time Verif.Agg

/-- `OutputMetric`, `metric_set.rs:15-24`, with its type. -/
structure Metric (σ : Type) extends OutMetric σ where
  ty : String
  subType : Option String

/-- `MetricSet`, `metric_set.rs:101-105`. -/
structure Set (σ : Type) where
  name : String
  aggregator : Option (List Level)
  metrics : List (Metric σ)

/-- `DateTime`, lines 64-74. -/
structure Stamp where
  index : Nat
  year : Int
  month : Nat
  day : Nat
  hour : Nat
  minute : Nat
  second : Nat
  deriving DecidableEq, Repr

/-- `DateTime::from_timestamp`, lines 76-88; `ns` is the time since midnight. -/
def Stamp.of (t : Timestep) : Stamp :=
  { index := t.index, year := t.date.date.year, month := t.date.date.month, day := t.date.date.day,
    hour := t.date.ns / 3600000000000, minute := t.date.ns / 60000000000 % 60, second := t.date.ns / 1000000000 % 60 }

/-- What a file can contain. The data set of a metric has its type and subtype as attributes (lines 207-250). -/
inductive Obj
  | group
  | values (rows : List (List ℚ)) (ty : String) (subType : Option String)
  | times (rows : List Stamp)
  /-- `ScenarioGroupEntry`, lines 297-302 -/
  | groups (rows : List (String × Nat))
  /-- `H5ScenarioIndex`, lines 304-310 -/
  | scenarios (rows : List (Nat × List Nat × String))
  deriving DecidableEq, Repr

/-- The names of the links from the root. -/
abbrev Path := List (List Char)

/-- A file that is open. -/
abbrev File := List (Path × Obj)

/-- `Hdf5Error`, lines 20-43: `exists` is an object in the way, `empty` a name that is empty. -/
inductive Err
  | exists (path : Path)
  | notGroup (path : Path)
  | empty
  | shape
  deriving DecidableEq, Repr

/-- A name is split at `/`. -/
def split : List Char → List (List Char)
  | [] => [[]]
  | c :: cs =>
    match split cs with
    | [] => [[]]
    | l :: ls => if c = '/' then [] :: l :: ls else (c :: l) :: ls

/-- The links of a name as the library follows them. -/
def links (name : String) : Path := (split name.toList).filter fun l => l ≠ [] ∧ l ≠ ['.']

/-- The object at a path. -/
def find (f : File) (p : Path) : Option Obj :=
  if p = [] then some .group else (f.find? fun o => o.1 = p).map Prod.snd

/-- The groups on the way from `done` along the links; the last link is the new object. -/
def insert (f : File) (done : Path) (o : Obj) : Path → Except Err File
  | [] => .error .empty
  | [l] =>
    match find f (done ++ [l]) with
    | some _ => .error (.exists (done ++ [l]))
    | none => .ok (f ++ [(done ++ [l], o)])
  | l :: ls =>
    match find f (done ++ [l]) with
    | some .group => insert f (done ++ [l]) o ls
    | some _ => .error (.notGroup (done ++ [l]))
    | none => insert (f ++ [(done ++ [l], .group)]) (done ++ [l]) o ls

/-- `require_group`, lines 252-262, in the root: the path of the group. -/
def requireGroup (f : File) (name : String) : Except Err (File × Path) :=
  if name = "" then .error .empty
  else
    match find f (links name) with
    | some .group => .ok (f, links name)
    | _ =>
      match insert f [] .group (links name) with
      | .error e => .error e
      | .ok f => .ok (f, links name)

/-- A new data set in a group: `require_dataset`, lines 187-197, and the data sets of lines 106-113 and 340-378. -/
def newDataset (f : File) (group : Path) (name : String) (o : Obj) : Except Err (File × Path) :=
  match insert f group o (links name) with
  | .error e => .error e
  | .ok f => .ok (f, group ++ links name)

variable {σ : Type}

/-- `require_metric_dataset`, lines 199-250. A new data set is filled with zeros. -/
def metricDataset (f : File) (steps scenarios : Nat) (m : Metric σ) : Except Err (File × Path) :=
  match requireGroup f m.name with
  | .error e => .error e
  | .ok (f, g) => newDataset f g m.attr (.values (List.replicate steps (List.replicate scenarios 0)) m.ty m.subType)

/-- The loop of `setup`, lines 125-128. -/
def metricDatasets (steps scenarios : Nat) : File → List (Metric σ) → Except Err (File × List Path)
  | f, [] => .ok (f, [])
  | f, m :: ms =>
    match metricDataset f steps scenarios m with
    | .error e => .error e
    | .ok (f, p) =>
      match metricDatasets steps scenarios f ms with
      | .error e => .error e
      | .ok (f, ps) => .ok (f, p :: ps)

/-- The row of a group, lines 323-338. -/
def groupRow (g : Scenario.Group) : String × Nat := (g.name, g.size)

/-- `ScenarioIndex::label`, `scenario.rs:674-676`, and the row of a scenario, lines 347-371. -/
def scenarioRow (s : Scenario.Index) : Nat × List Nat × String := (s.simulationId, s.simulationIndices, "-".intercalate s.labels)

/-- `write_scenarios_metadata`, lines 316-381. -/
def scenarioTables (f : File) (d : Scenario.Domain) : Except Err File :=
  match requireGroup f "scenarios" with
  | .error e => .error e
  | .ok (f, g) =>
    match newDataset f g "groups" (.groups (d.groups.map groupRow)) with
    | .error e => .error e
    | .ok (f, _) =>
      match newDataset f g "indices" (.scenarios (d.indices.map scenarioRow)) with
      | .error e => .error e
      | .ok (f, _) => .ok f

/-- `HDF5Recorder::setup`, lines 94-133. -/
def setup (d : Scenario.Domain) (times : List Timestep) (set : Set σ) : Except Err (File × List Path) :=
  match scenarioTables [] d with
  | .error e => .error e
  | .ok f =>
    match newDataset f [] "time" (.times (times.map Stamp.of)) with
    | .error e => .error e
    | .ok (f, _) => metricDatasets times.length d.indices.length f set.metrics

/-- `write_slice` of one row; the shape of the values must be that of the row. -/
def writeRow (index : Nat) (values : List ℚ) : Obj → Except Err Obj
  | .values rows ty subType =>
    match rows[index]? with
    | none => .error .shape
    | some row => if values.length = row.length then .ok (.values (rows.set index values) ty subType) else .error .shape
  | _ => .error .shape

/-- The object at a path is changed. -/
def change (p : Path) (g : Obj → Except Err Obj) : File → Except Err File
  | [] => .error .shape
  | (q, o) :: f =>
    if q = p then
      match g o with
      | .error e => .error e
      | .ok o => .ok ((q, o) :: f)
    else
      match change p g f with
      | .error e => .error e
      | .ok f => .ok ((q, o) :: f)

/-- The loop of `save`, lines 152-172. The states of the metric set, where aggregated values are, are not used. -/
def saveLoop (index : Nat) (states : List σ) : File → List (Path × Metric σ) → Except Err File
  | f, [] => .ok f
  | f, (p, m) :: rest =>
    match change p (writeRow index (states.map m.get)) f with
    | .error e => .error e
    | .ok f => saveLoop index states f rest

/-- `HDF5Recorder::save`, lines 134-175; `zip` with the scenarios stops at the shorter list. -/
def save (d : Scenario.Domain) (set : Set σ) (paths : List Path) (f : File) (t : Timestep) (states : List σ) : Except Err File :=
  saveLoop t.index (states.take d.indices.length) f (paths.zip set.metrics)

/-- The steps of a run. -/
def steps (d : Scenario.Domain) (set : Set σ) (paths : List Path) : File → List (Timestep × List σ) → Except Err File
  | f, [] => .ok f
  | f, (t, states) :: rest =>
    match save d set paths f t states with
    | .error e => .error e
    | .ok f => steps d set paths f rest

/-- A run over the time steps of the domain with the states of all scenarios at the end of each; the file at the end. -/
def run (d : Scenario.Domain) (set : Set σ) (history : List (Timestep × List σ)) : Except Err File :=
  match setup d (history.map Prod.fst) set with
  | .error e => .error e
  | .ok (f, paths) => steps d set paths f history

end Verif.Hdf
