import Verif.Model.Memory
import Mathlib.Data.Rat.Floor

/-!
# Metric sets and the recorders that write them

Model of `pywr-core/src/recorders/metric_set.rs`, of the saving of `pywr-core/src/recorders/memory.rs`, of
`pywr-core/src/recorders/csv.rs` and of the calls that drive them, `Network::after`, `Network::save_recorders` and
`Network::finalise` of `pywr-core/src/network.rs`. A metric is a function of the state of the network, of which nothing
else is assumed; a metric that fails to evaluate, which stops the run, is left out. The CSV writer is the list of the
records written to it; writing to the file always succeeds, but the writer rejects a record that is not as long as
the first one (`csv::Writer` is not flexible by default). HDF5 output is in `Model/Hdf.lean`.
-/

namespace Verif.Agg

open Verif.Calendar Verif.Time

/-- `OutputMetric`, `metric_set.rs:11-16`; `get` is `MetricF64::get_value`. -/
structure OutMetric (σ : Type) where
  name : String
  attr : String
  get : σ → ℚ

/-- `MetricSet`, `metric_set.rs:101-105`. An aggregator is the list of its levels. -/
structure MetricSet (σ : Type) where
  name : String
  aggregator : Option (List Level)
  metrics : List (OutMetric σ)

/-- `MetricSetState`, `metric_set.rs:72-78`. -/
structure SetState where
  current : Option (List PeriodValue)
  aggregation : Option (List (List (List PeriodValue)))

/-- What can go wrong while values are saved: `panic` stands for every panic, `unequalLengths` for the error of the CSV
writer and `notFound` for `MetricSetIndexNotFound`. -/
inductive OutError
  | panic
  | unequalLengths
  | notFound
  deriving DecidableEq, Repr

/-- The time of a step and the state of the network in every scenario at its end. -/
structure Step (σ : Type) where
  date : DateTime
  duration : Int
  states : List σ

/-- `ScenarioIndex`, of which the recorders use the simulation id and the label. -/
structure ScenarioName where
  id : Nat
  label : String
  deriving DecidableEq, Repr

variable {σ ρ : Type}

/-- `MetricSet::setup`, `metric_set.rs:117-125`. -/
def MetricSet.setup (m : MetricSet σ) : SetState :=
  { current := none, aggregation := m.aggregator.map fun a => m.metrics.map fun _ => Agg.setup a }

/-- The loop of `MetricSet::save`, `metric_set.rs:159-163`: the states after it and the aggregated values. -/
def saveLoop (levels : List Level) : List PeriodValue → List (List (List PeriodValue)) →
    Option (List (List (List PeriodValue)) × List PeriodValue)
  | v :: vs, s :: ss =>
    match append levels s v with
    | none => none
    | some (s, o) =>
      match saveLoop levels vs ss with
      | none => none
      | some (ss, out) => some (s :: ss, o.toList ++ out)
  | [], ss => some (ss, [])
  | _ :: _, [] => some ([], [])

/-- `MetricSet::save`, `metric_set.rs:127-181`. -/
def MetricSet.save (m : MetricSet σ) (date : DateTime) (duration : Int) (state : σ) (s : SetState) : Except OutError SetState :=
  let values := m.metrics.map fun metric => { start := date, duration := duration, value := metric.get state : PeriodValue }
  match m.aggregator with
  | some levels =>
    match s.aggregation with
    | none => .error .panic
    | some states =>
      match saveLoop levels values states with
      | none => .error .panic
      | some (states, out) =>
        if out = [] then .ok { current := none, aggregation := some states }
        else if out.length = values.length then .ok { current := some out, aggregation := some states }
        else .error .panic
  | none => .ok { s with current := some values }

/-- The iterator of `MetricSet::finalise`, `metric_set.rs:190-193`. Collecting to an `Option` stops at the first `None`; the
states that follow are not used again. -/
def finaliseLoop (levels : List Level) : List (List (List PeriodValue)) → Except OutError (Option (List PeriodValue))
  | [] => .ok (some [])
  | s :: ss =>
    match Agg.finalise levels s with
    | none => .error .panic
    | some (_, none) => .ok none
    | some (_, some v) =>
      match finaliseLoop levels ss with
      | .error e => .error e
      | .ok none => .ok none
      | .ok (some vs) => .ok (some (v :: vs))

/-- `MetricSet::finalise`, `metric_set.rs:183-199`. -/
def MetricSet.finalise (m : MetricSet σ) (s : SetState) : Except OutError SetState :=
  match m.aggregator with
  | some levels =>
    match s.aggregation with
    | none => .error .panic
    | some states =>
      match finaliseLoop levels states with
      | .error e => .error e
      | .ok current => .ok { s with current := current }
  | none => .ok { s with current := none }

/-- The metric sets in `Network::after`, `network.rs:1064-1072`, for one scenario. -/
def saveSets (date : DateTime) (duration : Int) (state : σ) : List (MetricSet σ) → List SetState → Except OutError (List SetState)
  | m :: ms, s :: ss =>
    match m.save date duration state s with
    | .error e => .error e
    | .ok s =>
      match saveSets date duration state ms ss with
      | .error e => .error e
      | .ok ss => .ok (s :: ss)
  | _, ss => .ok ss

/-- `Network::after` for the scenarios of one step: `Network::step`, `network.rs:766-812`. -/
def saveScenarios (sets : List (MetricSet σ)) (date : DateTime) (duration : Int) : List σ → List (List SetState) →
    Except OutError (List (List SetState))
  | state :: states, s :: ss =>
    match saveSets date duration state sets s with
    | .error e => .error e
    | .ok s =>
      match saveScenarios sets date duration states ss with
      | .error e => .error e
      | .ok ss => .ok (s :: ss)
  | _, ss => .ok ss

/-- The metric sets of one scenario in `Network::finalise`, `network.rs:726-728`. -/
def finaliseSets : List (MetricSet σ) → List SetState → Except OutError (List SetState)
  | m :: ms, s :: ss =>
    match m.finalise s with
    | .error e => .error e
    | .ok s =>
      match finaliseSets ms ss with
      | .error e => .error e
      | .ok ss => .ok (s :: ss)
  | _, ss => .ok ss

/-- The loop over scenarios in `Network::finalise`, `network.rs:725-729`. -/
def finaliseScenarios (sets : List (MetricSet σ)) : List (List SetState) → Except OutError (List (List SetState))
  | s :: ss =>
    match finaliseSets sets s with
    | .error e => .error e
    | .ok s =>
      match finaliseScenarios sets ss with
      | .error e => .error e
      | .ok ss => .ok (s :: ss)
  | [] => .ok []

/-- What a recorder does with the current values of the metric sets, for every scenario, at the end of a step and at the
end of the run: `MetricSetState::current_values`, `metric_set.rs:80-84`, is all it can see of them. All recorders of this
file do the same at both. -/
abbrev Writer (ρ : Type) := List (List (Option (List PeriodValue))) → ρ → Except OutError ρ

/-- The current values of the metric sets of all scenarios. -/
def currents (states : List (List SetState)) : List (List (Option (List PeriodValue))) := states.map fun s => s.map (·.current)

/-- The steps of a run: `network.rs:1064-1104`. -/
def recordSteps (sets : List (MetricSet σ)) (write : Writer ρ) : List (List SetState) → ρ → List (Step σ) →
    Except OutError (List (List SetState) × ρ)
  | states, r, [] => .ok (states, r)
  | states, r, t :: ts =>
    match saveScenarios sets t.date t.duration t.states states with
    | .error e => .error e
    | .ok states =>
      match write (currents states) r with
      | .error e => .error e
      | .ok r => recordSteps sets write states r ts

/-- A whole run: the states are set up for every scenario (`network.rs:596-613`), the steps are recorded and the recorder is
finalised (`network.rs:717-751`). -/
def record (sets : List (MetricSet σ)) (scenarios : List ScenarioName) (write : Writer ρ) (r : ρ) (steps : List (Step σ)) :
    Except OutError ρ :=
  match recordSteps sets write (scenarios.map fun _ => sets.map MetricSet.setup) r steps with
  | .error e => .error e
  | .ok (states, r) =>
    match finaliseScenarios sets states with
    | .error e => .error e
    | .ok states => write (currents states) r

/-! ## Memory recorder -/

/-- `MemoryRecorder::save` and the loop of `MemoryRecorder::finalise`, `memory.rs:322-347,366-376`. -/
def memoryWrite (idx : Nat) : Writer (List (List Row))
  | s :: ss, d :: ds =>
    match s[idx]? with
    | none => .error .notFound
    | some current =>
      match (match current with
        | none => some d
        | some values => (rowOf values).map fun row => d ++ [row]) with
      | none => .error .panic
      | some d =>
        match memoryWrite idx ss ds with
        | .error e => .error e
        | .ok ds => .ok (d :: ds)
  | _, ds => .ok ds

/-- A run with a memory recorder: `InternalState::new`, `memory.rs:133-147`, and the data of its result. -/
def memoryRun (sets : List (MetricSet σ)) (scenarios : List ScenarioName) (idx : Nat) (steps : List (Step σ)) :
    Except OutError (List (List Row)) :=
  record sets scenarios (memoryWrite idx) (scenarios.map fun _ => []) steps

/-- `LongFmtRecord`, `memory.rs:149-158`, and `CsvLongFmtRecord`, `csv.rs:227-236`. -/
structure LongRecord where
  start : DateTime
  stop : DateTime
  id : Nat
  label : String
  metricSet : String
  name : String
  attr : String
  value : ℚ
  deriving DecidableEq, Repr

/-- The end of a period, `recorders/aggregator/mod.rs:184-186`; durations are not negative here. -/
def periodEnd (start : DateTime) (duration : Int) : DateTime := start.add duration.toNat

/-- The records of one period: the inner iterator of `iter_long_fmt_records`, `memory.rs:231-245`. -/
def rowRecords (recorder : String) (metrics : List (OutMetric σ)) (scenario : ScenarioName) (row : Row) : List LongRecord :=
  ((row.values.zip (metrics.map (·.name))).zip (metrics.map (·.attr))).map fun x =>
    { start := row.start, stop := periodEnd row.start row.duration, id := scenario.id, label := scenario.label,
      metricSet := recorder, name := x.1.2, attr := x.2, value := x.1.1 }

/-- `MemoryRecorderResult::iter_long_fmt_records`, `memory.rs:224-248`: the rows of the data frame. -/
def longRecords (recorder : String) (metrics : List (OutMetric σ)) (scenarios : List ScenarioName) (data : List (List Row)) :
    List LongRecord :=
  (scenarios.zip data).flatMap fun x => x.2.flatMap (rowRecords recorder metrics x.1)

/-! ## CSV, wide format -/

/-- A record of the wide file: cells of text or the start of a period followed by numbers. -/
inductive Line
  | header (cells : List String)
  | row (start : DateTime) (values : List ℚ)
  deriving DecidableEq

/-- The number of cells. -/
def Line.width : Line → Nat
  | .header cells => cells.length
  | .row _ values => values.length + 1

/-- `csv::Writer::write_record`: a record must be as long as the first one. -/
def writeLine (line : Line) (file : List Line) : Except OutError (List Line) :=
  match file with
  | [] => .ok [line]
  | first :: _ => if line.width = first.width then .ok (file ++ [line]) else .error .unequalLengths

/-- The nearest integer, the even one of two. -/
def roundEven (x : ℚ) : Int :=
  if x - ⌊x⌋ < 1 / 2 then ⌊x⌋
  else if 1 / 2 < x - ⌊x⌋ then ⌊x⌋ + 1
  else if ⌊x⌋ % 2 = 0 then ⌊x⌋
  else ⌊x⌋ + 1

/-- `format!("{:.2}", v)`: the number that is printed. -/
def hundredths (x : ℚ) : ℚ := roundEven (x * 100) / 100

/-- The loop of `CsvWideFmtOutput::write_values`, `csv.rs:45-69`. -/
def wideRow (idx : Nat) : Option (DateTime × List ℚ) → List (List (Option (List PeriodValue))) → Except OutError (Option (DateTime × List ℚ))
  | row, [] => .ok row
  | row, s :: ss =>
    match s[idx]? with
    | none => .error .notFound
    | some none => wideRow idx row ss
    | some (some values) =>
      match row, values.head? with
      | none, none => .error .panic
      | none, some v => wideRow idx (some (v.start, values.map fun v => hundredths v.value)) ss
      | some (start, cells), _ => wideRow idx (some (start, cells ++ values.map fun v => hundredths v.value)) ss

/-- `CsvWideFmtOutput::write_values`, `csv.rs:44-80`. -/
def wideWrite (idx : Nat) : Writer (List Line) := fun states file =>
  match wideRow idx none states with
  | .error e => .error e
  | .ok none => .ok file
  | .ok (some (start, cells)) => if cells = [] then .ok file else writeLine (.row start cells) file

/-- The header rows of `CsvWideFmtOutput::setup`, `csv.rs:97-150`; `toString` writes a simulation id. -/
def wideHeaders (metrics : List (OutMetric σ)) (scenarios : List ScenarioName) : List (List String) :=
  [ "node" :: scenarios.flatMap fun _ => metrics.map (·.name),
    "attribute" :: scenarios.flatMap fun _ => metrics.map (·.attr),
    "simulation_id" :: scenarios.flatMap fun s => List.replicate metrics.length (toString s.id),
    "label" :: scenarios.flatMap fun s => List.replicate metrics.length s.label ]

/-- Writing the header rows, `csv.rs:130-150`. -/
def writeHeaders : List (List String) → List Line → Except OutError (List Line)
  | [], file => .ok file
  | cells :: rest, file =>
    match writeLine (.header cells) file with
    | .error e => .error e
    | .ok file => writeHeaders rest file

/-- A run with `CsvWideFmtOutput`: the file. -/
def wideRun (sets : List (MetricSet σ)) (scenarios : List ScenarioName) (idx : Nat) (steps : List (Step σ)) :
    Except OutError (List Line) :=
  match sets[idx]? with
  | none => .error .notFound
  | some m =>
    match writeHeaders (wideHeaders m.metrics scenarios) [] with
    | .error e => .error e
    | .ok file => record sets scenarios (wideWrite idx) file steps

/-! ## CSV, long format -/

/-- `f64::round`: the nearest integer, away from zero of two. -/
def roundAway (x : ℚ) : Int := if 0 ≤ x then ⌊x + 1 / 2⌋ else -⌊-x + 1 / 2⌋

/-- The rounding of `csv.rs:275-280`. -/
def toPlaces (places : Option Nat) (x : ℚ) : ℚ :=
  match places with
  | none => x
  | some d => roundAway (x * 10 ^ d) / 10 ^ d

/-- The innermost loop of `CsvLongFmtOutput::write_values`, `csv.rs:271-297`. -/
def setRecords (m : MetricSet σ) (places : Option Nat) (scenario : ScenarioName) (values : List PeriodValue) : List LongRecord :=
  (m.metrics.zip values).map fun x =>
    { start := x.2.start, stop := periodEnd x.2.start x.2.duration, id := scenario.id, label := scenario.label,
      metricSet := m.name, name := x.1.name, attr := x.1.attr, value := toPlaces places x.2.value }

/-- The loop over the metric sets of the recorder, `csv.rs:261-299`. -/
def scenarioRecords (sets : List (MetricSet σ)) (places : Option Nat) (scenario : ScenarioName) (states : List (Option (List PeriodValue))) :
    List Nat → Except OutError (List LongRecord)
  | [] => .ok []
  | idx :: rest =>
    match states[idx]?, sets[idx]? with
    | none, _ => .error .notFound
    | some none, _ => scenarioRecords sets places scenario states rest
    | some (some _), none => .error .notFound
    | some (some values), some m =>
      match scenarioRecords sets places scenario states rest with
      | .error e => .error e
      | .ok rs => .ok (setRecords m places scenario values ++ rs)

/-- The loop over scenarios, `csv.rs:260-300`. -/
def allRecords (sets : List (MetricSet σ)) (places : Option Nat) (indices : List Nat) :
    List ScenarioName → List (List (Option (List PeriodValue))) → Except OutError (List LongRecord)
  | scenario :: scenarios, states :: rest =>
    match scenarioRecords sets places scenario states indices with
    | .error e => .error e
    | .ok rs =>
      match allRecords sets places indices scenarios rest with
      | .error e => .error e
      | .ok more => .ok (rs ++ more)
  | _, _ => .ok []

/-- `CsvLongFmtOutput::write_values`, `csv.rs:252-303`. -/
def longWrite (sets : List (MetricSet σ)) (places : Option Nat) (indices : List Nat) (scenarios : List ScenarioName) :
    Writer (List LongRecord) := fun states file =>
  match allRecords sets places indices scenarios states with
  | .error e => .error e
  | .ok rs => .ok (file ++ rs)

/-- A run with `CsvLongFmtOutput`: the records of the file. -/
def longRun (sets : List (MetricSet σ)) (scenarios : List ScenarioName) (places : Option Nat) (indices : List Nat)
    (steps : List (Step σ)) : Except OutError (List LongRecord) :=
  record sets scenarios (longWrite sets places indices scenarios) [] steps

end Verif.Agg
