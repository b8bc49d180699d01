import Verif.Model.Outputs

/-!
# What metric sets should record

The values of one metric in one scenario are a series over the steps; what should be recorded of it is the series itself
or what the aggregator of the set makes of it, on its own (`Agg.run`, which `C41` to `C43` describe).
-/

namespace Verif.Agg

variable {σ : Type}

/-- Two values for the same period. -/
def Same (a b : PeriodValue) : Prop := a.start = b.start ∧ a.duration = b.duration

/-- The values of a metric in the scenario at a position. -/
def series (metric : OutMetric σ) (i : Nat) (steps : List (Step σ)) : List PeriodValue :=
  steps.filterMap fun t => t.states[i]?.map fun s => { start := t.date, duration := t.duration, value := metric.get s }

/-- What should be recorded of a series. -/
def recorded (m : MetricSet σ) (values : List PeriodValue) : Option (List PeriodValue) :=
  match m.aggregator with
  | none => some values
  | some levels => Agg.run levels values

/-- The steps, with nothing but their dates. -/
def dates (steps : List (Step σ)) : List PeriodValue := steps.map fun t => { start := t.date, duration := t.duration, value := 0 }

/-- The aggregators of the metric sets accept the dates of the steps. -/
def Accepts (sets : List (MetricSet σ)) (steps : List (Step σ)) : Prop := ∀ m ∈ sets, recorded m (dates steps) ≠ none

/-- The records of a scenario, a set and a metric. -/
def isOf (id : Nat) (set name attr : String) (r : LongRecord) : Bool :=
  decide (r.id = id) && decide (r.metricSet = set) && decide (r.name = name) && decide (r.attr = attr)

/-- A record as it should be. -/
def recordOf (s : ScenarioName) (set name attr : String) (v : PeriodValue) (value : ℚ) : LongRecord :=
  { start := v.start, stop := v.start.add v.duration.toNat, id := s.id, label := s.label, metricSet := set, name := name, attr := attr,
    value := value }

end Verif.Agg
