import Verif.Props.Outputs

/-!
# C73: cases, and what does not hold
-/

namespace Verif.Agg

open Verif.Calendar Verif.Time

/-- A network whose state is the flow of two nodes: one metric set saves both every day, another one their monthly
means. -/
def exampleSets : List (MetricSet (ℚ × ℚ)) :=
  [ { name := "daily", aggregator := none, metrics := [⟨"a", "outflow", (·.1)⟩, ⟨"b", "inflow", (·.2)⟩] },
    { name := "monthly", aggregator := some [⟨some .monthly, .mean⟩],
      metrics := [⟨"a", "outflow", (·.1)⟩, ⟨"b", "inflow", (·.2)⟩] } ]

/-- Three days over the end of January, in two scenarios. -/
def exampleSteps : List (Step (ℚ × ℚ)) :=
  [ ⟨⟨⟨2023, 1, 30⟩, 0⟩, nsPerDay, [(1, 10), (2, 20)]⟩,
    ⟨⟨⟨2023, 1, 31⟩, 0⟩, nsPerDay, [(3, 30), (4, 401 / 1000)]⟩,
    ⟨⟨⟨2023, 2, 1⟩, 0⟩, nsPerDay, [(5, 50), (6, 60)]⟩ ]

def exampleScenarios : List ScenarioName := [⟨0, "dry"⟩, ⟨1, "wet"⟩]

/-- The hypotheses of `C73_memory`, `C73_frame`, `C73_wide` and `C73_long`. -/
theorem example_hypotheses :
    (∀ t ∈ exampleSteps, t.states.length = exampleScenarios.length) ∧ Accepts exampleSets exampleSteps ∧
    ((exampleScenarios.map (·.id)).Nodup) ∧ (([0, 1].filterMap (exampleSets[·]?)).map (·.name)).Nodup ∧
    (∀ m ∈ exampleSets, m.metrics ≠ [] ∧ (m.metrics.map fun x => (x.name, x.attr)).Nodup) := by
  refine ⟨by decide, ?_, by decide, by decide, ?_⟩
  · intro m hm
    simp only [exampleSets, List.mem_cons, List.not_mem_nil, or_false] at hm
    rcases hm with rfl | rfl
    · exact nofun
    · have : (recorded (σ := ℚ × ℚ) ⟨"monthly", some [⟨some .monthly, .mean⟩], [⟨"a", "outflow", (·.1)⟩, ⟨"b", "inflow", (·.2)⟩]⟩
          (dates exampleSteps)).isSome = true := by decide +kernel
      intro h
      rw [h] at this
      cases this
  · intro m hm
    simp only [exampleSets, List.mem_cons, List.not_mem_nil, or_false] at hm
    rcases hm with rfl | rfl <;> exact ⟨nofun, by simp⟩

/-- What is saved: two records of January and February for every scenario. The last record has no duration, see
`C42_last_duration_refuted`. -/
theorem example_memory : (memoryRun exampleSets exampleScenarios 1 exampleSteps).toOption =
    some [[⟨⟨⟨2023, 1, 30⟩, 0⟩, 2 * nsPerDay, [2, 20]⟩, ⟨⟨⟨2023, 2, 1⟩, 0⟩, 0, [5, 50]⟩],
      [⟨⟨⟨2023, 1, 30⟩, 0⟩, 2 * nsPerDay, [3, 20401 / 2000]⟩, ⟨⟨⟨2023, 2, 1⟩, 0⟩, 0, [6, 60]⟩]] := by
  decide +kernel

/-- The wide file of the daily values. -/
theorem example_wide : (wideRun exampleSets exampleScenarios 0 exampleSteps).toOption = some
    [ .header ["node", "a", "b", "a", "b"], .header ["attribute", "outflow", "inflow", "outflow", "inflow"],
      .header ["simulation_id", "0", "0", "1", "1"], .header ["label", "dry", "dry", "wet", "wet"],
      .row ⟨⟨2023, 1, 30⟩, 0⟩ [1, 10, 2, 20], .row ⟨⟨2023, 1, 31⟩, 0⟩ [3, 30, 4, 2 / 5], .row ⟨⟨2023, 2, 1⟩, 0⟩ [5, 50, 6, 60] ] := by
  decide +kernel

/-- The long file of the monthly values of the first scenario. -/
theorem example_long : (longRun exampleSets exampleScenarios (some 1) [1] exampleSteps).toOption.map (·.filter (·.id = 1)) = some
    [ ⟨⟨⟨2023, 1, 30⟩, 0⟩, ⟨⟨2023, 2, 1⟩, 0⟩, 1, "wet", "monthly", "a", "outflow", 3⟩,
      ⟨⟨⟨2023, 1, 30⟩, 0⟩, ⟨⟨2023, 2, 1⟩, 0⟩, 1, "wet", "monthly", "b", "inflow", 51 / 5⟩,
      ⟨⟨⟨2023, 2, 1⟩, 0⟩, ⟨⟨2023, 2, 1⟩, 0⟩, 1, "wet", "monthly", "a", "outflow", 6⟩,
      ⟨⟨⟨2023, 2, 1⟩, 0⟩, ⟨⟨2023, 2, 1⟩, 0⟩, 1, "wet", "monthly", "b", "inflow", 60⟩ ] := by
  decide +kernel

/-- C73. The column `metric_set` of the data frame of a memory recorder does not hold the name of the metric set, as that
of the long file does: no record of a run has it. -/
theorem C73_metric_set_refuted :
    ((memoryRun exampleSets exampleScenarios 1 exampleSteps).toOption.map fun data =>
      ((longRecords "recorder" (exampleSets[1]'(by decide)).metrics exampleScenarios data).length,
        ((longRecords "recorder" (exampleSets[1]'(by decide)).metrics exampleScenarios data).filter (·.metricSet = "monthly")).length)) =
      some (8, 0) := by
  decide +kernel

/-- C73. A metric set without metrics makes the memory recorder and the wide file panic: without an aggregator at the first
step, with one at the end of the run. The long file is written, without records. -/
theorem C73_empty_refuted :
    let plain : List (MetricSet (ℚ × ℚ)) := [{ name := "empty", aggregator := none, metrics := [] }]
    let monthly : List (MetricSet (ℚ × ℚ)) := [{ name := "empty", aggregator := some [⟨some .monthly, .mean⟩], metrics := [] }]
    (∀ sets ∈ [plain, monthly], (memoryRun sets exampleScenarios 0 exampleSteps).toOption = none ∧
      (wideRun sets exampleScenarios 0 exampleSteps).toOption = none ∧
      (longRun sets exampleScenarios none [0] exampleSteps).toOption = some []) ∧
    (recordSteps plain (memoryWrite 0) (exampleScenarios.map fun _ => plain.map MetricSet.setup)
      (exampleScenarios.map fun _ => []) (exampleSteps.take 1)).toOption.isNone ∧
    (recordSteps monthly (memoryWrite 0) (exampleScenarios.map fun _ => monthly.map MetricSet.setup)
      (exampleScenarios.map fun _ => []) exampleSteps).toOption.isSome := by
  decide +kernel

/-- C73. The wide file does not hold the values themselves: a flow of 0.004 is written as zero. -/
theorem C73_wide_values_refuted :
    (wideRun exampleSets [⟨0, "dry"⟩] 0 [⟨⟨⟨2023, 1, 30⟩, 0⟩, nsPerDay, [(4 / 1000, 1)]⟩]).toOption.map (·.drop 4) =
      some [.row ⟨⟨2023, 1, 30⟩, 0⟩ [0, 1]] := by
  decide +kernel

end Verif.Agg
