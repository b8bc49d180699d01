import Verif.Props.Hdf
import Verif.Props.OutputsCases

/-!
# C98: cases, and what does not hold
-/

namespace Verif.Hdf.Cases

open Verif.Calendar Verif.Time Verif.Agg Verif.Hdf

/-- Two scenarios, dry and wet. -/
def domain : Scenario.Domain :=
  ⟨[⟨0, [0], none, ["dry"]⟩, ⟨1, [1], none, ["wet"]⟩], [⟨"climate", 2, none, some ["dry", "wet"]⟩], [none]⟩

/-- They are those of a group. -/
theorem domain_built : (Scenario.DomainBuilder.mk [⟨"climate", 2, none, some ["dry", "wet"]⟩] none).build = .ok domain := by
  decide +kernel

/-- The monthly means of two nodes, of which the network shows the flows. -/
def flows : Set (ℚ × ℚ) :=
  ⟨"flows", some [⟨some .monthly, .mean⟩], [⟨⟨"a", "Outflow", (·.1)⟩, "Node", some "Link"⟩, ⟨⟨"b", "Inflow", (·.2)⟩, "Node", some "Output"⟩]⟩

/-- Three days over the end of January, in both scenarios. -/
def history : List (Timestep × List (ℚ × ℚ)) :=
  [(⟨⟨⟨2023, 1, 30⟩, 0⟩, 0, nsPerDay⟩, [(1, 10), (2, 20)]), (⟨⟨⟨2023, 1, 31⟩, 0⟩, 1, nsPerDay⟩, [(3, 30), (4, 40)]),
    (⟨⟨⟨2023, 2, 1⟩, 0⟩, 2, nsPerDay⟩, [(5, 50), (6, 60)])]

theorem history_regular : Regular domain history := by
  intro k x h
  match k with
  | 0 | 1 | 2 => simp only [history, List.getElem?_cons_zero, List.getElem?_cons_succ, Option.some.injEq] at h; subst h; exact ⟨rfl, rfl⟩
  | k + 3 => simp [history] at h

/-- The hypotheses of `C98_file`, `C98_accepts`, `C98_plain` and `C98_columns_partial`: the file is written. -/
theorem flows_written : ∃ f, run domain flows history = .ok f ∧
    find f ["b".toList, "Inflow".toList] = some (.values [[10, 20], [30, 40], [50, 60]] "Node" (some "Output")) ∧
    find f ["time".toList] = some (.times [⟨0, 2023, 1, 30, 0, 0, 0⟩, ⟨1, 2023, 1, 31, 0, 0, 0⟩, ⟨2, 2023, 2, 1, 0, 0, 0⟩]) := by
  have h : (run domain flows history).toOption.isSome = true := by decide +kernel
  rcases hr : run domain flows history with e | f
  · rw [hr] at h; cases h
  · refine ⟨f, rfl, ?_⟩
    have : (run domain flows history).toOption.map (fun f => (find f ["b".toList, "Inflow".toList], find f ["time".toList])) =
      some (some (.values [[10, 20], [30, 40], [50, 60]] "Node" (some "Output")),
        some (.times [⟨0, 2023, 1, 30, 0, 0, 0⟩, ⟨1, 2023, 1, 31, 0, 0, 0⟩, ⟨2, 2023, 2, 1, 0, 0, 0⟩])) := by decide +kernel
    rw [hr] at this
    exact Prod.mk.inj (Option.some.inj this)

theorem flows_plain : ∀ m ∈ flows.metrics, Plain m.name ∧ Plain m.attr := by
  intro m hm
  simp only [flows, List.mem_cons, List.not_mem_nil, or_false] at hm
  rcases hm with rfl | rfl <;> refine ⟨⟨?_, ?_, ?_⟩, ?_, ?_, ?_⟩ <;> decide +kernel

/-- The metric set of the outputs that aggregate. -/
def Set.plainSet {σ : Type} (s : Set σ) : MetricSet σ := ⟨s.name, s.aggregator, s.metrics.map (·.toOutMetric)⟩

/-- The steps as other outputs get them. -/
def recorded : List (Agg.Step (ℚ × ℚ)) := history.map fun x => ⟨x.1.date, x.1.duration, x.2⟩

/-- C98. The aggregation of a metric set is ignored: the file has the values of the three days, although the set is one of
monthly means, of which a memory recorder gets two rows. -/
theorem C98_aggregation_refuted :
    (run domain flows history).toOption.map (find · ["a".toList, "Outflow".toList]) =
      some (some (.values [[1, 2], [3, 4], [5, 6]] "Node" (some "Link"))) ∧
    (memoryRun [Set.plainSet flows] [⟨0, "dry"⟩, ⟨1, "wet"⟩] 0 recorded).toOption.map (·.map (·.map (·.values))) =
      some [[[2, 20], [5, 50]], [[3, 30], [6, 60]]] := by
  decide +kernel

/-- A set of two metrics with given names. -/
def named (name attr name' attr' : String) : Set (ℚ × ℚ) :=
  ⟨"flows", none, [⟨⟨name, attr, (·.1)⟩, "Node", none⟩, ⟨⟨name', attr', (·.2)⟩, "Node", none⟩]⟩

/-- C98. A node called `time` stops the run, as does one whose name goes through the values of another one, or a metric that
is listed twice; other outputs have no trouble with them. -/
theorem C98_names_refuted :
    (run domain (named "a" "Outflow" "time" "Inflow") history).toOption = none ∧
    (run domain (named "a" "Outflow" "a/Outflow" "Inflow") history).toOption = none ∧
    (run domain (named "a" "Outflow" "a" "Outflow") history).toOption = none ∧
    (∀ s ∈ [named "a" "Outflow" "time" "Inflow", named "a" "Outflow" "a/Outflow" "Inflow", named "a" "Outflow" "a" "Outflow"],
      (wideRun [Set.plainSet s] [⟨0, "dry"⟩, ⟨1, "wet"⟩] 0 recorded).toOption.isSome) := by
  decide +kernel

/-- C98. Names with slashes are split: the values of two nodes can be in one group, and those of `b/c` are not in a group with
this name. -/
example : (run domain (named "b" "Outflow" "b/c" "Inflow") history).toOption.map
    (fun f => (find f ["b".toList, "c".toList, "Inflow".toList], find f ["b/c".toList, "Inflow".toList])) =
    some (some (.values [[10, 20], [30, 40], [50, 60]] "Node" none), none) := by
  decide +kernel

/-- A group of four scenarios of which the last one is simulated. -/
def lastOfFour : List Scenario.Group := [⟨"climate", 4, some (.indices [3]), none⟩]

/-- C98. With a subset the tables do not say which scenario a column is: they have a group of four scenarios and the index 0,
but the simulated scenario is the one with index 3. -/
theorem C98_subset_refuted : ∃ d, (Scenario.DomainBuilder.mk lastOfFour none).build = .ok d ∧
    d.indices.map Scenario.Index.schemaIndices = [[3]] ∧
    (run d (named "a" "Outflow" "b" "Inflow") [(⟨⟨⟨2023, 1, 30⟩, 0⟩, 0, nsPerDay⟩, [(1, 10)])]).toOption.map
        (fun f => (find f ["scenarios".toList, "groups".toList], find f ["scenarios".toList, "indices".toList])) =
      some (some (.groups [("climate", 4)]), some (.scenarios [(0, [0], "3")])) := by
  refine ⟨⟨[⟨0, [0], some (3, [3]), ["3"]⟩], lastOfFour, [some [3]]⟩, ?_⟩
  decide +kernel

/-- A name with slashes and dots. -/
example : Follows "a//./b".toList ["a".toList, "b".toList] := (C98_links _ _).2 (by decide +kernel)

end Verif.Hdf.Cases
