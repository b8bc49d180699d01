import Verif.Props.V1Model

/-! # C104: cases -/

namespace Verif.V1Model.Cases

open Verif.Calendar (DateTime)

/-- Two weeks in steps of five days, with a group of three scenarios of which the last two are simulated, and an edge with a slot that is not known. -/
def old : Old where
  metadata := ⟨some "Thames", none, some "1.0"⟩
  start := ⟨⟨2020, 2, 20⟩, 0⟩
  stop := ⟨⟨2020, 3, 5⟩, 0⟩
  step := .days 5
  scenarios := some [⟨"climate", 3, none, some [some 1, none]⟩]
  combinations := none
  network := ⟨[], [⟨"a", "b", some "unknown", none⟩], [], []⟩

def parse : Parse := fun t => if t = "1mo" then some (false, 1, 0, 0, 0) else none

theorem groups : ∀ os, old.scenarios = some os → Groups os := by
  rintro os h
  obtain rfl := Option.some.inj h
  refine ⟨by decide, by decide, fun o ho => ?_⟩
  simp only [List.mem_singleton] at ho
  subst ho
  refine ⟨⟨?_, ?_, ?_, by decide⟩, rfl⟩
  · intro ls h; cases h
  · intro a b r h
    simp only [Option.some.injEq, List.cons.injEq] at h
    obtain ⟨rfl, rfl, -⟩ := h
    decide
  · intro s h
    obtain rfl := Option.some.inj h
    exact ⟨by decide, by decide, by simp⟩

example := C104_run old (by decide +kernel) (by decide +kernel) (by decide +kernel) (d := 5) rfl (by decide) rfl groups
  (n := ⟨[], [], [], [], [], [.edge "a" "b"]⟩) (by decide +kernel) parse

/-- The new model, its dates and its scenarios. -/
def shown (o : Old) : Option (String × List DateTime × List (List Nat) × List Report) :=
  match convert o with
  | none => none
  | some (m, r) =>
    match m.domain parse with
    | .error _ => none
    | .ok (ts, s) => some (m.metadata.title, ts.map (·.date), s.indices.map Scenario.Index.schemaIndices, r)

example : shown old = some ("Thames", [⟨⟨2020, 2, 20⟩, 0⟩, ⟨⟨2020, 2, 25⟩, 0⟩, ⟨⟨2020, 3, 1⟩, 0⟩], [[1], [2]], [.network (.edge "a" "b")]) := by decide +kernel

/-- Steps of months, without scenarios and without a title. -/
def monthly : Old :=
  { old with metadata := ⟨none, none, none⟩, start := ⟨⟨2020, 1, 31⟩, 0⟩, stop := ⟨⟨2020, 4, 1⟩, 0⟩, step := .frequency "1mo", scenarios := none }

example : shown monthly = some ("Model converted from Pywr v1.x with no title.", [⟨⟨2020, 1, 31⟩, 0⟩, ⟨⟨2020, 2, 29⟩, 0⟩, ⟨⟨2020, 3, 31⟩, 0⟩], [[0]],
    [.network (.edge "a" "b")]) := by decide +kernel

example {m r steps s} (h : convert monthly = some (m, r)) (hm : m.domain parse = .ok (steps, s)) :=
  C104_frequency h (by decide +kernel) (by decide +kernel) rfl hm

/-- A slice of four parts cannot be converted, which is reported beside the problem of the network. -/
def four : Old := { old with scenarios := some [⟨"climate", 3, none, some [none, none, none, none]⟩] }

theorem four_converted : ∃ m, convert four = some (m, [.scenarios (.invalidSlice 4), .network (.edge "a" "b")]) ∧ m.scenarios = none := ⟨_, rfl, rfl⟩

example : ∃ e, Report.scenarios e ∈ [Report.scenarios (.invalidSlice 4), .network (.edge "a" "b")] := by
  obtain ⟨m, h, hm⟩ := four_converted
  exact C104_reported h hm (.inl (by decide))

example : ∃ m₁ r₁, convert four.bare = some (m₁, r₁) ∧ r₁ = [.scenarios (.invalidSlice 4)] := ⟨_, _, rfl, rfl⟩

example := C104_parts four_converted.choose_spec.1

example := C104_kept four_converted.choose_spec.1

example : ∃ m reports, convert four = some (m, reports) := C104_converts_partial four (by decide) (by
    intro os h g hg a b
    obtain rfl := Option.some.inj h
    simp only [List.mem_singleton] at hg
    subst hg
    simp) (by decide +kernel)

/-- **C104 (the conversion succeeds, refuted).** A step of zero days is not reported: the conversion fails. -/
theorem C104_zero_days_refuted : ∃ o : Old, convert o = none ∧ (∃ m, convert { o with step := .days 1 } = some (m, [])) :=
  ⟨{ old with step := .days 0, network := ⟨[], [], [], []⟩ }, rfl, _, rfl⟩

end Verif.V1Model.Cases
