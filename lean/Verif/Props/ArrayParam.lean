import Mathlib.Tactic.Linarith
import Verif.Model.ArrayParam
import Verif.Props.Scenario

/-!
# Array parameters read the right row and column (C27)
-/

namespace Verif.ArrayParam

open Verif.Scenario

/-- Row that must be read: the timestep without offset, else the shifted timestep clipped to the array. -/
def rowSpec (offset : Option Int) (rows t : Nat) (row : Nat) : Prop :=
  match offset with
  | none => row = t
  | some o =>
    ((t : Int) + o < 0 → row = 0) ∧ ((rows : Int) ≤ t + o → row + 1 = rows) ∧
      (0 ≤ (t : Int) + o → (t : Int) + o < rows → (row : Int) = t + o)

theorem timestepIndex_spec (offset : Option Int) (rows t : Nat) (hr : 0 < rows) :
    rowSpec offset rows t (timestepIndex offset rows t) ∧
      (offset.isSome → timestepIndex offset rows t < rows) := by
  cases offset with
  | none => simp [rowSpec, timestepIndex]
  | some o =>
    have hneg : ¬ (min (max ((t : Int) + o) 0) ((rows : Int) - 1) < 0) := by omega
    simp only [rowSpec, timestepIndex, hneg, if_false]
    refine ⟨⟨fun h => ?_, fun h => ?_, fun h1 h2 => ?_⟩, fun _ => ?_⟩ <;> omega

theorem position_lt {α : Type} [DecidableEq α] (a : α) (l : List α) (i : Nat) (h : position a l = some i) :
    i < l.length := by
  have := position_some a l i h
  exact (List.getElem?_eq_some_iff.1 this).1

/-- C27: for every domain the builder accepts (full, sub-setted or combinations), every array, offset, timestep and
scenario: if the parameter builds, then evaluating it returns the *user's* array element at the row of the timestep and at
the column of the scenario's *schema* index, whenever that row and column exist in the user's array. -/
theorem C27_array2_value {α : Type} (b : DomainBuilder) (d : Domain) (hd : b.build = .ok d) (group : String)
    (a : Array2 α) (offset : Option Int) (p : Param2 α) (hp : build2 d group a offset = .ok p)
    (s : Index) (hs : s ∈ d.indices) (t : Nat) :
    ∃ g col row, d.groupIndex group = some g ∧ s.schemaIndexForGroup g = some col ∧
      (0 < a.rows → rowSpec offset a.rows t row) ∧
      (row < a.rows → col < a.cols → p.compute t s = .ok (a.elem row col)) ∧
      (a.rows ≤ row → p.compute t s = .error (.outOfBounds row a.rows 0)) := by
  unfold build2 at hp
  cases hg : d.groupIndex group with
  | none => simp [hg] at hp
  | some g =>
    have hgl : g < d.groups.length := by
      have := position_lt _ _ _ hg
      simpa using this
    obtain ⟨sim, sch, map, h1, h2, h3, h4, h5⟩ := C06_sim_schema_roundtrip b d hd s hs g hgl
    refine ⟨g, sch, timestepIndex offset a.rows t, rfl, h2, fun hr => (timestepIndex_spec offset a.rows t hr).1, ?_⟩
    simp only [hg, h3] at hp
    cases map with
    | none =>
      simp only [Except.ok.injEq] at hp
      subst hp
      have := h5 rfl
      subst this
      constructor
      · intro hr hc
        simp [Param2.compute, h1, hr, hc]
      · intro hr
        have : ¬ (timestepIndex offset a.rows t < a.rows ∧ sim < a.cols) := by omega
        simp only [Param2.compute, h1]
        rw [if_neg this, if_pos hr]
    | some m =>
      simp only at hp
      cases hsub : subsetArray2 a m with
      | error e => simp [hsub] at hp
      | ok a' =>
        simp only [hsub, Except.ok.injEq] at hp
        subst hp
        unfold subsetArray2 at hsub
        split_ifs at hsub with c1 c2
        simp only [Except.ok.injEq] at hsub
        subst hsub
        have hm := h4 m rfl
        have hlt : sim < m.length := (List.getElem?_eq_some_iff.1 hm).1
        constructor
        · intro hr _
          simp only [Param2.compute, h1]
          rw [if_pos ⟨hr, hlt⟩]
          simp [List.getD_eq_getElem?_getD, hm]
        · intro hr
          have : ¬ (timestepIndex offset a.rows t < a.rows ∧ sim < m.length) := by omega
          simp only [Param2.compute, h1]
          rw [if_neg this, if_pos hr]

/-- C27: a parameter built over a sub-setted group never fails because of a missing column. -/
theorem C27_array2_column_exists {α : Type} (b : DomainBuilder) (d : Domain) (hd : b.build = .ok d) (group : String)
    (a : Array2 α) (offset : Option Int) (p : Param2 α) (hp : build2 d group a offset = .ok p)
    (g : Nat) (hg : d.groupIndex group = some g) (m : List Nat) (hm : d.scenarioMap[g]? = some (some m))
    (s : Index) (hs : s ∈ d.indices) :
    ∃ col, s.schemaIndexForGroup g = some col ∧ col < a.cols := by
  have hgl : g < d.groups.length := by
    have := position_lt _ _ _ hg
    simpa using this
  obtain ⟨sim, sch, map, h1, h2, h3, h4, h5⟩ := C06_sim_schema_roundtrip b d hd s hs g hgl
  rw [hm] at h3
  cases h3
  have hmem := List.mem_of_getElem? (h4 m rfl)
  refine ⟨sch, h2, ?_⟩
  unfold build2 at hp
  simp only [hg, hm] at hp
  cases hsub : subsetArray2 a m with
  | error e => simp [hsub] at hp
  | ok a' =>
    unfold subsetArray2 at hsub
    split_ifs at hsub with c1 c2
    simp only [List.any_eq_true, decide_eq_true_eq, not_exists, not_and] at c1
    have := c1 sch hmem
    omega

/-- C27: one-dimensional arrays; with an offset a non-empty array is never out of bounds. -/
theorem C27_array1_value {α : Type} (array : List α) (offset : Option Int) (t : Nat) (hne : 0 < array.length) :
    ∃ row, rowSpec offset array.length t row ∧
      (∀ v, array[row]? = some v → compute1 array offset t = .ok v) ∧
      (array.length ≤ row → compute1 array offset t = .error (.outOfBounds row array.length 0)) ∧
      (offset.isSome → ∃ v, compute1 array offset t = .ok v) := by
  obtain ⟨h1, h2⟩ := timestepIndex_spec offset array.length t hne
  refine ⟨_, h1, fun v hv => ?_, fun h => ?_, fun h => ?_⟩
  · simp [compute1, hv]
  · simp [compute1, List.getElem?_eq_none h]
  · have := h2 h
    exact ⟨array[timestepIndex offset array.length t], by simp [compute1, List.getElem?_eq_getElem this]⟩

/-- The empty index subset is accepted by the domain but makes every two-dimensional array of that group fail to build. -/
theorem C27_empty_subset_build_error {α : Type} (a : Array2 α) :
    ∃ d, (DomainBuilder.mk [⟨"A", 2, some (.indices []), none⟩] none).build = .ok d ∧
      d.indices = [] ∧ ∀ o, build2 d "A" a o = .error .arraySubset := by
  refine ⟨_, rfl, by decide, fun o => ?_⟩
  rfl

example : ∃ d p, (DomainBuilder.mk [⟨"A", 4, some (.indices [3, 1]), none⟩] none).build = .ok d ∧
    build2 d "A" ⟨2, 4, fun r c => 10 * r + c⟩ none = .ok p ∧
    d.indices.map (p.compute 1) = [.ok 11, .ok 13] := ⟨_, _, rfl, rfl, by decide⟩

end Verif.ArrayParam
