import Verif.Props.TablesArray

/-!
# C84: concrete tables
-/

namespace Verif.Tables

/-- The numbers written in the files of this file. -/
def numC (s : String) : Option ℚ :=
  if s = "1" then some 1 else if s = "2" then some 2 else if s = "2.5" then some (5 / 2) else if s = "-3" then some (-3)
  else if s = "1e20" then some (10 ^ 20) else none

instance (file : List Record) : Decidable (Rectangular file) := by unfold Rectangular; infer_instance

instance (k : Lookup) : Decidable k.Works := by cases k <;> (unfold Lookup.Works; infer_instance)

instance (k : Lookup) (file : List Record) : Decidable (Fits k file) := by
  unfold Fits
  cases k <;> infer_instance

/-- Demands of two places in two seasons: labels of a row and of a column. -/
def demands : Def := ⟨"demands", false, .both 1 1, [["", "summer", "winter"], ["north", "1", "2"], ["south", "2.5", "-3"]]⟩

example : Fits demands.lookup demands.file ∧ demands.lookup.Works := by decide +kernel

/-- No two cells have the same labels. -/
theorem demands_distinct : Distinct demands.lookup.layout demands.file := by
  have key : ∀ i j i' j' : Fin 3, (1 ≤ i.val ∧ 1 ≤ j.val ∧ 1 ≤ i'.val ∧ 1 ≤ j'.val) ∧
      rowLabels demands.lookup.layout demands.file i ++ colLabels demands.lookup.layout demands.file j =
        rowLabels demands.lookup.layout demands.file i' ++ colLabels demands.lookup.layout demands.file j' → i.val = i'.val ∧ j.val = j'.val := by
    decide +kernel
  have bound : ∀ {i j s}, field demands.file i j = some s → i < 3 ∧ j < 3 := by
    intro i j s h
    have hi : i < 3 := field_lt h
    refine ⟨hi, ?_⟩
    by_contra hj
    have hw : ∀ i < 3, (demands.file.getD i []).length = 3 := by decide +kernel
    rw [field, List.getElem?_eq_none (by rw [hw i hi]; omega)] at h
    cases h
  rintro k i j i' j' ⟨⟨s, hc⟩, hk⟩ ⟨⟨s', hc'⟩, hk'⟩
  exact key ⟨i, (bound hc.text).1⟩ ⟨j, (bound hc.text).2⟩ ⟨i', (bound hc'.text).1⟩ ⟨j', (bound hc'.text).2⟩
    ⟨⟨hc.below, hc.right, hc'.below, hc'.right⟩, hk.trans hk'.symm⟩

example : (demands.load numC).toOption.map (fun t => t.getScalar ["north", "winter"]) = some (.ok 2) := by decide +kernel

example : (demands.load numC).toOption.map (fun t => (t.getScalar ["north"], t.getScalar ["east", "winter"], t.getVec ["north"])) =
    some (.error (.wrongKeySize 2 1), .error .entryNotFound, .error .wrongTableFormat) := by decide +kernel

/-- Whole numbers only. -/
example : (demands.load numC).toOption.map (fun t => (t.getIndex ["north", "winter"], t.getIndex ["south", "summer"], t.getIndex ["south", "winter"])) =
    some (.ok 2, .error .u64Conversion, .error .u64Conversion) := by decide +kernel

/-- Two labels per row; the last of two rows with the same labels counts. -/
def pumps : Def := ⟨"pumps", false, .row 2, [["site", "pump", "rate"], ["a", "x", "1"], ["a", "y", "2"], ["a", "x", "2.5"]]⟩

example : Fits pumps.lookup pumps.file ∧ pumps.lookup.Works := by decide +kernel

example : (pumps.load numC).toOption.map (fun t => (t.getScalar ["a", "x"], t.getScalar ["a", "y"], t.getScalar ["x", "a"])) =
    some (.ok (5 / 2), .ok 2, .error .entryNotFound) := by decide +kernel

/-- Later text that is no number removes the value in tables with labels of rows. -/
def replaced : Def := ⟨"replaced", false, .row 1, [["site", "rate"], ["a", "1"], ["a", "none"]]⟩

example : (replaced.load numC).toOption.map (fun t => t.getScalar ["a"]) = some (.error .entryNotFound) := by decide +kernel

/-- Profiles, a row each; and a column each. -/
def profiles : Def := ⟨"profiles", true, .row 1, [["name", "jan", "feb"], ["low", "1", "2"], ["high", "2.5", "1"]]⟩

def profilesC : Def := ⟨"profiles by column", true, .col 1, [["low", "high"], ["1", "2.5"], ["2", "1"]]⟩

example : FitsArray numC profiles.lookup profiles.file ∧ FitsArray numC profilesC.lookup profilesC.file :=
  ⟨(C84_array_loads (num := numC) profiles rfl (n := 1) (by decide) (.inl rfl)).1
      (Option.isSome_iff_exists.1 (by decide +kernel : (profiles.load numC).toOption.isSome = true) |>.imp fun t ht => by
        cases h : profiles.load numC with
        | error e => rw [h] at ht; cases ht
        | ok u => rw [h] at ht; cases ht; rfl),
   (C84_array_loads (num := numC) profilesC rfl (n := 1) (by decide) (.inr rfl)).1
      (Option.isSome_iff_exists.1 (by decide +kernel : (profilesC.load numC).toOption.isSome = true) |>.imp fun t ht => by
        cases h : profilesC.load numC with
        | error e => rw [h] at ht; cases ht
        | ok u => rw [h] at ht; cases ht; rfl)⟩

example : (profiles.load numC).toOption.map (fun t => (t.getVec ["high"], t.getScalar ["high"])) =
    some (.ok [5 / 2, 1], .error .wrongTableFormat) := by decide +kernel

example : (profilesC.load numC).toOption.map (fun t => (t.getVec ["high"], t.getVec ["low"], t.getVec ["mid"])) =
    some (.ok [5 / 2, 1], .ok [1, 2], .error .entryNotFound) := by decide +kernel

/-- Three labels of a row: refused. -/
def three : Def := ⟨"three", false, .row 3, [["a", "b", "c", "value"], ["x", "y", "z", "1"]]⟩

example : Fits three.lookup three.file := by decide +kernel

example : (match three.load numC with | .error e => some e | .ok _ => none) = some (.tooManyColumns 3 4) := by decide +kernel

/-- The same for arrays is loaded. -/
example : ((⟨"three", true, .row 3, three.file⟩ : Def).load numC).toOption.map (fun t => t.getVec ["x", "y", "z"]) = some (.ok [1]) := by
  decide +kernel

/-- **C84 (large numbers, refuted).** A number beyond the range of indices is not refused: the largest index is returned. -/
theorem C84_index_refuted :
    ∃ (d : Def) (t : Loaded), d.lookup.Works ∧ Fits d.lookup d.file ∧ d.load numC = .ok t ∧
      t.getScalar ["a"] = .ok (10 ^ 20) ∧ t.getIndex ["a"] = .ok (2 ^ 64 - 1) := by
  have h : ((⟨"large", false, .row 1, [["site", "rate"], ["a", "1e20"]]⟩ : Def).load numC).toOption.map
      (fun t => (t.getScalar ["a"], t.getIndex ["a"])) = some (.ok (10 ^ 20), .ok (2 ^ 64 - 1)) := by decide +kernel
  refine ⟨⟨"large", false, .row 1, [["site", "rate"], ["a", "1e20"]]⟩, ?_⟩
  cases hl : (⟨"large", false, .row 1, [["site", "rate"], ["a", "1e20"]]⟩ : Def).load numC with
  | error e => rw [hl] at h; cases h
  | ok t =>
    rw [hl] at h
    simp only [Except.toOption, Option.map_some, Option.some.injEq, Prod.mk.injEq] at h
    exact ⟨t, by decide +kernel, by decide +kernel, rfl, h.1, h.2⟩

/-- A model with two tables, and one where the names collide. -/
example : (fromSchema numC [demands, pumps] fun _ => none).toOption.isSome ∧ ¬ (fromSchema numC [demands, demands] fun _ => none).toOption.isSome := by
  decide +kernel

end Verif.Tables
