import Verif.Props.Visitors
import Verif.Props.RenameCases

/-! # C101: cases of visitors that change what they visit -/

namespace Verif.Rename.Cases

open Visit

/-- The directory is put in front. -/
def into (p : String) : String := "data/" ++ p

/-- The files are those of another directory, but for the table. -/
example : (schema.mapPaths into).paths = ["data/curve.csv", "data/inflow.csv", "data/out.h5"] := by
  rw [(C101_agree schema).1]; decide +kernel

example : (schema.mapPaths into).tables = [.path "table.csv"] := ((C101_moved_partial into schema _).1 rfl).2.2.2.2.2.2.1

example : (schema.mapPaths into).Needs "table.csv" := ⟨.path "table.csv", by simp [Schema.mapPaths, schema], .path _⟩

/-- A parameter that became a series is replaced, in nodes and metric sets, and not in arrays. -/
def series (m : Met) : Met := if m = .other "demand" then .other "demand of the series" else m

example : (schema.mapMetrics series).metrics = [.other "demand of the series", .node "tank" (some .volume), .node "tank" none] := by
  rw [(C101_agree schema).2.1]; decide +kernel

example : (schema.mapMetrics series).timeseries = schema.timeseries := ((C101_replaced series schema _).1 rfl).2.2.2.2.2.2.1

example : (schema.mapReferences (one "town" "city")).references = ["well", "city", "city", "tank", "tank", "city", "well", "tank"] := by
  rw [(C101_agree schema).2.2]; decide +kernel

example : (schema.mapReferences (one "town" "city")).edges = [⟨"well", "city", none, none⟩] :=
  ((C101_renamed (one "town" "city") schema _).1 rfl).2.2.2.2.1.trans (by decide +kernel)

example : Changed id id id into item (item.mapPaths into) := ((C101_changes item _).1 into).1 rfl

/-- A value whose metrics changed as well is not what the visitor of paths gives. -/
example : item.mapPaths into ≠ .list [] := by
  rw [Ne, (C101_changes item _).1 into]
  intro h
  cases h with | list h => cases h

end Verif.Rename.Cases
