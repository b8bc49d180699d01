import Verif.Props.RenameDocument
import Verif.Props.DocumentPiecesCases

/-! # Documents that show C101 -/

namespace Verif.Rename.DocumentCases

open Verif.EndToEnd (Document Setting Ending)
open Verif.EndToEnd.Cases (result ran_of)
open Verif.Load (named Doc)
open Verif.Load.Cases (codeOf codeOf_injective)
open Verif.Solver (f64MAX)

/-- What a run shows is what the other one shows. -/
theorem same_result {ρ : String → String} {e e' : Ending} (h : SameEnding ρ e e') : result e' = result e := by
  cases h <;> rfl

/-- In the document of C99 the tank becomes a lake. Its volume is read by a parameter and by the metric set, and it is the end of two
edges. -/
def M : Document := document (swap "tank" "lake") (fun x => EndToEnd.Cases.D.numbers (swap "tank" "lake" x)) EndToEnd.Cases.D

example : M.net.nodes.map (·.name) = ["cat", "lag", "lake", "town"] ∧ M.doc.nodes.map (·.name) = ["cat", "lag", "lake", "town"] ∧
    M.net.edges.map (fun e => (e.src, e.dst)) = [("cat", "lag"), ("lag", "lake"), ("lake", "town")] := by decide +kernel

theorem not_made (r x p : String) : EndToEnd.Cases.D.refs r ≠ .made (.parameter x p) := by
  simp only [EndToEnd.Cases.D]
  split_ifs <;> simp

/-- Its run shows what that of C99 does. -/
theorem M_runs : ∃ w, M.run (recode "tank" "lake" EndToEnd.Cases.E) 1 = .ran (.done w [0, 2, 8, 20, 18]) := by
  refine ran_of ?_
  rw [M, same_result (C101_document_one_partial "tank" "lake" EndToEnd.Cases.D EndToEnd.Cases.E rfl rfl (fun r x p h => absurd h (not_made r x p)) 1)]
  obtain ⟨w, h⟩ := EndToEnd.Cases.runs
  rw [h]
  rfl

/-- So does that in which the node with parameters of its own is renamed, by which the names of these change. -/
example : ∃ w, (document (swap "lag" "reach") (fun x => EndToEnd.Cases.D.numbers (swap "lag" "reach" x)) EndToEnd.Cases.D).run
    (recode "lag" "reach" EndToEnd.Cases.E) 1 = .ran (.done w [0, 2, 8, 20, 18]) := by
  refine ran_of ?_
  rw [same_result (C101_document_one_partial "lag" "reach" EndToEnd.Cases.D EndToEnd.Cases.E rfl rfl (fun r x p h => absurd h (not_made r x p)) 1)]
  obtain ⟨w, h⟩ := EndToEnd.Cases.runs
  rw [h]
  rfl

example : (recode "lag" "reach" EndToEnd.Cases.E).code (named "delay" (some "reach")) = EndToEnd.Cases.E.code (named "delay" (some "lag")) := by
  decide +kernel

/-- A lake of two stores, with the parameters it makes. -/
example : ∃ w, (document (swap "lake" "pond") (fun x => EndToEnd.PiecesCases.D.numbers (swap "lake" "pond" x)) EndToEnd.PiecesCases.D).run
    (recode "lake" "pond" EndToEnd.PiecesCases.E) 1 = .ran (.done w [6, 3 / 16]) := by
  refine ran_of ?_
  rw [same_result (C101_document_one_partial "lake" "pond" EndToEnd.PiecesCases.D EndToEnd.PiecesCases.E rfl rfl (fun r x p h => absurd h (by
    simp only [EndToEnd.PiecesCases.D]
    split_ifs <;> simp)) 1)]
  obtain ⟨w, h⟩ := EndToEnd.PiecesCases.runs
  rw [h]
  rfl

/-! ## Names of series -/

/-- A river and a town with a parameter of its own, and a series with a column of the name of this parameter, which a metric set
shows. -/
def S : Document where
  net :=
    { nodes := [⟨"river", .input ⟨some (.const 5), none, none⟩, []⟩, ⟨"town", .output ⟨some (.const 7), none, some (.const (-5))⟩, []⟩]
      virtualNodes := []
      edges := [⟨"river", "town", none, none⟩] }
  doc :=
    { nodes := [⟨"river", [], []⟩, ⟨"town", [], [("flow", .constant (.lit 2))]⟩]
      virtuals := []
      params := []
      outputs := [.series "gauge" (some (.column "flow"))] }
  refs _ := .node "nowhere" none
  numbers _ _ _ := 9
  licences _ := ⟨.absolute 0, .never, .initial, none, .always, 0, 0⟩

def E : Setting where
  code := codeOf [named "flow" (some "town"), named "flow" (some "gauge")]
  table _ := none
  tableIndex _ := none
  tableList _ := none
  series s := if s = "gauge" then some [("flow", [3, 4])] else none
  scenario _ := none
  time k := if k = 0 then ⟨⟨⟨2020, 1, 31⟩, 0⟩, 0, 86400000000000⟩ else ⟨⟨⟨2020, 2, k⟩, 0⟩, k, 86400000000000⟩
  solver _ := EndToEnd.Cases.answer [5]
  big := f64MAX
  negBig := -f64MAX

/-- **C101 refuted for names of series.** Parameters of a node and columns of a series are named in the same way
(`pywr-schema/src/timeseries/mod.rs:203-208`), and a column is not added if there is a parameter of its name. So if a node gets the name
of a series, which no node has, a metric of the series shows the parameter of the node, without an error. -/
theorem C101_document_series_refuted :
    ∃ (D : Document) (E : Setting) (a b : String) (n : Nat), Function.Injective E.code ∧ b ∉ owners D ∧ E.series b ≠ none ∧
      result (D.run E n) = some [4] ∧ result ((document (swap a b) D.numbers D).run E n) = some [2] :=
  ⟨S, E, "town", "gauge", 1, codeOf_injective _, by decide +kernel, by simp [E], by decide +kernel, by decide +kernel⟩

end Verif.Rename.DocumentCases
