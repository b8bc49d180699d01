import Verif.Props.Rename
import Verif.Props.DocumentLicencesCases

/-! # Networks that show C101 -/

namespace Verif.Rename.Cases

open Verif.Schema (Net)
open Verif.EndToEnd.LicenceCases (E)
open Verif.Solver (f64MAX)

/-- The network of C99's licences: a well, a town whose demand is a metric, a tank, a pond, a licence, an aggregated node and an
aggregated storage. -/
def N : Net := EndToEnd.LicenceCases.net

/-- The town becomes a city. -/
def M : Net := net (one "town" "city") N

def licences : Nat → EndToEnd.Licence := EndToEnd.LicenceCases.D.licences

/-- Two steps, in which the town wants seven and twenty units. -/
def inps : List Simulation.Inp := [⟨E.time 0, fun _ => some 7, E.solver 0⟩, ⟨E.time 1, fun _ => some 20, E.solver 1⟩]

/-- The flows of the edges in the steps that were done, and whether all were. -/
def flows (o : Option (List Simulation.Record × Except Simulation.SimErr Simulation.SimState)) : Option (List (List ℚ) × Bool) :=
  o.map fun r => (r.1.map fun c => [c.flow 0, c.flow 1, c.flow 2], r.2.toOption.isSome)

/-- Names of the nodes, ends of the edges. -/
example : M.nodes.map (·.name) = ["well", "city", "tank", "pond"] ∧ M.edges.map (fun e => (e.src, e.dst)) = [("well", "city"), ("tank", "city"), ("well", "pond")]
    ∧ Visit.netReferences M = ["well", "city", "tank", "city", "well", "pond", "city", "city", "tank", "pond", "well"] := by decide +kernel

example : "city" ∉ namesOf N := by decide +kernel

/-- The run of the network, and of the renamed one. -/
theorem runs : flows (simulate (fun _ _ _ => 9) N licences f64MAX (-f64MAX) inps) = some ([[5, 2, 0], [6, 1, 1]], true) := by decide +kernel

example : flows (simulate (fun _ _ _ => 9) M licences f64MAX (-f64MAX) inps) = some ([[5, 2, 0], [6, 1, 1]], true) := by
  have h := C101_one "town" "city" (P := fun _ _ _ => 9) (P' := fun _ _ _ => 9) N (by decide +kernel) (fun _ _ _ => rfl) licences f64MAX (-f64MAX) inps
  rw [M, h]
  exact runs

/-- All names get a prefix. -/
theorem prefix_inj : Function.Injective fun x : String => "old " ++ x := fun x y h => by
  have h' := congrArg String.toList h
  simp only [String.toList_append, List.append_cancel_left_eq] at h'
  exact String.toList_inj.1 h'

example : flows (simulate (fun _ _ _ => 9) (net (fun x => "old " ++ x) N) licences f64MAX (-f64MAX) inps) = some ([[5, 2, 0], [6, 1, 1]], true) := by
  rw [C101_runs prefix_inj (P := fun _ _ _ => 9) (fun _ _ _ => rfl)]
  exact runs

example : ∃ F, (net (fun x => "old " ++ x) N).compile (fun _ _ _ => 9) = .ok F := by
  have h := C101_compiles prefix_inj (P := fun _ _ _ => 9) (P' := fun _ _ _ => 9) (fun _ _ _ => rfl) N
  have h2 : (N.compile fun _ _ _ => 9).toOption.isSome := by decide +kernel
  cases h3 : (net (fun x => "old " ++ x) N).compile (fun _ _ _ => 9) with
  | ok F => exact ⟨F, rfl⟩
  | error e =>
    rw [h3] at h
    cases h4 : N.compile fun _ _ _ => 9 <;> rw [h4] at h h2 <;> cases h2 <;> cases h

/-- Renaming a node without the references to it: the network is no longer accepted. -/
def halfway : Net := { N with nodes := N.nodes.map fun n => { n with name := one "town" "city" n.name } }

example : (match halfway.compile fun _ _ _ => 9 with | .error (.nodeNotFound x) => x == "town" | _ => false) = true := by decide +kernel

/-- Nor is it if two nodes get the same name: different names have to stay different. -/
theorem not_injective : (simulate (fun _ _ _ => 9) (net (one "town" "well") N) licences f64MAX (-f64MAX) inps).isNone ∧
    (simulate (fun _ _ _ => 9) N licences f64MAX (-f64MAX) inps).isSome := by decide +kernel

/-- The metric of the inflow of the town shows the node at the second position, by its new name as by its old one. -/
example : ∀ F C, ((Visit.mapTarget (fun x => "old " ++ x) (.node "town" (some .inflow))).metric (net (fun x => "old " ++ x) N)).toOption.bind
    (EndToEnd.place (frag (fun x => "old " ++ x) F) (core (fun x => "old " ++ x) C)) =
    ((EndToEnd.Target.node "town" (some .inflow)).metric N).toOption.bind (EndToEnd.place F C) :=
  fun F C => C101_metrics prefix_inj N F C _ (by simp)

example : ((EndToEnd.Target.node "town" (some .inflow)).metric N).toOption.isSome ∧
    ((N.virtualNodes.find? (fun v => v.name = "licence")).bind fun v => (EndToEnd.virtualMetric v none).toOption).isSome := by decide +kernel

/-! ## Visitors -/

open Visit

/-- A threshold parameter with a metric, an index, an array of returned metrics and a file. -/
def item : Item :=
  .list [.plain "threshold", .metric (.node "tank" (some .volume)), .index (.other "zone"),
    .list [.array [.edge ⟨"tank", "town", none, none⟩, .other "five"], .path "curve.csv"], .reference "well"]

example : item.references = ["tank", "tank", "town", "well"] ∧ item.metrics = [.node "tank" (some .volume)] ∧ item.paths = ["curve.csv"] := by decide +kernel

example : (item.mapReferences (one "town" "city")).references = ["tank", "tank", "city", "well"] := by
  rw [C101_renamed_references]; decide +kernel

example : item.mapReferences (one "sea" "lake") = item := C101_untouched _ _ fun x h => by
  have : x ∈ item.references := (Visit.references_iff _ _).2 h
  have h2 : ∀ x ∈ item.references, one "sea" "lake" x = x := by decide +kernel
  exact h2 x this

/-- Without its array the metrics are all visited. -/
def plainItem : Item := .list [.plain "sum", .metric (.node "tank" (some .volume)), .list [.metric (.other "demand"), .path "a.csv"]]

theorem plainItem_plain : Plain plainItem := by
  refine .list fun i hi => ?_
  simp only [List.mem_cons, List.not_mem_nil, or_false] at hi
  rcases hi with rfl | rfl | rfl
  · exact .plain _
  · exact .metric _
  · refine .list fun i hi => ?_
    simp only [List.mem_cons, List.not_mem_nil, or_false] at hi
    rcases hi with rfl | rfl
    · exact .metric _
    · exact .path _

example : Holds plainItem (.other "demand") := (C101_visited_metrics_partial _ plainItem_plain _).1 (by decide +kernel)

def schema : Visit.Schema :=
  ⟨[.list [.plain "input", .metric (.other "demand")]], [.list [.plain "aggregated", .reference "town"]], [⟨"well", "town", none, none⟩], [item],
    [.path "table.csv"], [.list [.plain "inflow", .path "inflow.csv"]], [[.node "tank" none]], [.path "out.h5"]⟩

example : schema.references = ["well", "town", "town", "tank", "tank", "town", "well", "tank"] := by decide +kernel

example : schema.Refers "tank" := (C101_references schema "tank").1 (by decide +kernel)

example : schema.paths = ["curve.csv", "inflow.csv", "out.h5"] := by decide +kernel

example : ∃ i ∈ schema.nodes ++ schema.parameters ++ schema.timeseries ++ schema.outputs, Written i "inflow.csv" :=
  (C101_visited_paths_partial schema "inflow.csv").1 (by decide +kernel)

end Verif.Rename.Cases
