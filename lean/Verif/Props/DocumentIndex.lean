import Verif.Props.DocumentCases

/-! # C97: index metrics of nodes in a document -/

namespace Verif.EndToEnd

open Verif.Load
open Verif.Schema (Frag Core)
open Verif.Kinds (Param)

/-- **C97 (index of a node).** An index metric that refers to a node never loads: the load panics exactly if a node has that name,
and else says that there is none. -/
theorem C97_index_of_node (D : Document) (E : Setting) (F : Frag) (C : Core) (parent : Option String) (x : String)
    (added : List (Param Area)) :
    (SIndex.load (D.args E F C) parent (.node x) added = .error .todo ↔ ∃ n ∈ D.net.nodes, n.name = x) ∧
    (SIndex.load (D.args E F C) parent (.node x) added = .error (.nodeNotFound x) ↔ ¬ ∃ n ∈ D.net.nodes, n.name = x) := by
  have hn : (D.args E F C).node x = true ↔ ∃ n ∈ D.net.nodes, n.name = x := by simp [Document.args]
  by_cases h : ∃ n ∈ D.net.nodes, n.name = x
  · have h1 := hn.2 h
    simp [SIndex.load, h1, fail, h]
  · have h1 := mt hn.1 h
    simp only [Bool.not_eq_true] at h1
    simp [SIndex.load, h1, fail, h]

/-- In the case there is a tank and no dam. -/
example (E : Setting) (F : Frag) (C : Core) (added : List (Param Area)) :
    SIndex.load (Cases.D.args E F C) none (.node "tank") added = .error .todo ∧
    SIndex.load (Cases.D.args E F C) none (.node "dam") added = .error (.nodeNotFound "dam") :=
  ⟨(C97_index_of_node _ E F C none "tank" added).1.2 (by decide), (C97_index_of_node _ E F C none "dam" added).2.2 (by decide)⟩

end Verif.EndToEnd
