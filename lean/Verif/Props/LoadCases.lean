import Verif.Props.Load
import Verif.Props.LoadOk
import Mathlib.Logic.Equiv.List

/-!
# Documents that show C96 and C97
-/

namespace Verif.Load.Cases

open Verif.Params Verif.Kinds

/-- A numbering of names in which those of a list come first. -/
def codeOf (known : List PName) (p : PName) : Nat :=
  if p ∈ known then known.idxOf p
  else known.length + Encodable.encode (p.name.toList.map Char.toNat, p.sub.map fun s => s.toList.map Char.toNat,
    p.parent.map fun s => s.toList.map Char.toNat)

theorem chars_inj : Function.Injective fun s : String => s.toList.map Char.toNat := by
  intro a b h
  have h1 : a.toList = b.toList := (List.map_injective_iff.2 fun x y hxy => Char.toNat_inj.1 hxy) h
  exact String.toList_inj.1 h1

theorem codeOf_injective (known : List PName) (a b : PName) (h : codeOf known a = codeOf known b) : a = b := by
  unfold codeOf at h
  by_cases ha : a ∈ known
  · rw [if_pos ha] at h
    have hl := List.idxOf_lt_length_of_mem ha
    by_cases hb : b ∈ known
    · rw [if_pos hb] at h
      exact (List.idxOf_inj ha).1 h
    · rw [if_neg hb] at h
      omega
  · rw [if_neg ha] at h
    by_cases hb : b ∈ known
    · rw [if_pos hb] at h
      have hl := List.idxOf_lt_length_of_mem hb
      omega
    · rw [if_neg hb] at h
      have h1 := Encodable.encode_injective (Nat.add_left_cancel h)
      simp only [Prod.mk.injEq] at h1
      obtain ⟨h2, h3, h4⟩ := h1
      have e1 := chars_inj h2
      have e2 := Option.map_injective chars_inj h3
      have e3 := Option.map_injective chars_inj h4
      cases a; cases b
      simp_all

/-- The network of the examples: its state is a number, the flow that has come so far. -/
def args : Args ℚ where
  code := codeOf [named "half" (some "works"), named "need" (some "works"), named "inflow" (some "river"), named "deficit" (some "town"),
    named "rule" none, ⟨"rule", some "threshold", some "rule"⟩, named "memory" none, named "curve" none]
  table r := if r = "size" then some 8 else none
  tableIndex _ := none
  tableList r := if r = "levels" then some [1, 2] else none
  comp c := if c = "level" then .ok (.shown some) else if c = "shortage" then .ok (.deficit "town" some fun _ => some 20)
    else .error (.nodeNotFound c)
  node n := n = "works"
  transfer _ _ := none
  series s := if s = "river" then some [("inflow", [1, 2, 3]), ("other", [7, 7, 7])] else none
  scenario g := if g = "climate" then some (1, 2) else none
  time _ := ⟨⟨2020, 1, 1⟩, 0⟩
  fmax := 1000

/-- A node with parameters of its own, a threshold that returns values, a delay, and control curves. -/
def doc : Doc where
  nodes := [⟨"works", [.localParam ⟨"need", none, none⟩, .param ⟨"rule", none, none⟩],
    [("need", .aggregated .sum [.localParam ⟨"half", none, none⟩, .series "river" (some (.column "inflow"))] .before),
      ("half", .constant (.table "size"))]⟩]
  virtuals := []
  params := [("rule", .threshold (.component "level") (.literal 5) .greaterThan (some [.literal 4, .param ⟨"memory", none, none⟩]) false),
    ("memory", .delay (.component "shortage") 1 5),
    ("curve", .controlCurve (.component "level") [.literal 20, .literal 10] [.literal 1, .literal 2, .literal 3])]
  outputs := [.param ⟨"rule", none, none⟩, .component "shortage", .series "river" (some (.column "inflow")), .param ⟨"curve", none, none⟩]
  links := [.literal 12, .series "river" (some (.column "inflow"))]

/-- The solver adds half of what the nodes ask for. -/
def add (_ : Nat) (w : ℚ) (qs : List ℚ) : Option ℚ := some (w + qs.sum / 2)

/-- The end of a run. -/
def result : Outcome ℚ → Option (ℚ × List ℚ)
  | .done w qs => some (w, qs)
  | _ => none

theorem done_of {r : Outcome ℚ} {w : ℚ} {qs : List ℚ} (h : result r = some (w, qs)) : r = .done w qs := by
  cases r <;> simp_all [result]

theorem args_injective : args.Injective := codeOf_injective _

/-- The document can be loaded, built and run, and its names do not collide. -/
theorem doc_runs : doc.run args [] (fun _ w _ => some w) add 0 1 = .done (73 / 4) [27 / 2, 7 / 4, 2, 3] :=
  done_of (by decide +kernel)

theorem args_series {s : String} (h : s ≠ "river") : args.series s = none := if_neg h

theorem args_deficit {c node : String} {f l : ℚ → Option ℚ} (h : args.comp c = .ok (.deficit node f l)) :
    node = "town" ∧ f = some ∧ l = fun _ => some 20 := by
  simp only [args] at h
  split_ifs at h with h1 h2
  · cases Except.ok.inj h
  · have h3 := Except.ok.inj h
    simp only [Found.deficit.injEq] at h3
    exact ⟨h3.1.symm, h3.2.1.symm, h3.2.2.symm⟩

theorem doc_apart : doc.Apart args where
  virtuals := by simp [doc]
  locals := by
    intro n hn p hp
    simp only [doc, List.mem_singleton] at hn
    subst hn
    simp only [List.mem_cons, List.not_mem_nil, or_false] at hp
    rcases hp with rfl | rfl <;> decide
  nodes := by
    intro n hn
    simp only [doc, List.mem_singleton] at hn
    subst hn
    exact args_series (by decide)
  deficits := by
    intro c node f l h
    rw [(args_deficit h).1]
    exact args_series (by decide)
  same := by
    intro c c' node f l f' l' h h'
    rw [(args_deficit h).2.1, (args_deficit h).2.2, (args_deficit h').2.1, (args_deficit h').2.2]
    exact ⟨rfl, rfl⟩
  columns := by
    intro s table g hs hg c hc
    simp only [args] at hs hg
    split_ifs at hs
    obtain rfl := Option.some.inj hs
    split_ifs at hg with h1
    · subst h1
      simp only [List.mem_cons, List.not_mem_nil, or_false] at hc
      rcases hc with rfl | rfl <;> decide
    · exact absurd rfl hg
  unique := by
    intro s table hs
    simp only [args] at hs
    split_ifs at hs
    obtain rfl := Option.some.inj hs
    decide
  multi := by
    intro n hn p hp m ls pr r
    simp only [doc, List.mem_singleton] at hn
    subst hn
    simp only [List.mem_cons, List.not_mem_nil, or_false] at hp
    rcases hp with rfl | rfl <;> simp

/-- The theorem on the document. -/
example : ∃ S : Story ℚ, Told args doc [] (fun _ w _ => some w) add 0 2 S ∧ S.late 1 = 73 / 4 ∧
    List.Forall₂ (SNum args S .late 1 none) doc.outputs [27 / 2, 7 / 4, 2, 3] :=
  C96_run_partial args doc doc_apart args_injective _ _ _ _ _ _ _ doc_runs

/-- It can be loaded in the sense of the specification. -/
example : doc.Loads args := (C97_loads args doc).1 (by
  cases h : doc.loaded args with
  | ok r => exact ⟨r, rfl⟩
  | error e =>
    have := doc_runs
    unfold Doc.run at this
    rw [h] at this
    cases this)

/-! ## Names that are taken for each other -/

/-- A node with a parameter called like the deficit of the node. -/
def deficitDoc : Doc := ⟨[⟨"town", [], [("deficit", .aggregated .sum [.literal 7] .after)]⟩], [], [], [.component "shortage"], []⟩

/-- The deficit of a node is reported as the value of its parameter of that name: here the deficit is 20 and the report is
7. -/
theorem C97_deficit_captured : deficitDoc.run args [] (fun _ w _ => some w) add 0 0 = .done 0 [7] ∧
    ¬ ∃ S : Story ℚ, S.late 0 = 0 ∧ List.Forall₂ (SNum args S .late 0 none) deficitDoc.outputs [7] := by
  refine ⟨done_of (by decide +kernel), ?_⟩
  rintro ⟨S, h1, h2⟩
  cases h2 with
  | cons h3 _ =>
    obtain ⟨found, h4, h5⟩ := h3
    obtain rfl := Except.ok.inj h4
    obtain ⟨x, y, h6, h7, h8⟩ := h5.1 rfl
    rw [h1] at h6
    obtain rfl := Option.some.inj h6
    obtain rfl := Option.some.inj h7
    norm_num at h8

/-- A node called like a series with a parameter called like one of its columns. -/
def seriesDoc : Doc :=
  ⟨[⟨"river", [], [("inflow", .constant (.lit 9))]⟩], [], [], [.series "river" (some (.column "inflow"))], []⟩

/-- The column of a series is reported as the value of that parameter: the series says 1 and the report is 9. -/
theorem C97_series_captured : seriesDoc.run args [] (fun _ w _ => some w) add 0 0 = .done 0 [9] ∧
    ¬ ∃ S : Story ℚ, List.Forall₂ (SNum args S .late 0 none) seriesDoc.outputs [9] := by
  refine ⟨done_of (by decide +kernel), ?_⟩
  rintro ⟨S, h2⟩
  cases h2 with
  | cons h3 _ =>
    obtain ⟨table, h4, values, h5, h6⟩ := h3
    obtain rfl := Option.some.inj h4
    simp only [List.mem_cons, Prod.mk.injEq, true_and, List.not_mem_nil, or_false] at h5
    rcases h5 with rfl | ⟨h7, -⟩
    · simp at h6
    · exact absurd h7 (by decide)

/-- The network with a scenario group called like a column. -/
def groupArgs : Args ℚ := { args with scenario := fun g => if g = "inflow" then some (1, 2) else none }

/-- A node that uses the series by scenario, and a report of the column of the same name. -/
def groupDoc : Doc := ⟨[⟨"works", [.series "river" (some (.scenario "inflow"))], []⟩], [], [], [.series "river" (some (.column "inflow"))], []⟩

/-- The column is reported as the one of the scenario: it says 1 and the report is 7. -/
theorem C97_column_captured : groupDoc.run groupArgs [] (fun _ w _ => some w) (fun _ w _ => some w) 0 0 = .done 0 [7] ∧
    ¬ ∃ S : Story ℚ, List.Forall₂ (SNum groupArgs S .late 0 none) groupDoc.outputs [7] := by
  refine ⟨done_of (by decide +kernel), ?_⟩
  rintro ⟨S, h2⟩
  cases h2 with
  | cons h3 _ =>
    obtain ⟨table, h4, values, h5, h6⟩ := h3
    obtain rfl := Option.some.inj h4
    simp only [List.mem_cons, Prod.mk.injEq, true_and, List.not_mem_nil, or_false] at h5
    rcases h5 with rfl | ⟨h7, -⟩
    · simp at h6
    · exact absurd h7 (by decide)

/-- The network with a series called like a node with a deficit. -/
def townArgs : Args ℚ := { args with series := fun s => if s = "town" then some [("deficit", [3])] else none }

/-- The series and the deficit of the node. -/
def townDoc : Doc := ⟨[], [], [], [.series "town" none, .component "shortage"], []⟩

/-- How a document fails before it runs: with an error of loading, or in the building of parameters. -/
def refused : Outcome ℚ → Option (Option Err)
  | .notLoaded e => some (some e)
  | .notBuilt => some none
  | _ => none

/-- Each of them can be reported, but not both. -/
theorem C97_deficit_series :
    result (Doc.run townArgs { townDoc with outputs := [.series "town" none] } [] (fun _ w _ => some w) add 0 0) = some (0, [3]) ∧
    result (Doc.run townArgs { townDoc with outputs := [.component "shortage"] } [] (fun _ w _ => some w) add 0 0) = some (0, [20]) ∧
    refused (townDoc.run townArgs [] (fun _ w _ => some w) add 0 0) = some none := by
  refine ⟨?_, ?_, ?_⟩ <;> decide +kernel

/-! ## Parameters that are not found -/

/-- A document of one node with a parameter `half` that is 4, another parameter, and the use of it. -/
def local1 (k : SKind) : Doc :=
  ⟨[⟨"works", [.localParam ⟨"need", none, none⟩], [("half", .constant (.lit 4)), ("need", k)]⟩], [], [], [.component "level"], []⟩

/-- A parameter of the node can be used by an aggregation, but not by the maximum with a number. -/
theorem C97_local_refuted :
    result ((local1 (.aggregated .max [.localParam ⟨"half", none, none⟩, .literal 0] .before)).run args [] (fun _ w _ => some w) add 0 0) =
      some (2, [2]) ∧
    refused ((local1 (.max (.localParam ⟨"half", none, none⟩) (some 0))).run args [] (fun _ w _ => some w) add 0 0) =
      some (some (.needsParent "half")) := by
  constructor <;> decide +kernel

/-- A threshold of a node can be used by the node, a multi-threshold with one threshold cannot. -/
theorem C97_multi_refuted :
    result ((local1 (.threshold (.component "level") (.literal 5) .lessThan none false)).run args [] (fun _ w _ => some w) add 0 0) =
      some (1 / 2, [1 / 2]) ∧
    refused ((local1 (.multiThreshold (.component "level") [.literal 5] .lessThan none false)).run args [] (fun _ w _ => some w) add 0 0) =
      some none := by
  constructor <;> decide +kernel

/-- A document of two nodes that have a threshold each, with these names. -/
def twice (a b : String) : Doc :=
  ⟨[⟨"works", [], [(a, .threshold (.component "level") (.literal 5) .lessThan (some [.literal 1, .literal 2]) false)]⟩,
    ⟨"town", [], [(b, .threshold (.component "level") (.literal 5) .lessThan (some [.literal 1, .literal 2]) false)]⟩], [], [],
    [.component "level"], []⟩

/-- Parameters of different nodes may have the same name, but not if they are thresholds that return values. -/
theorem C97_threshold_refuted :
    result ((twice "rule" "rule2").run args [] (fun _ w _ => some w) add 0 0) = some (0, [0]) ∧
    refused ((twice "rule" "rule").run args [] (fun _ w _ => some w) add 0 0) = some none := by
  constructor <;> decide +kernel

/-- A document with a node or a virtual node that uses a parameter of its own. -/
def own (isVirtual : Bool) : Doc :=
  let n : SNode := ⟨"works", [.localParam ⟨"half", none, none⟩], [("half", .constant (.lit 4))]⟩
  ⟨if isVirtual then [] else [n], if isVirtual then [n] else [], [], [.component "level"], []⟩

/-- The parameters of virtual nodes are not loaded. -/
theorem C97_virtual_refuted :
    result ((own false).run args [] (fun _ w _ => some w) add 0 0) = some (2, [2]) ∧
    refused ((own true).run args [] (fun _ w _ => some w) add 0 0) = some none := by
  constructor <;> decide +kernel

/-- Parameters of nodes cannot be recorded, and neither can numbers; the index of a node cannot be used at all. -/
theorem C97_outputs_refuted :
    refused (Doc.run args { own false with outputs := [.localParam ⟨"half", none, none⟩] } [] (fun _ w _ => some w) add 0 0) =
      some (some (.needsParent "half")) ∧
    refused (Doc.run args { own false with outputs := [.literal 3] } [] (fun _ w _ => some w) add 0 0) = some (some .literalOutput) ∧
    refused ((local1 (.aggregatedIndex .sum [.node "works"] .before)).run args [] (fun _ w _ => some w) add 0 0) =
      some (some .todo) := by
  refine ⟨?_, ?_, ?_⟩ <;> decide +kernel

end Verif.Load.Cases
