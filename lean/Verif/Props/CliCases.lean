import Verif.Props.Cli

/-! # Files that show C105 -/

namespace Verif.Cli.Cases

/-- Old models are one of two texts; the conversion of the second one has an error. -/
def T : Tool where
  Old := Nat
  New := Nat
  parse t := if t = "old 1" then some 1 else if t = "old 2" then some 2 else none
  convert a := if a = 2 then (a, ["unknown parameter"]) else (a, [])
  print b := if b = 1 then some "new 1" else some "new 2"

/-- Networks are not read. -/
def none' : Tool := ⟨Nat, Nat, fun _ => none, fun a => (a, []), fun _ => none⟩

/-- Two directories, the first of which has two models, a table, a directory and files whose names do not end in `.json` or have
nothing before that. -/
def disk (second : String) : Disk := fun p =>
  if p = [] then some .dir else if p = ["in"] then some .dir else if p = ["out"] then some .dir
  else if p = ["in", "a.json"] then some (.file "old 1") else if p = ["in", "b.v1.json"] then some (.file second)
  else if p = ["in", "flow.csv"] then some (.file "1,2") else if p = ["in", "c.JSON"] then some (.file "old 1")
  else if p = ["in", ".json"] then some (.file "old 1") else if p = ["in", "d.json"] then some .dir
  else if p = ["out", "b.v1.json"] then some (.file "before") else none

def names : List String := ["a.json", "b.v1.json", "flow.csv", "c.JSON", ".json", "d.json"]

theorem lists (second : String) (l : List String) (h : l.Perm names) : Lists (disk second) ["in"] l := by
  refine ⟨h.nodup_iff.2 (by decide +kernel), fun n x hx => h.mem_iff.2 ?_⟩
  simp only [disk, List.cons_append, List.nil_append, List.cons.injEq, and_true, true_and, reduceCtorEq, and_false, if_false] at hx
  simp only [names, List.mem_cons, List.not_mem_nil, or_false]
  by_contra hn
  simp only [not_or] at hn
  simp [hn] at hx

example : Json "a.json" ∧ Json "b.v1.json" ∧ ¬ Json "c.JSON" ∧ ¬ Json ".json" ∧ ¬ Json "flow.csv" := by
  simp only [← extension_json]
  decide +kernel

/-- Without `stop_on_error` both models are written. -/
theorem converted : ∃ d', convert T none' false false names (disk "old 2") ["in"] ["out"] = (d', none) ∧
    d' ["out", "a.json"] = some (.file "new 1") ∧ d' ["out", "b.v1.json"] = some (.file "new 2") ∧ d' ["out", "d.json"] = none :=
  ⟨_, Prod.ext rfl (by decide +kernel), by decide +kernel, by decide +kernel, by decide +kernel⟩

/-- So it is by the theorem, and in every order. -/
example (l : List String) (h : l.Perm names) : ∃ d', convert T none' false false l (disk "old 2") ["in"] ["out"] = (d', none) ∧
    Converted T false ["in"] ["out"] (disk "old 2") d' ∧ d' ["out", "a.json"] = some (.file "new 1") := by
  obtain ⟨d', hc, ha, -⟩ := converted
  have hi : disk "old 2" ["in"] = some .dir := by decide +kernel
  exact ⟨d', C105_order_partial T none' false false _ d' _ _ names l (lists _ _ (.refl _)) (lists _ _ h) hi hc,
    ((C105_directory T none' false false _ d' _ _ names (lists _ _ (.refl _)) hi).1 hc).2, ha⟩

/-- With `stop_on_error` the second one is not. -/
theorem stopped : (convert T none' true false names (disk "old 2") ["in"] ["out"]).2 = some .stopped ∧
    (convert T none' true false names (disk "old 2") ["in"] ["out"]).1 ["out", "b.v1.json"] = some (.file "before") := by decide +kernel

example (p : Path) : Intact T true ["in"] ["out"] (disk "old 2") p ((convert T none' true false names (disk "old 2") ["in"] ["out"]).1 p) :=
  C105_intact T none' true false _ _ _ names (by decide +kernel) (by decide +kernel) p

/-- A single file. -/
example : ∃ d', convert T none' true false [] (disk "old 2") ["in", "a.json"] ["out", "new.json"] = (d', none) ∧
    d' ["out", "new.json"] = some (.file "new 1") := by
  refine ⟨fun p => if p = ["out", "new.json"] then some (.file "new 1") else disk "old 2" p, (C105_file T none' true false _ _ _ _ [] (by decide +kernel)).2
    ⟨by decide +kernel, by decide +kernel, "old 1", "new 1", by decide +kernel, ⟨(1 : Nat), by simp [T], fun _ => rfl, rfl⟩, by simp,
      fun p hp => by simp [hp]⟩, by simp⟩

/-- A directory may be converted into itself; what was converted is then not an old model any more. -/
example : (convert T none' false false names (disk "old 2") ["in"] ["in"]).2 = none ∧
    (convert T none' false false names (convert T none' false false names (disk "old 2") ["in"] ["in"]).1 ["in"] ["in"]).2 = some .notParsed := by
  decide +kernel

/-- **C105 refuted for errors.** Without `stop_on_error` a file that is no old model still ends the conversion, and which of the others
have been converted then depends on the order in which the file system lists them. -/
theorem C105_order_refuted : ∃ (T N : Tool) (d : Disk) (i o : Path) (l l' : List String), Lists d i l ∧ Lists d i l' ∧ d i = some .dir ∧
    (convert T N false false l d i o).2 = some .notParsed ∧ (convert T N false false l' d i o).2 = some .notParsed ∧
    ∃ p text, (convert T N false false l d i o).1 p = some (.file text) ∧ (convert T N false false l' d i o).1 p = none :=
  ⟨T, none', disk "{}", ["in"], ["out"], names, names.reverse, lists _ _ (.refl _), lists _ _ (List.reverse_perm _), by decide +kernel,
    by decide +kernel, by decide +kernel, ["out", "a.json"], "new 1", by decide +kernel, by decide +kernel⟩

end Verif.Cli.Cases
