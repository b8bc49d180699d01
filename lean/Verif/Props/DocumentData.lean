import Verif.Props.DocumentCases

/-! # C99: data of series, tables and scenarios in the runs of documents -/

namespace Verif.EndToEnd

open Verif.State Verif.Solver Verif.Time Verif.Simulation Verif.Coupled
open Verif.Schema (Frag Core Built fragOf coreOf UMetric received sent)
open Verif.Load (Doc Story SNum)

section
variable {D : Document} {E : Setting} {F : Frag} {C : Core} {n : Nat} {S : Story Area} {f : Nat → Nat → ℚ} {st : Nat → StepState}
variable (h : Built D.numbers D.net F C) (H : Happens D E F C n S f st) {x : Schema.SNode} (hx : x ∈ D.net.nodes)
include h H hx

/-- **C99 (series).** A catchment whose flow is a column of a series sends in each step the value of that column in the row of the
step. -/
theorem C99_series {b : Schema.CatchmentN} (hb : x.body = .catchment b) {id : Nat} (hm : b.flow = some (.dyn id)) {o : Option String} {s c : String}
    (hu : D.doc.uses[id]? = some (o, .series s (some (.column c)))) (t : Nat) (ht : t < n) :
    ∃ table values, E.series s = some table ∧ (c, values) ∈ table ∧ values[t]? = some (sent D.net F (f t) x.name) := by
  obtain ⟨o', m, h3, h4⟩ := C99_catchment h H hx hb hm t ht
  rw [hu] at h3
  obtain ⟨rfl, rfl⟩ := Prod.mk.inj (Option.some.inj h3)
  obtain ⟨table, h5, values, h6, h7⟩ := h4
  exact ⟨table, values, h5, h6, h7⟩

/-- **C99 (series of scenarios).** A catchment whose flow is a series with a column for each scenario of a group sends the value of the
column of the scenario that is run. -/
theorem C99_series_scenario {b : Schema.CatchmentN} (hb : x.body = .catchment b) {id : Nat} (hm : b.flow = some (.dyn id)) {o : Option String} {s g : String}
    (hu : D.doc.uses[id]? = some (o, .series s (some (.scenario g)))) (t : Nat) (ht : t < n) :
    ∃ table i size c, E.series s = some table ∧ E.scenario g = some (i, size) ∧ table[i]? = some c ∧ c.2[t]? = some (sent D.net F (f t) x.name) := by
  obtain ⟨o', m, h3, h4⟩ := C99_catchment h H hx hb hm t ht
  rw [hu] at h3
  obtain ⟨rfl, rfl⟩ := Prod.mk.inj (Option.some.inj h3)
  obtain ⟨table, h5, i, c, h6, h7, h8⟩ := h4
  exact ⟨table, i.1, i.2, c, h5, h6, h7, h8⟩

/-- **C99 (tables).** An output whose maximum flow is an entry of a table never receives more than the entry. -/
theorem C99_table {b : Schema.FlowN} (hb : x.body = .output b) {id : Nat} (hm : b.maxFlow = some (.dyn id)) {o : Option String} {r : String}
    (hu : D.doc.uses[id]? = some (o, .table r)) (t : Nat) (ht : t < n) :
    ∃ q, E.table r = some q ∧ received D.net F (f t) x.name ≤ q := by
  obtain ⟨-, hi, h1, h2⟩ := C99_output h H hx hb t ht
  rw [hm] at h1
  obtain ⟨o', m, h3, h4⟩ := h1
  rw [hu] at h3
  obtain ⟨rfl, rfl⟩ := Prod.mk.inj (Option.some.inj h3)
  exact ⟨hi, h4, h2⟩

/-- **C99 (profiles of tables).** The same for a monthly profile that is a row of a table. -/
theorem C99_profile {b : Schema.FlowN} (hb : x.body = .output b) {id : Nat} (hm : b.maxFlow = some (.dyn id)) {o : Option String} {p r : String}
    (hu : D.doc.uses[id]? = some (o, .param ⟨p, none, none⟩)) (hp : (none, p, .monthly (.table r) none) ∈ D.doc.declared) (t : Nat) (ht : t < n) :
    ∃ qs q, E.tableList r = some qs ∧ qs.length = 12 ∧ qs[(E.time t).date.date.month - 1]? = some q ∧ received D.net F (f t) x.name ≤ q := by
  obtain ⟨qs, q, h1, h2⟩ := C99_demand h H hx hb hm hu hp t ht
  exact ⟨qs, q, h1, h2⟩

/-- What an output takes at most if that is a parameter: its value in the step. -/
theorem demand_of {b : Schema.FlowN} (hb : x.body = .output b) {id : Nat} (hm : b.maxFlow = some (.dyn id)) {o : Option String} {p : String}
    (hu : D.doc.uses[id]? = some (o, .param ⟨p, none, none⟩)) (t : Nat) (ht : t < n) :
    received D.net F (f t) x.name ≤ (S.before none p t).num := by
  obtain ⟨-, hi, h1, h2⟩ := C99_output h H hx hb t ht
  rw [hm] at h1
  obtain ⟨o', m, h3, h4⟩ := h1
  rw [hu] at h3
  obtain ⟨rfl, rfl⟩ := Prod.mk.inj (Option.some.inj h3)
  simp only [SNum, Load.Reads, Option.getD_none] at h4
  obtain ⟨v, ⟨-, rfl⟩, rfl⟩ := h4
  exact h2

/-- **C99 (scenarios).** The same for values given for each scenario of a group: the value is that of the scenario that is run. -/
theorem C99_scenario {b : Schema.FlowN} (hb : x.body = .output b) {id : Nat} (hm : b.maxFlow = some (.dyn id)) {o : Option String} {p g : String} {qs : List ℚ}
    (hu : D.doc.uses[id]? = some (o, .param ⟨p, none, none⟩)) (hp : (none, p, .constantScenario (.lit qs) g) ∈ D.doc.declared) (t : Nat) (ht : t < n) :
    ∃ i q, E.scenario g = some (i, qs.length) ∧ qs[i]? = some q ∧ received D.net F (f t) x.name ≤ q := by
  have h1 := demand_of h H hx hb hm hu t ht
  obtain ⟨h5, -⟩ := H.params _ hp
  obtain ⟨qs', i, q, rfl, h2, h3, h4⟩ := h5 (by simp) t ht
  exact ⟨i, q, h2, h3, h4.1 ▸ h1⟩

/-- **C99 (choices).** The same for one of several constants that an entry of a table chooses. -/
theorem C99_choice {b : Schema.FlowN} (hb : x.body = .output b) {id : Nat} (hm : b.maxFlow = some (.dyn id)) {o : Option String} {p r : String} {qs : List ℚ}
    (hu : D.doc.uses[id]? = some (o, .param ⟨p, none, none⟩)) (hp : (none, p, .indexed (.table r) (qs.map .literal)) ∈ D.doc.declared) (t : Nat)
    (ht : t < n) : ∃ i q, E.tableIndex r = some i ∧ qs[i]? = some q ∧ received D.net F (f t) x.name ≤ q := by
  have h1 := demand_of h H hx hb hm hu t ht
  obtain ⟨h5, -⟩ := H.params _ hp
  obtain ⟨i, m, q, h2, h3, h4, h6⟩ := h5 (by simp) t ht
  simp only [List.getElem?_map, Option.map_eq_some_iff] at h3
  obtain ⟨v, h3, rfl⟩ := h3
  cases h4
  exact ⟨i, q, h2, h3, h6.1 ▸ h1⟩

end

/-! ## A document that shows them -/

namespace DataCases

open Verif.Load (named)
open Verif.Load.Cases (codeOf codeOf_injective)
open Verif.EndToEnd.Cases (answer result ran_of)

/-- Two catchments, of a series and of a scenario's column of a series, feed four outputs: a table, a profile, a scenario and a choice say how much
they take. -/
def net : Schema.Net :=
  { nodes := [⟨"brook", .catchment ⟨none, some (.dyn 0)⟩, []⟩, ⟨"river", .catchment ⟨none, some (.dyn 1)⟩, []⟩,
      ⟨"mill", .output ⟨some (.dyn 2), none, some (.const (-1))⟩, []⟩, ⟨"town", .output ⟨some (.dyn 3), none, none⟩, []⟩,
      ⟨"farm", .output ⟨some (.dyn 4), none, none⟩, []⟩, ⟨"pool", .output ⟨some (.dyn 5), none, none⟩, []⟩]
    virtualNodes := []
    edges := [⟨"brook", "mill", none, none⟩, ⟨"brook", "town", none, none⟩, ⟨"river", "farm", none, none⟩, ⟨"river", "pool", none, none⟩] }

def doc : Doc where
  nodes := [⟨"brook", [.series "rain" (some (.column "gauge"))], []⟩, ⟨"river", [.series "flows" (some (.scenario "climate"))], []⟩,
    ⟨"mill", [.table "rate"], []⟩, ⟨"town", [.param ⟨"demand", none, none⟩], []⟩, ⟨"farm", [.param ⟨"crops", none, none⟩], []⟩,
    ⟨"pool", [.param ⟨"size", none, none⟩], []⟩]
  virtuals := []
  params := [("demand", .monthly (.table "months") none), ("crops", .constantScenario (.lit [3, 4, 5]) "climate"),
    ("size", .indexed (.table "which") ([10, 20].map .literal))]
  outputs := [.component "milled", .table "rate", .param ⟨"demand", none, none⟩, .param ⟨"crops", none, none⟩, .param ⟨"size", none, none⟩,
    .series "rain" (some (.column "gauge")), .series "flows" (some (.scenario "climate"))]

def D : Document where
  net := net
  doc := doc
  refs r := if r = "milled" then .node "mill" (some .inflow) else .node "nowhere" none
  numbers _ _ _ := 9
  licences _ := ⟨.absolute 0, .never, .initial, none, .always, 0, 0⟩

def E : Setting where
  code := codeOf [named "demand" none, named "crops" none, named "size" none, named "gauge" (some "rain"), named "climate" (some "flows")]
  table r := if r = "rate" then some 6 else none
  tableIndex r := if r = "which" then some 1 else none
  tableList r := if r = "months" then some [7, 2, 0, 0, 0, 0, 0, 0, 0, 0, 0, 0] else none
  series s := if s = "rain" then some [("other", [0, 0]), ("gauge", [9, 7])] else if s = "flows" then some [("a", [1, 1]), ("b", [2, 2]), ("c", [6, 8])] else none
  scenario g := if g = "climate" then some (2, 3) else none
  time k := if k = 0 then ⟨⟨⟨2020, 1, 31⟩, 0⟩, 0, 86400000000000⟩ else ⟨⟨⟨2020, 2, k⟩, 0⟩, k, 86400000000000⟩
  solver t := if t = 0 then answer [6, 3, 5, 1] else answer [6, 1, 0, 8]
  big := f64MAX
  negBig := -f64MAX

theorem runs_first : ∃ w, D.run E 0 = .ran (.done w [6, 6, 7, 5, 20, 9, 6]) := ran_of (by decide +kernel)

theorem runs : ∃ w, D.run E 1 = .ran (.done w [6, 6, 2, 5, 20, 7, 8]) := ran_of (by decide +kernel)

/-- Three would be too much for the town in February. -/
example : result (D.run { E with solver := fun t => if t = 0 then answer [6, 3, 5, 1] else answer [4, 3, 0, 8] } 1) = none := by decide +kernel

theorem D_built : Built D.numbers D.net (fragOf D.numbers D.net) (coreOf D.numbers D.net) :=
  Schema.builtCheck_ok (by decide +kernel)

example {F C S f st} (hb : Built D.numbers D.net F C) (H : Happens D E F C 2 S f st) :=
  C99_series hb H (x := ⟨"brook", .catchment ⟨none, some (.dyn 0)⟩, []⟩) (by decide +kernel) rfl rfl (o := some "brook") (s := "rain") (c := "gauge") (by decide +kernel) 1 (by omega)

example {F C S f st} (hb : Built D.numbers D.net F C) (H : Happens D E F C 2 S f st) :=
  C99_series_scenario hb H (x := ⟨"river", .catchment ⟨none, some (.dyn 1)⟩, []⟩) (by decide +kernel) rfl rfl (o := some "river") (s := "flows") (g := "climate") (by decide +kernel) 1 (by omega)

example {F C S f st} (hb : Built D.numbers D.net F C) (H : Happens D E F C 2 S f st) :=
  C99_table hb H (x := ⟨"mill", .output ⟨some (.dyn 2), none, some (.const (-1))⟩, []⟩) (by decide +kernel) rfl rfl (o := some "mill") (r := "rate") (by decide +kernel) 1 (by omega)

example {F C S f st} (hb : Built D.numbers D.net F C) (H : Happens D E F C 2 S f st) :=
  C99_profile hb H (x := ⟨"town", .output ⟨some (.dyn 3), none, none⟩, []⟩) (by decide +kernel) rfl rfl (o := some "town") (p := "demand") (r := "months")
    (by decide +kernel) (by simp [D, doc, Load.Doc.declared]) 1 (by omega)

example {F C S f st} (hb : Built D.numbers D.net F C) (H : Happens D E F C 2 S f st) :=
  C99_scenario hb H (x := ⟨"farm", .output ⟨some (.dyn 4), none, none⟩, []⟩) (by decide +kernel) rfl rfl (o := some "farm") (p := "crops") (g := "climate")
    (qs := [3, 4, 5]) (by decide +kernel) (by simp [D, doc, Load.Doc.declared]) 1 (by omega)

example {F C S f st} (hb : Built D.numbers D.net F C) (H : Happens D E F C 2 S f st) :=
  C99_choice hb H (x := ⟨"pool", .output ⟨some (.dyn 5), none, none⟩, []⟩) (by decide +kernel) rfl rfl (o := some "pool") (p := "size") (r := "which")
    (qs := [10, 20]) (by decide +kernel) (by simp [D, doc, Load.Doc.declared]) 1 (by omega)

end DataCases

end Verif.EndToEnd
