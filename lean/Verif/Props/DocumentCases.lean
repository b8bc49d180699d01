import Verif.Props.Document
import Verif.Props.LoadCases
import Verif.Props.SchemaCases
import Verif.Props.SimulationCases

/-! # A document that shows C99 -/

namespace Verif.EndToEnd.Cases

open Verif.State Verif.Solver Verif.Time Verif.Simulation Verif.Coupled
open Verif.Schema (Frag Core Built fragOf coreOf UMetric received sent)
open Verif.Load (named Doc Story SNum)
open Verif.Load.Cases (codeOf codeOf_injective)

/-- A catchment whose flow is a parameter feeds a tank through a delay of one step; a town whose demand is a monthly profile takes
from the tank. The room in the tank is a monthly profile too, and it starts with five eighths of it. -/
def net : Schema.Net :=
  { nodes := [⟨"cat", .catchment ⟨none, some (.dyn 0)⟩, []⟩,
      ⟨"lag", .delay ⟨1, 4⟩, ["delay"]⟩,
      ⟨"tank", .storage ⟨some (.dyn 2), none, none, .proportional (5 / 8)⟩, []⟩,
      ⟨"town", .output ⟨some (.dyn 3), none, some (.const (-1))⟩, []⟩]
    virtualNodes := []
    edges := [⟨"cat", "lag", none, none⟩, ⟨"lag", "tank", none, none⟩, ⟨"tank", "town", none, none⟩] }

/-- The metrics of the nodes and the parameters. The flow of the catchment is half of the volume of the tank and one. -/
def doc : Doc where
  nodes := [⟨"cat", [.param ⟨"rain", none, none⟩], []⟩,
    ⟨"lag", [.localParam ⟨"delay", none, none⟩], [("delay", .delay (.component "into lag") 1 4)]⟩,
    ⟨"tank", [.param ⟨"room", none, none⟩], []⟩,
    ⟨"town", [.param ⟨"demand", none, none⟩], []⟩]
  virtuals := []
  params := [("demand", .monthly (.lit [7, 20, 0, 0, 0, 0, 0, 0, 0, 0, 0, 0]) none),
    ("room", .monthly (.lit [16, 30, 0, 0, 0, 0, 0, 0, 0, 0, 0, 0]) none),
    ("rain", .aggregated .sum [.component "level", .literal 1] .before)]
  outputs := [.component "level", .component "short", .component "into lag", .param ⟨"demand", none, none⟩, .component "along"]

def D : Document where
  net := net
  doc := doc
  refs r := if r = "into lag" then .node "lag" (some .inflow) else if r = "level" then .node "tank" (some .volume)
    else if r = "short" then .node "town" (some .deficit)
    else if r = "along" then .edge ⟨"tank", "town", none, none⟩ else .node "nowhere" none
  numbers nm p _ := if nm = "lag" ∧ p = "delay" then 1 else 9
  licences _ := ⟨.absolute 0, .never, .initial, none, .always, 0, 0⟩

/-- The solver is given its answer, and checks it. -/
def answer (x : List ℚ) (lp : Lp) : Option (Nat → ℚ) := if lp.check (vals x) then some (vals x) else none

def E : Setting where
  code := codeOf [named "demand" none, named "room" none, named "rain" none, named "delay" (some "lag"), named "deficit" (some "town")]
  table _ := none
  tableIndex _ := none
  tableList _ := none
  series _ := none
  scenario _ := none
  time k := if k = 0 then ⟨⟨⟨2020, 1, 31⟩, 0⟩, 0, 86400000000000⟩ else ⟨⟨⟨2020, 2, k⟩, 0⟩, k, 86400000000000⟩
  solver t := if t = 0 then answer [11, 4, 7] else answer [8, 11, 18]
  big := f64MAX
  negBig := -f64MAX

def result : Ending → Option (List ℚ)
  | .ran (.done _ qs) => some qs
  | _ => none

theorem ran_of {e : Ending} {qs : List ℚ} (h : result e = some qs) : ∃ w, e = .ran (.done w qs) := by
  unfold result at h
  split at h
  · obtain rfl := Option.some.inj h
    exact ⟨_, rfl⟩
  · cases h

/-- The demand of the last day of January is met, that of the first of February is not. -/
theorem runs : ∃ w, D.run E 1 = .ran (.done w [0, 2, 8, 20, 18]) := ran_of (by decide +kernel)

theorem runs_first : ∃ w, D.run E 0 = .ran (.done w [7, 0, 11, 7, 7]) := ran_of (by decide +kernel)

theorem D_built : Built D.numbers D.net (fragOf D.numbers D.net) (coreOf D.numbers D.net) :=
  Schema.builtCheck_ok (by decide +kernel)

theorem comp_deficit {F : Frag} {C : Core} (hF : F = fragOf D.numbers D.net) {c node : String} {f l : Area → Option ℚ}
    (h : (D.args E F C).comp c = .ok (.deficit node f l)) :
    node = "town" ∧ f = (fun w => w.world.get (.nodeInFlow 4)) ∧ l = fun w => w.world.get (.nodeMaxFlow 4) := by
  subst hF
  have key : ∀ r, (D.refs r).metric D.net = .ok (.nodeInFlow ("lag", some "inflow")) ∨
      (D.refs r).metric D.net = .ok (.nodeVolume ("tank", none)) ∨
      (D.refs r).metric D.net = .ok (.parameter "town" "deficit") ∨
      (D.refs r).metric D.net = .ok (.multiEdgeFlow [⟨("tank", none), ("town", none)⟩]) ∨ ∃ e, (D.refs r).metric D.net = .error e := by
    intro r
    simp only [D]
    split_ifs
    · exact .inl (by decide +kernel)
    · exact .inr (.inl (by decide +kernel))
    · exact .inr (.inr (.inl (by decide +kernel)))
    · exact .inr (.inr (.inr (.inl (by decide +kernel))))
    · exact .inr (.inr (.inr (.inr ⟨_, rfl⟩)))
  have hn : nodeAt (fragOf D.numbers D.net) ("town", none) = some 4 := by decide +kernel
  rcases key c with e | e | e | e | ⟨_, e⟩
  · rw [comp_eq e] at h
    simp only [found] at h
    split at h <;> cases h
  · rw [comp_eq e] at h
    simp only [found] at h
    split at h <;> cases h
  · rw [comp_eq e] at h
    simp only [found, hn, if_pos] at h
    have h3 := Except.ok.inj h
    simp only [Load.Found.deficit.injEq] at h3
    exact ⟨h3.1.symm, h3.2.1.symm, h3.2.2.symm⟩
  · rw [comp_eq e] at h
    simp only [found] at h
    split at h <;> cases h
  · exact absurd h (comp_error e)

theorem fit (F : Frag) (C : Core) (h : Built D.numbers D.net F C) (n : Nat) : Fit D E F C n := by
  have hF : F = fragOf D.numbers D.net := by
    have := h.compiled.symm.trans D_built.compiled
    exact Except.ok.inj this
  have hC : C = coreOf D.numbers D.net := by
    have h1 := h.built
    rw [hF] at h1
    exact Except.ok.inj (h1.symm.trans D_built.built)
  have haggs : C.model.aggs = [] := by rw [hC]; decide +kernel
  have hvs : C.model.vs = [] := by rw [hC]; decide +kernel
  constructor
  · constructor
    · intro v hv; cases hv
    · decide +kernel
    · intro n hn; rfl
    · intro c node f l h; rfl
    · intro c c' node f l f' l' h h'
      obtain ⟨-, rfl, rfl⟩ := comp_deficit hF h
      obtain ⟨-, rfl, rfl⟩ := comp_deficit hF h'
      exact ⟨rfl, rfl⟩
    · intro s table g hs; cases hs
    · intro s table hs; cases hs
    · intro n hn p hp m ls pr r
      simp only [D, doc, List.mem_cons, List.not_mem_nil, or_false] at hn
      rcases hn with rfl | rfl | rfl | rfl <;> simp at hp
      subst hp
      simp
  · exact codeOf_injective _
  · constructor <;> simp [haggs]
  · intro v hv; rw [hvs] at hv; cases hv
  · intro k v hv; rw [hvs] at hv; simp at hv
  · intro a ha; rw [haggs] at ha; cases ha
  · intro t _
    simp only [E]
    split_ifs with h0
    · exact h0.symm
    · rfl
  · intro t _
    simp only [E]
    split_ifs <;> simp [Timestep.days, fractionalDays]
  · intro t _ lp x hx
    have h1 : ∀ l, answer l lp = some x → lp.Feasible x := by
      intro l hl
      unfold answer at hl
      split_ifs at hl with hc
      obtain rfl := Option.some.inj hl
      exact Lp.check_feasible _ _ hc
    simp only [E] at hx
    split_ifs at hx <;> exact h1 _ hx
  · intro k hk; rw [hvs] at hk; cases hk
  · intro k hk; rw [hvs] at hk; cases hk
  · intro k hk; rw [hvs] at hk; cases hk

/-- The theorems on the document: the delay, the demand, the deficit and the volume of two steps. -/
example : ∃ F C S f st, Built D.numbers D.net F C ∧ Happens D E F C 2 S f st ∧
    sent D.net F (f 0) "lag" = 4 ∧ sent D.net F (f 1) "lag" = received D.net F (f 0) "lag" ∧ received D.net F (f 1) "lag" = 8 := by
  obtain ⟨w, hr⟩ := runs
  obtain ⟨F, C, S, f, st, hb, H, ho⟩ := C99_run_partial D E 1 w _ hr fun F C h => fit F C h _
  have hx : (⟨"lag", .delay ⟨1, 4⟩, ["delay"]⟩ : Schema.SNode) ∈ D.net.nodes := by decide +kernel
  have h0 := C99_delay hb H hx rfl (r := "into lag") (by decide +kernel) (by simp [D, doc, Load.Doc.declared]) (by decide +kernel) 0 (by omega)
  have h1 := C99_delay hb H hx rfl (r := "into lag") (by decide +kernel) (by simp [D, doc, Load.Doc.declared]) (by decide +kernel) 1 (by omega)
  refine ⟨F, C, S, f, st, hb, H, h0.1 (by decide), h1.2 (by decide), ?_⟩
  have h2 := (C99_inflow hb H hx (r := "into lag") (by decide +kernel) (u := .nodeInFlow ("lag", some "inflow")) (by decide +kernel) 1
    (by omega) none 8).1
  have h3 : SNum (D.args E F C) S .late 1 none (.component "into lag") 8 := by
    cases ho with | cons _ ho => cases ho with | cons _ ho => cases ho with | cons h _ => exact h
  exact (h2.1 h3).symm

/-- What flows from the tank to the town on the second day. -/
example : ∃ F C S f st, Built D.numbers D.net F C ∧ Happens D E F C 2 S f st ∧
    Schema.edgeFlow D.net F (f 1) ⟨"tank", "town", none, none⟩ = 18 := by
  obtain ⟨w, hr⟩ := runs
  obtain ⟨F, C, S, f, st, hb, H, ho⟩ := C99_run_partial D E 1 w _ hr fun F C h => fit F C h _
  refine ⟨F, C, S, f, st, hb, H, ?_⟩
  have h2 := (C99_edge hb H (e := ⟨"tank", "town", none, none⟩) (by decide +kernel) (r := "along") (by decide +kernel) 1 (by omega) none 18).1
  have h3 : SNum (D.args E F C) S .late 1 none (.component "along") 18 := by
    cases ho with | cons _ ho => cases ho with | cons _ ho => cases ho with | cons _ ho => cases ho with | cons _ ho => cases ho with | cons h _ => exact h
  exact (h2.1 h3).symm

example {F C S f st} (hb : Built D.numbers D.net F C) (H : Happens D E F C 2 S f st) :=
  C99_demand hb H (x := ⟨"town", .output ⟨some (.dyn 3), none, some (.const (-1))⟩, []⟩) (by decide +kernel) rfl rfl
    (o := some "town") (p := "demand") (by decide +kernel) (values := .lit [7, 20, 0, 0, 0, 0, 0, 0, 0, 0, 0, 0]) (by simp [D, doc, Load.Doc.declared]) 1 (by omega)

example {F C S f st} (hb : Built D.numbers D.net F C) (H : Happens D E F C 2 S f st) :=
  C99_deficit hb H (x := ⟨"town", .output ⟨some (.dyn 3), none, some (.const (-1))⟩, []⟩) (by decide +kernel) rfl
    (r := "short") (by decide +kernel) 1 (by omega) none 2

example {F C S f st} (hb : Built D.numbers D.net F C) (H : Happens D E F C 2 S f st) :=
  C99_storage hb H (x := ⟨"tank", .storage ⟨some (.dyn 2), none, none, .proportional (5 / 8)⟩, []⟩) (by decide +kernel) rfl

example {F C S f st} (hb : Built D.numbers D.net F C) (H : Happens D E F C 2 S f st) :=
  C99_catchment hb H (x := ⟨"cat", .catchment ⟨none, some (.dyn 0)⟩, []⟩) (by decide +kernel) rfl rfl 1 (by omega)

example {F C S f st} (hb : Built D.numbers D.net F C) (H : Happens D E F C 2 S f st) :=
  C99_capacity hb H (x := ⟨"tank", .storage ⟨some (.dyn 2), none, none, .proportional (5 / 8)⟩, []⟩) (by decide +kernel) rfl rfl
    (o := some "tank") (p := "room") (by decide +kernel) (values := .lit [16, 30, 0, 0, 0, 0, 0, 0, 0, 0, 0, 0]) (by simp [D, doc, Load.Doc.declared])
    rfl (r := "level") (by decide +kernel)

example {F C S f st} (hb : Built D.numbers D.net F C) (H : Happens D E F C 2 S f st) : S.settled none "room" :=
  ((C99_bounds hb H (x := ⟨"tank", .storage ⟨some (.dyn 2), none, none, .proportional (5 / 8)⟩, []⟩) (by decide +kernel) rfl (.inr rfl)
    (o := some "tank") (m := .param ⟨"room", none, none⟩) (by decide +kernel)).2 ⟨"room", none, none⟩).1 rfl

/-- The same document with this room. -/
def withRoom (m : Load.SMetric) : Document :=
  { D with doc := { doc with nodes := doc.nodes.set 2 ⟨"tank", [m], []⟩ } }

/-- How a document is refused. -/
def refused : Ending → Bool
  | .ran .notBuilt => true
  | _ => false

/-- Room in terms of the demand is accepted; in terms of what flows in, or of a parameter of the volume, it is not. -/
example : (result ((withRoom (.param ⟨"demand", none, none⟩)).run { E with solver := fun _ => answer [35 / 8 + 1, 4, 7] } 0)) =
      some [35 / 8 + 4 - 7, 0, 35 / 8 + 1, 7, 7] ∧
    refused ((withRoom (.component "into lag")).run E 1) = true ∧ refused ((withRoom (.component "short")).run E 1) = true ∧
    refused ((withRoom (.param ⟨"rain", none, none⟩)).run E 1) = true := by
  decide +kernel

end Verif.EndToEnd.Cases
