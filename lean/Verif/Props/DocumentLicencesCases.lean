import Verif.Props.DocumentGroups
import Verif.Props.DocumentCases

/-! # A document that shows C99 of licences and aggregated nodes -/

namespace Verif.EndToEnd.LicenceCases

open Verif.State Verif.Solver Verif.Time Verif.Simulation Verif.Coupled
open Verif.Schema (Frag Core Built fragOf coreOf UMetric received sent)
open Verif.Load (named Doc Story SNum)
open Verif.Load.Cases (codeOf codeOf_injective)
open Verif.EndToEnd.Cases (answer result ran_of)

/-- A well feeds a town, whose demand is a monthly profile; what the town takes is licensed. There is an aggregated
node of the town, and an aggregated storage of a tank and a pond beside the well. -/
def net : Schema.Net :=
  { nodes := [⟨"well", .input ⟨none, none, none⟩, []⟩, ⟨"town", .output ⟨some (.dyn 0), none, some (.const (-1))⟩, []⟩,
      ⟨"tank", .storage ⟨some (.const 10), none, none, .proportional (1 / 2)⟩, []⟩, ⟨"pond", .storage ⟨some (.const 4), none, none, .absolute 3⟩, []⟩]
    virtualNodes := [⟨"licence", .virtualStorage [⟨"town", none⟩] (some [2]) none, []⟩, ⟨"towns", .aggregated [⟨"town", none⟩] (some (.const 9)) none none, []⟩,
      ⟨"stores", .aggregatedStorage ["tank", "pond"], []⟩, ⟨"wells", .aggregated [⟨"well", none⟩] none none none, []⟩]
    edges := [⟨"well", "town", none, none⟩, ⟨"tank", "town", none, none⟩, ⟨"well", "pond", none, none⟩] }

def doc : Doc where
  nodes := [⟨"well", [], []⟩, ⟨"town", [.param ⟨"demand", none, none⟩], []⟩, ⟨"tank", [], []⟩, ⟨"pond", [], []⟩]
  virtuals := []
  params := [("demand", .monthly (.lit [7, 20, 0, 0, 0, 0, 0, 0, 0, 0, 0, 0]) none)]
  outputs := [.component "taken", .component "left", .component "share", .component "towns", .component "into towns", .component "wells",
    .component "held", .component "fullness"]

/-- The licence allows for thirty units over the whole run, and each unit taken counts twice. -/
def D : Document where
  net := net
  doc := doc
  refs r :=
    if r = "taken" then .node "town" (some .inflow) else if r = "left" then .virtual "licence" none
    else if r = "share" then .virtual "licence" (some .proportionalVolume) else if r = "towns" then .virtual "towns" none
    else if r = "into towns" then .virtual "towns" (some .inflow) else if r = "wells" then .virtual "wells" none
    else if r = "held" then .virtual "stores" none else if r = "fullness" then .node "tank" (some .proportionalVolume)
    else .node "nowhere" none
  numbers _ _ _ := 9
  licences _ := ⟨.absolute 30, .never, .initial, none, .always, 0, 40⟩

def E : Setting where
  code := codeOf [named "demand" none]
  table _ := none
  tableIndex _ := none
  tableList _ := none
  series _ := none
  scenario _ := none
  time k := if k = 0 then ⟨⟨⟨2020, 1, 31⟩, 0⟩, 0, 86400000000000⟩ else ⟨⟨⟨2020, 2, k⟩, 0⟩, k, 86400000000000⟩
  solver t := if t = 0 then answer [5, 2, 0] else answer [6, 1, 1]
  big := f64MAX
  negBig := -f64MAX

/-- In the second step the town gets seven units of twenty, and two units are left of the licence. The default metric of the towns shows nothing, but their
inflow does. The tank holds two units of ten, and the pond all that it can. -/
theorem runs : ∃ w, D.run E 1 = .ran (.done w [7, 2, 1 / 20, 0, 7, 7, 6, 1 / 5]) := ran_of (by decide +kernel)

/-- Nine would be too much. -/
example : result (D.run { E with solver := fun t => if t = 0 then answer [5, 2, 0] else answer [8, 1, 1] } 1) = none := by decide +kernel

theorem D_built : Built D.numbers D.net (fragOf D.numbers D.net) (coreOf D.numbers D.net) :=
  Schema.builtCheck_ok (by decide +kernel)

theorem no_deficit {F : Frag} {C : Core} {c node : String} {f l : Area → Option ℚ} : (D.args E F C).comp c ≠ .ok (.deficit node f l) := by
  intro h
  by_cases hc : c = "taken"
  · rw [comp_eq (D := D) (u := .nodeInFlow ("town", none)) (by subst hc; decide +kernel)] at h
    simp only [found] at h
    split at h <;> cases h
  · by_cases hf : c = "fullness"
    · rw [comp_eq (D := D) (u := .nodeProportionalVolume ("tank", none)) (by subst hf; decide +kernel)] at h
      simp only [found] at h
      split at h <;> cases h
    · refine absurd h (comp_error (e := match (D.refs c).metric D.net with | .error e => e | .ok _ => .placeholder) ?_)
      simp only [D, hc, hf, if_false]
      split_ifs <;> rfl

theorem fit (F : Frag) (C : Core) (h : Built D.numbers D.net F C) (n : Nat) : Fit D E F C n := by
  have hF : F = fragOf D.numbers D.net := Except.ok.inj (h.compiled.symm.trans D_built.compiled)
  have hC : C = coreOf D.numbers D.net := by
    have h1 := h.built
    rw [hF] at h1
    exact Except.ok.inj (h1.symm.trans D_built.built)
  have haggs : C.model.aggs.all (fun a => a.factors.isNone && a.exclusivity.isNone) = true := by rw [hC]; decide +kernel
  simp only [List.all_eq_true, Bool.and_eq_true, Option.isNone_iff_eq_none] at haggs
  have hvs : C.model.vs = [⟨[(1, 2)], none⟩] := by rw [hC]; decide +kernel
  constructor
  · constructor
    · intro v hv; cases hv
    · decide +kernel
    · intro n hn; rfl
    · intro c node f l h; rfl
    · intro c c' node f l f' l' h h'; exact absurd h no_deficit
    · intro s table g hs; cases hs
    · intro s table hs; cases hs
    · intro n hn p hp m ls pr r
      simp only [D, doc, List.mem_cons, List.not_mem_nil, or_false] at hn
      rcases hn with rfl | rfl | rfl | rfl <;> simp at hp
  · exact codeOf_injective _
  · have hs : ∀ a ∈ C.model.aggs, a.setupPairs = [] := fun a ha => by simp only [AggNode.setupPairs, (haggs a ha).1]
    constructor
    · intro a ha; simp [SetupOk, (haggs a ha).1]
    · intro a ha; simp [(haggs a ha).1]
    · intro a ha; simp [hs a ha]
    · intro a ha; simp [hs a ha]
    · rw [List.flatMap_eq_nil_iff.2 hs]; exact .nil
  · intro v hv p hp
    rw [hvs, List.mem_singleton] at hv
    subst hv
    obtain rfl := List.mem_singleton.1 hp
    rw [hC]
    have : ((coreOf D.numbers D.net).model.net.nodes[1]?).map (·.kind) = some .output := by decide +kernel
    obtain ⟨t, h1, h2⟩ := Option.map_eq_some_iff.1 this
    exact ⟨t, h1, by rw [h2]; decide⟩
  · intro k v hv w hw; cases hw
  · intro a ha; exact (haggs a ha).2
  · intro t _
    simp only [E]
    split_ifs with h0
    · exact h0.symm
    · rfl
  · intro t _
    simp only [E]
    split_ifs <;> simp [Timestep.days, fractionalDays]
  · intro t _ lp x hx
    have h1 : ∀ l, answer l lp = some x → lp.Feasible x := by
      intro l hl
      unfold answer at hl
      split_ifs at hl with hc
      obtain rfl := Option.some.inj hl
      exact Lp.check_feasible _ _ hc
    simp only [E] at hx
    split_ifs at hx <;> exact h1 _ hx
  · intro k hk; simp only [D]; decide +kernel
  · intro k hk hw; cases hw
  · intro k hk hw; cases hw

theorem no_river (x : Schema.SNode) (hx : x ∈ D.net.nodes) (b : Schema.RiverN) (h : x.body = .river b) : False := by
  simp only [D, net, List.mem_cons, List.not_mem_nil, or_false] at hx
  rcases hx with rfl | rfl | rfl | rfl <;> cases h

theorem is_town {x : Schema.SNode} (hx : x ∈ D.net.nodes) {r : Schema.Ref} (hr : r ∈ [(⟨"town", none⟩ : Schema.Ref)]) (h : x.name = r.name) :
    x = ⟨"town", .output ⟨some (.dyn 0), none, some (.const (-1))⟩, []⟩ := by
  obtain rfl := List.mem_singleton.1 hr
  simp only [D, net, List.mem_cons, List.not_mem_nil, or_false] at hx
  rcases hx with rfl | rfl | rfl | rfl <;> first | rfl | exact absurd h (by decide)

/-- Whatever the run, what the town takes in two steps is at most fifteen, for each unit counts twice. -/
example : ∃ F C S f st, Built D.numbers D.net F C ∧ Happens D E F C 2 S f st ∧ ∃ qs : Nat → List ℚ,
    (∀ t < 2, List.Forall₂ (Schema.RefIs D.numbers D.net F C (st t) (f t)) [⟨"town", none⟩] (qs t)) ∧
    ∑ t ∈ Finset.range 2, (E.time t).days * weighed (some [2]) (qs t) ≤ 30 := by
  obtain ⟨w, hr⟩ := runs
  obtain ⟨F, C, S, f, st, hb, H, ho⟩ := C99_run_partial D E 1 w _ hr fun F C h => fit F C h _
  obtain ⟨k, -, hk⟩ := C99_budget hb H (v := ⟨"licence", .virtualStorage [⟨"town", none⟩] (some [2]) none, []⟩) (by decide +kernel) rfl
    (fun _ r hr => by obtain rfl := List.mem_singleton.1 hr; exact ⟨("town", none), by decide +kernel⟩)
    (fun r _ x hx b _ h2 => (no_river x hx b h2).elim)
  obtain ⟨qs, h1, h2⟩ := hk rfl rfl rfl
  refine ⟨F, C, S, f, st, hb, H, qs, h1, ?_⟩
  have := h2 2 (by omega) (by omega)
  exact this.trans (by show (30 : ℚ) - 0 ≤ 30; norm_num)

section
variable {F : Frag} {C : Core} {S : Story Area} {f : Nat → Nat → ℚ} {st : Nat → StepState} (hb : Built D.numbers D.net F C)
  (H : Happens D E F C 2 S f st)

example := C99_licence hb H (v := ⟨"licence", .virtualStorage [⟨"town", none⟩] (some [2]) none, []⟩) (by decide +kernel) rfl
  (fun _ r hr => by obtain rfl := List.mem_singleton.1 hr; exact ⟨("town", none), by decide +kernel⟩)
  (fun r _ x hx b _ h2 => (no_river x hx b h2).elim)

example := C99_group hb H (v := ⟨"towns", .aggregated [⟨"town", none⟩] (some (.const 9)) none none, []⟩) (by decide +kernel) rfl
  (fun r _ x hx b _ h2 => (no_river x hx b h2).elim) 1 (by omega)

include hb H in
/-- What the towns together receive in the second step is what the town takes, but it is not what their default metric shows. -/
example : ∃ qs : List ℚ, List.Forall₂ (Schema.RefIs D.numbers D.net F C (st 1) (f 1)) [⟨"town", none⟩] qs ∧
    (∀ q, SNum (D.args E F C) S .late 1 none (.component "into towns") q ↔ q = qs.sum) ∧
    ∀ q, SNum (D.args E F C) S .late 1 none (.component "towns") q ↔ q = 0 := by
  obtain ⟨qs, h1, h2⟩ := C99_group_inflow hb H (v := ⟨"towns", .aggregated [⟨"town", none⟩] (some (.const 9)) none none, []⟩) (by decide +kernel) rfl
    (fun r hr x hx hn => by rw [is_town hx hr hn]; obtain rfl := List.mem_singleton.1 hr; rfl)
  refine ⟨qs 1, h1 1 (by omega), fun q => (h2 "into towns" (by decide +kernel) 1 (by omega) none q).1, fun q => ?_⟩
  exact C99_group_outputs_refuted hb H (v := ⟨"towns", .aggregated [⟨"town", none⟩] (some (.const 9)) none none, []⟩) (by decide +kernel) rfl
    (fun r hr x hx hn => by rw [is_town hx hr hn]; exact ⟨_, rfl⟩) (r := "towns") (by decide +kernel) 1 (by omega) none q

example := C99_group_outflow hb H (v := ⟨"wells", .aggregated [⟨"well", none⟩] none none none, []⟩) (by decide +kernel) rfl
  (fun r _ x hx b _ h2 => (no_river x hx b h2).elim) (fun r hr x hx hn => by
    obtain rfl := List.mem_singleton.1 hr
    simp only [D, net, List.mem_cons, List.not_mem_nil, or_false] at hx
    rcases hx with rfl | rfl | rfl | rfl <;> first | rfl | exact absurd hn (by decide))

example := C99_stores hb H (v := ⟨"stores", .aggregatedStorage ["tank", "pond"], []⟩) (by decide +kernel)
  (nodes := [⟨"tank", .storage ⟨some (.const 10), none, none, .proportional (1 / 2)⟩, []⟩, ⟨"pond", .storage ⟨some (.const 4), none, none, .absolute 3⟩, []⟩])
  rfl (by decide +kernel) (.cons rfl (.cons rfl .nil))

end

end Verif.EndToEnd.LicenceCases
