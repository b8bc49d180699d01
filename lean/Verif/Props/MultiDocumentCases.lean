import Verif.Props.MultiDocument
import Verif.Props.DocumentCases

/-! # A document of three networks that shows C100 -/

namespace Verif.EndToEnd.Cases.Three

open Verif.State Verif.Solver Verif.Time Verif.Simulation Verif.Coupled
open Verif.Schema (Frag Core Built fragOf coreOf UMetric SNode received sent)
open Verif.Load (Doc Story SNum)
open Verif.Load.Cases (codeOf codeOf_injective)
open Verif.EndToEnd.Cases (answer)

/-- The flow of a catchment, a link from another network, goes to an output; in the last network with one unit of rain. -/
def net (rain : Bool) : Schema.Net :=
  { nodes := [⟨"head", .catchment ⟨none, some (.dyn 0)⟩, []⟩, ⟨"end", .output ⟨none, none, none⟩, []⟩] ++
      if rain then [⟨"rain", .catchment ⟨none, some (.const 1)⟩, []⟩] else []
    virtualNodes := []
    edges := [⟨"head", "end", none, none⟩] ++ if rain then [⟨"rain", "end", none, none⟩] else [] }

def doc : Doc where
  nodes := [⟨"head", [.component "arriving"], []⟩]
  virtuals := []
  params := []
  outputs := [.component "leaving"]

def D (rain : Bool) (link : String) : Document where
  net := net rain
  doc := doc
  refs r := if r = "arriving" then .transfer link else .node "end" (some .inflow)
  numbers _ _ _ := 9
  licences _ := ⟨.absolute 0, .never, .initial, none, .always, 0, 0⟩

def E (rain : Bool) : Setting where
  code := codeOf []
  table _ := none
  tableIndex _ := none
  tableList _ := none
  series _ := none
  scenario _ := none
  time _ := ⟨⟨⟨2020, 1, 31⟩, 0⟩, 0, 86400000000000⟩
  solver t := answer (if rain then [6 + t, 1] else [6 + t])
  big := f64MAX
  negBig := -f64MAX

/-- The last network feeds the first one, with an initial value; what the second passes on to the last is what it gets from the first. -/
def M : MultiDocument where
  time k := ⟨⟨⟨2020, 1, k + 1⟩, 0⟩, k, 86400000000000⟩
  parts := [⟨"up", D false "back", E false, [⟨"back", "low", .component "leaving", some 6⟩]⟩,
    ⟨"mid", D false "down", E false, [⟨"down", "up", .component "leaving", none⟩]⟩,
    ⟨"low", D true "passed", E true, [⟨"passed", "mid", .component "arriving", none⟩]⟩]

def result : MEnding → Option (List (List ℚ))
  | .done res => some res
  | _ => none

theorem done_of {e : MEnding} {res : List (List ℚ)} (h : result e = some res) : e = .done res := by
  unfold result at h
  split at h
  · rw [Option.some.inj h]
  · cases h

/-- The document runs, although one of its links is that of a link. -/
theorem C100_link_of_link_case : M.run 1 = .done [[7], [7], [8]] := done_of (by decide +kernel)

theorem built (rain : Bool) (link : String) : Built (D rain link).numbers (D rain link).net (fragOf (D rain "x").numbers (D rain "x").net)
    (coreOf (D rain "x").numbers (D rain "x").net) := by
  cases rain
  · exact (Schema.builtCheck_ok (by decide +kernel) : Built (D false "x").numbers (D false "x").net _ _)
  · exact (Schema.builtCheck_ok (by decide +kernel) : Built (D true "x").numbers (D true "x").net _ _)

theorem no_deficit {rain : Bool} {link : String} {S : Setting} {F : Frag} {C : Core} {c node : String} {f l : Area → Option ℚ} :
    ((D rain link).args S F C).comp c ≠ .ok (.deficit node f l) := by
  by_cases hc : c = "arriving"
  · exact comp_error (e := .nodeNotFound link) (by simp [D, hc, Target.metric])
  · have : ((D rain link).refs c).metric (D rain link).net = .ok (.nodeInFlow ("end", none)) := by
      simp only [D, if_neg hc]
      cases rain <;> decide +kernel
    rw [comp_eq this]
    exact not_deficit (fun x p h => by cases h)

theorem fit {rain : Bool} {link : String} {S : Setting} {n : Nat} (hs : S = { E rain with time := M.time, transfers := S.transfers, given := S.given })
    (ls : List Load.SMetric) (F : Frag) (C : Core) (h : Built (D rain link).numbers (D rain link).net F C) :
    Fit { D rain link with doc := { doc with links := ls } } S F C n := by
  have hF : F = fragOf (D rain "x").numbers (D rain "x").net := Except.ok.inj (h.compiled.symm.trans (built rain link).compiled)
  have hC : C = coreOf (D rain "x").numbers (D rain "x").net := by
    have h1 := h.built
    rw [hF] at h1
    exact Except.ok.inj (h1.symm.trans (built rain link).built)
  have haggs : C.model.aggs = [] := by rw [hC]; cases rain <;> decide +kernel
  have hvs : C.model.vs = [] := by rw [hC]; cases rain <;> decide +kernel
  have hcode : S.code = codeOf [] := by rw [hs]; rfl
  have hser : S.series = fun _ => none := by rw [hs]; rfl
  have htime : S.time = M.time := by rw [hs]
  have hsol : S.solver = (E rain).solver := by rw [hs]
  constructor
  · constructor
    · intro v hv; cases hv
    · intro n hn p hp
      simp only [doc, List.mem_singleton] at hn
      subst hn
      cases hp
    · intro n hn; exact congrFun hser _
    · intro c node f l h; exact congrFun hser _
    · intro c c' node f l f' l' h h'
      exact absurd h no_deficit
    · intro s table g hs' ; rw [show (Document.args _ S F C).series = S.series from rfl, hser] at hs'; cases hs'
    · intro s table hs' ; rw [show (Document.args _ S F C).series = S.series from rfl, hser] at hs'; cases hs'
    · intro n hn p hp
      simp only [doc, List.mem_singleton] at hn
      subst hn
      cases hp
  · rw [hcode]; exact codeOf_injective _
  · constructor <;> simp [haggs]
  · intro v hv; rw [hvs] at hv; cases hv
  · intro k v hv; rw [hvs] at hv; simp at hv
  · intro a ha; rw [haggs] at ha; cases ha
  · intro t _
    rw [htime]; rfl
  · intro t _
    rw [htime]
    simp [M, Timestep.days, fractionalDays]
  · intro t _ lp x hx
    rw [hsol] at hx
    simp only [E, answer] at hx
    split_ifs at hx with hc hd <;> (obtain rfl := Option.some.inj hx; exact Lp.check_feasible _ _ ‹_›)
  · intro k hk; rw [hvs] at hk; cases hk
  · intro k hk; rw [hvs] at hk; cases hk
  · intro k hk; rw [hvs] at hk; cases hk

theorem fits (n : Nat) : M.Fits n := by
  intro P hP F C h
  simp only [M, List.mem_cons, List.not_mem_nil, or_false] at hP
  rcases hP with rfl | rfl | rfl <;> exact fit rfl _ F C h

abbrev up : Fin M.parts.length := ⟨0, by decide⟩
abbrev mid : Fin M.parts.length := ⟨1, by decide⟩
abbrev low : Fin M.parts.length := ⟨2, by decide⟩

theorem joined : M.Joined := joined_of_done C100_link_of_link_case

/-- In the second step the first network takes what the last received in the first, 7, and the last takes what arrives at the first. -/
example : ∃ tale : Fin M.parts.length → Tale, Together 2 tale ∧
    sent (net false) (tale up).F ((tale up).flow 0) "head" = 6 ∧
    sent (net false) (tale up).F ((tale up).flow 1) "head" = received (net true) (tale low).F ((tale low).flow 0) "end" ∧
    sent (net false) (tale mid).F ((tale mid).flow 1) "head" = received (net false) (tale up).F ((tale up).flow 1) "end" ∧
    received (net false) (tale up).F ((tale up).flow 1) "end" = 7 ∧
    ((tale low).given 1)[0]? = ((tale mid).given 1)[0]? := by
  obtain ⟨tale, T, ho⟩ := C100_run_partial M 1 _ C100_link_of_link_case (fits 2)
  have hx : (⟨"head", .catchment ⟨none, some (.dyn 0)⟩, []⟩ : SNode) ∈ (net false).nodes := by decide +kernel
  have hy : ∀ rain, (⟨"end", .output ⟨none, none, none⟩, []⟩ : SNode) ∈ (net rain).nodes := by decide +kernel
  have back := fun t ht => C100_flows T joined (a := low) (b := up) (j := 0) (l := ⟨"back", "low", .component "leaving", some 6⟩) rfl rfl hx rfl rfl
    (o := some "head") (r := "arriving") (by decide +kernel) rfl (hy true) (u := .nodeInFlow ("end", none)) (by decide +kernel) (r' := "leaving") rfl rfl t ht
  have down := C100_flows T joined (a := up) (b := mid) (j := 0) (l := ⟨"down", "up", .component "leaving", none⟩) rfl rfl hx rfl rfl
    (o := some "head") (r := "arriving") (by decide +kernel) rfl (hy false) (u := .nodeInFlow ("end", none)) (by decide +kernel) (r' := "leaving") rfl rfl 1 (by omega)
  have passed := C100_passed T joined (a := mid) (b := low) (j := 0) (l := ⟨"passed", "mid", .component "arriving", none⟩) rfl rfl (k := 0)
    (l' := ⟨"down", "up", .component "leaving", none⟩) rfl rfl rfl 1 (by omega) (Or.inr rfl)
  refine ⟨tale, T, (back 0 (by omega)).1 6 rfl rfl, (back 1 (by omega)).2.2 (by decide) 0 rfl, down.2.1 (by decide) (Or.inr rfl), ?_, passed.1 (by decide)⟩
  obtain ⟨qs, h1, h2, -⟩ := ho up
  obtain rfl : [7] = qs := by simpa using h1
  have h3 : (tale up).Shows M M.parts[up] 1 (.component "leaving") 7 := by
    cases h2 with | cons h _ => exact h
  exact ((C99_inflow (D := M.document M.parts[up]) (T.each up).built (T.each up).happens (hy false) (r := "leaving") rfl
    (u := .nodeInFlow ("end", none)) (by decide +kernel) 1 (by omega) none 7).1.1 h3).symm

/-- Two networks with the same name, and a link from the network itself, are refused. -/
def twice : MultiDocument := { M with parts := M.parts ++ [⟨"up", D false "again", E false, [⟨"again", "mid", .component "leaving", none⟩]⟩] }

def self : MultiDocument := { M with parts := [⟨"up", D false "back", E false, [⟨"back", "up", .component "leaving", some 6⟩]⟩] }

def refused : MEnding → Bool
  | .notLinked _ => true
  | _ => false

example : refused (twice.run 1) = true ∧ refused (self.run 1) = true := by decide +kernel

end Verif.EndToEnd.Cases.Three
