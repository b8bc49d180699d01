import Verif.Props.Statics
import Verif.Props.SolverCases
import Verif.Lemmas.Simulation

/-!
# Cases for C109

A town that takes up to a limit from a well and from a neighbour.
-/

namespace Verif.Statics

open Verif.Solver Verif.Topology
open Verif.Simulation (noExclusivity_ok)

def townB : Builder :=
  ⟨[⟨("well", none), .input⟩, ⟨("neighbour", none), .input⟩, ⟨("town", none), .output⟩],
   [⟨("well", none), ("town", none)⟩, ⟨("neighbour", none), ("town", none)⟩], []⟩

/-- The well gives up to four units. Metrics 0, 1 and 2 are costs of the well, the neighbour and the town, metric 3 is what the town
takes at most. -/
def townM : Model where
  net := netOf townB
  data
    | 0 => { plainNode with maxFlow := some (.const 4), cost := some (.dyn 0) }
    | 1 => { plainNode with cost := some (.dyn 1) }
    | 2 => { plainNode with maxFlow := some (.dyn 3), cost := some (.dyn 2) }
    | _ => plainNode
  aggs := []
  vs := []

/-- Costs and the limit of a step. -/
def townSt (a b c m : ℚ) : StepState := ⟨fun k => [some a, some b, some c, some m][k]?.join, fun _ => none, fun _ => false, fun _ => none, 1⟩

theorem town_nodes : townM.net.nodes = [⟨0, ("well", none), .input, [], [0], []⟩, ⟨1, ("neighbour", none), .input, [], [1], []⟩,
    ⟨2, ("town", none), .output, [0, 1], [], []⟩] := by decide +kernel

theorem town_valid : townM.Valid := ⟨⟨townB, netOf_built townB (by decide +kernel)⟩, (fun a h => by cases h), (fun a h => by cases h)⟩

theorem town_exclusivity : townM.NoExclusivity := fun a h => by cases h

theorem town_factors : townM.FactorsOk := by
  refine ⟨?_, ?_, ?_, ?_, List.Pairwise.nil⟩ <;> (intro a h; cases h)

/-- The program of a step. -/
def townP (st : StepState) : Built := stepped townM (built townM) st

theorem town_prepared (st : StepState) (hd : 0 < st.days) (h : (step townM (built townM) st).toBool = true) :
    Prepared townM f64MAX (-f64MAX) st (townP st) :=
  ⟨town_valid, (noExclusivity_ok town_exclusivity).1, town_factors, hd, [], built townM, (noExclusivity_ok town_exclusivity).2,
    .create _ (built_ok townM (by decide +kernel)), stepped_ok townM _ st h⟩

/-- What solutions of a step are like. -/
theorem town_solution {a b c m : ℚ} {p : Built} (hp : Prepared townM f64MAX (-f64MAX) (townSt a b c m) p) {x : Nat → ℚ} (hx : p.lp.Feasible x) :
    0 ≤ p.flow x 0 ∧ 0 ≤ p.flow x 1 ∧ p.flow x 0 ≤ 4 ∧ p.flow x 0 + p.flow x 1 ≤ m ∧
    p.lp.objective x = a * p.flow x 0 + b * p.flow x 1 + c * (p.flow x 0 + p.flow x 1) := by
  obtain ⟨ha, -⟩ := hp.sound hx
  have hg : ∀ i, ¬ InGroup townM i := by rintro i ⟨g, ⟨a, h, _⟩, _⟩; cases h
  have h1 := ha.nodes ⟨0, ("well", none), .input, [], [0], []⟩ (by rw [town_nodes]; simp) (hg _)
  have h2 := ha.nodes ⟨2, ("town", none), .output, [0, 1], [], []⟩ (by rw [town_nodes]; simp) (hg _)
  obtain ⟨u1, e1, h1⟩ := h1.2
  obtain ⟨u2, e2, h2⟩ := h2.2
  cases e1
  cases e2
  refine ⟨ha.nonneg 0 (by decide +kernel), ha.nonneg 1 (by decide +kernel), by simpa [nodeFlow] using h1, by simpa [nodeFlow] using h2, ?_⟩
  rw [hp.objective hx (cost := fun n => if n.index = 0 then a else if n.index = 1 then b else c)]
  · unfold totalCost
    rw [town_nodes]
    simp [nodeFlow, add_assoc]
  · intro n hn _
    rw [town_nodes] at hn
    simp only [List.mem_cons, List.not_mem_nil, or_false] at hn
    rcases hn with rfl | rfl | rfl
    · exact ⟨a, rfl, rfl⟩
    · exact ⟨b, rfl, rfl⟩
    · exact ⟨c, rfl, rfl⟩

theorem town_looser (a b c m a' b' c' m' : ℚ) (h : m ≤ m') : Looser townM townM (townSt a b c m) (townSt a' b' c' m') where
  net := rfl
  days := rfl
  flows := by
    intro n hn _
    rw [town_nodes] at hn
    simp only [List.mem_cons, List.not_mem_nil, or_false] at hn
    rcases hn with rfl | rfl | rfl
    · constructor <;> (intro v v' h1 h2; simp [townM, plainNode, ValueIs, Metric.get] at h1 h2; subst h1 h2; exact le_refl _)
    · constructor <;> (intro v v' h1 h2; simp [townM, plainNode, ValueIs] at h1 h2; subst h1 h2; exact le_refl _)
    · constructor
      · intro v v' h1 h2; simp [townM, plainNode, ValueIs] at h1 h2; subst h1 h2; exact le_refl _
      · intro v v' h1 h2; simp [townM, plainNode, ValueIs, Metric.get, townSt] at h1 h2; subst h1 h2; exact h
  fixed := fun n _ _ h1 h2 => ⟨h1, h2⟩
  volumes := by
    intro n hn hk
    rw [town_nodes] at hn
    simp only [List.mem_cons, List.not_mem_nil, or_false] at hn
    rcases hn with rfl | rfl | rfl <;> cases hk
  groups := .nil
  relations := fun a h => by cases h
  members := fun i _ => ⟨rfl, rfl⟩
  licences := .nil
  active := fun k h => h
  left := fun k b b' h => by cases h

/-- The well costs one, the neighbour five; the town pays twenty and takes six. -/
def day : StepState := townSt 1 5 (-20) 6

/-- The well costs nine. -/
def dearDay : StepState := townSt 9 5 (-20) 6

/-- The town takes eight. -/
def wetDay : StepState := townSt 1 5 (-20) 8

/-- All costs doubled. -/
def doubleDay : StepState := townSt 2 10 (-40) 6

theorem day_ok : Prepared townM f64MAX (-f64MAX) day (townP day) := town_prepared _ (by decide +kernel) (by decide +kernel)
theorem dear_ok : Prepared townM f64MAX (-f64MAX) dearDay (townP dearDay) := town_prepared _ (by decide +kernel) (by decide +kernel)
theorem wet_ok : Prepared townM f64MAX (-f64MAX) wetDay (townP wetDay) := town_prepared _ (by decide +kernel) (by decide +kernel)
theorem double_ok : Prepared townM f64MAX (-f64MAX) doubleDay (townP doubleDay) := town_prepared _ (by decide +kernel) (by decide +kernel)

theorem day_best : Cheapest (townP day) (vals [4, 2]) := by
  refine ⟨Lp.check_feasible _ _ (by decide +kernel), fun y hy => ?_⟩
  obtain ⟨h1, h2, h3, h4, h5⟩ := town_solution day_ok hy
  have : (townP day).lp.objective (vals [4, 2]) = -106 := by decide +kernel
  rw [this, h5]; linarith

theorem dear_best : Cheapest (townP dearDay) (vals [0, 6]) := by
  refine ⟨Lp.check_feasible _ _ (by decide +kernel), fun y hy => ?_⟩
  obtain ⟨h1, h2, h3, h4, h5⟩ := town_solution dear_ok hy
  have : (townP dearDay).lp.objective (vals [0, 6]) = -90 := by decide +kernel
  rw [this, h5]; linarith

theorem wet_best : Cheapest (townP wetDay) (vals [4, 4]) := by
  refine ⟨Lp.check_feasible _ _ (by decide +kernel), fun y hy => ?_⟩
  obtain ⟨h1, h2, h3, h4, h5⟩ := town_solution wet_ok hy
  have : (townP wetDay).lp.objective (vals [4, 4]) = -136 := by decide +kernel
  rw [this, h5]; linarith

/-- Costs of the nodes in a step. -/
theorem town_cost {a b c m : ℚ} {n : TNode} (hn : n ∈ townM.net.nodes) {v : ℚ} (h : CostIs townM (townSt a b c m).metric n v) :
    v = if n.index = 0 then a else if n.index = 1 then b else c := by
  rw [town_nodes] at hn
  simp only [List.mem_cons, List.not_mem_nil, or_false] at hn
  obtain ⟨own, h1, h2⟩ := h
  rcases hn with rfl | rfl | rfl <;>
    (simp [townM, plainNode, ValueIs, Metric.get, townSt] at h1 h2; subst h2; simp [h1])

/-- A dearer well is used less: four units before, none then. -/
example : nodeFlow ((townP dearDay).flow (vals [0, 6])) ⟨0, ("well", none), .input, [], [0], []⟩ = 0 ∧
    nodeFlow ((townP day).flow (vals [4, 2])) ⟨0, ("well", none), .input, [], [0], []⟩ = 4 ∧
    ∀ x y, Cheapest (townP day) x → Cheapest (townP dearDay) y →
      ((townM.net.nodes.filter fun n => n.index = 0).map (nodeFlow ((townP dearDay).flow y))).sum ≤
        ((townM.net.nodes.filter fun n => n.index = 0).map (nodeFlow ((townP day).flow x))).sum := by
  refine ⟨by decide +kernel, by decide +kernel, fun x y hx hy => ?_⟩
  refine C109_demand (town_looser _ _ _ _ _ _ _ _ (le_refl _)) (town_looser _ _ _ _ _ _ _ _ (le_refl _)) (by decide +kernel) day_ok dear_ok
    (fun n => n.index = 0) 8 (by norm_num) (fun n hn _ c c' h1 h2 => ?_) x y hx hy
  rw [town_cost hn h1, town_cost hn h2]
  by_cases h : n.index = 0
  · norm_num [h]
  · simp [h]

/-- A town that takes more: what was possible still is, and the best is cheaper. -/
example : (∃ y, (townP wetDay).lp.Feasible y ∧ SameFlows townM (townP day) (townP wetDay) (vals [4, 2]) y) ∧
    (townP wetDay).lp.objective (vals [4, 4]) ≤ (townP day).lp.objective (vals [4, 2]) :=
  ⟨C109_possible (town_looser _ _ _ _ _ _ _ _ (by norm_num)) (by decide +kernel) day_ok wet_ok _ day_best.1,
    C109_cheaper (town_looser _ _ _ _ _ _ _ _ (by norm_num)) (by decide +kernel) day_ok wet_ok
      (fun n hn _ c c' h1 h2 => by rw [town_cost hn h1, town_cost hn h2]; exact ⟨le_refl _, fun _ => rfl⟩) _ _ day_best.1 wet_best⟩

/-- With all costs doubled the same flows are best, at twice the cost. -/
example : ∃ y, Cheapest (townP doubleDay) y ∧ SameFlows townM (townP day) (townP doubleDay) (vals [4, 2]) y ∧
    (townP doubleDay).lp.objective y = 2 * (townP day).lp.objective (vals [4, 2]) :=
  C109_scale (town_looser _ _ _ _ _ _ _ _ (le_refl _)) (town_looser _ _ _ _ _ _ _ _ (le_refl _)) (by decide +kernel) day_ok double_ok 2
    (by norm_num) (fun n hn _ c c' h1 h2 => by
      rw [town_cost hn h1, town_cost hn h2]
      split_ifs <;> norm_num) _ day_best

end Verif.Statics
