import Verif.Props.ReorderRun
import Verif.Props.SimulationCases

/-!
# Cases for C108

A reservoir between an input and an output with a licence on the output, and the same backwards.
-/

namespace Verif.Reorder

open Verif.Solver Verif.Topology
open Verif.Simulation

/-- An input, a reservoir and an output; a licence on the output. -/
def pipeB : Builder :=
  ⟨[⟨("in", none), .input⟩, ⟨("res", none), .storage⟩, ⟨("out", none), .output⟩],
   [⟨("in", none), ("res", none)⟩, ⟨("res", none), ("out", none)⟩], [⟨("licence", none), [("out", none)]⟩]⟩

/-- The same backwards. -/
def epipB : Builder := ⟨pipeB.nodes.reverse, pipeB.edges.reverse, pipeB.vs⟩

/-- Where a node goes. -/
def flip (i : Nat) : Nat := if i < 3 then 2 - i else i

theorem flip_flip (i : Nat) : flip (flip i) = i := by unfold flip; split_ifs <;> omega

/-- Water costs one unit to get and earns ten; at most three units are taken. -/
def pipeData (i : Nat) : NodeData :=
  [{ plainNode with cost := some (.const 1) }, { plainNode with maxVolume := some (.const 100) },
    { plainNode with maxFlow := some (.const 3), cost := some (.const (-10)) }].getD i plainNode

def pipeIv (i : Nat) : State.InitialVolume := if i = 1 then .absolute 40 else .absolute 0

def pipeSim : Sim where
  net := netOf pipeB
  data := pipeData
  aggs := []
  vsNodes := [⟨[2], [1], .absolute 60, .never, .initial, none, .always⟩]
  vsMin := fun _ => none
  vsMax := fun _ => some (.const 100)
  vsCost := fun _ => none
  iv := fun _ i => pipeIv i

def epipSim : Sim where
  net := netOf epipB
  data := fun i => pipeData (flip i)
  aggs := []
  vsNodes := [⟨[0], [1], .absolute 60, .never, .initial, none, .always⟩]
  vsMin := fun _ => none
  vsMax := fun _ => some (.const 100)
  vsCost := fun _ => none
  iv := fun _ i => pipeIv (flip i)

theorem pipe_built : pipeB.build = .ok pipeSim.net := netOf_built pipeB (by decide +kernel)

theorem epip_built : epipB.build = .ok epipSim.net := netOf_built epipB (by decide +kernel)

theorem pipe_reordered : Reordered flip pipeB epipB where
  nodes := pipeB.nodes.reverse_perm
  edges := pipeB.edges.reverse_perm
  storages := rfl
  moved := by
    intro i
    by_cases hi : i < 3
    · interval_cases i <;> decide +kernel
    · have h1 : flip i = i := if_neg hi
      have h2 : epipB.nodes.length = 3 := rfl
      have h3 : pipeB.nodes.length = 3 := rfl
      rw [h1, List.getElem?_eq_none (by omega), List.getElem?_eq_none (by omega)]

theorem pipe_same : SameSim flip pipeSim epipSim where
  data := fun i => congrArg pipeData (flip_flip i)
  aggs := rfl
  vsNodes := by decide +kernel
  vsMin := rfl
  vsMax := rfl
  vsCost := rfl
  iv := fun _ i => congrArg pipeIv (flip_flip i)

theorem pipe_valid : pipeSim.Valid := by
  refine ⟨⟨⟨pipeB, pipe_built⟩, ?_, ?_⟩, (noExclusivity_ok ?_).1, (noExclusivity_ok ?_).2, ⟨?_, ?_, ?_, ?_, ?_⟩, ?_, ?_⟩
  · intro a h; cases h
  · decide +kernel
  · intro a h; cases h
  · intro a h; cases h
  · intro a h; cases h
  · intro a h; cases h
  · intro a h; cases h
  · intro a h; cases h
  · exact List.Pairwise.nil
  · intro n hn i hi
    simp only [pipeSim, List.mem_singleton] at hn
    subst hn
    simp only [List.mem_singleton] at hi
    subst hi
    exact ⟨pipeSim.net.nodes[2]'(by decide +kernel), List.getElem?_eq_getElem _, by decide +kernel⟩
  · intro n hn w hw
    simp only [pipeSim, List.mem_singleton] at hn
    subst hn
    cases hw

theorem epip_groups : GroupsAre epipSim.model epipSim.sets := (noExclusivity_ok (by intro a h; cases h)).2

/-- Three units along one of two edges. -/
def three (p : Nat) (c : Nat) : ℚ := if c = p then 3 else 0

/-- Reasons why those are best: costs of one and minus ten, and no more than three units. -/
def best3 (p : Nat) (lp : Lp) : Bool :=
  lp.check (three p) && decide (p < 2) && decide (lp.colObj = if p = 1 then [1, -10] else [-10, 1]) && decide (lp.colLower[1 - p]? = some 0) &&
    decide ((1 - p) < lp.colUpper.length) && (List.range lp.rowLower.length).any fun i => decide (lp.entries i = [(p, 1)] ∧ lp.rowUpper[i]? = some 3)

theorem best3_best {p : Nat} {lp : Lp} (h : best3 p lp = true) : lp.Feasible (three p) ∧ ∀ y, lp.Feasible y → lp.objective (three p) ≤ lp.objective y := by
  unfold best3 at h
  simp only [Bool.and_eq_true, decide_eq_true_eq, List.any_eq_true, List.mem_range] at h
  obtain ⟨⟨⟨⟨⟨h1, h2⟩, h3⟩, h4⟩, h5⟩, i, hi, h6, h7⟩ := h
  refine ⟨Lp.check_feasible _ _ h1, fun y hy => ?_⟩
  have hr := hy.1 i _ _ (List.getElem?_eq_getElem hi) h7
  rw [h6] at hr
  have hc := hy.2 (1 - p) _ _ h4 (List.getElem?_eq_getElem h5)
  have hr2 := hr.2
  unfold Lp.objective
  rw [h3]
  interval_cases p <;> simp [three, value] at hr2 hc ⊢ <;> linarith [hc.1]

open Classical in
/-- A solver that finds what is best. -/
noncomputable def pipeSolve (lp : Lp) : Option (Nat → ℚ) :=
  if best3 1 lp = true then some (three 1)
  else if best3 0 lp = true then some (three 0)
  else if hx : ∃ x, lp.Feasible x ∧ ∀ z, lp.Feasible z → lp.objective x ≤ lp.objective z then some hx.choose else none

theorem pipeSolve_finds : Finds pipeSolve where
  sound := by
    intro l x hx
    unfold pipeSolve at hx
    split_ifs at hx with h1 h2 h3
    · cases hx; exact (best3_best h1).1
    · cases hx; exact (best3_best h2).1
    · cases hx; exact h3.choose_spec.1
  least := by
    intro l x hx
    unfold pipeSolve at hx
    split_ifs at hx with h1 h2 h3
    · cases hx; exact (best3_best h1).2
    · cases hx; exact (best3_best h2).2
    · cases hx; exact h3.choose_spec.2
  finds := by
    intro l hx
    unfold pipeSolve
    split_ifs with h1 h2
    · exact ⟨_, rfl⟩
    · exact ⟨_, rfl⟩
    · exact ⟨_, rfl⟩

/-- Three days. -/
noncomputable def pipeInputs : List Inp := (List.range 3).map fun k => ⟨⟨⟨⟨2020, 1, k + 1⟩, 0⟩, k, 86400000000000⟩, fun _ => none, pipeSolve⟩

theorem pipeInputs_form : ∀ inp ∈ pipeInputs, inp.solve = pipeSolve ∧ inp.metric = fun _ => none := by
  intro inp h
  obtain ⟨k, _, rfl⟩ := List.mem_map.1 h
  exact ⟨rfl, rfl⟩

/-- In the case three units go from the reservoir each day. -/
theorem pipe_flows : ((pipeSim.run pipeInputs (started pipeSim)).1.map fun r => (r.flow 0, r.flow 1)) = [(0, 3), (0, 3), (0, 3)] := by decide +kernel

theorem run_inp {S : Sim} (inputs : List Inp) : ∀ (s : State.NetworkState) (rs : List Record), S.RunOk s inputs rs → ∀ r ∈ rs, r.inp ∈ inputs := by
  induction inputs with
  | nil => intro s rs h r hr; cases rs with
    | nil => cases hr
    | cons a as => exact h.elim
  | cons inp rest ih => intro s rs h r hr; cases rs with
    | nil => cases hr
    | cons a as =>
      obtain ⟨h1, -, -, h4⟩ := h
      rcases List.mem_cons.1 hr with rfl | hr
      · rw [h1]; exact List.mem_cons_self
      · exact List.mem_cons_of_mem _ (ih _ _ h4 r hr)

theorem pipe_inputsOk : pipeSim.InputsOk pipeInputs := by
  refine ⟨by decide +kernel, by decide +kernel, ?_, ?_, ?_, (rolling_none (by decide) _).1, (rolling_none (by decide) _).2⟩
  · intro inp h lp x hx
    rw [(pipeInputs_form inp h).1] at hx
    exact pipeSolve_finds.sound lp x hx
  · intro inp h k n lo hi hn hb
    obtain ⟨h1, h2⟩ := hb
    have hmem := List.mem_of_getElem? hn
    simp only [pipeSim, List.mem_singleton] at hmem
    subst hmem
    simp [pipeSim, ValueIs, Metric.get] at h1 h2
    subst h1 h2
    simp only [State.InitialVolume.get]
    constructor <;> norm_num
  · refine List.pairwise_of_forall ?_
    intro a b k hk lo hi lo' hi' h1 h2
    obtain ⟨h1, h3⟩ := h1
    obtain ⟨h2, h4⟩ := h2
    simp [pipeSim, ValueIs, Metric.get] at h1 h2 h3 h4
    subst h1 h2 h3 h4
    exact ⟨le_refl _, le_refl _⟩

/-- Taking three units is the only best way. -/
theorem pipe_unique : ∀ r ∈ (pipeSim.run pipeInputs (started pipeSim)).1, Unique pipeSim f64MAX (-f64MAX) r := by
  intro r hr f ha _ hc
  have hok := (C60_run pipe_valid _ pipe_inputsOk _ _ _ (started_ok pipeSim (by decide +kernel))).1
  have hm := (pipeInputs_form _ (run_inp _ _ _ hok r hr)).2
  have hf : (r.flow 0, r.flow 1) = ((0 : ℚ), (3 : ℚ)) := by
    have := List.mem_map_of_mem (f := fun r : Record => (r.flow 0, r.flow 1)) hr
    rw [pipe_flows] at this
    simpa using this
  obtain ⟨hf0, hf1⟩ := Prod.mk.inj hf
  have h0 := ha.nonneg 0 (by decide +kernel)
  have hnodes : pipeSim.net.nodes = [⟨0, ("in", none), .input, [], [0], []⟩, ⟨1, ("res", none), .storage, [0], [1], []⟩,
    ⟨2, ("out", none), .output, [1], [], [0]⟩] := by decide +kernel
  have h1 := (ha.nodes ⟨2, ("out", none), .output, [1], [], [0]⟩ (by rw [hnodes]; simp) (by decide) (by rintro ⟨g, ⟨a, h, _⟩, _⟩; cases h)).2
  obtain ⟨u, hu, h1⟩ := h1
  cases hu
  have h2 := hc (fun n => if n.index = 0 then 1 else if n.index = 1 then 0 else -10) (by
    intro n hn _
    rw [hnodes] at hn
    simp only [List.mem_cons, List.not_mem_nil, or_false] at hn
    rcases hn with rfl | rfl | rfl
    · exact ⟨1, [], rfl, rfl⟩
    · exact ⟨0, [], rfl, rfl⟩
    · exact ⟨-10, [], rfl, rfl⟩)
  unfold Sim.totalCost at h2
  rw [hnodes] at h2
  simp [nodeFlow, hf0, hf1] at h1 h2
  intro e he
  have he : e < 2 := he
  interval_cases e
  · rw [hf0]; linarith
  · rw [hf1]; linarith

/-- The case: both networks run for three days, three units go from the reservoir each day, and the same happens in both. -/
example : epipSim.net ≠ pipeSim.net ∧
    List.Forall₂ (SameRecord flip pipeB epipB) (pipeSim.run pipeInputs (started pipeSim)).1 (epipSim.run pipeInputs (started epipSim)).1 ∧
    SameEnd flip pipeB epipB (pipeSim.run pipeInputs (started pipeSim)).2 (epipSim.run pipeInputs (started epipSim)).2 ∧
    (pipeSim.run pipeInputs (started pipeSim)).1.length = 3 ∧
    ((epipSim.run pipeInputs (started epipSim)).1.map fun r => (r.flow 0, r.flow 1)) = [(3, 0), (3, 0), (3, 0)] := by
  have hf : ∀ inp ∈ pipeInputs, Finds inp.solve := fun inp h => by rw [(pipeInputs_form inp h).1]; exact pipeSolve_finds
  have h := C108_run pipe_reordered pipe_same pipe_built epip_built pipe_valid epip_groups (big := f64MAX) (negBig := -f64MAX) (by decide +kernel)
    pipeInputs pipeInputs pipe_inputsOk (List.forall₂_same.2 fun _ _ => ⟨rfl, rfl⟩) hf hf (started_ok pipeSim (by decide +kernel))
    (started_ok epipSim (by decide +kernel)) pipe_unique
  exact ⟨by decide +kernel, h.1, h.2, by decide +kernel, by decide +kernel⟩

/-- Whatever else may happen in the first may happen in the second. -/
example : ∃ inputs', List.Forall₂ SameInp pipeInputs inputs' ∧ (∀ inp ∈ inputs', Finds inp.solve) ∧
    List.Forall₂ (SameRecord flip pipeB epipB) (pipeSim.run pipeInputs (started pipeSim)).1 (epipSim.run inputs' (started epipSim)).1 ∧
    SameEnd flip pipeB epipB (pipeSim.run pipeInputs (started pipeSim)).2 (epipSim.run inputs' (started epipSim)).2 :=
  C108_possible pipe_reordered pipe_same pipe_built epip_built pipe_valid epip_groups (big := f64MAX) (negBig := -f64MAX) (by decide +kernel)
    pipeInputs pipe_inputsOk (fun inp h => by rw [(pipeInputs_form inp h).1]; exact pipeSolve_finds) (started_ok pipeSim (by decide +kernel))
    (started_ok epipSim (by decide +kernel))

/-- Both can be set up. -/
example : ∃ s, epipSim.initial f64MAX (-f64MAX) = .ok s :=
  (C108_setup pipe_reordered pipe_same pipe_built epip_built pipe_valid epip_groups).2 ⟨_, started_ok pipeSim (by decide +kernel)⟩

end Verif.Reorder
