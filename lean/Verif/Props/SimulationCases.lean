import Verif.Props.SimulationRolling
import Verif.Props.SolverCases

/-!
# Cases for C60, C61 and C62

A network meeting the hypotheses of the theorems in `Props/Simulation.lean`, and runs that fail without them.
-/

namespace Verif.Simulation

open Verif.State Verif.Solver Verif.Time Verif.Calendar

/-- A licence on the first output, of sixty units with a maximum of a hundred. -/
def caseVS (reset : Reset) : VSNode := ⟨[2], [1], .absolute 60, reset, .initial, none, .always⟩

/-- The network of `caseM`: its reservoir starts with forty units, its licence is never reset. The maximum of the licence is
metric 3. -/
def caseSim : Sim where
  net := caseM.net
  data := caseM.data
  aggs := caseM.aggs
  vsNodes := [caseVS .never]
  vsMin := fun _ => none
  vsMax := fun _ => some (.dyn 3)
  vsCost := fun _ => some (.const (-3))
  iv := fun _ _ => .absolute 40

/-- Values of the metrics: ratio 3/2, inflow at most `inflow`, licence at most `licence`. -/
def caseMetric (inflow licence : ℚ) : Nat → Option ℚ := fun k => [some (3 / 2), some inflow, some 2, some licence][k]?.join

/-- A step with a solver that tries one solution. -/
def caseInp (k : Nat) (inflow licence : ℚ) (x : List ℚ) : Inp where
  t := ⟨⟨⟨2020, 1, k + 1⟩, 0⟩, k, 86400000000000⟩
  metric := caseMetric inflow licence
  solve := fun lp => if lp.check (vals x) then some (vals x) else none

theorem caseInp_sound (k : Nat) (inflow licence : ℚ) (x : List ℚ) (lp : Lp) (y : Nat → ℚ) (h : (caseInp k inflow licence x).solve lp = some y) :
    lp.Feasible y := by
  simp only [caseInp] at h
  by_cases hc : lp.check (vals x) = true
  · rw [if_pos hc] at h
    cases h
    exact Lp.check_feasible _ _ hc
  · rw [if_neg hc] at h
    cases h

theorem caseSim_model : caseSim.model = caseM := rfl

theorem caseSim_valid : caseSim.Valid := by
  refine ⟨?_, ?_, ?_, ?_, ?_, ?_⟩
  · rw [caseSim_model]; exact caseM_valid
  · rw [caseSim_model]; exact (noExclusivity_ok caseM_exclusivity).1
  · rw [caseSim_model]; exact (noExclusivity_ok caseM_exclusivity).2
  · rw [caseSim_model]; exact caseM_factors
  · intro n hn i hi
    simp only [caseSim, List.mem_singleton] at hn
    subst hn
    simp only [caseVS, List.mem_singleton] at hi
    subst hi
    exact ⟨caseM.net.nodes[2]'(by decide +kernel), List.getElem?_eq_getElem _, by decide +kernel⟩
  · intro n hn w hw
    simp only [caseSim, List.mem_singleton] at hn
    subst hn
    cases hw

/-- Without rolling licences the conditions on them hold. -/
theorem rolling_none {S : Sim} (h : ∀ n ∈ S.vsNodes, n.rollingWindow.isSome = false) (inputs : List Inp) :
    (∀ inp ∈ inputs, ∀ (k : Nat) (n : VSNode) (lo hi : ℚ), S.vsNodes[k]? = some n → n.rollingWindow.isSome = true →
      VolumesAre inp.metric (S.vsMin k) (S.vsMax k) lo hi →
      n.initialVolume.get hi = hi ∨ n.resetVolume = .initial ∧ inp.t.days ≤ 1) ∧
    ((∃ n ∈ S.vsNodes, n.rollingWindow.isSome = true) → inputs.Pairwise fun a b => b.t.days ≤ a.t.days) := by
  constructor
  · intro inp _ k n lo hi hn hr
    rw [h n (List.mem_of_getElem? hn)] at hr
    cases hr
  · rintro ⟨n, hn, hr⟩
    rw [h n hn] at hr
    cases hr

theorem caseVolumes {inflow licence lo hi : ℚ} {k : Nat} (h : VolumesAre (caseMetric inflow licence) (caseSim.vsMin k) (caseSim.vsMax k) lo hi) :
    lo = 0 ∧ hi = licence := by
  have h' : VolumesAre (caseMetric inflow licence) (caseSim.vsMin k) (caseSim.vsMax k) 0 licence := ⟨rfl, rfl⟩
  exact h.unique h'

/-- Three steps. -/
def caseInputs : List Inp := [caseInp 0 10 100 [6, 2, 4, 3, 1], caseInp 1 20 100 [12, 4, 8, 2, 2], caseInp 2 5 110 [4, 1, 3, 1, 5/4]]

theorem caseInputs_ok : caseSim.InputsOk caseInputs := by
  have hform : ∀ inp ∈ caseInputs, ∃ k a b x, inp = caseInp k a b x ∧ (b = 100 ∨ b = 110) := by
    intro inp h
    simp only [caseInputs, List.mem_cons, List.not_mem_nil, or_false] at h
    rcases h with rfl | rfl | rfl
    · exact ⟨_, _, _, _, rfl, Or.inl rfl⟩
    · exact ⟨_, _, _, _, rfl, Or.inl rfl⟩
    · exact ⟨_, _, _, _, rfl, Or.inr rfl⟩
  refine ⟨by decide +kernel, by decide +kernel, ?_, ?_, ?_, (rolling_none (by decide) _).1, (rolling_none (by decide) _).2⟩
  · intro inp h lp x hx
    obtain ⟨k, a, b, y, rfl, _⟩ := hform inp h
    exact caseInp_sound _ _ _ _ _ _ hx
  · intro inp h k n lo hi hn hb
    obtain ⟨j, a, b, y, rfl, hab⟩ := hform inp h
    obtain ⟨rfl, rfl⟩ := caseVolumes hb
    have hmem := List.mem_of_getElem? hn
    simp only [caseSim, List.mem_singleton] at hmem
    subst hmem
    simp only [caseVS, InitialVolume.get]
    rcases hab with rfl | rfl <;> constructor <;> norm_num
  · unfold caseInputs
    refine List.Pairwise.cons ?_ (List.Pairwise.cons ?_ (List.Pairwise.cons ?_ List.Pairwise.nil))
    · intro b hb k _ lo hi lo' hi' h1 h2
      simp only [List.mem_cons, List.not_mem_nil, or_false] at hb
      rcases hb with rfl | rfl <;>
        (obtain ⟨rfl, rfl⟩ := caseVolumes h1; obtain ⟨rfl, rfl⟩ := caseVolumes h2; constructor <;> norm_num)
    · intro b hb k _ lo hi lo' hi' h1 h2
      simp only [List.mem_cons, List.not_mem_nil, or_false] at hb
      subst hb
      obtain ⟨rfl, rfl⟩ := caseVolumes h1; obtain ⟨rfl, rfl⟩ := caseVolumes h2; constructor <;> norm_num
    · intro b hb
      simp at hb

/-- The state before the first step, or an arbitrary one. -/
def started (S : Sim) : SimState :=
  match S.initial f64MAX (-f64MAX) with
  | .ok s => s
  | .error _ => ⟨S.initialNetwork, built S.model⟩

theorem started_ok (S : Sim) (h : (S.initial f64MAX (-f64MAX)).toBool = true) : S.initial f64MAX (-f64MAX) = .ok (started S) := by
  unfold started
  cases hc : S.initial f64MAX (-f64MAX) with
  | ok s => rfl
  | error e => rw [hc] at h; cases h

/-- Volumes of the reservoir and of the licence. -/
def volumes (s : NetworkState) : Option ℚ × Option ℚ := ((s.nodeVolume 4).toOption, (s.vsVolume 0).toOption)

/-- The error with which a run ends. -/
def endsWith (r : Except SimErr SimState) : Option SimErr :=
  match r with
  | .ok _ => none
  | .error e => some e

/-- The case for C60 and C61: all three steps complete, with these volumes after each of them. -/
example : caseSim.Valid ∧ caseSim.InputsOk caseInputs ∧ caseSim.initial f64MAX (-f64MAX) = .ok (started caseSim) ∧
    ((caseSim.run caseInputs (started caseSim)).1.map fun r => volumes r.post) =
      [(some 42, some 57), (some 42, some 51), (some (167 / 4), some (195 / 4))] ∧
    endsWith (caseSim.run caseInputs (started caseSim)).2 = none :=
  ⟨caseSim_valid, caseInputs_ok, started_ok caseSim (by decide +kernel), by decide +kernel, by decide +kernel⟩

/-- In the case the sums of C61 are: inflow and outflow per day, so that the forty units at first become 42, 42 and 41.75. -/
example : ((caseSim.run caseInputs (started caseSim)).1.map fun r => (caseSim.supplied r.flow, caseSim.delivered r.flow)) =
    [(9, 7), (14, 14), (5, 21 / 4)] := by decide +kernel

/-- A solver that finds nothing: the run stops there. -/
example : (fun r : List Record × Except SimErr SimState => (r.1.length, endsWith r.2))
    (caseSim.run [caseInp 0 10 100 [6, 2, 4, 3, 1], caseInp 1 1 100 [6, 2, 4, 3, 1]] (started caseSim)) = (1, some .infeasible) := by
  decide +kernel

/-- **C60, refuted when the bounds of a virtual storage narrow.** The maximum of the licence drops from a hundred to fifty with
fifty-seven left. The solver's answer satisfies the program, but the step panics: the volume is above the maximum. -/
theorem C60_narrowing_refuted : (fun r : List Record × Except SimErr SimState => (r.1.length, endsWith r.2))
    (caseSim.run [caseInp 0 10 100 [6, 2, 4, 3, 1], caseInp 1 10 50 [6, 2, 4, 3, 1]] (started caseSim)) =
      (1, some (.state .panicAboveMax)) ∧
    ∀ lp x, (caseInp 1 10 50 [6, 2, 4, 3, 1]).solve lp = some x → lp.Feasible x :=
  ⟨by decide +kernel, caseInp_sound _ _ _ _⟩

/-- **C60, refuted when a virtual storage starts outside its bounds.** -/
theorem C60_start_refuted : (fun r : List Record × Except SimErr SimState => (r.1.length, endsWith r.2))
    (caseSim.run [caseInp 0 10 50 [6, 2, 4, 3, 1]] (started caseSim)) = (0, some (.state .panicAboveMax)) ∧
    ∀ lp x, (caseInp 0 10 50 [6, 2, 4, 3, 1]).solve lp = some x → lp.Feasible x :=
  ⟨by decide +kernel, caseInp_sound _ _ _ _⟩

/-! ## A licence with a rolling window -/

/-- The licence with a window of two steps: forty of its hundred units are missing at the start. -/
def rollSim : Sim := { caseSim with vsNodes := [{ caseVS .never with rollingWindow := some 2 }] }

theorem rollSim_valid : rollSim.Valid := by
  refine ⟨caseSim_valid.model, caseSim_valid.constant, caseSim_valid.groups, caseSim_valid.factors, ?_, ?_⟩
  · intro n hn i hi
    simp only [rollSim, List.mem_singleton] at hn
    subst hn
    exact caseSim_valid.members (caseVS .never) (by decide) i hi
  · intro n hn w hw
    simp only [rollSim, List.mem_singleton] at hn
    subst hn
    cases hw
    decide +kernel

/-- Four days. -/
def rollInputs : List Inp := [caseInp 0 10 100 [6, 2, 4, 3, 1], caseInp 1 20 100 [12, 4, 8, 2, 2], caseInp 2 5 100 [4, 1, 3, 1, 5/4],
  caseInp 3 10 100 [6, 2, 4, 3, 1]]

theorem rollInputs_ok : rollSim.InputsOk rollInputs := by
  have hform : ∀ inp ∈ rollInputs, ∃ k a x, inp = caseInp k a 100 x := by
    intro inp h
    simp only [rollInputs, List.mem_cons, List.not_mem_nil, or_false] at h
    rcases h with rfl | rfl | rfl | rfl <;> exact ⟨_, _, _, rfl⟩
  refine ⟨by decide +kernel, by decide +kernel, ?_, ?_, ?_, ?_, fun _ => by decide +kernel⟩
  · intro inp h lp x hx
    obtain ⟨k, a, y, rfl⟩ := hform inp h
    exact caseInp_sound _ _ _ _ _ _ hx
  · intro inp h k n lo hi hn hb
    obtain ⟨j, a, y, rfl⟩ := hform inp h
    obtain ⟨rfl, rfl⟩ := caseVolumes (k := k) hb
    have hmem := List.mem_of_getElem? hn
    simp only [rollSim, List.mem_singleton] at hmem
    subst hmem
    simp only [caseVS, InitialVolume.get]
    constructor <;> norm_num
  · refine List.Pairwise.imp_of_mem (R := fun _ _ => True) ?_ (List.pairwise_of_forall fun _ _ => trivial)
    intro a b ha hb _ k _ lo hi lo' hi' h1 h2
    obtain ⟨i, _, _, rfl⟩ := hform a ha
    obtain ⟨j, _, _, rfl⟩ := hform b hb
    obtain ⟨rfl, rfl⟩ := caseVolumes (k := k) h1
    obtain ⟨rfl, rfl⟩ := caseVolumes (k := k) h2
    exact ⟨le_refl _, le_refl _⟩
  · intro inp h k n lo hi hn _ _
    have hd : ∀ inp ∈ rollInputs, inp.t.days ≤ 1 := by decide +kernel
    have hmem := List.mem_of_getElem? hn
    simp only [rollSim, List.mem_singleton] at hmem
    subst hmem
    exact Or.inr ⟨rfl, hd inp h⟩

/-- The case for rolling licences: uses are 3, 6, 9/4 and 3; given back are 20, 20, 3 and 6. -/
example : rollSim.Valid ∧ rollSim.InputsOk rollInputs ∧ rollSim.initial f64MAX (-f64MAX) = .ok (started rollSim) ∧
    VolumesAre (caseInp 0 10 100 [6, 2, 4, 3, 1]).metric (rollSim.vsMin 0) (rollSim.vsMax 0) 0 100 ∧
    ((rollSim.run rollInputs (started rollSim)).1.map fun r => ((r.pre.vsVolume 0).toOption, (r.post.vsVolume 0).toOption)) =
      [(some 80, some 77), (some 97, some 91), (some 94, some (367 / 4)), (some (391 / 4), some (379 / 4))] ∧
    endsWith (rollSim.run rollInputs (started rollSim)).2 = none :=
  ⟨rollSim_valid, rollInputs_ok, started_ok rollSim (by decide +kernel), ⟨rfl, rfl⟩, by decide +kernel, by decide +kernel⟩

/-- A full licence with a window of one step. -/
def longSim : Sim := { caseSim with vsNodes := [{ caseVS .never with initialVolume := .absolute 100, rollingWindow := some 1 }] }

/-- **C60, refuted for steps that get longer.** The use of a day is given back as that of a week, and the step panics. -/
theorem C60_longer_refuted : (fun r : List Record × Except SimErr SimState => (r.1.length, endsWith r.2))
    (longSim.run [caseInp 0 10 100 [6, 2, 4, 3, 1], { caseInp 1 10 100 [0, 0, 0, 0, 0] with t := ⟨⟨⟨2020, 1, 2⟩, 0⟩, 1, 604800000000000⟩ }]
      (started longSim)) = (1, some (.state .panicAboveMax)) ∧
    ∀ lp x, ({ caseInp 1 10 100 [0, 0, 0, 0, 0] with t := ⟨⟨⟨2020, 1, 2⟩, 0⟩, 1, 604800000000000⟩ } : Inp).solve lp = some x → lp.Feasible x :=
  ⟨by decide +kernel, caseInp_sound 1 10 100 [0, 0, 0, 0, 0]⟩

/-! ## A solver of least objective and one that is complete -/

/-- Returns no flow if that satisfies the program and no column has a negative cost. -/
def zeroSolve (lp : Lp) : Option (Nat → ℚ) := if lp.check (fun _ => 0) ∧ (∀ c ∈ lp.colObj, 0 ≤ c) ∧ (∀ l ∈ lp.colLower, 0 ≤ l) ∧
  lp.colLower.length = lp.colUpper.length ∧ lp.colObj.length = lp.colLower.length then some (fun _ => 0) else none

theorem zeroSolve_spec (lp : Lp) (x : Nat → ℚ) (h : zeroSolve lp = some x) :
    lp.Feasible x ∧ ∀ y, lp.Feasible y → lp.objective x ≤ lp.objective y := by
  unfold zeroSolve at h
  by_cases hc : lp.check (fun _ => 0) ∧ (∀ c ∈ lp.colObj, 0 ≤ c) ∧ (∀ l ∈ lp.colLower, 0 ≤ l) ∧
    lp.colLower.length = lp.colUpper.length ∧ lp.colObj.length = lp.colLower.length
  · rw [if_pos hc] at h
    cases h
    obtain ⟨h1, h2, h3, h4, h5⟩ := hc
    refine ⟨Lp.check_feasible _ _ h1, fun y hy => ?_⟩
    unfold Lp.objective
    have h0 : (lp.colObj.zipIdx.map fun p => p.1 * (0 : ℚ)).sum = 0 := by simp
    rw [h0]
    apply List.sum_nonneg
    intro v hv
    obtain ⟨⟨c, i⟩, hm, rfl⟩ := List.mem_map.1 hv
    have hg := List.mem_zipIdx_iff_getElem?.1 hm
    simp only at hg ⊢
    have hi := (List.getElem?_eq_some_iff.1 hg).1
    have hl := hy.2 i _ _ (List.getElem?_eq_getElem (by omega)) (List.getElem?_eq_getElem (by omega))
    exact mul_nonneg (h2 c (List.mem_of_getElem? hg)) (le_trans (h3 _ (List.getElem_mem _)) hl.1)
  · rw [if_neg hc] at h
    cases h

/-- An input and a link with an output: the input costs one unit. -/
def freeSim : Sim where
  net := netOf chainB
  data := fun i => if i = 0 then { plainNode with cost := some (.const 1) } else plainNode
  aggs := []
  vsNodes := []
  vsMin := fun _ => none
  vsMax := fun _ => none
  vsCost := fun _ => none
  iv := fun _ _ => .absolute 0

theorem freeSim_valid : freeSim.Valid := by
  refine ⟨⟨⟨chainB, netOf_built chainB (by decide +kernel)⟩, ?_, ?_⟩, (noExclusivity_ok ?_).1, (noExclusivity_ok ?_).2, ⟨?_, ?_, ?_, ?_, ?_⟩, ?_, ?_⟩
  · intro a h; cases h
  · intro a h; simp [freeSim, Sim.model] at h
  · intro a h; cases h
  · intro a h; cases h
  · intro a h; cases h
  · intro a h; cases h
  · intro a h; cases h
  · intro a h; cases h
  · exact List.Pairwise.nil
  · intro a h; cases h
  · intro a h; cases h

/-- Steps with that solver. -/
def freeInputs : List Inp := (List.range 3).map fun k => ⟨⟨⟨⟨2020, 1, k + 1⟩, 0⟩, k, 86400000000000⟩, fun _ => none, zeroSolve⟩

/-- The case for the least cost. -/
example : freeSim.Valid ∧ freeSim.InputsOk freeInputs ∧ Optimal freeInputs ∧ freeSim.initial f64MAX (-f64MAX) = .ok (started freeSim) ∧
    (freeSim.run freeInputs (started freeSim)).1.length = 3 := by
  have hf : ∀ inp ∈ freeInputs, inp.solve = zeroSolve := by
    intro inp h
    obtain ⟨k, _, rfl⟩ := List.mem_map.1 h
    rfl
  refine ⟨freeSim_valid, ⟨by decide +kernel, by decide +kernel, ?_, ?_, ?_, (rolling_none (by decide) _).1, (rolling_none (by decide) _).2⟩, ?_,
    started_ok freeSim (by decide +kernel), by decide +kernel⟩
  · intro inp h lp x hx
    rw [hf inp h] at hx
    exact (zeroSolve_spec lp x hx).1
  · intro inp _ k n _ _ hn
    simp [freeSim] at hn
  · refine List.pairwise_of_forall ?_
    intro a b k hk
    simp [freeSim] at hk
  · intro inp h lp x hx
    rw [hf inp h] at hx
    exact (zeroSolve_spec lp x hx).2

theorem casePairs (inflow licence : ℚ) :
    (Factors.ratio [.dyn 0, .const 2]).pairs [[2], [3]] (caseMetric inflow licence) = .ok [⟨[2], some 1, [3], negDiv (3 / 2) 2, 0⟩] := by
  have h1 : (Metric.dyn 0).get (caseMetric inflow licence) = some (3 / 2) := rfl
  have h2 : (Metric.const 2).get (caseMetric inflow licence) = some 2 := rfl
  have h3 : ¬ ((3 : ℚ) / 2 < 0) := by norm_num
  simp [Factors.pairs, ratio, ratioLoop, h1, h2, h3]

open Classical in
/-- A solver that finds a solution whenever there is one. -/
noncomputable def anySolve (lp : Lp) : Option (Nat → ℚ) := if h : ∃ x, lp.Feasible x then some h.choose else none

/-- The case for C62: the network of `caseSim` with any inflow, and a solver that finds a solution whenever there is one. -/
example (inflow : Nat → ℚ) (h0 : ∀ k, 0 ≤ inflow k) (num : Nat) :
    let inputs : List Inp := (List.range num).map fun k => ⟨⟨⟨⟨2020, 1, 1⟩, 0⟩, k, 86400000000000⟩, caseMetric (inflow k) 100, anySolve⟩
    caseSim.Valid ∧ caseSim.InputsOk inputs ∧ caseSim.StorageOk inputs ∧ Complete inputs ∧
      (∀ inp ∈ inputs, caseSim.Present inp.metric) ∧ (∀ inp ∈ inputs, caseSim.Relaxed inp.metric) := by
  intro inputs
  have hform : ∀ inp ∈ inputs, ∃ k, inp = ⟨⟨⟨⟨2020, 1, 1⟩, 0⟩, k, 86400000000000⟩, caseMetric (inflow k) 100, anySolve⟩ := by
    intro inp h
    obtain ⟨k, _, rfl⟩ := List.mem_map.1 h
    exact ⟨k, rfl⟩
  have hnodes : ∀ n ∈ caseSim.net.nodes, n.kind = .storage → n.index = 4 := by decide +kernel
  have hvol : ∀ (k : Nat) (lo hi : ℚ), VolumesAre (caseMetric (inflow k) 100) (caseSim.data 4).minVolume (caseSim.data 4).maxVolume lo hi →
      lo = 0 ∧ hi = 100 := by
    intro k lo hi h
    exact h.unique (lo' := 0) (hi' := 100) ⟨rfl, rfl⟩
  refine ⟨caseSim_valid, ⟨?_, ?_, ?_, ?_, ?_, (rolling_none (by decide) _).1, (rolling_none (by decide) _).2⟩, ⟨?_, ?_⟩, ?_, ?_, ?_⟩
  · simp only [inputs, List.map_map, List.length_map, List.length_range]
    conv_rhs => rw [← List.map_id (List.range num)]
    rfl
  · intro inp h
    obtain ⟨k, rfl⟩ := hform inp h
    show (0 : ℚ) < fractionalDays 86400000000000
    unfold fractionalDays
    norm_num
  · intro inp h lp x hx
    obtain ⟨k, rfl⟩ := hform inp h
    simp only [anySolve] at hx
    by_cases hc : ∃ x, lp.Feasible x
    · rw [dif_pos hc] at hx
      cases hx
      exact hc.choose_spec
    · rw [dif_neg hc] at hx
      cases hx
  · intro inp h k n lo hi hn hb
    obtain ⟨j, rfl⟩ := hform inp h
    obtain ⟨rfl, rfl⟩ := caseVolumes hb
    have hmem := List.mem_of_getElem? hn
    simp only [caseSim, List.mem_singleton] at hmem
    subst hmem
    simp only [caseVS, InitialVolume.get]
    constructor <;> norm_num
  · refine List.Pairwise.imp_of_mem (R := fun _ _ => True) ?_ (List.pairwise_of_forall fun _ _ => trivial)
    intro a b ha hb _ k _ lo hi lo' hi' h1 h2
    obtain ⟨i, rfl⟩ := hform a ha
    obtain ⟨j, rfl⟩ := hform b hb
    obtain ⟨rfl, rfl⟩ := caseVolumes h1
    obtain ⟨rfl, rfl⟩ := caseVolumes h2
    exact ⟨le_refl _, le_refl _⟩
  · intro inp h _ n hn hk lo hi hb
    obtain ⟨j, rfl⟩ := hform inp h
    rw [hnodes n hn hk] at hb ⊢
    obtain ⟨rfl, rfl⟩ := hvol j lo hi hb
    simp only [caseSim, InitialVolume.get]
    constructor <;> norm_num
  · refine List.Pairwise.imp_of_mem (R := fun _ _ => True) ?_ (List.pairwise_of_forall fun _ _ => trivial)
    intro a b ha hb _ n hn hk lo hi lo' hi' h1 h2
    obtain ⟨i, rfl⟩ := hform a ha
    obtain ⟨j, rfl⟩ := hform b hb
    rw [hnodes n hn hk] at h1 h2
    obtain ⟨rfl, rfl⟩ := hvol i _ _ h1
    obtain ⟨rfl, rfl⟩ := hvol j _ _ h2
    exact ⟨le_refl _, le_refl _⟩
  · intro inp h lp hx
    obtain ⟨k, rfl⟩ := hform inp h
    simp only [anySolve]
    rw [dif_pos hx]
    exact ⟨_, rfl⟩
  · intro inp h
    obtain ⟨k, rfl⟩ := hform inp h
    have hcases : ∀ n ∈ caseSim.net.nodes, (n.index = 0 ∧ n.associatedVs = []) ∨ (n.index = 1 ∧ n.associatedVs = []) ∨
        (n.index = 2 ∧ n.associatedVs = [0]) ∨ (n.index = 3 ∧ n.associatedVs = []) ∨ (n.index = 4 ∧ n.associatedVs = []) := by decide +kernel
    refine ⟨?_, ?_, ?_, ?_, ?_, ?_⟩
    · intro n hn _
      rcases hcases n hn with ⟨h1, h2⟩ | ⟨h1, h2⟩ | ⟨h1, h2⟩ | ⟨h1, h2⟩ | ⟨h1, h2⟩
      · refine ⟨0, 0, [], ?_, ?_⟩
        · rw [h1]; rfl
        · rw [h1, h2]
          exact ⟨List.Forall₂.nil, by norm_num⟩
      · exact ⟨0, 0, [], by rw [h1]; rfl, by rw [h1]; rfl⟩
      · refine ⟨-3, -5, [-3], ?_, ?_⟩
        · rw [h1]; rfl
        · rw [h1, h2]
          refine ⟨List.Forall₂.cons ⟨by decide, rfl⟩ List.Forall₂.nil, by simp, ?_⟩
          intro d hd
          simp only [List.mem_cons, List.not_mem_nil, or_false] at hd
          rcases hd with rfl | rfl <;> norm_num
      · exact ⟨2, 2, [], by rw [h1]; rfl, by rw [h1]; rfl⟩
      · exact ⟨-1, -1, [], by rw [h1]; rfl, by rw [h1]; rfl⟩
    · intro n hn _
      rcases hcases n hn with ⟨h1, _⟩ | ⟨h1, _⟩ | ⟨h1, _⟩ | ⟨h1, _⟩ | ⟨h1, _⟩ <;> rw [h1] <;> exact ⟨⟨_, rfl⟩, ⟨_, rfl⟩⟩
    · intro n hn hk
      rw [hnodes n hn hk]
      exact ⟨0, 100, rfl, rfl⟩
    · intro a ha
      simp only [caseSim, caseM, List.mem_singleton] at ha
      subst ha
      exact ⟨⟨_, rfl⟩, ⟨_, rfl⟩⟩
    · intro a ha F hF
      simp only [caseSim, caseM, List.mem_singleton] at ha
      subst ha
      simp only [AggNode.factors, Option.some.injEq] at hF
      subst hF
      refine ⟨_, casePairs _ _, ?_⟩
      intro p hp
      cases List.mem_singleton.1 hp
      exact ⟨rfl, by decide +kernel⟩
    · intro j _
      exact ⟨0, 100, rfl, rfl⟩
  · intro inp h
    obtain ⟨k, rfl⟩ := hform inp h
    have hcases : ∀ n ∈ caseSim.net.nodes, n.index = 0 ∨ n.index = 1 ∨ n.index = 2 ∨ n.index = 3 ∨ n.index = 4 := by decide +kernel
    have hbig : (0 : ℚ) ≤ f64MAX := by decide +kernel
    refine ⟨?_, ?_, ?_, ?_⟩
    · intro n hn _ lo hi h1 h2
      have h1' : ValueIs (caseMetric (inflow k) 100) none 0 lo := by
        rcases hcases n hn with h | h | h | h | h <;> rw [h] at h1 <;> exact h1
      have h2' : hi = f64MAX ∨ hi = inflow k := by
        rcases hcases n hn with h | h | h | h | h <;> rw [h] at h2
        · exact Or.inr (Option.some.inj h2).symm
        all_goals exact Or.inl h2
      refine ⟨le_of_eq h1', ?_⟩
      rcases h2' with rfl | rfl
      · exact hbig
      · exact h0 k
    · intro a ha lo hi h1 h2
      simp only [caseSim, caseM, List.mem_singleton] at ha
      subst ha
      cases h1
      cases h2
      exact ⟨le_refl _, hbig⟩
    · intro a ha F ps hF hps p hp
      simp only [caseSim, caseM, List.mem_singleton] at ha
      subst ha
      simp only [AggNode.factors, Option.some.injEq] at hF
      subst hF
      rw [show ps = _ from Except.ok.inj (hps.symm.trans (casePairs _ _))] at hp
      cases List.mem_singleton.1 hp
      rfl
    · intro a ha mn mx he
      simp only [caseSim, caseM, List.mem_singleton] at ha
      subst ha
      cases he

/-! ## Exclusive inputs -/

/-- Two inputs of which exactly one is used, each with its output. -/
def eitherSim : Sim where
  net := eitherM.net
  data := eitherM.data
  aggs := eitherM.aggs
  vsNodes := []
  vsMin := fun _ => none
  vsMax := fun _ => none
  vsCost := fun _ => none
  iv := fun _ _ => .absolute 0
  sets := [[2], [0]]

theorem eitherSim_valid : eitherSim.Valid := by
  refine ⟨exclusiveM_valid _, eitherM_constant, ?_, eitherM_factors, ?_, ?_⟩
  · intro g
    have : IsGroup eitherSim.model g ↔ g = [0] ∨ g = [2] := eitherM_groups g
    rw [this]
    simp [eitherSim, or_comm]
  · intro n hn; cases hn
  · intro n hn; cases hn

/-- Three steps: one input, then the other, then an attempt to use both. -/
def eitherInputs : List Inp := [[7, 0, 0, 1], [0, 3, 1, 0], [4, 4, 1, 1]].zipIdx.map fun p =>
  ⟨⟨⟨⟨2020, 1, p.2 + 1⟩, 0⟩, p.2, 86400000000000⟩, fun _ => none, fun lp => if lp.checkInt (vals p.1) then some (vals p.1) else none⟩

/-- The case of exclusive inputs: two steps complete, the third finds no solution. -/
example : eitherSim.Valid ∧ eitherSim.InputsOk eitherInputs ∧ eitherSim.initial f64MAX (-f64MAX) = .ok (started eitherSim) ∧
    ((eitherSim.run eitherInputs (started eitherSim)).1.map fun r => (r.flow 0, r.flow 1)) = [(7, 0), (0, 3)] ∧
    endsWith (eitherSim.run eitherInputs (started eitherSim)).2 = some .infeasible := by
  refine ⟨eitherSim_valid, ⟨by decide +kernel, by decide +kernel, ?_, ?_, ?_, ?_, ?_⟩, started_ok eitherSim (by decide +kernel),
    by decide +kernel, by decide +kernel⟩
  · intro inp h lp x hx
    obtain ⟨p, _, rfl⟩ := List.mem_map.1 h
    simp only at hx
    by_cases hc : lp.checkInt (vals p.1) = true
    · rw [if_pos hc] at hx
      cases hx
      exact Lp.checkInt_feasible _ _ hc
    · rw [if_neg hc] at hx
      cases hx
  · intro inp _ k n lo hi hn; cases hn
  · exact List.pairwise_of_forall fun a b k hk => by cases hk
  · intro inp _ k n lo hi hn; cases hn
  · rintro ⟨n, hn, _⟩; cases hn

end Verif.Simulation
