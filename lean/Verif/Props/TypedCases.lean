import Verif.Props.Typed
import Verif.Props.SimulationCases

/-! # A network with parameters of the types of the code, for C88 -/

namespace Verif.Coupled

open Verif.State Verif.Solver Verif.Time Verif.Simulation
open Verif.Params (Ref Given)

/-- `0` is a constant; `1` is whether the reservoir is below 41%; `2` is a demand of eight, or five if so; `3` is the outflow of the input
a step ago; `4` is what the first output lacks; `5` is a control curve. -/
def typedParams : List (Kinds.Param Seen) :=
  [⟨2, .indexed (.param (.index 1 .before)) [.lit (Kinds.ofF 8), .lit (Kinds.ofF 5)]⟩,
   ⟨0, .constant 40⟩,
   ⟨1, .threshold (component (.nodeProportionalVolume 4)) (.lit (Kinds.ofF (41 / 100))) .lessThan false⟩,
   ⟨3, .delay (component (.nodeOutFlow 0)) 1 10⟩,
   ⟨4, .deficit (component (.nodeInFlow 2)) (component (.nodeMaxFlow 2))⟩,
   ⟨5, curve (component (.nodeProportionalVolume 4)) [.lit (Kinds.ofF (3 / 4)), .lit (Kinds.ofF (41 / 100))]
      [.lit (Kinds.ofF 1), .lit (Kinds.ofF 2), valueOf 2]⟩]

/-- The network of `caseSim` without aggregated nodes and licences. The reservoir starts with parameter `0`; the inflow is at most parameter
`3` and the first outflow at most parameter `2`. -/
def typedSim (v : ℚ) : Sim where
  net := caseM.net
  data := fun i => if i = 0 then { plainNode with maxFlow := some (.dyn 1) }
    else if i = 2 then { plainNode with maxFlow := some (.dyn 0) }
    else if i = 4 then { plainNode with maxVolume := some (.const 100) } else plainNode
  aggs := []
  vsNodes := []
  vsMin := fun _ => none
  vsMax := fun _ => none
  vsCost := fun _ => none
  iv := fun _ _ => .absolute v

def caseTyped : Typed where
  ps := typedParams
  constRefs := [.value 0 .before]
  simpleRefs := []
  otherRefs := [.value 2 .before, .value 3 .before]
  sim := fun cs => typedSim (((cs[0]?).map Kinds.Val.num).getD 0)
  source := fun id => if id = 0 then .ref 0 none else .ref 1 none
  time := fun k => ⟨⟨⟨2020, 1, k + 1⟩, 0⟩, k, 86400000000000⟩
  solver := fun _ lp => if lp.check (vals [6, 2, 4, 3, 1]) then some (vals [6, 2, 4, 3, 1]) else none
  big := f64MAX
  negBig := -f64MAX

theorem typedSim_model (v : ℚ) : (typedSim v).model.Valid := ⟨caseM_valid.built, by simp [typedSim, Sim.model], by simp [typedSim, Sim.model]⟩

theorem typedSim_valid (v : ℚ) : (typedSim v).Valid := by
  have hex : ∀ a ∈ (typedSim v).model.aggs, a.exclusivity = none := by simp [typedSim, Sim.model]
  refine ⟨typedSim_model v, (noExclusivity_ok hex).1, (noExclusivity_ok hex).2, ?_, ?_, ?_⟩
  · refine ⟨?_, ?_, ?_, ?_, ?_⟩ <;> simp [typedSim, Sim.model]
  · intro n hn; cases hn
  · intro n hn; cases hn

theorem caseTyped_valid : caseTyped.Valid := by
  refine ⟨by decide, ?_, fun cs => typedSim_model _, ?_, ?_, fun _ _ _ _ => rfl⟩
  · intro r hr sh hg
    obtain rfl : r = .value 0 .before := by simpa [caseTyped] using hr
    obtain ⟨b, hb, h1, -, k, h3, h4⟩ := hg
    have hname : b.name = 0 := by simpa [Ref.target] using h1.symm
    rw [hname] at h3
    generalize hz : (0 : Nat) = z at h3
    generalize hty : b.ty = ty at h3
    cases h3 with
    | intro b' mem ty' kind shape usable refs offers accepts =>
      simp only [caseTyped, typedParams, Kinds.builders, List.map_cons, List.map_nil, List.mem_cons, List.not_mem_nil, or_false] at mem
      rcases mem with rfl | rfl | rfl | rfl | rfl | rfl <;> simp [Kinds.Kind.builder] at hz
      cases h4
      rfl
  · intro cs i
    have key : ((caseTyped.sim cs).data i).minVolume = none ∧
        (((caseTyped.sim cs).data i).maxVolume = none ∨ ((caseTyped.sim cs).data i).maxVolume = some (.const 100)) := by
      simp only [caseTyped, typedSim]
      split
      · simp [plainNode]
      · split
        · simp [plainNode]
        · split <;> simp [plainNode]
    constructor
    · intro id h
      rw [key.1] at h; cases h
    · intro id h
      rcases key.2 with e | e <;> (rw [e] at h; cases h)
  · intro cs k
    constructor <;> (intro id h; cases h)

theorem caseTyped_builds : ∃ net, caseTyped.whole.build = some net := Option.isSome_iff_exists.1 (by decide +kernel)

/-- What is reported. -/
def typedReport (refs : List Ref) (comps : List Comp) (n : Nat) : Option (Option (List Kinds.Val × List (Option ℚ))) :=
  match caseTyped.whole.build with
  | none => none
  | some net => caseTyped.whole.report net refs comps n

/-- In the first step the reservoir holds 40 of 100, less than 41%, and the demand is five; in the second it holds 42 and the demand is
eight. The output gets three in both. -/
example : typedReport [.index 1 .before, .value 2 .before, .value 3 .before, .value 4 .after, .value 5 .before]
      [.nodeVolume 4, .nodeMaxFlow 2, .nodeInFlow 2, .nodeOutFlow 0] 0 =
      some (some ([Kinds.ofU 1, Kinds.ofF 5, Kinds.ofF 10, Kinds.ofF 2, Kinds.ofF 5], [some 42, some 5, some 3, some 9])) ∧
    typedReport [.index 1 .before, .value 2 .before, .value 3 .before, .value 4 .after, .value 5 .before]
      [.nodeVolume 4, .nodeMaxFlow 2, .nodeInFlow 2, .nodeOutFlow 0] 1 =
      some (some ([Kinds.ofU 0, Kinds.ofF 8, Kinds.ofF 9, Kinds.ofF 5, Kinds.ofF 2], [some 44, some 8, some 3, some 9])) := by
  decide +kernel

/-- Its inputs. -/
theorem caseTyped_inputs {n : Nat} {h : Kinds.Record Seen} {cs : List Kinds.Val} {input : Nat → Inp} {record : Nat → Record}
    (hr : caseTyped.Runs n h cs input record) : (caseTyped.sim cs).InputsOk ((List.range n).map input) := by
  have ht : ∀ t < n, (input t).t = caseTyped.time t := fun t h => (hr.times t h).1
  refine ⟨?_, ?_, ?_, ?_, ?_, ?_, ?_⟩
  · rw [List.map_map]
    simp only [List.length_map, List.length_range]
    conv_rhs => rw [← List.map_id (List.range n)]
    refine List.map_congr_left fun t h => ?_
    simp only [Function.comp_apply, ht t (List.mem_range.1 h), id]
    rfl
  · intro inp hi
    obtain ⟨t, h1, rfl⟩ := List.mem_map.1 hi
    rw [ht t (List.mem_range.1 h1)]
    show (0 : ℚ) < (⟨⟨⟨2020, 1, 1⟩, 0⟩, 0, 86400000000000⟩ : Timestep).days
    decide +kernel
  · intro inp hi lp x hx
    obtain ⟨t, h1, rfl⟩ := List.mem_map.1 hi
    rw [(hr.times t (List.mem_range.1 h1)).2] at hx
    exact caseInp_sound 0 10 100 [6, 2, 4, 3, 1] lp x hx
  · intro inp hi k n lo up hn; cases hn
  · refine List.pairwise_of_forall fun a b k hk => ?_
    cases hk
  · intro inp hi k n lo up hn; cases hn
  · rintro ⟨n, hn, -⟩; cases hn

/-- The theorems apply to it: there is a run of two steps; in the second step the inflow is at most that of the first, the first output
gets at most eight as the reservoir was not below 41% at the end of the first, and lacks the rest. -/
example : ∃ h cs input record, caseTyped.Runs 2 h cs input record ∧ h.world 2 (.nodeVolume 4) = some 44 ∧
    (∀ nd, (caseTyped.sim cs).net.nodes[0]? = some nd → nd.kind ≠ .storage →
      nodeFlow (record 1).flow nd ≤ outSum (caseTyped.sim cs).net.edges (record 0).flow 0) ∧
    (∀ nd, (caseTyped.sim cs).net.nodes[2]? = some nd → nd.kind = .output → nodeFlow (record 1).flow nd ≤ 8 ∧
      ∃ m, ValueIs (input 1).metric (some (.dyn 0)) f64MAX m ∧ (h.value 1 .after 4).num + nodeFlow (record 1).flow nd = m) := by
  obtain ⟨net, hb⟩ := caseTyped_builds
  have hrep : caseTyped.whole.report net [] [.nodeVolume 4] 1 = some (some ([], [some 44])) := by
    have : typedReport [] [.nodeVolume 4] 1 = some (some ([], [some 44])) := by decide +kernel
    rw [typedReport, hb] at this
    exact this
  obtain ⟨h, cs, input, record, hr, -, ho⟩ := (C88_run caseTyped_valid hb _ _ 1 _ _).1 hrep
  have hv := caseTyped_valid
  have hs : (caseTyped.sim cs).Valid := typedSim_valid _
  have hi := caseTyped_inputs hr
  have hg : ∀ i, ¬ InGroup (caseTyped.sim cs).model i := by
    rintro i ⟨g, ⟨a, ha, -⟩, -⟩
    cases ha
  refine ⟨h, cs, input, record, hr, by simpa using ho.symm, ?_, ?_⟩
  · intro nd hn hk
    exact ((C88_return_flow hv hb hr hs hi 1 (by omega) 0 nd hn hk (hg 0) 3 0 1 10 (by simp [caseTyped, typedParams])).1
      ⟨1, 1, rfl, rfl, rfl⟩).2 le_rfl
  · intro nd hn hk
    constructor
    · obtain ⟨v, m, h1, h2, h3⟩ := C88_restriction hv hb hr hs hi 0 (by omega) (by decide) 2 nd hn (by rw [hk]; decide) (hg 2) 1 2 4
        (41 / 100) 8 5 (by simp [caseTyped, typedParams]) (by simp [caseTyped, typedParams]) ⟨0, 0, rfl, rfl, rfl⟩
      refine le_trans h3 ?_
      split <;> norm_num
    · obtain ⟨m, h1, -, h3⟩ := C88_deficit hv hb hr hs hi 1 (by omega) 2 nd hn hk (hg 2) 4 (by simp [caseTyped, typedParams])
      exact ⟨m, h1, h3⟩

end Verif.Coupled
