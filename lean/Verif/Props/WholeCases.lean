import Verif.Props.Whole
import Verif.Props.SimulationCases

/-! # A network with parameters, for C83 -/

namespace Verif.Coupled

open Verif.State Verif.Solver Verif.Time Verif.Simulation
open Verif.Params (Ref Given)

/-- `0` is a constant, `1` a profile, `2` depends on the volume of the reservoir and on last step's `4`, `3` has several values,
`4` is
what is left of the inflow after the allocation. -/
def caseParams : List Params.Builder :=
  [⟨2, .f64, [⟨.component, .before⟩, ⟨.value 4 .afterOrInitial, .before⟩], .general true .none, fun _ => true⟩,
   ⟨4, .f64, [⟨.component, .after⟩, ⟨.component, .after⟩], .general false .value, fun _ => true⟩,
   ⟨0, .f64, [], .constant, fun _ => true⟩,
   ⟨1, .f64, [], .simple, fun _ => true⟩,
   ⟨3, .multi, [], .simple, fun _ => true⟩]

/-- The network of `caseSim`. The reservoir starts with parameter `0`; the licence is at most parameter `1`; the inflow is at most
parameter `2`; outputs are in the ratio given by parameter `3`; the cost of the second output is the proportional volume of the
reservoir. Parameter `2` is a quarter of the volume of the reservoir and last step's `4`. -/
def caseWhole : Whole Val Unit where
  zero := .number 0
  read := fun key v => v.get key
  params := caseParams
  constRefs := [.value 0 .before]
  simpleRefs := [.value 1 .before, .valueMulti 3 .before]
  otherRefs := [.value 2 .before]
  sim := fun cs => { caseSim with iv := fun _ _ => .absolute (((cs[0]?).bind fun v => v.get none).getD 0) }
  source := fun id =>
    match id with
    | 0 => .ref 1 (some "r")
    | 1 => .ref 2 none
    | 2 => .comp (.nodeProportionalVolume 4)
    | _ => .ref 0 none
  time := fun k => ⟨⟨⟨2020, 1, k + 1⟩, 0⟩, k, 86400000000000⟩
  solver := fun _ lp => if lp.check (vals [6, 2, 4, 3, 1]) then some (vals [6, 2, 4, 3, 1]) else none
  big := f64MAX
  negBig := -f64MAX
  setup := fun _ => ()
  compute := fun name _ t see s vs =>
    match name, see, vs with
    | 0, _, _ => some (.number 40, s)
    | 1, _, _ => some (.number (if t < 2 then 100 else 110), s)
    | 2, some see, [.number p] => (see (.nodeVolume 4)).map fun v => (.number (v / 4 + p), s)
    | 3, _, _ => some (.multi [("q", 7), ("r", 3 / 2)], s)
    | 4, some see, [] =>
      match see (.nodeMaxFlow 0), see (.nodeOutFlow 0) with
      | some m, some f => some (.number (m - f), s)
      | _, _ => none
    | _, _, _ => none
  hook := fun _ _ _ _ _ => none

theorem caseWhole_valid : caseWhole.Valid := by
  refine ⟨by decide, by decide, ?_, ?_, ?_, ?_, fun _ _ _ _ => rfl⟩
  · intro r hr sh hg
    obtain rfl : r = .value 0 .before := by simpa [caseWhole] using hr
    obtain ⟨b, hb, h1, -, k, h3, h4⟩ := hg
    have hname : b.name = 0 := by simpa [Ref.target] using h1.symm
    rw [hname] at h3
    generalize hz : (0 : Nat) = z at h3
    generalize hty : b.ty = ty at h3
    cases h3 with
    | intro b' mem ty' kind shape usable refs offers accepts =>
      simp only [caseWhole, caseParams, List.mem_cons, List.not_mem_nil, or_false] at mem
      rcases mem with rfl | rfl | rfl | rfl | rfl <;> simp at hz
      cases h4
      rfl
  · intro cs
    exact ⟨caseM_valid.built, caseM_valid.aggs, caseM_valid.vs⟩
  · intro cs i
    have key : ∀ i, (caseM.data i).minVolume = none ∧ ((caseM.data i).maxVolume = none ∨ (caseM.data i).maxVolume = some (.const 100)) := by
      intro i
      simp only [caseM]
      split <;> simp [plainNode]
    constructor
    · intro id h
      have : (caseM.data i).minVolume = some (.dyn id) := h
      rw [(key i).1] at this; cases this
    · intro id h
      have : (caseM.data i).maxVolume = some (.dyn id) := h
      rcases (key i).2 with e | e <;> (rw [e] at this; cases this)
  · intro cs k
    constructor
    · intro id h; cases h
    · intro id h
      cases h
      exact ⟨0, none, rfl, by decide⟩

theorem caseWhole_builds : ∃ net, caseWhole.build = some net := Option.isSome_iff_exists.1 (by decide +kernel)

/-- What is reported. -/
def caseReport (refs : List Ref) (comps : List Comp) (n : Nat) : Option (Option (List Val × List (Option ℚ))) :=
  match caseWhole.build with
  | none => none
  | some net => caseWhole.report net refs comps n

/-- Two steps: the reservoir gains two units in each. At the second step the inflow is at most 42/4 and the one unit left at the first. -/
example : caseReport [.value 2 .before, .value 4 .after] [.nodeVolume 4, .nodeMaxFlow 0, .nodeInFlow 2, .nodeProportionalVolume 4] 0 =
      some (some ([.number 10, .number 1], [some 42, some 10, some 3, some (42 / 100)])) ∧
    caseReport [.value 2 .before, .value 4 .after] [.nodeVolume 4, .nodeMaxFlow 0, .nodeInFlow 2, .vsVolume 0] 1 =
      some (some ([.number (23 / 2), .number (5 / 2)], [some 44, some (23 / 2), some 3, some 54])) := by decide +kernel

/-- The theorems apply to it. -/
example : ∃ h cs input record, caseWhole.Runs 2 h cs input record ∧ h.world 2 (.nodeVolume 4) = some 44 ∧
    h.ready 1 (.nodeVolume 4) = h.world 1 (.nodeVolume 4) := by
  obtain ⟨net, hb⟩ := caseWhole_builds
  have hrep : caseWhole.report net [.value 2 .before] [.nodeVolume 4] 1 = some (some ([.number (23 / 2)], [some 44])) := by
    have : caseReport [.value 2 .before] [.nodeVolume 4] 1 = some (some ([.number (23 / 2)], [some 44])) := by decide +kernel
    rw [caseReport, hb] at this
    exact this
  obtain ⟨h, cs, input, record, hr, -, ho⟩ := (C83_run caseWhole_valid hb _ _ 1 _ _).1 hrep
  refine ⟨h, cs, input, record, hr, ?_, C83_carried caseWhole_valid hr 0 (by omega) (by decide) _ rfl⟩
  simpa using ho.symm

/-! ## Before an allocation -/

/-- The same reservoir with a maximum volume that is a profile, and a parameter that shows volume, maximum and proportional volume of
the reservoir as seen before an allocation. -/
def growing : Whole Val Unit where
  zero := .number 0
  read := fun key v => v.get key
  params := [⟨1, .f64, [], .simple, fun _ => true⟩, ⟨2, .multi, [⟨.component, .before⟩], .general true .none, fun _ => true⟩]
  constRefs := []
  simpleRefs := [.value 1 .before]
  otherRefs := []
  sim := fun _ => { caseSim with
    data := fun i => if i = 4 then { plainNode with maxVolume := some (.dyn 3) } else plainNode
    aggs := []
    vsNodes := [] }
  source := fun _ => .ref 0 none
  time := fun k => ⟨⟨⟨2020, 1, k + 1⟩, 0⟩, k, 86400000000000⟩
  solver := fun _ lp => if lp.check (vals [6, 2, 4, 3, 1]) then some (vals [6, 2, 4, 3, 1]) else none
  big := f64MAX
  negBig := -f64MAX
  setup := fun _ => ()
  compute := fun name _ t see s _ =>
    match name, see with
    | 1, _ => some (.number (if t < 1 then 100 else 200), s)
    | 2, some see =>
      match see (.nodeVolume 4), see (.nodeMaxVolume 4), see (.nodeProportionalVolume 4) with
      | some v, some m, some p => some (.multi [("volume", v), ("max", m), ("proportion", p)], s)
      | _, _, _ => none
    | _, _ => none
  hook := fun _ _ _ _ _ => none

/-- **C83, refuted before an allocation.** In the step in which the maximum volume grows from 100 to 200, a parameter sees a volume of 42,
a maximum of 200, and a proportional volume of 0.42. -/
theorem C83_proportion_refuted : (growing.build.bind fun net => growing.report net [.valueMulti 2 .before] [] 1) =
    some (some ([.multi [("volume", 42), ("max", 200), ("proportion", 42 / 100)]], [])) := by decide +kernel

end Verif.Coupled
