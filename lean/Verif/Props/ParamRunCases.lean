import Verif.Props.ParamRun
import Verif.Props.Params

/-!
# A run of concrete parameters, for C76
-/

namespace Verif.Params

/-- `3` is the constant 10, `2` is twice its reference, `1` adds the state of the nodes to `2`, `0` is the gap between
`1` and the state of the nodes after the solver, with a count of its calculations as internal state, `4` adds last
step's `0` to `1`. Nodes do nothing, the solver takes 3 off and adds the value of parameter `4`. -/
def sampleCalcs : Calcs Int Nat Int where
  zero := 0
  setup := fun _ => 0
  compute := fun n _ _ w i vs =>
    match n, w, vs with
    | 3, _, [] => some (10, i)
    | 2, _, [a] => some (2 * a, i)
    | 1, some w, [a] => some (w + a, i)
    | 0, some w, [a] => some (a - w + 100 * i, i + 1)
    | 4, some _, [a, b] => some (a + b, i)
    | _, _, _ => none
  hook := fun _ _ _ _ _ => none
  nodes := fun _ w _ => some w
  solve := fun _ w vs =>
    match vs with
    | [a] => some (w - 3 + a)
    | _ => none

/-- The five parameters of `sampleBuilders`; a node refers to the constant `2`, the solver to `4`. -/
def sampleReport (bs : List Builder) (refs : List Ref) (n : Nat) : Option (Option (Option (Int × List Int))) :=
  (buildNetwork 7 bs [.value 2 .before] [.value 4 .before]).map fun net => report sampleCalcs net 5 refs n

/-- After one step: `2` is 20, `1` is 25, `4` is 25 (no earlier end-of-step value), the nodes are at 27, `0` is -2. -/
example : sampleReport sampleBuilders [.value 4 .before, .value 0 .after, .value 2 .before] 0 =
    some (some (some (27, [25, -2, 20]))) := by decide +kernel

/-- After two steps: `1` is 47, `4` is 45, the nodes are at 69, `0` is -22 + 100. -/
example : sampleReport sampleBuilders [.value 4 .before, .value 0 .after, .value 2 .before] 1 =
    some (some (some (69, [45, 78, 20]))) := by decide +kernel

/-- Defined in the opposite order. -/
example : sampleReport sampleBuilders.reverse [.value 4 .before, .value 0 .after, .value 2 .before] 1 =
    some (some (some (69, [45, 78, 20]))) := by decide +kernel

/-- With one more parameter, which refers to another one. -/
def extraBuilder : Builder := ⟨5, .f64, [⟨.value 4 .before, .before⟩, ⟨.value 3 .before, .before⟩], .general true .none,
  fun _ => true⟩

example : ∀ b ∈ sampleBuilders ++ [extraBuilder], WellFormed b := by decide

/-- The extra parameter fails to calculate, which ends the run. -/
example : sampleReport (sampleBuilders ++ [extraBuilder]) [.value 4 .before] 1 = some (some none) := by decide +kernel

/-- A metric for the end-of-step value of a parameter without one is refused. -/
example : sampleReport sampleBuilders [.value 4 .after] 1 = some none := by decide +kernel

/-- A node can not refer to a parameter that is only known after nodes are done. -/
example : (buildNetwork 7 sampleBuilders [.value 1 .before] []).isNone = true := by decide +kernel

theorem sample_builds : ∃ net, buildNetwork 7 sampleBuilders [.value 2 .before] [.value 4 .before] = some net :=
  Option.isSome_iff_exists.1 (by decide +kernel)

/-- The theorems apply to the sample. -/
example : ∃ H : History Int Nat Int,
    Obeys sampleBuilders [.value 2 .before] [.value 4 .before] sampleCalcs 5 2 H ∧ H.world 2 = 69 ∧
      Given sampleBuilders H 0 .after 1 [⟨.value 4 .before, .after⟩, ⟨.value 0 .after, .after⟩] [45, 78] := by
  obtain ⟨net, h⟩ := sample_builds
  refine (C76_run sampleBuilders 7 _ _ net (by decide) (by decide) h sampleCalcs 5 69
    [.value 4 .before, .value 0 .after] 1 [45, 78]).1 ?_
  have : sampleReport sampleBuilders [.value 4 .before, .value 0 .after] 1 = some (some (some (69, [45, 78]))) := by
    decide +kernel
  rw [sampleReport, h] at this
  exact Option.some_inj.1 this

end Verif.Params
