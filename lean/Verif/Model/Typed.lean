import Verif.Model.Whole
import Verif.Model.Kinds
import Verif.Model.Curves
import Verif.Model.Profiles

/-!
# Networks with parameters of the types of the code

The networks of `Model/Whole.lean`, whose parameters are those of `Model/Kinds.lean`.

Simplifications: those of the two, and parameters with several values are left out.
-/

namespace Verif.Coupled

open Verif.State Verif.Solver Verif.Time Verif.Simulation
open Verif.Params (Ref)

/-- What is seen of components. -/
abbrev Seen := Comp → Option ℚ

/-- A network with its parameters; the other fields are those of `Whole`. -/
structure Typed where
  ps : List (Kinds.Param Seen)
  constRefs : List Ref
  simpleRefs : List Ref
  otherRefs : List Ref
  sim : List Kinds.Val → Sim
  source : Nat → Source
  time : Nat → Timestep
  solver : Nat → Lp → Option (Nat → ℚ)
  big : ℚ
  negBig : ℚ

/-- The years of the steps (`timestep.date.year()`, discount_factor.rs 40) and `f64::MAX`. -/
def Typed.env (T : Typed) : Kinds.Env := ⟨fun t => (T.time t).date.date.year, f64MAX⟩

/-- What the parameters calculate; nodes and solver are those of the network. -/
def Typed.calcs (T : Typed) : Params.Calcs Kinds.Val Kinds.Inner Seen := Kinds.calcs T.env T.ps (fun _ _ _ => none) (fun _ _ _ => none)

/-- The network with what its parameters calculate. A metric takes the number of a value, metric.rs 239-242. -/
def Typed.whole (T : Typed) : Whole Kinds.Val Kinds.Inner where
  zero := ⟨0, 0⟩
  read := fun key v => match key with
    | none => some v.num
    | some _ => none
  params := Kinds.builders T.ps
  constRefs := T.constRefs
  simpleRefs := T.simpleRefs
  otherRefs := T.otherRefs
  sim := T.sim
  source := T.source
  time := T.time
  solver := T.solver
  big := T.big
  negBig := T.negBig
  setup := T.calcs.setup
  compute := T.calcs.compute
  hook := T.calcs.hook

/-- A metric of a component, metric.rs 184-238. -/
def component (c : Comp) : Kinds.Source Seen := .node fun see => (see c).map Kinds.ofF

/-- The value of a parameter from before the solver. -/
def valueOf (name : Params.Name) : Kinds.Source Seen := .param (.value name .before)

/-- Control curves with values, control_curves/simple.rs 35-70. The metrics are the one compared, the curves, and the values. -/
def curve (x : Kinds.Source Seen) (curves values : List (Kinds.Source Seen)) : Kinds.Kind Seen :=
  .other (x :: (curves ++ values)) fun xs =>
    let qs := xs.map fun o => o.map Kinds.Val.num
    match qs with
    | [] => none
    | q :: qs => (Curves.controlCurve q (qs.take curves.length) (qs.drop curves.length)).toOption

/-- Control curves between which values are interpolated, control_curves/interpolated.rs 35-66. -/
def curveInterpolated (x : Kinds.Source Seen) (curves values : List (Kinds.Source Seen)) : Kinds.Kind Seen :=
  .other (x :: (curves ++ values)) fun xs =>
    let qs := xs.map fun o => o.map Kinds.Val.num
    match qs with
    | [] => none
    | q :: qs => (Curves.controlCurveInterpolated q (qs.take curves.length) (qs.drop curves.length)).toOption

/-- A monthly profile, profiles/monthly.rs 63-88. -/
def Typed.monthly (T : Typed) (values : List ℚ) (interp : Option Profiles.InterpDay) : Kinds.Kind Seen :=
  .scheduled fun t => Profiles.monthly values interp (T.time t).date

end Verif.Coupled
