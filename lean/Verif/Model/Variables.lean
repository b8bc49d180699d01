import Mathlib.Algebra.Order.Field.Rat
import Verif.Model.Profiles

/-!
# Variable values of parameters

Setting and reading the variables of parameters through the network
(`pywr-core/src/network.rs:1320-1555`), and what a simulation step then uses.

Simplifications: numbers are rationals; the exponential of the logistic activation function and the
interpolation of a radial basis profile are arbitrary functions (the latter partial, as solving
its equations may panic); parameters are numbered in one list instead of one list per kind.
-/

namespace Verif.Variables

open Verif.Profiles (rbfCurrent)

/-- `Result`, with panics. -/
inductive Outcome (α : Type) where
  | ok (a : α)
  | error
  | panic
  deriving DecidableEq, Repr

/-- `ActivationFunction`, `parameters/activation_function.rs:1-7`. -/
inductive Activation where
  | unit (min max : ℚ)
  | rectifier (min max neg : ℚ)
  | binaryStep (pos neg : ℚ)
  | logistic (f : ℚ → ℚ)

/-- `ActivationFunction::lower_bound`, lines 36-43. -/
def Activation.lower : Activation → ℚ
  | .unit min _ => min
  | .rectifier .. => -1
  | .binaryStep .. => -1
  | .logistic _ => -6

/-- `ActivationFunction::upper_bound`, lines 44-51. -/
def Activation.upper : Activation → ℚ
  | .unit _ max => max
  | .rectifier .. => 1
  | .binaryStep .. => 1
  | .logistic _ => 6

/-- `f64::clamp`, which panics unless `min <= max`. -/
def clamp (x lo hi : ℚ) : Outcome ℚ :=
  if lo ≤ hi then .ok (if x < lo then lo else if hi < x then hi else x) else .panic

/-- `ActivationFunction::apply`, lines 14-34. -/
def Activation.apply (a : Activation) (value : ℚ) : Outcome ℚ :=
  match clamp value a.lower a.upper with
  | .ok v =>
    match a with
    | .unit .. => .ok v
    | .rectifier min max neg => .ok (if v ≤ 0 then neg else min + v * (max - min))
    | .binaryStep pos neg => .ok (if v ≤ 0 then neg else pos)
    | .logistic f => .ok (f v)
  | .error => .error
  | .panic => .panic

/-- `Box<dyn VariableConfig>`: an activation function or that of a radial basis profile. -/
inductive Config where
  | activation (a : Activation)
  | rbf

/-- The parameters that can be variables, and all others. -/
inductive Param where
  | constant (value : ℚ)
  | offset (offset : ℚ)
  | rbf (points : List (Nat × ℚ)) (interp : List (Nat × ℚ) → Option (Nat → ℚ))
  | other (compute : Nat → ℚ)

/-- `Option<Box<dyn ParameterState>>`. -/
inductive Internal where
  | none
  | value (v : Option ℚ)
  | rbf (profile : Nat → ℚ) (xs : Option (List Nat)) (ys : Option (List ℚ))

/-- `Parameter::setup`: constant.rs 39-46, rbf.rs 110-117, and the default (parameters/mod.rs 690-696),
which offset.rs does not override. -/
def setupInternal : Param → Outcome Internal
  | .constant _ => .ok (.value none)
  | .offset _ => .ok .none
  | .rbf points interp =>
    match interp points with
    | some profile => .ok (.rbf profile none none)
    | none => .panic
  | .other _ => .ok .none

/-- Values passed to or returned from the variable API: real ones or integers. -/
inductive Vals where
  | f (values : List ℚ)
  | u (values : List Nat)
  deriving DecidableEq, Repr

inductive Which where
  | f
  | u
  deriving DecidableEq, Repr

/-- `as_f64_variable` / `as_u32_variable`, parameters/mod.rs 698-726 and overrides. -/
def Param.isVariable : Param → Which → Bool
  | .constant _, .f => true
  | .offset _, .f => true
  | .rbf .., _ => true
  | _, _ => false

def Vals.which : Vals → Which
  | .f _ => .f
  | .u _ => .u

/-- Storing one value: constant.rs 91-95, offset.rs 84-88. -/
def setValue (v : ℚ) (a : Activation) (st : Internal) : Internal × Outcome Unit :=
  match st with
  | .value _ =>
    match a.apply v with
    | .ok x => (.value (some x), .ok ())
    | .error => (st, .error)
    | .panic => (st, .panic)
  | _ => (st, .panic)

/-- Storing points: `update_x`/`update_y` and `update_profile`, rbf.rs 73-107. -/
def setPoints (points : List (Nat × ℚ)) (interp : List (Nat × ℚ) → Option (Nat → ℚ))
    (xs : Option (List Nat)) (ys : Option (List ℚ)) (profile : Nat → ℚ) : Internal × Outcome Unit :=
  match interp (rbfCurrent points xs ys) with
  | some p => (.rbf p xs ys, .ok ())
  | none => (.rbf profile xs ys, .panic)

/-- `VariableParameter::set_variables`: constant.rs 82-101, offset.rs 75-94, rbf.rs 174-193 and
228-247. -/
def setVariables (p : Param) (v : Vals) (cfg : Config) (st : Internal) : Internal × Outcome Unit :=
  match p, v with
  | .constant _, .f values =>
    match cfg with
    | .rbf => (st, .panic)
    | .activation a =>
      match values with
      | [x] => setValue x a st
      | _ => (st, .error)
  | .offset _, .f values =>
    match cfg with
    | .rbf => (st, .panic)
    | .activation a =>
      match values with
      | [x] => setValue x a st
      | _ => (st, .error)
  | .rbf points interp, .f values =>
    if values.length = points.length then
      match st with
      | .rbf profile xs _ => setPoints points interp xs (some values) profile
      | _ => (st, .panic)
    else (st, .error)
  | .rbf points interp, .u values =>
    if values.length = points.length then
      match st with
      | .rbf profile _ ys => setPoints points interp (some values) ys profile
      | _ => (st, .panic)
    else (st, .error)
  | _, _ => (st, .error)

/-- `VariableParameter::get_variables`: constant.rs 103-107, offset.rs 96-100, rbf.rs 196-199, 250-253. -/
def getVariables (p : Param) (w : Which) (st : Internal) : Outcome (Option Vals) :=
  match p, w, st with
  | .constant _, .f, .value v => .ok (v.map (fun x => .f [x]))
  | .offset _, .f, .value v => .ok (v.map (fun x => .f [x]))
  | .rbf .., .f, .rbf _ _ ys => .ok (ys.map .f)
  | .rbf .., .u, .rbf _ xs _ => .ok (xs.map .u)
  | p, w, _ => if p.isVariable w then .panic else .error

/-- The state of one scenario: internal states and the values of constant parameters. -/
structure Scen where
  internals : List Internal
  consts : List ℚ

/-- The value a constant parameter is given, `ConstantParameter::compute`, constant.rs 57-64 and 22-32. -/
def constValue (p : Param) (st : Internal) : ℚ :=
  match p, st with
  | .constant v, .value none => v
  | .constant _, .value (some x) => x
  | _, _ => 0

/-- `ParameterStates::from_collection`. -/
def setupInternals : List Param → Outcome (List Internal)
  | [] => .ok []
  | p :: ps =>
    match setupInternal p with
    | .ok st =>
      match setupInternals ps with
      | .ok sts => .ok (st :: sts)
      | .error => .error
      | .panic => .panic
    | .error => .error
    | .panic => .panic

/-- `Network::setup_network`, network.rs 589-629, for one scenario: the only place where
`compute_const` is called. -/
def setupScen (net : List Param) : Outcome Scen :=
  match setupInternals net with
  | .ok sts => .ok ⟨sts, (net.zip sts).map (fun p => constValue p.1 p.2)⟩
  | .error => .error
  | .panic => .panic

def setupAll (net : List Param) (scenarios : Nat) : Outcome (List Scen) :=
  match setupScen net with
  | .ok sc => .ok (List.replicate scenarios sc)
  | .error => .error
  | .panic => .panic

/-- The body of the loop, network.rs 1334-1347: fetch the internal state and set. -/
def setScen (p : Param) (i : Nat) (v : Vals) (cfg : Config) (sc : Scen) : Scen × Outcome Unit :=
  match sc.internals[i]? with
  | none => (sc, .error)
  | some st =>
    let r := setVariables p v cfg st
    ({ sc with internals := sc.internals.set i r.1 }, r.2)

/-- The loop over scenarios, network.rs 1333-1348; it stops at the first problem. -/
def setLoop (p : Param) (i : Nat) (v : Vals) (cfg : Config) : List Scen → List Scen × Outcome Unit
  | [] => ([], .ok ())
  | sc :: rest =>
    let r := setScen p i v cfg sc
    match r.2 with
    | .ok () =>
      let q := setLoop p i v cfg rest
      (r.1 :: q.1, q.2)
    | o => (r.1 :: rest, o)

/-- `set_f64_parameter_variable_values` and `set_u32_parameter_variable_values`, network.rs
1323-1357 and 1453-1490. -/
def setAll (net : List Param) (i : Nat) (v : Vals) (cfg : Config) (s : List Scen) :
    List Scen × Outcome Unit :=
  match net[i]? with
  | none => (s, .error)
  | some p => if p.isVariable v.which then setLoop p i v cfg s else (s, .error)

/-- `set_f64_parameter_variable_values_for_scenario` and its integer sibling, network.rs 1362-1393 and
1495-1526; a scenario that does not exist is an index out of bounds. -/
def setOne (net : List Param) (i k : Nat) (v : Vals) (cfg : Config) (s : List Scen) :
    List Scen × Outcome Unit :=
  match net[i]? with
  | none => (s, .error)
  | some p =>
    if p.isVariable v.which then
      match s[k]? with
      | none => (s, .panic)
      | some sc =>
        let r := setScen p i v cfg sc
        (s.set k r.1, r.2)
    else (s, .error)

/-- `get_f64_parameter_variable_values_for_scenario` and its integer sibling, network.rs 1396-1418 and
1529-1550. -/
def getOne (net : List Param) (i k : Nat) (w : Which) (s : List Scen) : Outcome (Option Vals) :=
  match net[i]? with
  | none => .error
  | some p =>
    if p.isVariable w then
      match s[k]? with
      | none => .panic
      | some sc =>
        match sc.internals[i]? with
        | none => .error
        | some st => getVariables p w st
    else .error

/-- The value a simulation step uses for parameter `i` in scenario `k`: constants are not calculated
again (network.rs 995-1034 does not call `compute_const`), rbf.rs 136-145, offset.rs 56-66 with the
value `x` of its metric. -/
def stepValue (net : List Param) (i k : Nat) (x : ℚ) (day : Nat) (s : List Scen) : Outcome ℚ :=
  match net[i]?, s[k]? with
  | some p, some sc =>
    match p, sc.internals[i]? with
    | .constant _, _ =>
      match sc.consts[i]? with
      | some v => .ok v
      | none => .error
    | .offset o, some (.value v) => .ok (x + v.getD o)
    | .offset _, _ => .panic
    | .rbf .., some (.rbf profile _ _) => .ok (profile day)
    | .rbf .., _ => .panic
    | .other compute, _ => .ok (compute day)
  | _, _ => .error

/-- A use of the setting API. -/
inductive Op where
  | all (i : Nat) (v : Vals) (cfg : Config)
  | one (i k : Nat) (v : Vals) (cfg : Config)

def exec (net : List Param) (s : List Scen) : Op → List Scen × Outcome Unit
  | .all i v cfg => setAll net i v cfg s
  | .one i k v cfg => setOne net i k v cfg s

/-- Any number of uses, including failing ones; `none` after a panic.  Simulation steps in between
change neither internal states of these parameters nor constant values. -/
def runOps (net : List Param) : List Scen → List Op → Option (List Scen)
  | s, [] => some s
  | s, op :: ops =>
    match exec net s op with
    | (_, .panic) => none
    | (s', _) => runOps net s' ops

end Verif.Variables
