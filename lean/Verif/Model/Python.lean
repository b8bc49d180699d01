import Mathlib.Algebra.Order.Field.Rat

/-!
# Parameters that call Python

Models `pywr-core/src/parameters/py.rs`, the extraction of returned values (`pywr-core/src/state/mod.rs:198-222` and the
conversions of PyO3 to `f64` and `u64`), and the conversion of arguments (`pywr-schema/src/py_utils.rs`).

Simplifications:
* a class of the user is an arbitrary behaviour (`Class`): what it makes and what its methods return are arbitrary partial
  functions (`none` is an exception) of the object, of what the information object shows, and of the arguments. Arguments
  are lists and dictionaries that are converted once (`parameters/python.rs:222-223`) and passed on by reference, so that their
  content `A` is shared by all objects and may be changed by them. Other state that Python shares (modules, class attributes)
  can be counted to `A`;
* a user's object uses the information object only during the call;
* numbers are rational, infinities and NaN do not occur; a whole number becomes a float without rounding where a float is
  returned, and with an arbitrary rounding where an argument is converted;
* steps, scenarios and resolved metrics are numbers.
-/

namespace Verif.Python

/-- `serde_json::Value`. An object is given by its keys and values. -/
inductive Json
  | null
  | bool (b : Bool)
  | int (n : Int)
  | float (q : ℚ)
  | str (s : String)
  | arr (xs : List Json)
  | obj (keys : List String) (values : List Json)

/-- Objects of Python, as far as they are converted. -/
inductive Obj
  | none
  | bool (b : Bool)
  | int (n : Int)
  | float (q : ℚ)
  | str (s : String)
  | list (xs : List Obj)
  | dict (keys : List String) (values : List Obj)

mutual
/-- `try_json_value_into_py`, `py_utils.rs:107-142`: `as_i64`, else `as_f64`. -/
def toPy (round : Int → ℚ) : Json → Obj
  | .null => .none
  | .bool b => .bool b
  | .int n => if -2 ^ 63 ≤ n ∧ n < 2 ^ 63 then .int n else .float (round n)
  | .float q => .float q
  | .str s => .str s
  | .arr xs => .list (allToPy round xs)
  | .obj ks vs => .dict ks (allToPy round vs)
/-- The parts of an array or object. -/
def allToPy (round : Int → ℚ) : List Json → List Obj
  | [] => []
  | x :: xs => toPy round x :: allToPy round xs
end

/-- `PythonReturnType`, `parameters/python.rs:60-66`. -/
inductive ReturnType
  | float
  | int
  | dict
  deriving DecidableEq, Repr

/-- The value of a parameter: `f64`, `u64` or `MultiValue`. -/
inductive Value
  | number (q : ℚ)
  | index (n : Nat)
  | multi (values : List (String × ℚ)) (indices : List (String × Nat))
  deriving DecidableEq, Repr

/-- The conversion of a Python integer to `u64`. -/
def toU64 (n : Int) : Option Nat := if 0 ≤ n ∧ n < 2 ^ 64 then some n.toNat else none

/-- The conversion to `f64`: booleans are integers. -/
def asFloat : Obj → Option ℚ
  | .float q => some q
  | .int n => some n
  | .bool b => some (if b then 1 else 0)
  | _ => none

/-- The conversion to `u64`. -/
def asIndex : Obj → Option Nat
  | .int n => toU64 n
  | .bool b => some (if b then 1 else 0)
  | _ => none

/-- The conversion to `MultiValue`, `state/mod.rs:198-222`: floats are values and integers are indices. -/
def asMulti : List String → List Obj → Option (List (String × ℚ) × List (String × Nat))
  | k :: ks, o :: os =>
    match asMulti ks os with
    | none => none
    | some (vs, is) =>
      match o with
      | .float q => some ((k, q) :: vs, is)
      | .int n => (toU64 n).map fun i => (vs, (k, i) :: is)
      | .bool b => some (vs, (k, if b then 1 else 0) :: is)
      | _ => none
  | _, _ => some ([], [])

/-- `extract::<T>`, with the type chosen by the document (`parameters/python.rs:259-263`). -/
def extract : ReturnType → Obj → Option Value
  | .float, o => (asFloat o).map .number
  | .int, o => (asIndex o).map .index
  | .dict, .dict ks os => (asMulti ks os).map fun p => .multi p.1 p.2
  | .dict, _ => none

/-- `ParameterInfo`, py.rs 23-39. -/
structure Info where
  step : Nat
  scenario : Nat
  metrics : List (String × ℚ)
  indices : List (String × Nat)

/-- What Python can see of it: the two attributes, `get_metric` and `get_index` (py.rs 41-56); `none` is a `KeyError`. -/
structure View where
  step : Nat
  scenario : Nat
  metric : String → Option ℚ
  index : String → Option Nat

/-- See `View`. -/
def Info.view (i : Info) : View := ⟨i.step, i.scenario, fun k => i.metrics.lookup k, fun k => i.indices.lookup k⟩

/-- `HashMap::insert`. -/
def put {α : Type} (k : String) (v : α) : List (String × α) → List (String × α)
  | [] => [(k, v)]
  | (k', v') :: xs => if k' = k then (k, v) :: xs else (k', v') :: put k v xs

/-- `PyCommon`, py.rs 58-65, with the return type; metrics and indices are resolved. -/
structure Common where
  metrics : List (String × Nat)
  indices : List (String × Nat)
  returns : ReturnType

/-- `GeneralParameterContext`: the values of metrics and indices are those of the network in its present state. -/
structure Ctx where
  step : Nat
  scenario : Nat
  metric : Nat → Option ℚ
  index : Nat → Option Nat

/-- `update_metrics` and `update_indices`, py.rs 81-106. -/
def update {α : Type} (look : Nat → Option α) : List (String × Nat) → List (String × α) → Option (List (String × α))
  | [], vs => some vs
  | (k, m) :: ms, vs =>
    match look m with
    | none => none
    | some v => update look ms (put k v vs)

/-- The methods of a class. -/
inductive Method
  | before
  | after
  deriving DecidableEq, Repr

/-- A class of the user. `has` is `getattr` of the class and `holds` that of an object. -/
structure Class (O A : Type) where
  make : A → Option (O × A)
  has : Method → Bool
  holds : O → Method → Bool
  call : Method → O → A → View → Option (Obj × O × A)

/-- `InternalObj`, py.rs 145-149. -/
structure Internal (O : Type) where
  obj : O
  info : Option Info

/-- `GeneralCalculationError` and others, as far as they occur here. -/
inductive Err
  | phaseNotEnabled
  | metric
  | python
  | noPhase
  deriving DecidableEq, Repr

variable {O A : Type}

/-- `ensure_parameter_info`, py.rs 158-181. -/
def ensure (x : Ctx) : Option Info → Info
  | none => ⟨x.step, x.scenario, [], []⟩
  | some i => i

/-- The update of the information object before a call, py.rs 231-240 and 596-605. -/
def refresh (P : Common) (x : Ctx) (i : Info) : Option Info :=
  match update x.metric P.metrics i.metrics with
  | none => none
  | some ms =>
    match update x.index P.indices i.indices with
    | none => none
    | some is => some ⟨x.step, x.scenario, ms, is⟩

/-- `PyClassParameter::call_method`, py.rs 206-280. -/
def callMethod (C : Class O A) (P : Common) (m : Method) (x : Ctx) (s : Internal O) (a : A) : Except Err (Value × Internal O × A) :=
  if C.holds s.obj m then
    match refresh P x (ensure x s.info) with
    | none => .error .metric
    | some i =>
      match C.call m s.obj a i.view with
      | none => .error .python
      | some (o, obj, a') =>
        match extract P.returns o with
        | none => .error .python
        | some v => .ok (v, ⟨obj, some i⟩, a')
  else .error .phaseNotEnabled

/-- `PyFuncParameter::compute`, py.rs 577-650. -/
def callFunction (f : A → View → Option (Obj × A)) (P : Common) (x : Ctx) (s : Option Info) (a : A) : Except Err (Value × Option Info × A) :=
  match refresh P x (ensure x s) with
  | none => .error .metric
  | some i =>
    match f a i.view with
    | none => .error .python
    | some (o, a') =>
      match extract P.returns o with
      | none => .error .python
      | some v => .ok (v, some i, a')

/-- Calls of a function one after the other. -/
def applyAll (f : A → View → Option (Obj × A)) (P : Common) : List Ctx → Option Info → A → Except Err (List Value × A)
  | [], _, a => .ok ([], a)
  | x :: xs, s, a =>
    match callFunction f P x s a with
    | .error err => .error err
    | .ok (v, s', a') =>
      match applyAll f P xs s' a' with
      | .error err => .error err
      | .ok (vs, a'') => .ok (v :: vs, a'')

/-- The phases of a class, py.rs 383-420; they are those of its methods (`GeneralParameterEntry::both`, `before`, `after`). -/
def phases (C : Class O A) : Except Err (List Method) :=
  match C.has .before, C.has .after with
  | true, true => .ok [.before, .after]
  | true, false => .ok [.before]
  | false, true => .ok [.after]
  | false, false => .error .noPhase

/-- The objects of all scenarios and the content of the arguments. -/
structure World (O A : Type) where
  objs : List (Internal O)
  args : A

/-- `PyClassParameter::setup`, py.rs 184-204, for each of the scenarios (`network.rs:588-629`). -/
def setup (C : Class O A) : Nat → A → Option (World O A)
  | 0, a => some ⟨[], a⟩
  | k + 1, a =>
    match setup C k a with
    | none => none
    | some w =>
      match C.make w.args with
      | none => none
      | some (o, a') => some ⟨w.objs ++ [⟨o, none⟩], a'⟩

/-- A call of a method in a scenario. -/
structure Event where
  method : Method
  ctx : Ctx

/-- A call changes the object of its scenario. -/
def callAt (C : Class O A) (P : Common) (e : Event) (w : World O A) : Except Err (Value × World O A) :=
  match w.objs[e.ctx.scenario]? with
  | none => .error .python
  | some s =>
    match callMethod C P e.method e.ctx s w.args with
    | .error err => .error err
    | .ok (v, s', a') => .ok (v, ⟨w.objs.set e.ctx.scenario s', a'⟩)

/-- Calls one after the other; an error ends the run. -/
def exec (C : Class O A) (P : Common) : List Event → World O A → Except Err (List Value × World O A)
  | [], w => .ok ([], w)
  | e :: es, w =>
    match callAt C P e w with
    | .error err => .error err
    | .ok (v, w') =>
      match exec C P es w' with
      | .error err => .error err
      | .ok (vs, w'') => .ok (v :: vs, w'')

/-- The calls of a run of `n` steps with `k` scenarios, `Network::step` (`network.rs:758-814`): in each step and scenario the method
`before`, if there is one, the allocation, and the method `after`, if there is one. `now t i m` is the context of the call. -/
def schedule (ms : List Method) (k n : Nat) (now : Nat → Nat → Method → Ctx) : List Event :=
  (List.range n).flatMap fun t => (List.range k).flatMap fun i => ms.map fun m => ⟨m, now t i m⟩

/-- A run of a Python parameter. -/
def run (C : Class O A) (P : Common) (a : A) (k n : Nat) (now : Nat → Nat → Method → Ctx) : Except Err (List Value) :=
  match phases C with
  | .error e => .error e
  | .ok ms =>
    match setup C k a with
    | none => .error .python
    | some w =>
      match exec C P (schedule ms k n now) w with
      | .error e => .error e
      | .ok (vs, _) => .ok vs

end Verif.Python
