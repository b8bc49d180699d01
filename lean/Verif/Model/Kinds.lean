import Verif.Model.ParamRun
import Verif.Model.AggFuncs
import Verif.Model.Temporal

/-!
# The types of parameters

Continues `Model/ParamRun.lean`: there what a parameter calculates was arbitrary, here it is what the parameters in
`pywr-core/src/parameters` calculate, with their internal states.

Simplifications:
* numbers are rationals; results that are not finite are errors;
* every error and panic is `none`;
* a metric of a node, edge, virtual storage or transfer is an arbitrary partial function of the state of the nodes;
* arrays and profiles (Model/ArrayParam.lean, Model/Profiles.lean) are a partial function of the step. Parameters without
  internal state that are not listed (control curves, interpolation, hydropower; Model/Curves.lean, Model/Hydropower.lean)
  are an arbitrary partial function of what their metrics return;
* multi-valued parameters and the variable API are left out.
-/

namespace Verif.Kinds

open Verif.Params

/-- A value of a parameter, as read by `f64` metrics and as read by `u64` metrics. A `u64` value read by an `f64` metric
is converted (metric.rs 40, 84, 241-242); resolution never lets a `u64` metric read an `f64` parameter (metric.rs 1500-1541). -/
structure Val where
  num : ℚ
  idx : Nat
  deriving DecidableEq, Repr

/-- The value of an `f64` parameter. -/
def ofF (q : ℚ) : Val := ⟨q, 0⟩

/-- The value of a `u64` parameter. -/
def ofU (n : Nat) : Val := ⟨n, n⟩

/-- A metric: a constant, something of the network, or the value of a parameter (metric.rs 131-176). -/
inductive Source (W : Type)
  | lit (v : Val)
  | node (f : W → Option Val)
  | param (r : Ref)

variable {W : Type}

/-- The reference that is resolved. -/
def Source.ref : Source W → Ref
  | .lit _ => .literal
  | .node _ => .component
  | .param r => r

/-- The types of parameters, each with the data of its builder. -/
inductive Kind (W : Type)
  /-- constant.rs 121-124 -/
  | constant (value : ℚ)
  /-- array.rs and profiles -/
  | scheduled (f : Nat → Option ℚ)
  /-- vector.rs 48-51 -/
  | vector (values : List ℚ)
  /-- offset.rs 114-118 -/
  | offset (metric : Source W) (offset : ℚ)
  /-- min.rs 44-48 -/
  | min (metric : Source W) (threshold : ℚ)
  /-- max.rs 46-50 -/
  | max (metric : Source W) (threshold : ℚ)
  /-- negative.rs 45-48 -/
  | negative (metric : Source W)
  /-- negativemin.rs 44-48 -/
  | negativeMin (metric : Source W) (threshold : ℚ)
  /-- negativemax.rs 44-48 -/
  | negativeMax (metric : Source W) (threshold : ℚ)
  /-- polynomial.rs 55-61 -/
  | polynomial (metric : Source W) (coefficients : List ℚ) (scale offset : ℚ)
  /-- discount_factor.rs 47-51 -/
  | discount (rate : Source W) (baseYear : Int)
  /-- division.rs 68-73 -/
  | division (numerator denominator : Source W) (phase : Phase)
  /-- deficit.rs 51-55 -/
  | deficit (flow maxFlow : Source W)
  /-- difference.rs 107-113 -/
  | difference (a b : Source W) (min max : Option (Source W))
  /-- control_curves/volume_between.rs 55-60; a curve that is not given is 1 above and 0 below (39-46) -/
  | volumeBetween (total upper lower : Source W)
  /-- indexed_array.rs 55-59 -/
  | indexed (index : Source W) (metrics : List (Source W))
  /-- aggregated.rs 123-129 -/
  | aggregated (metrics : List (Source W)) (func : Agg.AggFunc) (phase : Phase)
  /-- aggregated_index.rs 124-130 -/
  | aggregatedIndex (metrics : List (Source W)) (func : Agg.AggFuncU64) (phase : Phase)
  /-- any other parameter without internal state that is calculated before the solver -/
  | other (metrics : List (Source W)) (f : List (Option Val) → Option ℚ)
  /-- the same for parameters of indices, control_curves/index.rs 34-50 -/
  | otherIndex (metrics : List (Source W)) (f : List (Option Val) → Option Nat)
  /-- delay.rs 229-234 with `T = f64` -/
  | delay (metric : Source W) (delay : Nat) (initial : ℚ)
  /-- delay.rs 229-234 with `T = u64` -/
  | delayIndex (metric : Source W) (delay : Nat) (initial : Nat)
  /-- rolling.rs 275-283 with `T = f64` -/
  | rolling (metric : Source W) (window : Nat) (initial : ℚ) (minValues : Nat) (func : Agg.AggFunc)
  /-- rolling.rs 275-283 with `T = u64` -/
  | rollingIndex (metric : Source W) (window : Nat) (initial : Nat) (minValues : Nat) (func : Agg.AggFuncU64)
  /-- asymmetric.rs 70-75 -/
  | asymmetric (on off : Source W)
  /-- threshold.rs 102-109 -/
  | threshold (metric threshold : Source W) (predicate : Temporal.Predicate) (ratchet : Bool)
  /-- multi_threshold.rs 83-90 -/
  | multiThreshold (metric : Source W) (thresholds : List (Source W)) (predicate : Temporal.Predicate) (ratchet : Bool)

/-- `Option<Box<dyn ParameterState>>`: what the parameters store. -/
inductive Inner
  | nothing
  /-- `Option<f64>` of the variable API -/
  | variable (value : Option ℚ)
  /-- `VecDeque` of delays and rolling windows -/
  | queue (values : List Val)
  | flag (b : Bool)
  | count (n : Nat)
  deriving DecidableEq, Repr

/-- The value type. -/
def Kind.ty : Kind W → Ty
  | .aggregatedIndex .. => .u64
  | .otherIndex .. => .u64
  | .delayIndex .. => .u64
  | .rollingIndex .. => .u64
  | .asymmetric .. => .u64
  | .threshold .. => .u64
  | .multiThreshold .. => .u64
  | _ => .f64

/-- The metrics, in the order in which they are resolved. -/
def Kind.sources : Kind W → List (Source W)
  | .constant _ => []
  | .scheduled _ => []
  | .vector _ => []
  | .offset s _ => [s]
  | .min s _ => [s]
  | .max s _ => [s]
  | .negative s => [s]
  | .negativeMin s _ => [s]
  | .negativeMax s _ => [s]
  | .polynomial s _ _ _ => [s]
  | .discount s _ => [s]
  | .division a b _ => [a, b]
  | .deficit a b => [a, b]
  | .difference a b lo hi => a :: b :: (lo.toList ++ hi.toList)
  | .volumeBetween total upper lower => [total, upper, lower]
  | .indexed i ms => i :: ms
  | .aggregated ms _ _ => ms
  | .aggregatedIndex ms _ _ => ms
  | .other ms _ => ms
  | .otherIndex ms _ => ms
  | .delay s _ _ => [s]
  | .delayIndex s _ _ => [s]
  | .rolling s _ _ _ _ => [s]
  | .rollingIndex s _ _ _ _ => [s]
  | .asymmetric a b => [a, b]
  | .threshold a b _ _ => [a, b]
  | .multiThreshold a bs _ _ => a :: bs

/-- The phase for which the metrics are resolved. -/
def Kind.phase : Kind W → Phase
  | .division _ _ p => p
  | .deficit _ _ => .after
  | .aggregated _ _ p => p
  | .aggregatedIndex _ _ p => p
  | .delay .. => .after
  | .delayIndex .. => .after
  | .rolling .. => .after
  | .rollingIndex .. => .after
  | _ => .before

/-- The forms of `BuiltParameter::General` for parameters with a choice of phase, division.rs 126-136. -/
def generalIn : Phase → Style
  | .before => .general true .none
  | .after => .general false .value
  | .both => .general true .value

/-- Which form `build` returns. -/
def Kind.style : Kind W → Style
  | .constant _ => .constant
  | .scheduled _ => .simple
  | .division _ _ p => generalIn p
  | .deficit _ _ => .general false .value
  | .difference .. => .simpleOr .none
  -- volume_between.rs 91-145: always simple, see `Kind.accepts`
  | .volumeBetween .. => .simpleOr .none
  | .aggregated _ _ p => if p = .before then .simplest else generalIn p
  | .aggregatedIndex _ _ p => if p = .before then .simplest else generalIn p
  | .delay .. => .simpleOr .hook
  | .delayIndex .. => .simpleOr .hook
  | .rolling .. => .simpleOr .hook
  | .rollingIndex .. => .simpleOr .hook
  | _ => .general true .none

/-- Which metrics the builders accept: volume_between.rs 97-131 returns an error if one of them is not simple. -/
def Kind.accepts : Kind W → List Shape → Bool
  | .volumeBetween .., shapes => shapes.all Shape.isSimple
  | _, _ => true

/-- The builder of a parameter. -/
def Kind.builder (name : Name) (k : Kind W) : Builder where
  name := name
  ty := k.ty
  uses := k.sources.map fun s => ⟨s.ref, k.phase⟩
  style := k.style
  accepts := k.accepts

/-- `Parameter::setup`: delay.rs 67-75, rolling.rs 78-107, asymmetric.rs 24-30, threshold.rs 54-62,
multi_threshold.rs 27-35, constant.rs 39-46; nothing for all others (mod.rs 690-696). -/
def Kind.setup : Kind W → Inner
  | .constant _ => .variable none
  | .delay _ d init => .queue (Temporal.delaySetup d (ofF init))
  | .delayIndex _ d init => .queue (Temporal.delaySetup d (ofU init))
  | .rolling .. => .queue []
  | .rollingIndex .. => .queue []
  | .asymmetric .. => .count 0
  | .threshold .. => .flag false
  | .multiThreshold .. => .count 0
  | _ => .nothing

/-- What the metrics return, in order, or an error; `vs` are the values of those that refer to parameters. -/
def fetch (w : Option W) : List (Source W) → List Val → List (Option Val)
  | [], _ => []
  | .lit v :: ss, vs => some v :: fetch w ss vs
  | .node f :: ss, vs => (w.bind f) :: fetch w ss vs
  | .param .literal :: ss, vs => none :: fetch w ss vs
  | .param .component :: ss, vs => none :: fetch w ss vs
  | .param _ :: ss, [] => none :: fetch w ss []
  | .param _ :: ss, v :: vs => some v :: fetch w ss vs

/-- `collect::<Result<Vec<_>, _>>`. -/
def collect : List (Option Val) → Option (List Val)
  | [] => some []
  | none :: _ => none
  | some v :: xs => (collect xs).map (v :: ·)

/-- What does not depend on parameters: the year of each step and `f64::MAX`. -/
structure Env where
  year : Nat → Int
  fmax : ℚ

/-- polynomial.rs 45-49: the fold over the coefficients from position `i`. -/
def polyFrom (x : ℚ) : List ℚ → Nat → ℚ → ℚ
  | [], _, y => y
  | c :: cs, i, y => polyFrom x cs (i + 1) (y + c * x ^ i)

/-- `x.powi(n)`, for a negative exponent the reciprocal. -/
def powi (x : ℚ) (n : Int) : ℚ := if 0 ≤ n then x ^ n.toNat else 1 / x ^ (-n).toNat

/-- `discount_factor.rs:38-42`. The years are `i16`; the difference panics when it overflows (in a build with overflow
checks). A rate of -100% is an error as its factor is not finite, or zero, for all other years than the base year. -/
def discountFactor (year base : Int) (rate : ℚ) : Option ℚ :=
  let y := year - base
  if y < -32768 ∨ 32767 < y then none
  else if 1 + rate = 0 ∧ y ≠ 0 then none
  else some (1 / powi (1 + rate) y)

/-- `difference`, difference.rs 91-104. -/
def clampedDifference (a b : ℚ) (min max : Option ℚ) : ℚ :=
  let result := a - b
  let upper := match max with
    | some hi => if result > hi then hi else result
    | none => result
  match min with
  | some lo => if result < lo then lo else upper
  | none => upper

/-- What parameters without internal state calculate at step `t` from the results of their metrics. -/
def Kind.eval (e : Env) (t : Nat) : Kind W → List (Option Val) → Option Val
  -- constant.rs 56-64
  | .constant v, _ => some (ofF v)
  | .scheduled f, _ => (f t).map ofF
  -- vector.rs 36-43
  | .vector values, _ => (values[t]?).map ofF
  -- min.rs 38-39
  | .min _ th, [some x] => some (ofF (if th < x.num then th else x.num))
  -- max.rs 40-41
  | .max _ th, [some x] => some (ofF (if x.num < th then th else x.num))
  -- negative.rs 39-40
  | .negative _, [some x] => some (ofF (-x.num))
  -- negativemin.rs 38-39
  | .negativeMin _ th, [some x] => some (ofF (if th < -x.num then th else -x.num))
  -- negativemax.rs 38-39
  | .negativeMax _ th, [some x] => some (ofF (if -x.num < th then th else -x.num))
  -- polynomial.rs 42-50
  | .polynomial _ cs scale off, [some x] => some (ofF (polyFrom (x.num * scale + off) cs 0 0))
  -- discount_factor.rs 38-42
  | .discount _ base, [some r] => (discountFactor (e.year t) base r.num).map ofF
  -- division.rs 38-45, 55-62
  | .division _ _ _, [some a, some b] => if b.num = 0 then none else some (ofF (a.num / b.num))
  -- deficit.rs 42-46
  | .deficit _ _, [some flow, some hi] =>
    some (ofF (if hi.num - flow.num < 0 then 0 else hi.num - flow.num))
  -- difference.rs 51-64, 74-79
  | .difference _ _ none none, [some a, some b] => some (ofF (clampedDifference a.num b.num none none))
  | .difference _ _ (some _) none, [some a, some b, some lo] => some (ofF (clampedDifference a.num b.num (some lo.num) none))
  | .difference _ _ none (some _), [some a, some b, some hi] => some (ofF (clampedDifference a.num b.num none (some hi.num)))
  | .difference _ _ (some _) (some _), [some a, some b, some lo, some hi] =>
    some (ofF (clampedDifference a.num b.num (some lo.num) (some hi.num)))
  -- volume_between.rs 37-48
  | .volumeBetween _ _ _, [some total, some upper, some lower] => some (ofF (total.num * (upper.num - lower.num)))
  -- indexed_array.rs 39-50
  | .indexed _ _, some i :: xs =>
    match xs[i.idx]? with
    | none => none
    | some o => o.map fun v => ofF v.num
  -- aggregated.rs 44-116
  | .aggregated _ f _, xs => (collect xs).map fun vs => ofF (Agg.calcIter e.fmax f (vs.map Val.num))
  -- aggregated_index.rs 46-118
  | .aggregatedIndex _ f _, xs =>
    match collect xs with
    | none => none
    | some vs => (Agg.calcIterU64 f (vs.map Val.idx)).map ofU
  | .other _ f, xs => (f xs).map ofF
  | .otherIndex _ f, xs => (f xs).map ofU
  | _, _ => none

/-- multi_threshold.rs 55-68: the loop over the thresholds; a metric that fails ends it. -/
def position (p : Temporal.Predicate) (x : ℚ) : List (Option Val) → Nat → Option Nat
  | [], i => some i
  | none :: _, _ => none
  | some y :: ys, i => if p.apply x y.num then some i else position p x ys (i + 1)

/-- The aggregate of a window of `f64`, rolling.rs 124-132 and 166-171. -/
def rollingValue (e : Env) (initial : ℚ) (minValues : Nat) (f : Agg.AggFunc) (memory : List Val) : Option Val :=
  if memory.length < minValues then some (ofF initial)
  else some (ofF (Agg.calcIter e.fmax f (memory.map Val.num)))

/-- The aggregate of a window of `u64`, rolling.rs 207-215 and 249-254. -/
def rollingIndexValue (initial : Nat) (minValues : Nat) (f : Agg.AggFuncU64) (memory : List Val) : Option Val :=
  if memory.length < minValues then some (ofU initial)
  else (Agg.calcIterU64 f (memory.map Val.idx)).map ofU

/-- rolling.rs 144-151, 173-180, 227-234, 256-263: today's value is added, the oldest one dropped. -/
def rollingPush (window : Nat) (memory : List Val) (today : Val) : List Val :=
  if (memory ++ [today]).length > window then (memory ++ [today]).tail else memory ++ [today]

/-- What is stored of a metric by a parameter of `f64` values. -/
def asF (v : Val) : Val := ofF v.num

/-- What is stored of a metric by a parameter of `u64` values. -/
def asU (v : Val) : Val := ofU v.idx

/-- `SimpleParameter::compute` of delays, delay.rs 123-143, 198-218. -/
def delaySimple (memory : List Val) : List (Option Val) → (Val → Val) → Option (Val × Inner)
  | [some x], conv =>
    match Temporal.delaySimpleStep memory (conv x) with
    | .error _ => none
    | .ok (v, m) => some (v, .queue m)
  | _, _ => none

/-- `GeneralBeforeParameter::before` of delays, delay.rs 87-105, 162-180. -/
def delayBefore (memory : List Val) : Option (Val × Inner) :=
  match Temporal.delayBefore memory with
  | .error _ => none
  | .ok (v, m) => some (v, .queue m)

/-- `compute`, `before` and `after` of all types, from the results of the metrics; a metric that is not looked at may
fail. -/
def Kind.calc (e : Env) (k : Kind W) (stage : Stage) (t : Nat) (s : Inner) (xs : List (Option Val)) :
    Option (Val × Inner) :=
  match k, s with
  -- offset.rs 27-32, 61-64: the state is unwrapped first
  | .offset _ o, .variable value =>
    match xs with
    | [some x] => some (ofF (x.num + value.getD o), s)
    | _ => none
  | .offset _ _, _ => none
  | .delay .., .queue memory => if stage = .simple then delaySimple memory xs asF else delayBefore memory
  | .delay .., _ => none
  | .delayIndex .., .queue memory => if stage = .simple then delaySimple memory xs asU else delayBefore memory
  | .delayIndex .., _ => none
  | .rolling _ window initial minValues f, .queue memory =>
    match rollingValue e initial minValues f memory with
    | none => none
    | some v =>
      if stage = .simple then
        match xs with
        | [some x] => some (v, .queue (rollingPush window memory (asF x)))
        | _ => none
      else some (v, s)
  | .rolling .., _ => none
  | .rollingIndex _ window initial minValues f, .queue memory =>
    match rollingIndexValue initial minValues f memory with
    | none => none
    | some v =>
      if stage = .simple then
        match xs with
        | [some x] => some (v, .queue (rollingPush window memory (asU x)))
        | _ => none
      else some (v, s)
  | .rollingIndex .., _ => none
  -- asymmetric.rs 47-66
  | .asymmetric _ _, .count state =>
    match xs with
    | [some on, off] =>
      if state > 0 then
        if on.idx > 0 then some (ofU state, .count state)
        else
          match off with
          | none => none
          | some off => if off.idx = 0 then some (ofU 0, .count 0) else some (ofU state, .count state)
      else if on.idx > 0 then some (ofU 1, .count 1)
      else some (ofU state, .count state)
    | _ => none
  | .asymmetric _ _, _ => none
  -- threshold.rs 80-99
  | .threshold _ _ p ratchet, .flag previously =>
    if ratchet && previously then some (ofU 1, .flag previously)
    else
      match xs with
      | [some x, some th] => if p.apply x.num th.num then some (ofU 1, .flag true) else some (ofU 0, .flag previously)
      | _ => none
  | .threshold _ _ _ _, _ => none
  -- multi_threshold.rs 53-79
  | .multiThreshold _ _ p ratchet, .count previous =>
    match xs with
    | some x :: ths =>
      match position p x.num ths 0 with
      | none => none
      | some i =>
        if ratchet then
          if i > previous then some (ofU i, .count i) else some (ofU previous, .count previous)
        else some (ofU i, .count previous)
    | _ => none
  | .multiThreshold _ _ _ _, _ => none
  | k, s => (k.eval e t xs).map (·, s)

/-- `compute`, `before` and `after` of all types. -/
def Kind.compute (e : Env) (k : Kind W) (stage : Stage) (t : Nat) (w : Option W) (s : Inner) (vs : List Val) :
    Option (Val × Inner) := k.calc e stage t s (fetch w k.sources vs)

/-- `GeneralAfterParameterHook::after`: delay.rs 106-121, 181-196, rolling.rs 135-154, 218-237. -/
def Kind.remember (k : Kind W) (s : Inner) (xs : List (Option Val)) : Option Inner :=
  match k, s, xs with
  | .delay .., .queue memory, [some x] => some (.queue (Temporal.delayAfter memory (asF x)))
  | .delayIndex .., .queue memory, [some x] => some (.queue (Temporal.delayAfter memory (asU x)))
  | .rolling _ window _ _ _, .queue memory, [some x] => some (.queue (rollingPush window memory (asF x)))
  | .rollingIndex _ window _ _ _, .queue memory, [some x] => some (.queue (rollingPush window memory (asU x)))
  | _, _, _ => none

/-- The same from the values of the references. -/
def Kind.hook (k : Kind W) (w : W) (s : Inner) (vs : List Val) : Option Inner :=
  k.remember s (fetch (some w) k.sources vs)

/-- A named parameter. -/
structure Param (W : Type) where
  name : Name
  kind : Kind W

/-- The parameter of a name. -/
def kindOf (ps : List (Param W)) (n : Name) : Option (Kind W) := (ps.find? fun p => p.name = n).map Param.kind

/-- The builders of a network. -/
def builders (ps : List (Param W)) : List Builder := ps.map fun p => p.kind.builder p.name

/-- The calculations of a network with these parameters; what nodes and the solver do is arbitrary. -/
def calcs (e : Env) (ps : List (Param W)) (nodes solve : Nat → W → List Val → Option W) : Calcs Val Inner W where
  zero := ⟨0, 0⟩
  setup := fun n => match kindOf ps n with
    | none => .nothing
    | some k => k.setup
  compute := fun n stage t w s vs => match kindOf ps n with
    | none => none
    | some k => k.compute e stage t w s vs
  hook := fun n _ w s vs => match kindOf ps n with
    | none => none
    | some k => k.hook w s vs
  nodes := nodes
  solve := solve

end Verif.Kinds
