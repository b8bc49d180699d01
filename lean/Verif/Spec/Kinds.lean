import Verif.Model.Kinds
import Verif.Spec.ParamRun
import Mathlib.Algebra.BigOperators.Intervals
import Mathlib.Algebra.Order.Field.Basic

/-!
# What the types of parameters mean

The value of each parameter in terms of the values its metrics show, now or at earlier steps. Nothing here mentions
queues, windows, flags or the order of evaluation.
-/

namespace Verif.Kinds

open Verif.Params

variable {W : Type}

/-- The values of a run and the states of the nodes. -/
abbrev Record (W : Type) := History Val Unit W

/-- The state of the nodes that metrics show: at the start of a step or at its end. -/
def visible (h : Record W) : Stage → Nat → Option W
  | .before, t => some (h.ready t)
  | .after, t => some (h.world (t + 1))
  | .const, _ => none
  | .simple, _ => none

/-- A metric shows a value at a stage of step `t`. -/
def Shows (bs : List Builder) (h : Record W) (stage : Stage) (t : Nat) (phase : Phase) : Source W → Val → Prop
  | .lit x, v => v = x
  | .node f, v => ∃ w, visible h stage t = some w ∧ f w = some v
  | .param r, v => Means bs h ⟨0, 0⟩ stage t ⟨r, phase⟩ v

/-- A metric shows a number. -/
def Num (bs : List Builder) (h : Record W) (stage : Stage) (t : Nat) (phase : Phase) (s : Source W) (q : ℚ) : Prop :=
  ∃ v, Shows bs h stage t phase s v ∧ q = v.num

/-- A metric shows an index. -/
def Idx (bs : List Builder) (h : Record W) (stage : Stage) (t : Nat) (phase : Phase) (s : Source W) (n : Nat) : Prop :=
  ∃ v, Shows bs h stage t phase s v ∧ n = v.idx

/-- A parameter of numbers has this value. -/
def Number (v : Val) (q : ℚ) : Prop := v.num = q ∧ v.idx = 0

/-- A parameter of indices has this value; read as a number it is the same. -/
def Index (v : Val) (n : Nat) : Prop := v.idx = n ∧ v.num = n

/-- The aggregate of numbers. The greatest is at least the least number there is, and conversely. -/
def AggIs (fmax : ℚ) (f : Agg.AggFunc) (qs : List ℚ) (q : ℚ) : Prop :=
  match f with
  | .sum => q = qs.sum
  | .mean => (qs = [] → q = 0) ∧ q * qs.length = qs.sum
  | .product => q = qs.prod
  | .min => q ∈ fmax :: qs ∧ ∀ x ∈ fmax :: qs, q ≤ x
  | .max => q ∈ (-fmax) :: qs ∧ ∀ x ∈ (-fmax) :: qs, x ≤ q
  | .countNonZero => q = qs.countP (fun x => x ≠ 0)
  | .countFunc func => q = qs.countP func
  | .anyNonZero tolerance => ((∃ x ∈ qs, tolerance < |x|) ∧ q = 1) ∨ ((∀ x ∈ qs, |x| ≤ tolerance) ∧ q = 0)

/-- The aggregate of indices; sums and products must not overflow on the way. -/
def AggIdx (f : Agg.AggFuncU64) (ns : List Nat) (n : Nat) : Prop :=
  match f with
  | .sum => n = ns.sum ∧ n ≤ 2 ^ 64 - 1
  | .product => n = ns.prod ∧ ∀ i ≤ ns.length, (ns.take i).prod ≤ 2 ^ 64 - 1
  | .min => (ns = [] ∧ n = 2 ^ 64 - 1) ∨ (n ∈ ns ∧ ∀ x ∈ ns, n ≤ x)
  | .max => (ns = [] ∧ n = 0) ∨ (n ∈ ns ∧ ∀ x ∈ ns, x ≤ n)
  | .any => ((∃ x ∈ ns, x ≠ 0) ∧ n = 1) ∨ ((∀ x ∈ ns, x = 0) ∧ n = 0)
  | .all => ((∀ x ∈ ns, x ≠ 0) ∧ n = 1) ∨ ((∃ x ∈ ns, x = 0) ∧ n = 0)

/-- The difference of two numbers with optional limits; the lower limit is looked at first. -/
def Limited (d : ℚ) (lo hi : Option ℚ) (q : ℚ) : Prop :=
  (∃ l, lo = some l ∧ d < l ∧ q = l) ∨
  ((∀ l, lo = some l → l ≤ d) ∧ ((∃ u, hi = some u ∧ u < d ∧ q = u) ∨ ((∀ u, hi = some u → d ≤ u) ∧ q = d)))

/-- An optional metric. -/
def Maybe (P : Source W → ℚ → Prop) : Option (Source W) → Option ℚ → Prop
  | none, o => o = none
  | some s, o => ∃ q, P s q ∧ o = some q

/-- The parameters without memory: the value `v` at a stage of step `t`. -/
def Now (bs : List Builder) (e : Env) (h : Record W) (stage : Stage) (t : Nat) (v : Val) : Kind W → Prop
  | .constant c => Number v c
  | .scheduled f => ∃ q, f t = some q ∧ Number v q
  | .vector values => ∃ ht : t < values.length, Number v values[t]
  | .min s th => ∃ x, Num bs h stage t .before s x ∧ Number v (Min.min x th)
  | .max s th => ∃ x, Num bs h stage t .before s x ∧ Number v (Max.max x th)
  | .negative s => ∃ x, Num bs h stage t .before s x ∧ Number v (-x)
  | .negativeMin s th => ∃ x, Num bs h stage t .before s x ∧ Number v (Min.min (-x) th)
  | .negativeMax s th => ∃ x, Num bs h stage t .before s x ∧ Number v (Max.max (-x) th)
  | .polynomial s cs scale off => ∃ x, Num bs h stage t .before s x ∧
      Number v (∑ i ∈ Finset.range cs.length, cs.getD i 0 * (x * scale + off) ^ i)
  | .discount s base => ∃ r, Num bs h stage t .before s r ∧ (e.year t = base ∨ 1 + r ≠ 0) ∧
      -32768 ≤ e.year t - base ∧ e.year t - base ≤ 32767 ∧ Number v ((1 + r) ^ (base - e.year t))
  | .division a b phase => ∃ x y, Num bs h stage t phase a x ∧ Num bs h stage t phase b y ∧ y ≠ 0 ∧ Number v (x / y)
  | .deficit flow limit => ∃ x y, Num bs h stage t .after flow x ∧ Num bs h stage t .after limit y ∧
      Number v (Max.max (y - x) 0)
  | .difference a b lo hi => ∃ x y l u q, Num bs h stage t .before a x ∧ Num bs h stage t .before b y ∧
      Maybe (Num bs h stage t .before) lo l ∧ Maybe (Num bs h stage t .before) hi u ∧ Limited (x - y) l u q ∧ Number v q
  | .volumeBetween total upper lower => ∃ x u l, Num bs h stage t .before total x ∧ Num bs h stage t .before upper u ∧
      Num bs h stage t .before lower l ∧ Number v (x * u - x * l)
  | .indexed i ms => ∃ n, Idx bs h stage t .before i n ∧ ∃ hn : n < ms.length, ∃ q,
      Num bs h stage t .before ms[n] q ∧ Number v q
  | .aggregated ms f phase => ∃ qs q, List.Forall₂ (Num bs h stage t phase) ms qs ∧ AggIs e.fmax f qs q ∧ Number v q
  | .aggregatedIndex ms f phase => ∃ ns n, List.Forall₂ (Idx bs h stage t phase) ms ns ∧ AggIdx f ns n ∧ Index v n
  | .other ms f => ∃ xs q, List.Forall₂ (fun s o => ∀ x, o = some x ↔ Shows bs h stage t .before s x) ms xs ∧
      f xs = some q ∧ Number v q
  | .otherIndex ms f => ∃ xs n, List.Forall₂ (fun s o => ∀ x, o = some x ↔ Shows bs h stage t .before s x) ms xs ∧
      f xs = some n ∧ Index v n
  | _ => False

/-- The value of a delay: the initial value for `d` steps, then what its metric showed at the end of the step `d` before.
A metric whose value is not known before the end of a step cannot be delayed by zero steps. -/
def Delayed (bs : List Builder) (h : Record W) (n : Nat) (known : Prop) (value : Nat → Val) (s : Source W) (d : Nat)
    (init : Val) (as : Val → Val) : Prop :=
  ∃ x : Nat → Val, (∀ t < n, Shows bs h .after t .after s (x t)) ∧ (¬ known → 0 < n → 0 < d) ∧
    ∀ t < n, (t < d → value t = init) ∧ (d ≤ t → value t = as (x (t - d)))

/-- The value of a rolling window: the aggregate of what the metric showed at the end of the last `window` steps, or the
initial value as long as they are fewer than `least`. -/
def Rolled (bs : List Builder) (h : Record W) (n : Nat) (value : Nat → Val) (s : Source W) (window least : Nat)
    (Initial : Val → Prop) (Agg : List Val → Val → Prop) : Prop :=
  ∃ x : Nat → Val, (∀ t < n, Shows bs h .after t .after s (x t)) ∧
    ∀ t < n, (Min.min t window < least → Initial (value t)) ∧
      (least ≤ Min.min t window → Agg ((List.range' (t - window) (Min.min t window)).map x) (value t))

/-- A switch is on at step `t`: it was switched on at some step and has been kept on since. -/
def IsOn (on off : Nat → Nat → Prop) (t : Nat) : Prop :=
  ∃ s ≤ t, (∃ i, on s i ∧ 0 < i) ∧ ∀ r, s < r → r ≤ t → (∃ i, on r i ∧ 0 < i) ∨ ∃ i, off r i ∧ 0 < i

/-- The value of an asymmetric switch. The second metric is only looked at when the switch is on and the first one is
zero. -/
def Switched (n : Nat) (value : Nat → Val) (on off : Nat → Nat → Prop) : Prop :=
  ∀ t < n, (∃ i, on t i ∧ (i = 0 → (∃ s, t = s + 1 ∧ IsOn on off s) → ∃ j, off t j)) ∧
    (IsOn on off t → Index (value t) 1) ∧ (¬ IsOn on off t → Index (value t) 0)

/-- The relations of a threshold; equality is up to one millionth. -/
def Meets (p : Temporal.Predicate) (x y : ℚ) : Prop :=
  match p with
  | .lessThan => x < y
  | .greaterThan => y < x
  | .equalTo => |x - y| ≤ 1 / 1000000
  | .lessThanOrEqualTo => x ≤ y
  | .greaterThanOrEqualTo => y ≤ x

/-- The value of a threshold: 1 if the relation is met, or with a ratchet if it was ever met before; then the metrics are not
looked at. -/
def Thresholded (n : Nat) (value : Nat → Val) (p : Temporal.Predicate) (ratchet : Bool) (x y : Nat → ℚ → Prop) : Prop :=
  ∀ t < n, (ratchet = true ∧ (∃ s < t, ∃ a b, x s a ∧ y s b ∧ Meets p a b) ∧ Index (value t) 1) ∨
    (¬ (ratchet = true ∧ ∃ s < t, ∃ a b, x s a ∧ y s b ∧ Meets p a b) ∧
      ∃ a b, x t a ∧ y t b ∧ (Meets p a b → Index (value t) 1) ∧ (¬ Meets p a b → Index (value t) 0))

/-- The position of the first of several thresholds that is met; the metrics of later ones are not looked at. -/
def First {α : Type} (p : Temporal.Predicate) (a : ℚ) (y : α → ℚ → Prop) (ths : List α) (i : Nat) : Prop :=
  i ≤ ths.length ∧ (∀ j < i, ∀ s, ths[j]? = some s → ∃ b, y s b ∧ ¬ Meets p a b) ∧
    (∀ s, ths[i]? = some s → ∃ b, y s b ∧ Meets p a b)

/-- The value of a multi-threshold; with a ratchet it is the greatest position so far. -/
def Positioned (n : Nat) (value : Nat → Val) (ratchet : Bool) (position : Nat → Nat → Prop) : Prop :=
  ∃ i : Nat → Nat, (∀ t < n, position t (i t)) ∧
    ∀ t < n, ∃ m, Index (value t) m ∧
      if ratchet then (∃ s ≤ t, m = i s) ∧ ∀ s ≤ t, i s ≤ m else m = i t

/-- The value that is known before the solver. -/
def early (h : Record W) (name : Name) (form : Form) (t : Nat) : Val :=
  h.value t (if form = .simple then .simple else .before) name

/-- The values of the parameter `name` in the first `n` steps are those its type defines. -/
def Holds (bs : List Builder) (e : Env) (h : Record W) (n : Nat) (name : Name) (form : Form) : Kind W → Prop
  | .delay s d init => Delayed bs h n (form = .simple) (early h name form) s d ⟨init, 0⟩ (fun v => ⟨v.num, 0⟩)
  | .delayIndex s d init =>
    Delayed bs h n (form = .simple) (early h name form) s d ⟨init, init⟩ (fun v => ⟨v.idx, v.idx⟩)
  | .rolling s window init least f =>
    Rolled bs h n (early h name form) s window least (fun v => Number v init)
      (fun vs v => ∃ q, AggIs e.fmax f (vs.map Val.num) q ∧ Number v q)
  | .rollingIndex s window init least f =>
    Rolled bs h n (early h name form) s window least (fun v => Index v init)
      (fun vs v => ∃ m, AggIdx f (vs.map Val.idx) m ∧ Index v m)
  | .asymmetric on off =>
    Switched n (early h name form) (fun t => Idx bs h .before t .before on) (fun t => Idx bs h .before t .before off)
  | .threshold x y p ratchet =>
    Thresholded n (early h name form) p ratchet (fun t => Num bs h .before t .before x) (fun t => Num bs h .before t .before y)
  | .multiThreshold x ys p ratchet =>
    Positioned n (early h name form) ratchet fun t i =>
      ∃ a, Num bs h .before t .before x a ∧ First p a (Num bs h .before t .before) ys i
  | k =>
    match form with
    | .const => Now bs e h .const 0 (h.value 0 .const name) k
    | .simple => ∀ t < n, Now bs e h .simple t (h.value t .simple name) k
    | .general before after =>
      (before = true → ∀ t < n, Now bs e h .before t (h.value t .before name) k) ∧
      (after = .value → ∀ t < n, Now bs e h .after t (h.value t .after name) k)

/-- The values of a run of `n` steps: every parameter has the value its type defines, nodes and solver do what they do with
the values they refer to. -/
structure Run (e : Env) (ps : List (Param W)) (nodes solve : Nat → W → List Val → Option W)
    (nodeRefs solveRefs : List Ref) (w : W) (n : Nat) (h : Record W) : Prop where
  world : h.world 0 = w
  params : ∀ p ∈ ps, ∀ form, Takes (builders ps) (p.kind.builder p.name) form →
    Holds (builders ps) e h n p.name form p.kind
  nodes : ∀ t < n, ∃ vs, Given (builders ps) h ⟨0, 0⟩ .before t (nodeRefs.map fun r => ⟨r, .before⟩) vs ∧
    nodes t (h.world t) vs = some (h.ready t)
  solve : ∀ t < n, ∃ vs, Given (builders ps) h ⟨0, 0⟩ .before t (solveRefs.map fun r => ⟨r, .before⟩) vs ∧
    solve t (h.ready t) vs = some (h.world (t + 1))

end Verif.Kinds
