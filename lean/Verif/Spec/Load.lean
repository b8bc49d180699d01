import Verif.Model.Load
import Verif.Spec.Kinds

/-!
# What the parameters of a document mean

In terms of the document alone: who owns a parameter, what it is called, and what its metrics refer to. Nothing here mentions
the parameters of the network, their names there, the parameters that are added behind the scenes, phases of resolution or the
order in which things are loaded.
-/

namespace Verif.Load

open Verif.Params Verif.Kinds

variable {W : Type}

/-- The values of a run by owner (a node, or none for the whole network), name and step: before the solver and at the end of the
step. A parameter that does not wait for the solver is settled. `early` and `late` are the states of the network at these
times. -/
structure Story (W : Type) where
  before : Option String → String → Nat → Val
  after : Option String → String → Nat → Val
  settled : Option String → String → Prop
  early : Nat → W
  late : Nat → W

/-- The network before step `t`. -/
def Story.old (S : Story W) (w : W) : Nat → W
  | 0 => w
  | t + 1 => S.late t

/-- When a metric is looked at. -/
inductive Side
  | early
  | late
  deriving DecidableEq

/-- The network at this time. -/
def Story.net (S : Story W) : Side → Nat → W
  | .early => S.early
  | .late => S.late

/-- What a reference to a parameter of `o` shows: its value from before the solver if nothing else is said. The value of the
end of the step is that of the step before if the step has not ended, and zero at first; that of a settled parameter is
known at once. -/
def Reads (S : Story W) (side : Side) (t : Nat) (o : Option String) (r : PRef) (v : Val) : Prop :=
  r.key = none ∧
    match r.ret.getD .before with
    | .before => v = S.before o r.name t
    | .after => v = S.after o r.name t
    | .afterOrInitial =>
      (side = .late ∨ S.settled o r.name → v = S.after o r.name t) ∧
      (side = .early → ¬ S.settled o r.name → (t = 0 → v = ⟨0, 0⟩) ∧ ∀ s, t = s + 1 → v = S.after o r.name s)

/-- What a series shows at step `t`: the only column, the column of this name, or that of the scenario. -/
def SeriesShows (A : Args W) (series : String) (columns : Option Columns) (t : Nat) (q : ℚ) : Prop :=
  ∃ table, A.series series = some table ∧
    match columns with
    | none => ∃ c, table = [c] ∧ c.2[t]? = some q
    | some (.column name) => ∃ values, (name, values) ∈ table ∧ values[t]? = some q
    | some (.scenario group) => ∃ i c, A.scenario group = some i ∧ table[i.1]? = some c ∧ c.2[t]? = some q

/-- What is missing from the limit. -/
def Lacks (w : W) (flow limit : W → Option ℚ) (q : ℚ) : Prop :=
  ∃ x y, flow w = some x ∧ limit w = some y ∧ q = Max.max (y - x) 0

/-- The number a metric of something owned by `o` shows. A deficit is known at the end of a step. -/
def SNum (A : Args W) (S : Story W) (side : Side) (t : Nat) (o : Option String) : SMetric → ℚ → Prop
  | .literal v, q => q = v
  | .table r, q => A.table r = some q
  | .component c, q => ∃ found, A.comp c = .ok found ∧
      match found with
      | .shown f => f (S.net side t) = some q
      | .deficit _ flow limit =>
        (side = .late → Lacks (S.late t) flow limit q) ∧
        (side = .early → (t = 0 → q = 0) ∧ ∀ s, t = s + 1 → Lacks (S.late s) flow limit q)
  | .series s c, q => SeriesShows A s c t q
  | .param r, q => ∃ v, Reads S side t none r v ∧ q = v.num
  | .localParam r, q => o ≠ none ∧ ∃ v, Reads S side t o r v ∧ q = v.num

/-- The index a metric shows. -/
def SIdx (A : Args W) (S : Story W) (side : Side) (t : Nat) (o : Option String) : SIndex → Nat → Prop
  | .constant v, k => k = v
  | .table r, k => A.tableIndex r = some k
  | .node _, _ => False
  | .param r, k => ∃ v, Reads S side t none r v ∧ k = v.idx
  | .localParam r, k => o ≠ none ∧ ∃ v, Reads S side t o r v ∧ k = v.idx
  | .transfer n, k => A.transfer n (S.net side t) = some k

/-- A constant of the document. -/
def SConst.Is (A : Args W) : SConst → ℚ → Prop
  | .lit v, q => q = v
  | .table r, q => A.table r = some q

/-- An optional constant. -/
def NatIs (A : Args W) (default : Nat) : Option SNat → Nat → Prop
  | none, k => k = default
  | some (.lit v), k => k = v
  | some (.table r), k => A.tableIndex r = some k

/-- A list of constants. -/
def SList.Is (A : Args W) : SList → List ℚ → Prop
  | .lit vs, qs => qs = vs
  | .table r, qs => A.tableList r = some qs

/-- The level `x` is in band `i` of curves given from the highest, which lies between the numbers `lo` and `hi`. -/
def Band (N : SMetric → ℚ → Prop) (curves : List SMetric) (bottom top x : ℚ) (i : Nat) (lo hi : ℚ) : Prop :=
  First .greaterThanOrEqualTo x N curves i ∧
    (i = 0 → hi = top) ∧ (∀ j, i = j + 1 → ∃ m, curves[j]? = some m ∧ N m hi) ∧
    (i = curves.length → lo = bottom) ∧ (i < curves.length → ∃ m, curves[i]? = some m ∧ N m lo)

/-- Of several things the one at position `i`, or the last one if `i` is the last of `bands` positions. -/
def Chosen {α : Type} (l : List α) (bands i : Nat) (a : α) : Prop :=
  (i < bands → l[i]? = some a) ∧ (i = bands → l.getLast? = some a)

/-- The parameters without memory, from the numbers `N` and indices `I` their metrics show at some time of step `t`. -/
def SNow (A : Args W) (N : SMetric → ℚ → Prop) (I : SIndex → Nat → Prop) (t : Nat) (v : Val) : SKind → Prop
  | .constant value => ∃ q, value.Is A q ∧ Number v q
  | .constantScenario values group => ∃ qs i q, values.Is A qs ∧ A.scenario group = some (i, qs.length) ∧
      qs[i]? = some q ∧ Number v q
  | .controlCurveInterpolated storage curves values => ∃ x i lo hi a b l u, N storage x ∧ Band N curves 0 1 x i lo hi ∧
      (i < curves.length → values[i]? = some a ∧ values[i + 1]? = some b) ∧
      (i = curves.length → 2 ≤ values.length ∧ values[values.length - 2]? = some a ∧ values[values.length - 1]? = some b) ∧
      N a u ∧ N b l ∧ Number v (Curves.interpolate x lo hi l u)
  | .aggregated func metrics _ => ∃ qs q, List.Forall₂ N metrics qs ∧ AggIs A.fmax func qs q ∧ Number v q
  | .aggregatedIndex func metrics _ => ∃ ns n, List.Forall₂ I metrics ns ∧ AggIdx func ns n ∧ Index v n
  | .controlCurvePiecewise storage curves values maximum minimum => ∃ x i lo hi p, N storage x ∧
      Band N curves (minimum.getD 0) (maximum.getD 1) x i lo hi ∧ Chosen (values.getD []) curves.length i p ∧
      Number v (Curves.interpolate x lo hi p.2 p.1)
  | .controlCurveIndex storage curves => ∃ x i, N storage x ∧ First .greaterThanOrEqualTo x N curves i ∧ Index v i
  | .controlCurve storage curves values => ∃ x i m q, N storage x ∧ First .greaterThanOrEqualTo x N curves i ∧
      Chosen values curves.length i m ∧ N m q ∧ Number v q
  | .daily values => ∃ qs vs q, values.Is A qs ∧ Profiles.dailyValues qs = some vs ∧
      Profiles.daily vs (A.time t) = some q ∧ Number v q
  | .indexed index metrics => ∃ n m q, I index n ∧ metrics[n]? = some m ∧ N m q ∧ Number v q
  | .monthly values interp => ∃ qs q, values.Is A qs ∧ qs.length = 12 ∧ Profiles.monthly qs interp (A.time t) = some q ∧
      Number v q
  | .weekly values interp => ∃ qs q, values.Is A qs ∧ (qs.length = 52 ∨ qs.length = 53) ∧
      Profiles.weekly qs interp (A.time t) = some q ∧ Number v q
  | .drawdown day month residual => ∃ d m r, NatIs A 1 day d ∧ NatIs A 1 month m ∧ NatIs A 0 residual r ∧
      (d < 128 → m < 128 → r < 256 → ∃ doy, Profiles.resetDoy m d = some doy ∧
        Number v (Profiles.drawdown r doy (A.time t).date))
  | .max metric threshold => ∃ x, N metric x ∧ Number v (Max.max x (threshold.getD 0))
  | .min metric threshold => ∃ x, N metric x ∧ Number v (Min.min x (threshold.getD 0))
  | .negative metric => ∃ x, N metric x ∧ Number v (-x)
  | .polynomial metric cs scale off => ∃ x, N metric x ∧
      Number v (∑ i ∈ Finset.range cs.length, cs.getD i 0 * (x * scale.getD 1 + off.getD 0) ^ i)
  | .division numerator denominator _ => ∃ x y, N numerator x ∧ N denominator y ∧ y ≠ 0 ∧ Number v (x / y)
  | .difference a b lo hi => ∃ x y l u q, N a x ∧ N b y ∧ N lo l ∧ N hi u ∧ Limited (x - y) (some l) (some u) q ∧ Number v q
  | .volumeBetween total upper lower => ∃ x u l, N total x ∧ N upper u ∧ N lower l ∧ Number v (x * u - x * l)
  | .offset metric offset => ∃ x o, N metric x ∧ offset.Is A o ∧ Number v (x + o)
  | .discount rate base => ∃ r, N rate r ∧ Number v ((1 + r) ^ (base - (A.time t).date.year))
  | .interpolated x xp fp errorOnBounds => ∃ q pts y, N x q ∧
      List.Forall₂ N xp (pts.map Prod.fst) ∧ List.Forall₂ N fp (pts.map Prod.snd) ∧
      Curves.linearInterpolation q pts (errorOnBounds.getD true) = .ok y ∧ Number v y
  | .negativeMax metric threshold => ∃ x, N metric x ∧ Number v (Max.max (-x) (threshold.getD 0))
  | .negativeMin metric threshold => ∃ x, N metric x ∧ Number v (Min.min (-x) (threshold.getD 0))
  | .diurnal values => ∃ qs q, values.Is A qs ∧ qs.length = 24 ∧ Profiles.diurnal qs (A.time t) = some q ∧ Number v q
  | _ => False

/-- The value of a threshold is an index; if values are given for the indices it is the one of these. -/
def Returns (N : Nat → SMetric → ℚ → Prop) (n : Nat) (value : Nat → Val) (returned : Option (List SMetric))
    (Is : (Nat → Val) → Prop) : Prop :=
  match returned with
  | none => Is value
  | some metrics => ∃ index : Nat → Val, Is index ∧
      ∀ t < n, ∃ m q, metrics[(index t).idx]? = some m ∧ N t m q ∧ Number (value t) q

/-- The values of the parameter `name` of `o` in the first `n` steps are those the document defines. -/
def SHolds (A : Args W) (S : Story W) (n : Nat) (o : Option String) (name : String) : SKind → Prop
  | .asymmetric on off =>
    Switched n (S.before o name) (fun t => SIdx A S .early t o on) (fun t => SIdx A S .early t o off)
  | .threshold metric limit p returned ratchet =>
    Returns (fun t => SNum A S .early t o) n (S.before o name) returned fun value =>
      Thresholded n value p ratchet (fun t => SNum A S .early t o metric) (fun t => SNum A S .early t o limit)
  | .multiThreshold metric limits p returned ratchet =>
    Returns (fun t => SNum A S .early t o) n (S.before o name) returned fun value =>
      Positioned n value ratchet fun t i => ∃ a, SNum A S .early t o metric a ∧ First p a (SNum A S .early t o) limits i
  | .delay metric d init => ∃ x : Nat → ℚ, (∀ t < n, SNum A S .late t o metric (x t)) ∧
      ∀ t < n, (t < d → Number (S.before o name t) init) ∧ (d ≤ t → Number (S.before o name t) (x (t - d)))
  | .delayIndex metric d init => ∃ x : Nat → Nat, (∀ t < n, SIdx A S .late t o metric (x t)) ∧
      ∀ t < n, (t < d → Index (S.before o name t) init) ∧ (d ≤ t → Index (S.before o name t) (x (t - d)))
  | .rolling metric window init least f => ∃ x : Nat → ℚ, (∀ t < n, SNum A S .late t o metric (x t)) ∧
      ∀ t < n, (Min.min t window < least.getD window → Number (S.before o name t) init) ∧
        (least.getD window ≤ Min.min t window → ∃ q,
          AggIs A.fmax f ((List.range' (t - window) (Min.min t window)).map x) q ∧ Number (S.before o name t) q)
  | .rollingIndex metric window init least f => ∃ x : Nat → Nat, (∀ t < n, SIdx A S .late t o metric (x t)) ∧
      ∀ t < n, (Min.min t window < least.getD window → Index (S.before o name t) init) ∧
        (least.getD window ≤ Min.min t window → ∃ q,
          AggIdx f ((List.range' (t - window) (Min.min t window)).map x) q ∧ Index (S.before o name t) q)
  | k =>
    let phase : Phase := match k with
      | .aggregated _ _ p => p
      | .aggregatedIndex _ _ p => p
      | .division _ _ p => p
      | _ => .before
    (phase ≠ .after → ∀ t < n, SNow A (SNum A S .early t o) (SIdx A S .early t o) t (S.before o name t) k) ∧
    (phase ≠ .before → ∀ t < n, SNow A (SNum A S .late t o) (SIdx A S .late t o) t (S.after o name t) k)

/-- The parameters of a document with their owners. -/
def Doc.declared (D : Doc) : List (Option String × String × SKind) :=
  ((D.nodes ++ D.virtuals).flatMap fun n => n.params.map fun p => (some n.name, p.1, p.2)) ++
    D.params.map fun p => (none, p.1, p.2)

/-- The metrics of the nodes of a document with their owners. -/
def Doc.uses (D : Doc) : List (Option String × SMetric) :=
  (D.nodes ++ D.virtuals).flatMap fun n => n.uses.map fun m => (some n.name, m)

/-- A metric that is known at the start of a step. -/
def Known (S : Story W) (o : Option String) : SMetric → Prop
  | .component _ => False
  | .param r => S.settled none r.name ∧ r.ret.getD .before = .before
  | .localParam r => S.settled o r.name ∧ r.ret.getD .before = .before
  | _ => True

/-- The values are those the document defines, and the network is prepared and solved with them. At the start of a step the
metrics at the positions `ids` are known, with the values they have when the step is solved. -/
structure Told (A : Args W) (D : Doc) (ids : List Nat) (prepare : Nat → W → List (Nat × ℚ) → Option W) (solve : Nat → W → List ℚ → Option W) (w : W) (n : Nat)
    (S : Story W) : Prop where
  settled : ∀ o name t, S.settled o name → S.after o name t = S.before o name t
  params : ∀ p ∈ D.declared, SHolds A S n p.1 p.2.1 p.2.2
  steps : ∀ t < n, ∃ qs, List.Forall₂ (fun u q => SNum A S .early t u.1 u.2 q) D.uses qs ∧
    (∃ xs, (∀ i q, (i, q) ∈ xs ↔ i ∈ ids ∧ qs[i]? = some q) ∧ prepare t (S.old w t) xs = some (S.early t)) ∧
    solve t (S.early t) qs = some (S.late t)
  /-- those are not about the network, and not parameters that wait for it -/
  known : ∀ i ∈ ids, ∀ o m, D.uses[i]? = some (o, m) → Known S o m

/-- Different names have different numbers. -/
def Args.Injective (A : Args W) : Prop := ∀ a b, A.code a = A.code b → a = b

/-- What is asked of a document. Virtual nodes have no parameters of their own, since these are not loaded. A node has no
parameter called `deficit`, no node is called like a series, and no scenario group like a column: such things are taken for each
other. A node has no multi-threshold that returns its index, since it is not found. -/
structure Doc.Apart (A : Args W) (D : Doc) : Prop where
  virtuals : ∀ v ∈ D.virtuals, v.params = []
  locals : ∀ n ∈ D.nodes, ∀ p ∈ n.params, p.1 ≠ "deficit"
  nodes : ∀ n ∈ D.nodes, A.series n.name = none
  deficits : ∀ c node f l, A.comp c = .ok (.deficit node f l) → A.series node = none
  same : ∀ c c' node f l f' l', A.comp c = .ok (.deficit node f l) → A.comp c' = .ok (.deficit node f' l') → f = f' ∧ l = l'
  columns : ∀ s table g, A.series s = some table → A.scenario g ≠ none → ∀ c ∈ table, c.1 ≠ g
  unique : ∀ s table, A.series s = some table → (table.map Prod.fst).Nodup
  multi : ∀ n ∈ D.nodes, ∀ p ∈ n.params, ∀ m ls pr r, p.2 ≠ .multiThreshold m ls pr none r

end Verif.Load
