import Verif.Model.Kinds
import Verif.Model.Curves
import Verif.Model.Profiles

/-!
# Loading the parameters of a document

Models how the parameters of a network document become those of the network: `Metric::load` and `IndexMetric::load`
(`pywr-schema/src/metric.rs`), `add_to_network` of the parameters (`pywr-schema/src/parameters/*.rs`), the part of
`NetworkSchema::add_to_network` that adds them (`pywr-schema/src/network.rs:550-660`), and the parameters that metrics
add by themselves (`pywr-schema/src/timeseries/mod.rs:189-325`, `pywr-schema/src/nodes/core.rs:757-790`). The result is a
list of the parameters of `Model/Kinds.lean`.

Simplifications:
* one scenario; errors that are found by the builders from data alone (scenario groups, dates) are errors of loading;
* tables, series, and what a metric of a node, virtual node, edge or transfer shows are given by `Args`;
* radial basis functions, hydropower, arrays in HDF5 files, parameters and functions in Python, and series of indices are
  left out; literals, tables and lists have no units or checksums;
* the keys of multi-valued parameters are dropped: none of the parameters here has several values.
-/

namespace Verif.Load

open Verif.Params Verif.Kinds

/-- `ParameterName`, pywr-core/src/parameters/mod.rs 427-434. -/
structure PName where
  name : String
  sub : Option String
  parent : Option String
  deriving DecidableEq, Repr

/-- `SchemaError` as far as it occurs here; `todo` is a panic. -/
inductive Err
  | needsParent (name : String)
  | nodeNotFound (name : String)
  | todo
  | table
  | seriesNotFound (name : String)
  | columnNotFound
  | columnRequired (name : String)
  | length (expected found : Nat)
  | weeks
  | date
  | group
  | placeholder (name : String)
  | literalOutput
  | paramNotFound (name : String)
  | duplicate
  deriving DecidableEq, Repr

/-- What a metric of a node, virtual node, edge or transfer stands for: something that is shown by the network, or the
deficit of an output node, for which a parameter is made (nodes/core.rs 772-785). -/
inductive Found (W : Type)
  | shown (f : W → Option ℚ)
  | deficit (node : String) (flow limit : W → Option ℚ)

/-- What is there when a document is loaded: an injective numbering of names, the tables, the network, the series with
their columns, the position of the scenario in its groups with their sizes, the times of the steps, and `f64::MAX`. -/
structure Args (W : Type) where
  code : PName → Nat
  table : String → Option ℚ
  tableIndex : String → Option Nat
  tableList : String → Option (List ℚ)
  comp : String → Except Err (Found W)
  node : String → Bool
  transfer : String → W → Option Nat
  series : String → Option (List (String × List ℚ))
  scenario : String → Option (Nat × Nat)
  time : Nat → Calendar.DateTime
  fmax : ℚ

/-- `ParameterReference`, metric.rs 537-544. -/
structure PRef where
  name : String
  key : Option String := none
  ret : Option Want := none
  deriving DecidableEq, Repr

/-- `TimeseriesColumns`, timeseries/mod.rs 421-428. -/
inductive Columns
  | scenario (group : String)
  | column (name : String)
  deriving DecidableEq, Repr

/-- `Metric`, metric.rs 50-70; the four kinds of components are one. -/
inductive SMetric
  | literal (value : ℚ)
  | table (ref : String)
  /-- `Node`, `VirtualNode`, `Edge` and `InterNetworkTransfer` -/
  | component (ref : String)
  | series (name : String) (columns : Option Columns)
  | param (ref : PRef)
  | localParam (ref : PRef)
  deriving DecidableEq, Repr

/-- `IndexMetric`, metric.rs 681-694; series are left out. -/
inductive SIndex
  | constant (value : Nat)
  | table (ref : String)
  | node (name : String)
  | param (ref : PRef)
  | localParam (ref : PRef)
  | transfer (name : String)
  deriving DecidableEq, Repr

/-- `ConstantValue<f64>`, parameters/mod.rs. -/
inductive SConst
  | lit (value : ℚ)
  | table (ref : String)
  deriving DecidableEq, Repr

/-- `ConstantValue<u64>`. -/
inductive SNat
  | lit (value : Nat)
  | table (ref : String)
  deriving DecidableEq, Repr

/-- `ConstantFloatVec`. -/
inductive SList
  | lit (values : List ℚ)
  | table (ref : String)
  deriving DecidableEq, Repr

/-- The parameters of documents, `Parameter` in parameters/mod.rs, without name. -/
inductive SKind
  | constant (value : SConst)
  | constantScenario (values : SList) (group : String)
  | controlCurveInterpolated (storage : SMetric) (curves values : List SMetric)
  | aggregated (func : Agg.AggFunc) (metrics : List SMetric) (phase : Phase)
  | aggregatedIndex (func : Agg.AggFuncU64) (metrics : List SIndex) (phase : Phase)
  | asymmetric (on off : SIndex)
  | controlCurvePiecewise (storage : SMetric) (curves : List SMetric) (values : Option (List (ℚ × ℚ))) (maximum minimum : Option ℚ)
  | controlCurveIndex (storage : SMetric) (curves : List SMetric)
  | controlCurve (storage : SMetric) (curves values : List SMetric)
  | daily (values : SList)
  | indexed (index : SIndex) (metrics : List SMetric)
  | monthly (values : SList) (interp : Option Profiles.InterpDay)
  | weekly (values : SList) (interp : Option Profiles.InterpDay)
  | drawdown (day month residual : Option SNat)
  | max (metric : SMetric) (threshold : Option ℚ)
  | min (metric : SMetric) (threshold : Option ℚ)
  | negative (metric : SMetric)
  | polynomial (metric : SMetric) (coefficients : List ℚ) (scale offset : Option ℚ)
  | threshold (metric threshold : SMetric) (predicate : Temporal.Predicate) (returned : Option (List SMetric)) (ratchet : Bool)
  | delay (metric : SMetric) (delay : Nat) (initial : ℚ)
  | delayIndex (metric : SIndex) (delay : Nat) (initial : Nat)
  | division (numerator denominator : SMetric) (phase : Phase)
  | offset (metric : SMetric) (offset : SConst)
  | discount (rate : SMetric) (baseYear : Int)
  | interpolated (x : SMetric) (xp fp : List SMetric) (errorOnBounds : Option Bool)
  | negativeMax (metric : SMetric) (threshold : Option ℚ)
  | negativeMin (metric : SMetric) (threshold : Option ℚ)
  | rolling (metric : SMetric) (window : Nat) (initial : ℚ) (minValues : Option Nat) (func : Agg.AggFunc)
  | rollingIndex (metric : SIndex) (window : Nat) (initial : Nat) (minValues : Option Nat) (func : Agg.AggFuncU64)
  | placeholder
  | multiThreshold (metric : SMetric) (thresholds : List SMetric) (predicate : Temporal.Predicate)
      (returned : Option (List SMetric)) (ratchet : Bool)
  | diurnal (values : SList)
  /-- `DifferenceParameterBuilder` as made by `set_sub_node_min_volume`, nodes/piecewise_storage.rs 333-351: with both limits -/
  | difference (a b min max : SMetric)
  /-- `VolumeBetweenControlCurvesParameterBuilder` as made by `set_sub_node_max_volume`, nodes/piecewise_storage.rs 297-327; for a
  curve that is not given 1 above and 0 below, which is how volume_between.rs 39-46 reads it -/
  | volumeBetween (total upper lower : SMetric)

/-- A node, or virtual node, as far as parameters are concerned: its own metrics and its local parameters. -/
structure SNode where
  name : String
  uses : List SMetric
  params : List (String × SKind)

/-- `NetworkSchema`, network.rs. -/
structure Doc where
  nodes : List SNode
  virtuals : List SNode
  params : List (String × SKind)
  /-- the metrics of the metric sets -/
  outputs : List SMetric
  /-- the metrics that are transferred to other networks -/
  links : List SMetric := []

variable {W : Type}

/-- An action that may add parameters to the network. -/
def Step (W α : Type) := List (Param W) → Except Err (α × List (Param W))

/-- Nothing is added. -/
def Step.pure {α : Type} (a : α) : Step W α := fun added => .ok (a, added)

/-- The `?` operator: one action after the other, until one fails. -/
def Step.bind {α β : Type} (m : Step W α) (f : α → Step W β) : Step W β := fun added =>
  match m added with
  | .error e => .error e
  | .ok (a, added') => f a added'

instance : Monad (Step W) where
  pure := Step.pure
  bind := Step.bind

/-- An error. -/
def fail {α : Type} (e : Err) : Step W α := fun _ => .error e

/-- A value that may be missing. -/
def need {α : Type} (e : Err) : Option α → Step W α
  | none => fail e
  | some a => pure a

/-- `network.parameters().f64(..)` and `.u64(..)`, pywr-core/src/parameters/mod.rs 2973-2982. -/
def push (A : Args W) (n : PName) (k : Kind W) : Step W Unit := fun added => .ok ((), added ++ [⟨A.code n, k⟩])

/-- The same unless the name is there, `contains_name`, mod.rs 2999-3005. -/
def pushNew (A : Args W) (n : PName) (k : Kind W) : Step W Unit := fun added =>
  if added.any (fun p => p.name = A.code n) then .ok ((), added) else .ok ((), added ++ [⟨A.code n, k⟩])

/-- `iter().map(..).collect::<Result<_, _>>()`. -/
def each {α β : Type} (f : α → Step W β) : List α → Step W (List β)
  | [] => pure []
  | a :: as => do
    let b ← f a
    let bs ← each f as
    pure (b :: bs)

/-- The name of a parameter of a document, `ParameterName::new`, mod.rs 436-443. -/
def named (name : String) (parent : Option String) : PName := ⟨name, none, parent⟩

/-- `ParameterReference::load_f64`, metric.rs 551-571. -/
def PRef.load (A : Args W) (r : PRef) (parent : Option String) : Source W :=
  match r.key with
  | some _ => .param (.valueMulti (A.code (named r.name parent)) (r.ret.getD .before))
  | none => .param (.value (A.code (named r.name parent)) (r.ret.getD .before))

/-- `ParameterReference::load_u64`, metric.rs 573-589. -/
def PRef.loadIndex (A : Args W) (r : PRef) (parent : Option String) : Source W :=
  match r.key with
  | some _ => .param (.indexMulti (A.code (named r.name parent)) (r.ret.getD .before))
  | none => .param (.index (A.code (named r.name parent)) (r.ret.getD .before))

/-- `load_column_f64`, timeseries/mod.rs 189-210. -/
def loadColumn (A : Args W) (series : String) (cols : List (String × List ℚ)) (col : String) : Step W PName := do
  let c ← need .columnNotFound (cols.find? fun c => c.1 = col)
  pushNew A (named col (some series)) (.scheduled fun t => c.2[t]?)
  pure (named col (some series))

/-- `load_df_f64`, timeseries/mod.rs 304-325: the column of the scenario. -/
def loadGroup (A : Args W) (series : String) (cols : List (String × List ℚ)) (group : String) : Step W PName := do
  let i ← need .group (A.scenario group)
  pushNew A (named group (some series)) (.scheduled fun t => (cols[i.1]?).bind fun c => c.2[t]?)
  pure (named group (some series))

/-- `load_single_column_f64`, timeseries/mod.rs 235-267. -/
def loadSingle (A : Args W) (series : String) (cols : List (String × List ℚ)) : Step W PName :=
  match cols with
  | [] => fail .columnNotFound
  | [c] => loadColumn A series cols c.1
  | _ => fail (.columnRequired series)

/-- The branch for series, metric.rs 125-138. -/
def loadSeries (A : Args W) (series : String) (columns : Option Columns) : Step W (Source W) := do
  let cols ← need (.seriesNotFound series) (A.series series)
  let n ← match columns with
    | some (.scenario g) => loadGroup A series cols g
    | some (.column c) => loadColumn A series cols c
    | none => loadSingle A series cols
  pure (.param (.value (A.code n) .before))

/-- The branches for nodes, virtual nodes, edges and transfers; for the deficit nodes/core.rs 772-785. -/
def loadComponent (A : Args W) (ref : String) : Step W (Source W) :=
  match A.comp ref with
  | .error e => fail e
  | .ok (.shown f) => pure (.node fun w => (f w).map ofF)
  | .ok (.deficit node flow limit) => do
    pushNew A (named "deficit" (some node)) (.deficit (.node fun w => (flow w).map ofF) (.node fun w => (limit w).map ofF))
    pure (.param (.value (A.code (named "deficit" (some node))) .afterOrInitial))

/-- `Metric::load`, metric.rs 97-148. -/
def SMetric.load (A : Args W) (parent : Option String) : SMetric → Step W (Source W)
  | .literal v => pure (.lit (ofF v))
  | .table r => do
    let v ← need .table (A.table r)
    pure (.lit (ofF v))
  | .component c => loadComponent A c
  | .series s c => loadSeries A s c
  | .param r => pure (r.load A none)
  | .localParam r =>
    match parent with
    | none => fail (.needsParent r.name)
    | some p => pure (r.load A (some p))

/-- `IndexMetric::load`, metric.rs 710-765. -/
def SIndex.load (A : Args W) (parent : Option String) : SIndex → Step W (Source W)
  | .constant v => pure (.lit (ofU v))
  | .table r => do
    let v ← need .table (A.tableIndex r)
    pure (.lit (ofU v))
  | .node n => if A.node n then fail .todo else fail (.nodeNotFound n)
  | .param r => pure (r.loadIndex A none)
  | .localParam r =>
    match parent with
    | none => fail (.needsParent r.name)
    | some p => pure (r.loadIndex A (some p))
  | .transfer n => pure (.node fun w => (A.transfer n w).map ofU)

/-- `ConstantValue::load`. -/
def SConst.load (A : Args W) : SConst → Step W ℚ
  | .lit v => pure v
  | .table r => need .table (A.table r)

/-- `ConstantValue::load`, for an optional value with its default. -/
def natOr (A : Args W) (default : Nat) : Option SNat → Step W Nat
  | none => pure default
  | some (.lit v) => pure v
  | some (.table r) => need .table (A.tableIndex r)

/-- `ConstantFloatVec::load`. -/
def SList.load (A : Args W) : SList → Step W (List ℚ)
  | .lit vs => pure vs
  | .table r => need .table (A.tableList r)

/-- The numbers that metrics return. -/
def nums (xs : List (Option Val)) : List (Option ℚ) := xs.map fun o => o.map Val.num

/-- Control curves with values, pywr-core/src/parameters/control_curves/simple.rs 35-70. -/
def curveKind (x : Source W) (curves values : List (Source W)) : Kind W :=
  .other (x :: (curves ++ values)) fun xs =>
    match nums xs with
    | [] => none
    | q :: qs => (Curves.controlCurve q (qs.take curves.length) (qs.drop curves.length)).toOption

/-- Control curves with values between them, control_curves/interpolated.rs 35-66. -/
def interpolatedKind (x : Source W) (curves values : List (Source W)) : Kind W :=
  .other (x :: (curves ++ values)) fun xs =>
    match nums xs with
    | [] => none
    | q :: qs => (Curves.controlCurveInterpolated q (qs.take curves.length) (qs.drop curves.length)).toOption

/-- Control curves as an index, control_curves/index.rs 34-50. -/
def curveIndexKind (x : Source W) (curves : List (Source W)) : Kind W :=
  .otherIndex (x :: curves) fun xs =>
    match nums xs with
    | [] => none
    | q :: qs => (Curves.controlCurveIndex q qs).toOption

/-- Control curves with pairs of values, control_curves/piecewise.rs 36-72. -/
def piecewiseKind (x : Source W) (curves : List (Source W)) (values : List (ℚ × ℚ)) (maximum minimum : ℚ) : Kind W :=
  .other (x :: curves) fun xs =>
    match nums xs with
    | [] => none
    | q :: qs => (Curves.piecewise q qs values maximum minimum).toOption

/-- Pairs in the order in which their metrics are read. -/
def pairUp : List (Option Val) → Option (List (ℚ × ℚ))
  | [] => some []
  | some x :: some f :: rest => (pairUp rest).map ((x.num, f.num) :: ·)
  | _ => none

/-- Interpolation between points, interpolated.rs 36-59. -/
def pointsKind (x : Source W) (points : List (Source W × Source W)) (errorOnBounds : Bool) : Kind W :=
  .other (x :: points.flatMap fun p => [p.1, p.2]) fun xs =>
    match xs with
    | some q :: rest => (pairUp rest).bind fun ps => (Curves.linearInterpolation q.num ps errorOnBounds).toOption
    | _ => none

/-- The name of the parameter that compares, if values are returned: thresholds.rs 117-125. -/
def thresholdName (name : String) (parent : Option String) (returned : Option (List SMetric)) : PName :=
  match returned with
  | some _ => ⟨name, some "threshold", some name⟩
  | none => named name parent

/-- The same for several thresholds: thresholds.rs 340-344. -/
def multiThresholdName (name : String) (returned : Option (List SMetric)) : PName :=
  match returned with
  | some _ => ⟨name, some "threshold", some name⟩
  | none => named name none

/-- The parameter that returns values, thresholds.rs 140-150 and 359-370. -/
def addReturned (A : Args W) (name : String) (parent : Option String) (index : PName) : Option (List SMetric) → Step W Unit
  | none => pure ()
  | some values => do
    let vs ← each (SMetric.load A none) values
    push A (named name parent) (.indexed (.param (.index (A.code index) .before)) vs)

/-- `add_to_network` of the parameters. -/
def SKind.add (A : Args W) (name : String) (parent : Option String) : SKind → Step W Unit
  -- core.rs 174-184
  | .constant value => do
    let v ← value.load A
    push A (named name parent) (.constant v)
  -- core.rs 236-251, pywr-core/src/parameters/constant_scenario.rs 63-85
  | .constantScenario values group => do
    let vs ← values.load A
    let i ← need .group (A.scenario group)
    if vs.length = i.2 then
      let v ← need .group (vs[i.1]?)
      push A (named name parent) (.constant v)
    else fail .group
  -- control_curves.rs 33-69
  | .controlCurveInterpolated storage curves values => do
    let x ← storage.load A none
    let cs ← each (SMetric.load A none) curves
    let vs ← each (SMetric.load A none) values
    push A (named name parent) (interpolatedKind x cs vs)
  -- aggregated.rs 53-76
  | .aggregated func metrics phase => do
    let ms ← each (SMetric.load A parent) metrics
    push A (named name parent) (.aggregated ms func phase)
  -- aggregated.rs 122-145
  | .aggregatedIndex func metrics phase => do
    let ms ← each (SIndex.load A parent) metrics
    push A (named name parent) (.aggregatedIndex ms func phase)
  -- asymmetric_switch.rs 26-44
  | .asymmetric on off => do
    let a ← on.load A none
    let b ← off.load A none
    push A (named name parent) (.asymmetric a b)
  -- control_curves.rs 371-398
  | .controlCurvePiecewise storage curves values maximum minimum => do
    let x ← storage.load A parent
    let cs ← each (SMetric.load A parent) curves
    push A (named name parent) (piecewiseKind x cs (values.getD []) (maximum.getD 1) (minimum.getD 0))
  -- control_curves.rs 152-171
  | .controlCurveIndex storage curves => do
    let x ← storage.load A parent
    let cs ← each (SMetric.load A parent) curves
    push A (named name parent) (curveIndexKind x cs)
  -- control_curves.rs 270-294
  | .controlCurve storage curves values => do
    let x ← storage.load A none
    let cs ← each (SMetric.load A parent) curves
    let vs ← each (SMetric.load A parent) values
    push A (named name parent) (curveKind x cs vs)
  -- profiles.rs 34-65
  | .daily values => do
    let vs ← values.load A
    let vs ← need (.length 366 vs.length) (Profiles.dailyValues vs)
    push A (named name parent) (.scheduled fun t => Profiles.daily vs (A.time t))
  -- indexed_array.rs 26-46
  | .indexed index metrics => do
    let i ← index.load A none
    let ms ← each (SMetric.load A parent) metrics
    push A (named name parent) (.indexed i ms)
  -- profiles.rs 112-137
  | .monthly values interp => do
    let vs ← values.load A
    if vs.length = 12 then push A (named name parent) (.scheduled fun t => Profiles.monthly vs interp (A.time t))
    else fail (.length 12 vs.length)
  -- profiles.rs 586-609
  | .weekly values interp => do
    let vs ← values.load A
    if Profiles.weeklyAccepts vs then push A (named name parent) (.scheduled fun t => Profiles.weekly vs interp (A.time t))
    else fail .weeks
  -- profiles.rs 183-212, pywr-core/src/parameters/profiles/uniform_drawdown.rs 107-117
  | .drawdown day month residual => do
    let d ← natOr A 1 day
    let m ← natOr A 1 month
    let r ← natOr A 0 residual
    if 0 ≤ Profiles.castI8 d ∧ 0 ≤ Profiles.castI8 m then
      let doy ← need .date (Profiles.resetDoy (Profiles.castI8 m).toNat (Profiles.castI8 d).toNat)
      push A (named name parent) (.scheduled fun t => some (Profiles.drawdown (Profiles.castU8 r) doy (A.time t).date))
    else fail .date
  -- core.rs 286-304
  | .max metric limit => do
    let x ← metric.load A none
    push A (named name parent) (.max x (limit.getD 0))
  -- core.rs 422-439
  | .min metric limit => do
    let x ← metric.load A none
    push A (named name parent) (.min x (limit.getD 0))
  -- core.rs 473-487
  | .negative metric => do
    let x ← metric.load A none
    push A (named name parent) (.negative x)
  -- polynomial.rs 29-50
  | .polynomial metric coefficients scale shift => do
    let x ← metric.load A none
    push A (named name parent) (.polynomial x coefficients (scale.getD 1) (shift.getD 0))
  -- thresholds.rs 108-153
  | .threshold metric limit predicate returned ratchet => do
    let x ← metric.load A none
    let y ← limit.load A none
    push A (thresholdName name parent returned) (.threshold x y predicate ratchet)
    addReturned A name parent (thresholdName name parent returned) returned
  -- delay.rs 24-41
  | .delay metric d initial => do
    let x ← metric.load A none
    push A (named name parent) (.delay x d initial)
  -- delay.rs 56-73
  | .delayIndex metric d initial => do
    let x ← metric.load A none
    push A (named name parent) (.delayIndex x d initial)
  -- core.rs 352-371
  | .division numerator denominator phase => do
    let a ← numerator.load A none
    let b ← denominator.load A none
    push A (named name parent) (.division a b phase)
  -- offset.rs 46-63
  | .offset metric change => do
    let x ← metric.load A none
    let o ← change.load A
    push A (named name parent) (.offset x o)
  -- piecewise_storage.rs 113-125, 333-351: the metrics are loaded with the name of the node
  | .difference a b lo hi => do
    let x ← a.load A parent
    let y ← b.load A parent
    let l ← lo.load A parent
    let u ← hi.load A parent
    push A (named name parent) (.difference x y (some l) (some u))
  -- piecewise_storage.rs 113-125, 139-151, 297-327
  | .volumeBetween total upper lower => do
    let x ← total.load A parent
    let u ← upper.load A parent
    let l ← lower.load A parent
    push A (named name parent) (.volumeBetween x u l)
  -- discount_factor.rs 26-42
  | .discount rate baseYear => do
    let r ← rate.load A none
    push A (named name parent) (.discount r baseYear)
  -- interpolated.rs 37-77
  | .interpolated x xp fp errorOnBounds => do
    let x ← x.load A none
    if xp.length = fp.length then
      let xs ← each (SMetric.load A none) xp
      let fs ← each (SMetric.load A none) fp
      push A (named name parent) (pointsKind x (xs.zip fs) (errorOnBounds.getD true))
    else fail (.length xp.length fp.length)
  -- core.rs 533-551
  | .negativeMax metric limit => do
    let x ← metric.load A none
    push A (named name parent) (.negativeMax x (limit.getD 0))
  -- core.rs 601-619
  | .negativeMin metric limit => do
    let x ← metric.load A none
    push A (named name parent) (.negativeMin x (limit.getD 0))
  -- rolling.rs 37-56
  | .rolling metric window initial minValues func => do
    let x ← metric.load A none
    push A (named name parent) (.rolling x window initial (minValues.getD window) func)
  -- rolling.rs 80-98
  | .rollingIndex metric window initial minValues func => do
    let x ← metric.load A none
    push A (named name parent) (.rollingIndex x window initial (minValues.getD window) func)
  -- placeholder.rs 22-28
  | .placeholder => fail (.placeholder name)
  -- thresholds.rs 332-373
  | .multiThreshold metric thresholds predicate returned ratchet => do
    let x ← metric.load A none
    let ys ← each (SMetric.load A parent) thresholds
    push A (multiThresholdName name returned) (.multiThreshold x ys predicate ratchet)
    addReturned A name parent (multiThresholdName name returned) returned
  -- profiles.rs 654-675
  | .diurnal values => do
    let vs ← values.load A
    if vs.length = 24 then push A (named name parent) (.scheduled fun t => Profiles.diurnal vs (A.time t))
    else fail (.length 24 vs.length)

/-- The metrics of a node, as loaded when it is added (for example nodes/core.rs 797-830); `parent` is the node. -/
def SNode.load (A : Args W) (n : SNode) : Step W (List (Source W)) := each (SMetric.load A (some n.name)) n.uses

/-- The local parameters of a node, network.rs 604-616. -/
def SNode.addParams (A : Args W) (n : SNode) : Step W (List Unit) :=
  each (fun p => SKind.add A p.1 (some n.name) p.2) n.params

/-- `Metric::load_as_output`, metric.rs 203-221, with `name` (150-162) and `sub_type` (186-201); metric sets have no parent
(metric_sets/mod.rs 191). -/
def Doc.loadOutput (A : Args W) (D : Doc) (m : SMetric) : Step W (Source W) := do
  let s ← m.load A none
  match m with
  | .literal _ => fail .literalOutput
  | .param r => if D.params.any (fun p => p.1 = r.name) then pure s else fail (.paramNotFound r.name)
  | .localParam r => if D.params.any (fun p => p.1 = r.name) then pure s else fail (.paramNotFound r.name)
  | _ => pure s

/-- `validate`, network.rs 521-547: no two nodes or virtual nodes have the same name. -/
def Doc.valid (D : Doc) : Bool := ((D.nodes ++ D.virtuals).map SNode.name).Nodup

/-- `NetworkSchema::add_to_network`, network.rs 550-660, as far as parameters are concerned. Returns the metrics of the
nodes and virtual nodes, those of the metric sets, and those that are transferred to other networks, which
`MultiNetworkModelSchema::create_model_builder` adds (`pywr-schema/src/model.rs:913-957`). -/
def Doc.load (A : Args W) (D : Doc) : Step W (List (Source W) × List (Source W) × List (Source W)) := do
  if D.valid then
    let us ← each (SNode.load A) D.nodes
    let vs ← each (SNode.load A) D.virtuals
    let _ ← each (SNode.addParams A) D.nodes
    let _ ← each (fun p => SKind.add A p.1 none p.2) D.params
    let os ← each (D.loadOutput A) D.outputs
    let ls ← each (SMetric.load A none) D.links
    pure (us.flatten ++ vs.flatten, os, ls)
  else fail .duplicate

/-- Loading starts with no parameters. -/
def Doc.loaded (A : Args W) (D : Doc) : Except Err ((List (Source W) × List (Source W) × List (Source W)) × List (Param W)) := D.load A []

/-- What the calculations use besides parameters. -/
def Args.env (A : Args W) : Env := ⟨fun t => (A.time t).date.year, A.fmax⟩

/-- The references of metrics. -/
def refsOf (ss : List (Source W)) : List Ref := ss.map Source.ref

/-- What the solver does, with the values of the metrics of all nodes. -/
def solving (solve : Nat → W → List ℚ → Option W) (ss : List (Source W)) (t : Nat) (w : W) (vs : List Val) : Option W :=
  (collect (fetch (some w) ss vs)).bind fun xs => solve t w (xs.map Val.num)

/-- The members of a list at these positions, with their positions. -/
def pick {α : Type} (ids : List Nat) (l : List α) : List (Nat × α) := ids.filterMap fun i => (l[i]?).map fun x => (i, x)

/-- What the network does at the start of a step, with the values of the metrics that are known then. -/
def preparing (prepare : Nat → W → List (Nat × ℚ) → Option W) (ps : List (Nat × Source W)) (t : Nat) (w : W) (vs : List Val) :
    Option W :=
  (collect (fetch none (ps.map Prod.snd) vs)).bind fun xs => prepare t w ((ps.map Prod.fst).zip (xs.map Val.num))

/-- How a document ends. -/
inductive Outcome (W : Type)
  | notLoaded (e : Err)
  | notBuilt
  | failed
  | done (net : W) (values : List ℚ)

/-- A document is loaded, built and run for `n + 1` steps: the state of the network and the values of the metric sets at
the end. `prepare` is what the network does at the start of a step with the values of the metrics of nodes at the positions
`ids`, which have to be simple (`SimpleMetricF64`, `pywr-core/src/metric.rs:66-90`), `solve` what the solver does with the values
of the metrics of the nodes. -/
def Doc.run (A : Args W) (D : Doc) (ids : List Nat) (prepare : Nat → W → List (Nat × ℚ) → Option W) (solve : Nat → W → List ℚ → Option W) (w : W) (n : Nat) :
    Outcome W :=
  match D.loaded A with
  | .error e => .notLoaded e
  | .ok ((ss, os, _), ps) =>
    match buildNetwork (ps.length + 1) (builders ps) (refsOf ((pick ids ss).map Prod.snd)) (refsOf ss) with
    | none => .notBuilt
    | some net =>
      match report (calcs A.env ps (preparing prepare (pick ids ss)) (solving solve ss)) net w (refsOf os) n with
      | none => .notBuilt
      | some none => .failed
      | some (some (w', vs)) =>
        match collect (fetch (some w') os vs) with
        | none => .failed
        | some xs => .done w' (xs.map Val.num)

end Verif.Load
