/-!
# Building and evaluating the parameters of a network

Models `ParameterCollectionBuilder::build` with the resolution of references between parameters
(`pywr-core/src/parameters/mod.rs`, `pywr-core/src/metric.rs`), the schedules it produces, and
the order in which a run executes them (`pywr-core/src/network.rs`).

Simplifications:
* names are natural numbers (`ParameterName`, mod.rs 427-471, is only compared for equality);
* the many builders are reduced to what decides order: the references they resolve, the phase each
  is resolved for, and which of the parameter forms they return (`Style`).  Everything else that
  can make a builder return an error is the arbitrary predicate `accepts`;
* keys of multi-valued parameters, and the arithmetic of each parameter, are left out.  Instead of
  numbers, the stores hold which parameter produced the content, in which phase and at which step.
-/

namespace Verif.Params

abbrev Name := Nat

/-- The three value types; `f64`, `u64` and `MultiValue` parameters are kept apart
(mod.rs 1710-1733). -/
inductive Ty
  | f64
  | u64
  | multi
  deriving DecidableEq, Repr

/-- `ParameterReturnValue`, mod.rs 420-425. -/
inductive Want
  | before
  | after
  | afterOrInitial
  deriving DecidableEq, Repr

/-- `MetricConsumerPhase`, metric.rs 423-429. -/
inductive Phase
  | before
  | after
  | both
  deriving DecidableEq, Repr

/-- The four stages of calculation: constants when a network is set up, simple parameters and
the two phases of general parameters at every step. -/
inductive Stage
  | const
  | simple
  | before
  | after
  deriving DecidableEq, Repr

/-- A place where a computed value is stored: for each stage there is one array per value type
(state/mod.rs 784-795; `ConstParameterIndex`, `SimpleParameterIndex`, `GeneralBeforeValueIndex`,
`GeneralAfterValueIndex`, mod.rs 106-351). -/
structure Slot where
  stage : Stage
  ty : Ty
  i : Nat
  deriving DecidableEq, Repr

/-- `ParameterIndex`, mod.rs 353-374. -/
inductive Index
  | const (i : Nat)
  | simple (i : Nat)
  | general (before after : Option Nat)
  deriving DecidableEq, Repr

/-- `UnresolvedMetricF64` (metric.rs 464-506) and `UnresolvedMetricU64` (1475-1487).  `literal` is a
constant; `component` stands for the metrics of nodes, edges, virtual storage and transfers. -/
inductive Ref
  | value (name : Name) (want : Want)
  | valueMulti (name : Name) (want : Want)
  | index (name : Name) (want : Want)
  | indexMulti (name : Name) (want : Want)
  | literal
  | component
  deriving DecidableEq, Repr

/-- `MetricF64` (metric.rs 131-176) and `MetricU64` (1351-1366). -/
inductive Metric
  | slot (s : Slot)
  | literal
  | component
  deriving DecidableEq, Repr

/-- `MetricF64ResolutionError` (metric.rs 431-461); node-like things are taken to be found. -/
inductive ResolveError
  | notFound (name : Name)
  | wrongPhase (name : Name) (want : Want) (phase : Phase)
  deriving DecidableEq, Repr

/-- The three `HashMap`s of `ResolutionMaps`, in order of insertion (mod.rs 3044, 3081, 3118). -/
abbrev Maps := List (Name × Ty × Index)

/-- `maps.parameters_f64.get(name)` and its two siblings. -/
def lookup (maps : Maps) (t : Ty) (n : Name) : Option Index :=
  (maps.find? (fun e => e.1 = n ∧ e.2.1 = t)).map (fun e => e.2.2)

/-- The general branch shared by the five `resolve_parameter_index_*` functions,
metric.rs 827-935 (and 971-1079, 1127-1261, 1566-1674, 1705-1839). -/
def resolveGeneral (n : Name) (t : Ty) (before after : Option Nat) (want : Want) (phase : Phase) :
    Except ResolveError Metric :=
  match want, phase with
  | .before, _ =>
    match before with
    | some i => .ok (.slot ⟨.before, t, i⟩)
    | none => .error (.wrongPhase n want phase)
  | .after, .before => .error (.wrongPhase n want phase)
  | .after, .both => .error (.wrongPhase n want phase)
  | .after, .after =>
    match after with
    | some i => .ok (.slot ⟨.after, t, i⟩)
    | none => .error (.wrongPhase n want phase)
  | .afterOrInitial, _ =>
    match after with
    | some i => .ok (.slot ⟨.after, t, i⟩)
    | none => .error (.wrongPhase n want phase)

/-- `resolve_parameter_index_{f64,u64,multi}_to_metric_f64`, metric.rs 797-1263: for constant and
simple parameters only the "before" value exists. -/
def resolveStrict (n : Name) (t : Ty) (idx : Index) (want : Want) (phase : Phase) :
    Except ResolveError Metric :=
  match idx with
  | .const i =>
    match want with
    | .before => .ok (.slot ⟨.const, t, i⟩)
    | _ => .error (.wrongPhase n want phase)
  | .simple i =>
    match want with
    | .before => .ok (.slot ⟨.simple, t, i⟩)
    | _ => .error (.wrongPhase n want phase)
  | .general b a => resolveGeneral n t b a want phase

/-- `resolve_parameter_index_{u64,multi}_to_metric_u64`, metric.rs 1555-1841: constant and simple
parameters resolve whatever value is asked for. -/
def resolveLenient (n : Name) (t : Ty) (idx : Index) (want : Want) (phase : Phase) :
    Except ResolveError Metric :=
  match idx with
  | .const i => .ok (.slot ⟨.const, t, i⟩)
  | .simple i => .ok (.slot ⟨.simple, t, i⟩)
  | .general b a => resolveGeneral n t b a want phase

/-- `UnresolvedMetricF64::resolve` (metric.rs 568-784) and `UnresolvedMetricU64::resolve`
(1500-1541). -/
def resolve (maps : Maps) (phase : Phase) : Ref → Except ResolveError Metric
  | .literal => .ok .literal
  | .component => .ok .component
  | .value n want =>
    match lookup maps .f64 n with
    | some idx => resolveStrict n .f64 idx want phase
    | none =>
      match lookup maps .u64 n with
      | some idx => resolveStrict n .u64 idx want phase
      | none => .error (.notFound n)
  | .valueMulti n want =>
    match lookup maps .multi n with
    | some idx => resolveStrict n .multi idx want phase
    | none => .error (.notFound n)
  | .index n want =>
    match lookup maps .u64 n with
    | some idx => resolveLenient n .u64 idx want phase
    | none => .error (.notFound n)
  | .indexMulti n want =>
    match lookup maps .multi n with
    | some idx => resolveLenient n .multi idx want phase
    | none => .error (.notFound n)

/-- `GeneralAfterOperation`, mod.rs 776-779, or none. -/
inductive AfterOp
  | none
  | value
  | hook
  deriving DecidableEq, Repr

/-- Which form a builder returns.
* `constant`: constant.rs 140-149, constant_scenario.rs 64-86;
* `simple`: array.rs 117-127, profiles/monthly.rs 125-135, ...;
* `simplest`: aggregated.rs 182-214 and aggregated_index.rs 182-218 in the "before" phase;
* `simpleOr`: difference.rs 158-185 (`before`, no after), delay.rs 261-282 and rolling.rs 329-353
  (`before` with an after hook);
* `general`: everything else (max.rs 81, deficit.rs 87, division.rs 126-136, hydropower.rs
  288-294, ...). -/
inductive Style
  | constant
  | simple
  | simplest
  | simpleOr (after : AfterOp)
  | general (before : Bool) (after : AfterOp)
  deriving DecidableEq, Repr

/-- What a builder can tell about a resolved metric: the variant of `MetricF64`, not the index. -/
inductive Shape
  | const
  | simple
  | before
  | after
  | literal
  | component
  deriving DecidableEq, Repr

def Metric.shape : Metric → Shape
  | .slot ⟨.const, _, _⟩ => .const
  | .slot ⟨.simple, _, _⟩ => .simple
  | .slot ⟨.before, _, _⟩ => .before
  | .slot ⟨.after, _, _⟩ => .after
  | .literal => .literal
  | .component => .component

/-- A reference resolved for a phase. -/
structure Use where
  ref : Ref
  phase : Phase
  deriving DecidableEq, Repr

/-- A `Box<dyn ParameterBuilder<T>>`, mod.rs 919-929. -/
structure Builder where
  name : Name
  ty : Ty
  uses : List Use
  style : Style
  /-- whether none of the builder's own checks fails, e.g. constant_scenario.rs 68-77,
  volume_between.rs 97-103, hydropower.rs 201-206 -/
  accepts : List Shape → Bool := fun _ => true

/-- A resolved reference. -/
structure Read where
  use : Use
  metric : Metric
  deriving DecidableEq, Repr

def Read.shape (r : Read) : Shape := r.metric.shape

/-- `BuiltParameter`, mod.rs 899-903. -/
inductive Form
  | const
  | simple
  | general (before : Bool) (after : AfterOp)
  deriving DecidableEq, Repr

/-- `TryFrom<MetricF64> for ConstantMetricF64`, metric.rs 367-386. -/
def Shape.isConst : Shape → Bool
  | .const => true
  | .literal => true
  | _ => false

/-- `TryFrom<MetricF64> for SimpleMetricF64`, metric.rs 346-355. -/
def Shape.isSimple : Shape → Bool
  | .const => true
  | .simple => true
  | .literal => true
  | _ => false

/-- The form returned, given the resolved metrics; see `Style`. -/
def formOf (style : Style) (ms : List Shape) : Form :=
  match style with
  | .constant => .const
  | .simple => .simple
  | .simplest =>
    if ms.all Shape.isConst then .const
    else if ms.all Shape.isSimple then .simple
    else .general true .none
  | .simpleOr a => if ms.all Shape.isSimple then .simple else .general true a
  | .general b a => .general b a

/-- `Result<MaybeBuiltParameter, ParameterBuildError>`, mod.rs 854-911. -/
inductive Attempt
  | built (form : Form) (reads : List Read)
  | retry (missing : Name)
  | failed

/-- The `resolve_metric_*!` macros in sequence, mod.rs 943-1175: the first reference that does not
resolve decides, a missing parameter leads to a retry and anything else to an error. -/
def resolveAll (maps : Maps) : List Use → Except ResolveError (List Read)
  | [] => .ok []
  | u :: us =>
    match resolve maps u.phase u.ref with
    | .error e => .error e
    | .ok m =>
      match resolveAll maps us with
      | .error e => .error e
      | .ok rs => .ok ({ use := u, metric := m } :: rs)

/-- `ParameterBuilder::build`, mod.rs 928. -/
def attempt (maps : Maps) (b : Builder) : Attempt :=
  match resolveAll maps b.uses with
  | .error (.notFound n) => .retry n
  | .error (.wrongPhase ..) => .failed
  | .ok rs =>
    if b.accepts (rs.map Read.shape) then .built (formOf b.style (rs.map Read.shape)) rs
    else .failed

/-- An entry of one of the four schedules: `constant_resolve_order`, `simple_resolve_order`,
`general_before_order`, `general_after_order` (mod.rs 1726-1732).  A hook has no output. -/
structure Op where
  name : Name
  out : Option Slot
  reads : List Read
  deriving DecidableEq, Repr

/-- `ParameterCollection`, mod.rs 1710-1733: the four schedules, with the resolution maps filled
while building. -/
structure Collection where
  ops : Stage → List Op
  maps : Maps

/-- `ParameterCollection::default`, mod.rs 1735-1760. -/
def Collection.empty : Collection := ⟨fun _ => [], []⟩

/-- `ParameterCollection::has_name`, mod.rs 1930-1934. -/
def Collection.hasName (c : Collection) (n : Name) : Bool := c.maps.any (fun e => e.1 = n)

/-- The values written by a schedule. -/
def outs (ops : List Op) : List Slot := ops.filterMap Op.out

/-- The next free index in the array of a value type: `self.constant_f64.len()`,
`self.simple_f64.len()`, `self.num_general_before_f64` and so on. -/
def nextIndex (ops : List Op) (t : Ty) : Nat := (outs ops).countP (fun s => s.ty = t)

/-- Append to one of the schedules. -/
def Collection.addOp (c : Collection) (st : Stage) (op : Op) : Collection :=
  { c with ops := fun st' => if st' = st then c.ops st' ++ [op] else c.ops st' }

/-- Append an operation that writes a new slot; returns the index of the slot. -/
def Collection.addValue (c : Collection) (st : Stage) (n : Name) (t : Ty) (rs : List Read) :
    Collection × Nat :=
  let i := nextIndex (c.ops st) t
  (c.addOp st ⟨n, some ⟨st, t, i⟩, rs⟩, i)

/-- `resolution_maps.parameters_*.insert(name, idx)`, mod.rs 3044, 3081, 3118. -/
def Collection.register (c : Collection) (n : Name) (t : Ty) (idx : Index) : Collection :=
  { c with maps := c.maps ++ [(n, t, idx)] }

/-- The "before" calculation reads the references resolved for the "before" phase. -/
def readsBefore (rs : List Read) : List Read := rs.filter (fun r => r.use.phase ≠ .after)

/-- The "after" calculation reads the references resolved for the "after" phase. -/
def readsAfter (rs : List Read) : List Read := rs.filter (fun r => r.use.phase ≠ .before)

/-- `push_general_*` (mod.rs 1951-1995, 2113-2159, 2279-2325): the "before" half. -/
def pushBefore (c : Collection) (n : Name) (t : Ty) (has : Bool) (rs : List Read) :
    Collection × Option Nat :=
  if has then
    let r := c.addValue .before n t (readsBefore rs)
    (r.1, some r.2)
  else (c, none)

/-- `push_general_*`: the "after" half. -/
def pushAfter (c : Collection) (n : Name) (t : Ty) (op : AfterOp) (rs : List Read) :
    Collection × Option Nat :=
  match op with
  | .none => (c, none)
  | .value =>
    let r := c.addValue .after n t (readsAfter rs)
    (r.1, some r.2)
  | .hook => (c.addOp .after ⟨n, none, readsAfter rs⟩, none)

/-- `push_const_*`, `push_simple_*`, `push_general_*` and the insertion into the resolution map,
mod.rs 1951-2019 and 3037-3045. -/
def push (c : Collection) (b : Builder) (form : Form) (rs : List Read) : Collection :=
  match form with
  | .const =>
    let r := c.addValue .const b.name b.ty rs
    r.1.register b.name b.ty (.const r.2)
  | .simple =>
    let r := c.addValue .simple b.name b.ty rs
    r.1.register b.name b.ty (.simple r.2)
  | .general before after =>
    let r₁ := pushBefore c b.name b.ty before rs
    let r₂ := pushAfter r₁.1 b.name b.ty after rs
    r₂.1.register b.name b.ty (.general r₁.2 r₂.2)

/-- `ParameterCollectionBuilderError`, mod.rs 2947-2961. -/
inductive BuildError
  | duplicate (name : Name)
  | buildFailed (name : Name)
  | circular (names : List Name)
  | notFound (name : Name)
  deriving DecidableEq, Repr

/-- One round over the builders, mod.rs 3028-3132. -/
def pass (c : Collection) : List Builder → Except BuildError (Collection × List (Builder × Name))
  | [] => .ok (c, [])
  | b :: bs =>
    if c.hasName b.name then .error (.duplicate b.name)
    else
      match attempt c.maps b with
      | .failed => .error (.buildFailed b.name)
      | .built form rs => pass (push c b form rs) bs
      | .retry m =>
        match pass c bs with
        | .error e => .error e
        | .ok (c', failed) => .ok (c', (b, m) :: failed)

/-- What is reported when a round built nothing, mod.rs 3136-3159. -/
def stuck (failed : List (Builder × Name)) : BuildError :=
  let names := failed.map (fun f => f.1.name)
  match (failed.map Prod.snd).find? (fun m => ¬ m ∈ names) with
  | some m => .notFound m
  | none => .circular names

/-- The `while !self.is_empty()` loop, mod.rs 3025-3169; `none` is running out of fuel. -/
def loop : Nat → Collection → List Builder → Option (Except BuildError Collection)
  | 0, _, _ => none
  | fuel + 1, c, bs =>
    if bs.isEmpty then some (.ok c)
    else
      match pass c bs with
      | .error e => some (.error e)
      | .ok (c', failed) =>
        if bs.length = failed.length then some (.error (stuck failed))
        else loop fuel c' (failed.map Prod.fst)

/-- The first name that occurred before, mod.rs 3011-3022. -/
def firstDuplicate : List Name → List Name → Option Name
  | _, [] => none
  | seen, n :: ns => if n ∈ seen then some n else firstDuplicate (n :: seen) ns

/-- The builders by value type, in the order of mod.rs 3013-3017, 3031, 3068, 3105. -/
def arrange (bs : List Builder) : List Builder :=
  bs.filter (fun b => b.ty = .f64) ++ bs.filter (fun b => b.ty = .u64) ++
    bs.filter (fun b => b.ty = .multi)

/-- `ParameterCollectionBuilder::build`, mod.rs 3005-3172. -/
def build (fuel : Nat) (builders : List Builder) : Option (Except BuildError Collection) :=
  let bs := arrange builders
  match firstDuplicate [] (bs.map Builder.name) with
  | some n => some (.error (.duplicate n))
  | none => loop fuel Collection.empty bs

/-! ## Execution -/

/-- What a slot holds: which parameter wrote it, in which stage and at which time-step. -/
structure Content where
  name : Name
  stage : Stage
  step : Nat
  deriving DecidableEq, Repr

/-- The value arrays of one scenario's `State`; `none` is the initial content. -/
abbrev Store := Slot → Option Content

/-- An operation was executed at a step and observed these contents. -/
structure Observation where
  op : Op
  stage : Stage
  step : Nat
  seen : List (Read × Option Content)

/-- The content a metric gives, if it is that of a parameter. -/
def observe (σ : Store) (r : Read) : Option (Read × Option Content) :=
  match r.metric with
  | .slot s => some (r, σ s)
  | _ => none

/-- `state.set_*`; a hook writes nothing. -/
def write (σ : Store) (out : Option Slot) (v : Content) : Store :=
  match out with
  | some s => fun s' => if s' = s then some v else σ s'
  | none => σ

/-- One entry of a schedule: compute from the current values, then `state.set_*`
(mod.rs 2459-2491, 2601-2640, 2757-2789, 2866-2893). -/
def exec (stage : Stage) (t : Nat) (op : Op) (σ : Store) : Store × Observation :=
  (write σ op.out ⟨op.name, stage, t⟩, ⟨op, stage, t, op.reads.filterMap (observe σ)⟩)

/-- A whole schedule. -/
def execAll (stage : Stage) (t : Nat) : List Op → Store → Store × List Observation
  | [], σ => (σ, [])
  | op :: ops, σ =>
    let (σ₁, o) := exec stage t op σ
    let (σ₂, os) := execAll stage t ops σ₁
    (σ₂, o :: os)

/-- `Network::setup_network` computes the constants once, network.rs 588-629. -/
def setup (c : Collection) : Store × List Observation :=
  execAll .const 0 (c.ops .const) (fun _ => none)

/-- A time-step: `compute_components` (network.rs 995-1034), the solver, `after` (1043-1074). -/
def stepParams (c : Collection) (t : Nat) (σ : Store) : Store × List Observation :=
  let (σ₁, o₁) := execAll .simple t (c.ops .simple) σ
  let (σ₂, o₂) := execAll .before t (c.ops .before) σ₁
  let (σ₃, o₃) := execAll .after t (c.ops .after) σ₂
  (σ₃, o₁ ++ o₂ ++ o₃)

/-- The store and everything observed after `n` steps. -/
def run (c : Collection) : Nat → Store × List Observation
  | 0 => setup c
  | n + 1 =>
    let (σ, os) := run c n
    let (σ', os') := stepParams c n σ
    (σ', os ++ os')

end Verif.Params
