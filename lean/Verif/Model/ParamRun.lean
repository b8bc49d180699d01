import Verif.Model.Params

/-!
# Values of the parameters during a run

Continues `Model/Params.lean`: there the value arrays held who wrote them, here they hold values, and the parameters
have internal states. Models `Network::setup_network` (`pywr-core/src/network.rs:588-629`), a time-step
(`compute_components`, 995-1034, the solver, and `after`, 1043-1074), and the loops over the schedules
(`pywr-core/src/parameters/mod.rs:2443-2940`), for one scenario.

Simplifications:
* what a parameter calculates from the values of its references, the time-step, its internal state and the state of the
  nodes is an arbitrary partial function (`none` is an error, which ends the run); literals and keys of multi-valued
  parameters belong to that function;
* `W` is the state of the nodes, virtual storages, edges and transfers; what nodes do with the values of the
  parameters they refer to at the start of a step, and what the solver does, are arbitrary partial functions;
* internal states are found by the name of the parameter instead of its index (`ParameterStates`, mod.rs 512-629);
  setting them up does not fail.
-/

namespace Verif.Params

/-- What is calculated by parameters, nodes and the solver. -/
structure Calcs (V S W : Type) where
  /-- the initial content of the value arrays, state/mod.rs 250-262 -/
  zero : V
  /-- `Parameter::setup`, mod.rs 690-697 -/
  setup : Name → S
  /-- `ConstParameter::compute`, `SimpleParameter::compute`, `GeneralBeforeParameter::before`,
  `GeneralAfterParameter::after`, mod.rs 748-765, 1188-1210; only the latter two get the state of the nodes -/
  compute : Name → Stage → Nat → Option W → S → List V → Option (V × S)
  /-- `GeneralAfterParameterHook::after`, mod.rs 767-774 -/
  hook : Name → Nat → W → S → List V → Option S
  /-- `before` of nodes and virtual storages, network.rs 1010-1024 -/
  nodes : Nat → W → List V → Option W
  /-- the solver, network.rs 758-814 -/
  solve : Nat → W → List V → Option W

/-- `State` (state/mod.rs 784-795) and `ParameterStates` of a scenario. -/
structure Scene (V S W : Type) where
  store : Slot → V
  inner : Name → S
  world : W

variable {V S W : Type}

/-- The values of the metrics that are values of parameters, in order. -/
def valuesOf (store : Slot → V) : List Read → List V
  | [] => []
  | r :: rs =>
    match r.metric with
    | .slot s => store s :: valuesOf store rs
    | _ => valuesOf store rs

/-- The part of the state that is given to a calculation: `GeneralParameterContext` has the network and its state
(mod.rs 731-741), `SimpleParameterContext` and constant parameters only have values of parameters (1179-1186, 1200-1206). -/
def sees (stage : Stage) (w : W) : Option W :=
  match stage with
  | .const => none
  | .simple => none
  | .before => some w
  | .after => some w

/-- One entry of a schedule (mod.rs 2459-2491, 2601-2640, 2757-2789, 2866-2893). -/
def calcOp (k : Calcs V S W) (stage : Stage) (t : Nat) (op : Op) (x : Scene V S W) : Option (Scene V S W) :=
  match op.out with
  | some s =>
    match k.compute op.name stage t (sees stage x.world) (x.inner op.name) (valuesOf x.store op.reads) with
    | none => none
    | some (v, i) =>
      some { x with
        store := fun s' => if s' = s then v else x.store s'
        inner := fun n => if n = op.name then i else x.inner n }
  | none =>
    match k.hook op.name t x.world (x.inner op.name) (valuesOf x.store op.reads) with
    | none => none
    | some i => some { x with inner := fun n => if n = op.name then i else x.inner n }

/-- A whole schedule. -/
def calcAll (k : Calcs V S W) (stage : Stage) (t : Nat) : List Op → Scene V S W → Option (Scene V S W)
  | [], x => some x
  | op :: ops, x =>
    match calcOp k stage t op x with
    | none => none
    | some y => calcAll k stage t ops y

/-- A network with its parameters, the metrics read by nodes at the start of a step, and those read by the solver. -/
structure Network where
  params : Collection
  nodeReads : List Read
  solveReads : List Read

/-- `NetworkBuilder::build`, as far as parameters are concerned: nodes are resolved after the parameters, for the phase
"before"; what they read at the start of a step has to be simple (node.rs 219-330). -/
def buildNetwork (fuel : Nat) (bs : List Builder) (nodeRefs solveRefs : List Ref) : Option Network :=
  match build fuel bs with
  | some (.ok c) =>
    match resolveAll c.maps (nodeRefs.map fun r => ⟨r, .before⟩) with
    | .error _ => none
    | .ok nodeReads =>
      match resolveAll c.maps (solveRefs.map fun r => ⟨r, .before⟩) with
      | .error _ => none
      | .ok solveReads =>
        if nodeReads.all (fun r => r.shape.isSimple) then some ⟨c, nodeReads, solveReads⟩ else none
  | _ => none

/-- `Network::setup_network`, network.rs 588-629: the constants are calculated once. -/
def startScene (k : Calcs V S W) (net : Network) (w : W) : Option (Scene V S W) :=
  calcAll k .const 0 (net.params.ops .const) ⟨fun _ => k.zero, k.setup, w⟩

/-- A time-step: `compute_components` (network.rs 995-1034), the solver, `after` (1043-1074). -/
def stepScene (k : Calcs V S W) (net : Network) (t : Nat) (x : Scene V S W) : Option (Scene V S W) :=
  match calcAll k .simple t (net.params.ops .simple) x with
  | none => none
  | some x₁ =>
    match k.nodes t x₁.world (valuesOf x₁.store net.nodeReads) with
    | none => none
    | some w₁ =>
      match calcAll k .before t (net.params.ops .before) { x₁ with world := w₁ } with
      | none => none
      | some x₂ =>
        match k.solve t x₂.world (valuesOf x₂.store net.solveReads) with
        | none => none
        | some w₂ => calcAll k .after t (net.params.ops .after) { x₂ with world := w₂ }

/-- The state after `n` steps. -/
def runScene (k : Calcs V S W) (net : Network) (w : W) : Nat → Option (Scene V S W)
  | 0 => startScene k net w
  | n + 1 =>
    match runScene k net w n with
    | none => none
    | some x => stepScene k net n x

/-- The values of metrics at the end of a run of `n + 1` steps, with the state of the nodes: what metric sets and
recorders save (recorders/metric_set.rs 68, recorders/mod.rs 308, resolved for the phase "after"). The first `none` is a
metric that does not resolve, the second a run that failed. -/
def report (k : Calcs V S W) (net : Network) (w : W) (refs : List Ref) (n : Nat) : Option (Option (W × List V)) :=
  match resolveAll net.params.maps (refs.map fun r => ⟨r, .after⟩) with
  | .error _ => none
  | .ok reads =>
    some ((runScene k net w (n + 1)).map fun x => (x.world, valuesOf x.store reads))

end Verif.Params
