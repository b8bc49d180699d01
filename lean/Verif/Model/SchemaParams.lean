import Verif.Model.SchemaNetwork
import Verif.Model.Curves

/-!
# Values of the parameters that nodes of the schema create

Transcribed from `/repo/pywr-core/src/parameters/{difference,aggregated}.rs`, `control_curves/volume_between.rs`, from
`/repo/pywr-core/src/node.rs` (initial volumes) and from `/repo/pywr-core/src/metric.rs` (volumes of aggregated storages).
-/

namespace Verif.Schema

open Verif.Topology (Name)
open Verif.Solver (Metric)

/-- `difference`, `difference.rs:91-104`. -/
def clampedDifference (a b : ℚ) (lo hi : Option ℚ) : ℚ :=
  let result := a - b
  match lo with
  | some l => if result < l then l else match hi with | some u => if result > u then u else result | none => result
  | none => match hi with | some u => if result > u then u else result | none => result

/-- A metric that may be absent, `map(...).transpose()?`. -/
def optional (σ : Nat → Option ℚ) : Option Metric → Option (Option ℚ)
  | none => some none
  | some m => (m.get σ).map some

/-- The value of the parameters that depend only on other metrics: `volume_between.rs:30-47`, the sum and the product of
`aggregated.rs` (`agg_funcs.rs`), `difference.rs:68-86`. The others have a state or read flows and are not given a value here. -/
def PDef.value (σ : Nat → Option ℚ) : PDef → Option (Option ℚ)
  | .volumeBetween total upper lower => some (do
      let t ← total.get σ
      let l ← optional σ lower
      let u ← optional σ upper
      return Curves.volumeBetween t l u)
  | .sum ms => some ((ms.mapM (Metric.get σ)).map List.sum)
  | .product ms => some ((ms.mapM (Metric.get σ)).map List.prod)
  | .difference a b lo hi => some (do
      let x ← a.get σ
      let y ← b.get σ
      let l ← optional σ lo
      let u ← optional σ hi
      return clampedDifference x y l u)
  | _ => none

/-- `UnresolvedStorageInitialVolume::resolve` followed by reading its metrics, `node.rs:1071-1140`. -/
def Initial.read (σ : Nat → Option ℚ) : Initial → Option State.InitialVolume
  | .absolute v => some (.absolute v)
  | .proportional p => some (.proportional p)
  | .distributedAbsolute v prior => (prior.get σ).map (.distributedAbsolute v)
  | .distributedProportional total p prior => do
    let pr ← prior.get σ
    let t ← total.get σ
    return .distributedProportional t p pr

/-- `StorageNode::before` of the first step with `get_absolute_initial_volume`, `node.rs:1071-1100`: the initial volume of a storage
node. `get_max_volume` without a maximum is `f64::MAX`. -/
def Decl.startVolume (σ : Nat → Option ℚ) (d : Decl) : Option ℚ := do
  let top ← match d.data.maxVolume with | none => some Solver.f64MAX | some m => m.get σ
  let iv ← d.initial
  let r ← iv.read σ
  return r.get top

/-- `AggregatedStorageNodeVolume`, `metric.rs:262-275`: of the aggregated storage with a name (`metric.rs:700-720`). -/
def storeVolume (F : Frag) (C : Core) (volume : Nat → Option ℚ) (n : Name) : Option ℚ := do
  let k ← F.stores.findIdx? (fun s => s.name = n)
  let is ← C.stores[k]?
  sumAll (is.map volume)

/-- `AggregatedStorageNodeProportionalVolume`, `metric.rs:276-302`. -/
def storeProportion (F : Frag) (C : Core) (volume maxVolume : Nat → Option ℚ) (n : Name) : Option ℚ := do
  let k ← F.stores.findIdx? (fun s => s.name = n)
  let is ← C.stores[k]?
  let v ← sumAll (is.map volume)
  let m ← sumAll (is.map maxVolume)
  return if m = 0 then 1 else v / m

/-- `get_node_in_flow` of the node with an index. -/
def inFlowAt (net : Topology.Network) (f : Nat → ℚ) (i : Nat) : Option ℚ := (net.nodes[i]?).map (fun d => (d.incoming.map f).sum)

/-- `get_node_out_flow` of the node with an index. -/
def outFlowAt (net : Topology.Network) (f : Nat → ℚ) (i : Nat) : Option ℚ := (net.nodes[i]?).map (fun d => (d.outgoing.map f).sum)

/-- `AggregatedNode::create_metric`, `virtual_nodes/aggregated.rs:215-231`, with `AggregatedNodeInFlow` and `AggregatedNodeOutFlow`,
`metric.rs:200-229`. The attribute defaults to the outflow. -/
def aggReport (F : Frag) (C : Core) (f : Nat → ℚ) (n : Name) (attr : Option Attr) : Except Err (Option ℚ) :=
  let read (flow : Nat → Option ℚ) : Option ℚ := do
    let k ← F.aggs.findIdx? (fun a => a.name = n)
    let a ← C.model.aggs[k]?
    sumAll (a.nodes.flatten.map flow)
  match attr.getD .outflow with
  | .outflow => .ok (read (outFlowAt C.model.net f))
  | .inflow => .ok (read (inFlowAt C.model.net f))
  | a => .error (.attribute a)

end Verif.Schema
