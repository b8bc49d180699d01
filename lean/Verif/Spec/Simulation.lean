import Verif.Model.Simulation
import Verif.Spec.Choice
import Verif.Spec.VirtualStorage

/-! # Specification of whole simulations -/

namespace Verif.Simulation

open Verif.State Verif.Solver Verif.Time
open Verif.Topology (TNode)

/-- Minimum and maximum volume, zero and the largest number if not given. -/
def VolumesAre (σ : Nat → Option ℚ) (min max : Option Metric) (lo hi : ℚ) : Prop :=
  ValueIs σ min 0 lo ∧ ValueIs σ max f64MAX hi

/-- Conditions on a network. It can be built, and has factors that are followed (`Model.FactorsOk`). Members of exclusive
aggregated nodes have constant limits. Members of virtual storages are not storage nodes. Virtual storages with a rolling window, which is of at least
one step, have no negative factors. -/
structure Sim.Valid (S : Sim) : Prop where
  model : S.model.Valid
  constant : MembersConstant S.model
  groups : GroupsAre S.model S.sets
  factors : S.model.FactorsOk
  members : ∀ n ∈ S.vsNodes, ∀ i ∈ n.nodes, ∃ t, S.net.nodes[i]? = some t ∧ t.kind ≠ .storage
  rolling : ∀ n ∈ S.vsNodes, ∀ w, n.rollingWindow = some w → 0 < w ∧ ∀ c ∈ n.factors, 0 ≤ c

/-- Conditions on the inputs of a run. Steps are numbered from zero and have positive length. What the solver returns satisfies
the program. The initial volumes of virtual storages lie within their bounds, which may widen in time. Rolling licences start
full, or are only ever reset to their initial volume and the steps are of a day at most; and then steps do not get longer. -/
structure Sim.InputsOk (S : Sim) (inputs : List Inp) : Prop where
  index : inputs.map (fun inp => inp.t.index) = List.range inputs.length
  days : ∀ inp ∈ inputs, 0 < inp.t.days
  sound : ∀ inp ∈ inputs, ∀ lp x, inp.solve lp = some x → lp.Feasible x
  start : ∀ inp ∈ inputs, ∀ (k : Nat) (n : VSNode) (lo hi : ℚ), S.vsNodes[k]? = some n →
    VolumesAre inp.metric (S.vsMin k) (S.vsMax k) lo hi → lo ≤ n.initialVolume.get hi ∧ n.initialVolume.get hi ≤ hi
  widen : inputs.Pairwise fun a b => ∀ k < S.vsNodes.length, ∀ lo hi lo' hi' : ℚ,
    VolumesAre a.metric (S.vsMin k) (S.vsMax k) lo hi → VolumesAre b.metric (S.vsMin k) (S.vsMax k) lo' hi' → lo' ≤ lo ∧ hi ≤ hi'
  rolling : ∀ inp ∈ inputs, ∀ (k : Nat) (n : VSNode) (lo hi : ℚ), S.vsNodes[k]? = some n → n.rollingWindow.isSome = true →
    VolumesAre inp.metric (S.vsMin k) (S.vsMax k) lo hi →
    n.initialVolume.get hi = hi ∨ n.resetVolume = .initial ∧ inp.t.days ≤ 1
  shorter : (∃ n ∈ S.vsNodes, n.rollingWindow.isSome = true) → inputs.Pairwise fun a b => b.t.days ≤ a.t.days

/-- Current cost of a node: its own, or if asked for the sum, largest or smallest of its own and those of the virtual storages
it belongs to. -/
def Sim.CostIs (S : Sim) (σ : Nat → Option ℚ) (n : TNode) (c : ℚ) : Prop :=
  ∃ own cs, ValueIs σ (S.data n.index).cost 0 own ∧
    match (S.data n.index).costAgg with
    | none => c = own
    | some .sum => List.Forall₂ (fun k d => k < S.vsNodes.length ∧ ValueIs σ (S.vsCost k) 0 d) n.associatedVs cs ∧ c = own + cs.sum
    | some .max => List.Forall₂ (fun k d => k < S.vsNodes.length ∧ ValueIs σ (S.vsCost k) 0 d) n.associatedVs cs ∧
        c ∈ own :: cs ∧ ∀ d ∈ own :: cs, d ≤ c
    | some .min => List.Forall₂ (fun k d => k < S.vsNodes.length ∧ ValueIs σ (S.vsCost k) 0 d) n.associatedVs cs ∧
        c ∈ own :: cs ∧ ∀ d ∈ own :: cs, c ≤ d

/-- Total cost of flows per day: for each node its current cost times its flow. -/
def Sim.totalCost (S : Sim) (cost : TNode → ℚ) (f : Nat → ℚ) : ℚ := (S.net.nodes.map fun n => cost n * nodeFlow f n).sum

/-- Everything a step asks for is there. -/
structure Sim.Present (S : Sim) (σ : Nat → Option ℚ) : Prop where
  costs : ∀ n ∈ S.net.nodes, n.incoming ≠ [] ∨ n.outgoing ≠ [] → ∃ c, S.CostIs σ n c
  flows : ∀ n ∈ S.net.nodes, n.kind ≠ .storage →
    (∃ v, ValueIs σ (S.data n.index).minFlow 0 v) ∧ (∃ v, ValueIs σ (S.data n.index).maxFlow f64MAX v)
  volumes : ∀ n ∈ S.net.nodes, n.kind = .storage → ∃ lo hi, VolumesAre σ (S.data n.index).minVolume (S.data n.index).maxVolume lo hi
  aggs : ∀ a ∈ S.aggs, (∃ v, ValueIs σ a.minFlow 0 v) ∧ (∃ v, ValueIs σ a.maxFlow f64MAX v)
  factors : ∀ a ∈ S.aggs, ∀ F, a.factors = some F →
    ∃ ps, F.pairs a.nodes σ = .ok ps ∧ ∀ p ∈ ps, p.f0.isSome ∧ p.f1.isSome
  vs : ∀ k < S.vsNodes.length, ∃ lo hi, VolumesAre σ (S.vsMin k) (S.vsMax k) lo hi

/-- Use of a virtual storage per day: for each member its factor times its flow; none outside its active period. -/
def Sim.use (S : Sim) (n : VSNode) (t : Timestep) (f : Nat → ℚ) : ℚ :=
  if n.isActive t = true then ((n.nodes.zip n.factors).map fun p => p.2 * flowAt S.net f p.1).sum else 0

/-- The flows allowed in a step, given the volumes in the network state. A virtual storage that is already outside its bounds may
not move further out. The limits of members of exclusive aggregated nodes hold as far as their groups are active. -/
structure Sim.Allowed (S : Sim) (inp : Inp) (s : NetworkState) (f : Nat → ℚ) : Prop where
  nonneg : ∀ e < S.net.edges.length, 0 ≤ f e
  balanced : Balanced S.net f
  nodes : ∀ n ∈ S.net.nodes, n.kind ≠ .storage → ¬ InGroup S.model n.index →
    AtLeast inp.metric (S.data n.index).minFlow 0 (nodeFlow f n) ∧ AtMost inp.metric (S.data n.index).maxFlow f64MAX (nodeFlow f n)
  storage : ∀ n ∈ S.net.nodes, n.kind = .storage → ∃ lo hi v,
    VolumesAre inp.metric (S.data n.index).minVolume (S.data n.index).maxVolume lo hi ∧ s.nodeVolume n.index = .ok v ∧
    lo ≤ v + inp.t.days * nodeFlow f n ∧ v + inp.t.days * nodeFlow f n ≤ hi
  aggs : ∀ a ∈ S.aggs, AtLeast inp.metric a.minFlow 0 (aggFlow S.net f a) ∧ AtMost inp.metric a.maxFlow f64MAX (aggFlow S.net f a)
  factors : ∀ a ∈ S.aggs, ∀ F, a.factors = some F →
    ∃ ps, F.pairs a.nodes inp.metric = .ok ps ∧ ∀ p ∈ ps, p.Holds (flowAt S.net f)
  vs : ∀ (k : Nat) (n : VSNode), S.vsNodes[k]? = some n → n.isActive inp.t = true → ∃ lo hi v,
    VolumesAre inp.metric (S.vsMin k) (S.vsMax k) lo hi ∧ s.vsVolume k = .ok v ∧
    inp.t.days * S.use n inp.t f ≤ max (v - lo) 0 ∧ -(inp.t.days * S.use n inp.t f) ≤ max (hi - v) 0
  choice : ∃ on, Choice S.model f on

/-- The largest numbers of the solver bound every edge, and everything whose bounds can change from step to step. -/
structure Sim.Within (S : Sim) (big negBig : ℚ) (σ : Nat → Option ℚ) (f : Nat → ℚ) : Prop where
  edges : ∀ e < S.net.edges.length, f e ≤ big
  nodes : ∀ n ∈ S.net.nodes, constBounds n (S.data n.index) = none → negBig ≤ nodeFlow f n ∧ nodeFlow f n ≤ big
  aggs : ∀ a ∈ S.aggs, negBig ≤ aggFlow S.net f a ∧ aggFlow S.net f a ≤ big
  vs : ∀ n ∈ S.vsNodes, negBig ≤ -((n.nodes.zip n.factors).map fun p => p.2 * flowAt S.net f p.1).sum ∧
    -((n.nodes.zip n.factors).map fun p => p.2 * flowAt S.net f p.1).sum ≤ big
  factors : ∀ a ∈ S.aggs, ∀ F cps ps, a.factors = some F → F.constPairs a.nodes = .ok cps → F.pairs a.nodes σ = .ok ps →
    ∀ q ∈ cps.zip ps, (q.1.f0 = none ∨ q.1.f1 = none) → negBig ≤ q.2.rhs ∧ q.2.rhs ≤ big

/-- A completed step: from the state at the time of the solve to the state after it. The flows reported are allowed; volumes
change by exactly what flows in less what flows out or is used, and stay within their bounds. -/
structure Sim.StepOk (S : Sim) (inp : Inp) (pre : NetworkState) (f : Nat → ℚ) (post : NetworkState) : Prop where
  allowed : S.Allowed inp pre f
  edges : ∀ e < S.net.edges.length, post.edgeFlow e = .ok (f e)
  storage : ∀ n ∈ S.net.nodes, n.kind = .storage → ∃ lo hi v,
    VolumesAre inp.metric (S.data n.index).minVolume (S.data n.index).maxVolume lo hi ∧
    pre.nodeVolume n.index = .ok v ∧ post.nodeVolume n.index = .ok (v + inp.t.days * nodeFlow f n) ∧
    lo ≤ v + inp.t.days * nodeFlow f n ∧ v + inp.t.days * nodeFlow f n ≤ hi
  vs : ∀ (k : Nat) (n : VSNode), S.vsNodes[k]? = some n → ∃ lo hi v,
    VolumesAre inp.metric (S.vsMin k) (S.vsMax k) lo hi ∧
    pre.vsVolume k = .ok v ∧ post.vsVolume k = .ok (v - inp.t.days * S.use n inp.t f) ∧
    lo ≤ v - inp.t.days * S.use n inp.t f ∧ v - inp.t.days * S.use n inp.t f ≤ hi

/-- The volume a virtual storage is reset to. -/
def resetTo (n : VSNode) (hi : ℚ) : ℚ :=
  match n.resetVolume with
  | .max => hi
  | .initial => n.initialVolume.get hi

/-- Volumes are kept from the end of one step to the solve of the next. In the first step storage nodes are given their initial
volume. Virtual storages are reset in the first step and outside their active period, and may be reset at other times unless
they are never reset; to those with a rolling window something is given back (how much is the subject of `C60_rolling`). -/
structure Sim.Carries (S : Sim) (inp : Inp) (old pre : NetworkState) : Prop where
  storage : ∀ n ∈ S.net.nodes, n.kind = .storage → ∃ lo hi,
    VolumesAre inp.metric (S.data n.index).minVolume (S.data n.index).maxVolume lo hi ∧
    if inp.t.index = 0 then pre.nodeVolume n.index = .ok ((S.iv inp.metric n.index).get hi) else pre.nodeVolume n.index = old.nodeVolume n.index
  vs : ∀ (k : Nat) (n : VSNode), S.vsNodes[k]? = some n → ∃ lo hi v back,
    VolumesAre inp.metric (S.vsMin k) (S.vsMax k) lo hi ∧
    pre.vsVolume k = .ok (v + inp.t.days * back) ∧ (n.rollingWindow = none → back = 0) ∧
    (v = resetTo n hi ∨ old.vsVolume k = .ok v) ∧
    (inp.t.index = 0 ∨ n.isActive inp.t = false → v = resetTo n hi) ∧
    (inp.t.index ≠ 0 → n.isActive inp.t = true → n.reset = .never → old.vsVolume k = .ok v)

/-- Why a step may fail: a value is missing, or the solver finds no solution. If the solver always finds one when there is
one, and its largest number is at least one million, then no flow is allowed. A step never fails in any other way. -/
def FailsFor (S : Sim) (big negBig : ℚ) (inp : Inp) (old : NetworkState) (e : SimErr) : Prop :=
  match e with
  | .volumeBounds => ¬ S.Present inp.metric
  | .solve _ => ¬ S.Present inp.metric
  | .infeasible => (∃ lp, inp.solve lp = none) ∧ (1000000 ≤ big →
    (∀ lp : Lp, (∃ x, lp.Feasible x) → ∃ x, inp.solve lp = some x) →
      ∃ pre, S.Carries inp old pre ∧ ¬ ∃ f, S.Allowed inp pre f ∧ S.Within big negBig inp.metric f)
  | .state _ => False

/-- The records of a run follow from one another. -/
def Sim.RunOk (S : Sim) : NetworkState → List Inp → List Record → Prop
  | _, _, [] => True
  | _, [], _ :: _ => False
  | s, inp :: rest, r :: rs => r.inp = inp ∧ S.Carries inp s r.pre ∧ S.StepOk inp r.pre r.flow r.post ∧ S.RunOk r.post rest rs

/-- Network state after the records of a run. -/
def lastState (s : NetworkState) (rs : List Record) : NetworkState := ((rs.getLast?).map (·.post)).getD s

/-- Total volume stored. -/
def Sim.stored (S : Sim) (s : NetworkState) : ℚ :=
  ((S.net.nodes.filter fun n => n.kind = .storage).map fun n => (s.nodeVolume n.index).toOption.getD 0).sum

/-- What enters the system per day: the flows of all inputs. -/
def Sim.supplied (S : Sim) (f : Nat → ℚ) : ℚ := ((S.net.nodes.filter fun n => n.kind = .input).map (nodeFlow f)).sum

/-- What leaves the system per day: the flows of all outputs. -/
def Sim.delivered (S : Sim) (f : Nat → ℚ) : ℚ := ((S.net.nodes.filter fun n => n.kind = .output).map (nodeFlow f)).sum

/-- What enters less what leaves the network over the steps recorded. -/
def netSupply (S : Sim) (rs : List Record) : ℚ := (rs.map fun r => r.inp.t.days * (S.supplied r.flow - S.delivered r.flow)).sum

/-- No flow at all is possible: minimum flows are not positive, maximum flows not negative, right-hand sides zero,
and no group has to be active. -/
structure Sim.Relaxed (S : Sim) (σ : Nat → Option ℚ) : Prop where
  nodes : ∀ n ∈ S.net.nodes, n.kind ≠ .storage → ∀ lo hi,
    ValueIs σ (S.data n.index).minFlow 0 lo → ValueIs σ (S.data n.index).maxFlow f64MAX hi → lo ≤ 0 ∧ 0 ≤ hi
  aggs : ∀ a ∈ S.aggs, ∀ lo hi, ValueIs σ a.minFlow 0 lo → ValueIs σ a.maxFlow f64MAX hi → lo ≤ 0 ∧ 0 ≤ hi
  factors : ∀ a ∈ S.aggs, ∀ F ps, a.factors = some F → F.pairs a.nodes σ = .ok ps → ∀ p ∈ ps, p.rhs = 0
  groups : ∀ a ∈ S.aggs, ∀ mn mx, a.exclusivity = some (mn, mx) → mn = 0

/-- Storage nodes start within their bounds, which may widen in time. -/
structure Sim.StorageOk (S : Sim) (inputs : List Inp) : Prop where
  start : ∀ inp ∈ inputs, inp.t.index = 0 → ∀ n ∈ S.net.nodes, n.kind = .storage → ∀ lo hi : ℚ,
    VolumesAre inp.metric (S.data n.index).minVolume (S.data n.index).maxVolume lo hi →
    lo ≤ (S.iv inp.metric n.index).get hi ∧ (S.iv inp.metric n.index).get hi ≤ hi
  widen : inputs.Pairwise fun a b => ∀ n ∈ S.net.nodes, n.kind = .storage → ∀ lo hi lo' hi' : ℚ,
    VolumesAre a.metric (S.data n.index).minVolume (S.data n.index).maxVolume lo hi →
    VolumesAre b.metric (S.data n.index).minVolume (S.data n.index).maxVolume lo' hi' → lo' ≤ lo ∧ hi ≤ hi'

/-- The solver finds a solution whenever there is one. -/
def Complete (inputs : List Inp) : Prop := ∀ inp ∈ inputs, ∀ lp : Lp, (∃ x, lp.Feasible x) → ∃ x, inp.solve lp = some x

/-- What the solver returns is of least objective. -/
def Optimal (inputs : List Inp) : Prop :=
  ∀ inp ∈ inputs, ∀ (lp : Lp) (x : Nat → ℚ), inp.solve lp = some x → ∀ y, lp.Feasible y → lp.objective x ≤ lp.objective y

/-- `st` is what the network state `s` says about the volumes. -/
structure Sim.Shows (S : Sim) (inp : Inp) (s : NetworkState) (st : StepState) : Prop where
  metric : st.metric = inp.metric
  days : st.days = inp.t.days
  volume : ∀ n ∈ S.net.nodes, n.kind = .storage → ∃ v, s.nodeVolume n.index = .ok v ∧ st.volume n.index = some v
  active : ∀ (k : Nat) (n : VSNode), S.vsNodes[k]? = some n → st.vsActive k = n.isActive inp.t
  vs : ∀ k < S.vsNodes.length, ∃ lo hi v, VolumesAre inp.metric (S.vsMin k) (S.vsMax k) lo hi ∧ s.vsVolume k = .ok v ∧
    st.vsBounds k = some (max (v - lo) 0, max (hi - v) 0)

end Verif.Simulation
