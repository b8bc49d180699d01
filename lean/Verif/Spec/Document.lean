import Verif.Model.Document
import Verif.Spec.Load
import Verif.Spec.Schema
import Verif.Spec.Whole
import Verif.Spec.Merit

/-!
# What happens in a run of a document

In terms of the document: what its metrics show, the values of its parameters, and the flows on its edges.
-/

namespace Verif.EndToEnd

open Verif.State Verif.Solver Verif.Time Verif.Simulation
open Verif.Coupled (World)
open Verif.Load (Story Side SNum SHolds)
open Verif.Schema (Frag Core UMetric Decl)

/-- What a metric of a node means in step `t`: a constant, or the metric of the document with this number. -/
def Means (D : Document) (A : Load.Args Area) (S : Story Area) (t : Nat) : Metric → ℚ → Prop
  | .const v, q => q = v
  | .dyn id, q => ∃ o m, D.doc.uses[id]? = some (o, m) ∧ SNum A S .early t o m q

/-- The flows of the step before; none at first. -/
def previous (f : Nat → Nat → ℚ) : Nat → Nat → ℚ
  | 0 => fun _ => 0
  | t + 1 => f t

/-- The flows that are seen at this time. -/
def flowsAt (f : Nat → Nat → ℚ) (t : Nat) : Side → Nat → ℚ
  | .early => previous f t
  | .late => f t

/-- Metrics about flows. -/
def IsFlow : UMetric → Bool
  | .const _ | .nodeInFlow _ | .nodeOutFlow _ | .multiNodeInFlow _ | .multiNodeOutFlow _ | .multiEdgeFlow _ => true
  | _ => false

/-- The volume to which a licence is reset. -/
def Licence.full (l : Licence) : ℚ :=
  match l.resetVolume with
  | .max => l.hi
  | .initial => l.initialVolume.get l.hi

/-- The volumes `pre t` and `post t` of a licence before and after the allocation of step `t`: what is used is taken from it, and
without a rolling window it is kept from step to step, unless the licence is reset. -/
structure Drawn (l : Licence) (E : Setting) (C : Core) (n : Nat) (f : Nat → Nat → ℚ) (st : Nat → StepState) (k : Nat) (v : VStore)
    (pre post : Nat → ℚ) : Prop where
  active : ∀ t < n, (st t).vsActive k = l.activePeriod.isActive (E.time t).date.date
  left : ∀ t < n, (st t).vsBounds k = some (max (pre t - l.lo) 0, max (l.hi - pre t) 0)
  used : ∀ t < n, post t = pre t - (E.time t).days * if (st t).vsActive k = true then vsUse C.model.net (f t) v else 0
  within : ∀ t < n, l.lo ≤ post t ∧ post t ≤ l.hi
  full : l.rollingWindow = none → ∀ t < n, t = 0 ∨ (st t).vsActive k = false → pre t = l.full
  kept : l.rollingWindow = none → ∀ t, t + 1 < n → pre (t + 1) = l.full ∨ pre (t + 1) = post t
  never : l.rollingWindow = none → l.reset = .never → ∀ t, t + 1 < n → (st (t + 1)).vsActive k = true → pre (t + 1) = post t

/-- What the initial volume `i` of a storage amounts to, if its largest volume is `hi`: a volume, a part of the largest volume, or what of a
volume is left above the volume `below` of other storages, as far as it fits. -/
def Begins (σ : Nat → Option ℚ) (hi : ℚ) : Option Schema.Initial → ℚ → Prop
  | none, v => v = 0
  | some (.absolute a), v => v = a
  | some (.proportional p), v => v = hi * p
  | some (.distributedAbsolute a prior), v => ∃ below, ValueIs σ (some prior) 0 below ∧ v = min (max (a - below) 0) hi
  | some (.distributedProportional total p prior), v => ∃ all below, ValueIs σ (some total) 0 all ∧ ValueIs σ (some prior) 0 below ∧
      v = min (max (all * p - below) 0) hi

/-- The metrics of an initial volume. -/
inductive ReadBy : Option Schema.Initial → Nat → Prop
  | absolute (a : ℚ) (id : Nat) : ReadBy (some (.distributedAbsolute a (.dyn id))) id
  | prior (total : Metric) (p : ℚ) (id : Nat) : ReadBy (some (.distributedProportional total p (.dyn id))) id
  | total (id : Nat) (p : ℚ) (prior : Metric) : ReadBy (some (.distributedProportional (.dyn id) p prior)) id

/-- Text `r` refers to a virtual node, by this metric. -/
def Names (D : Document) (r : String) (m : VMetric) : Prop :=
  ∃ x a v, D.refs r = .virtual x a ∧ D.net.virtualNodes.find? (fun v => v.name = x) = some v ∧ virtualMetric v a = .ok m

/-- Text `r` refers to the volume of an aggregated storage, by its name or by that of a piecewise storage. -/
def NamesVolume (D : Document) (r : String) (x : Topology.Name) : Prop :=
  Names D r (.storeVolume x) ∨ (D.refs r).metric D.net = .ok (.aggStorageVolume x)

/-- The same for its proportional volume. -/
def NamesShare (D : Document) (r : String) (x : Topology.Name) : Prop :=
  Names D r (.storeShare x) ∨ (D.refs r).metric D.net = .ok (.aggStorageProportionalVolume x)

/-- The story `S` of a run of `n` steps, in which the flows of step `t` are `f t`; `st t` are the values and volumes at its
allocation. -/
structure Happens (D : Document) (E : Setting) (F : Frag) (C : Core) (n : Nat) (S : Story Area) (f : Nat → Nat → ℚ)
    (st : Nat → StepState) : Prop where
  /-- the parameters have the values that the document defines -/
  params : ∀ p ∈ D.doc.declared, SHolds (D.args E F C) S n p.1 p.2.1 p.2.2
  settled : ∀ o name t, S.settled o name → S.after o name t = S.before o name t
  /-- the allocation is given the values of the metrics of the document -/
  values : ∀ t < n, ∀ id q, (st t).metric id = some q → Means D (D.args E F C) S t (.dyn id) q
  present : ∀ t < n, ∀ id < D.doc.uses.length, ∃ q, (st t).metric id = some q
  days : ∀ t < n, (st t).days = (E.time t).days
  /-- the flows are allowed by these -/
  allowed : ∀ t < n, Allowed C.model (st t) (f t)
  /-- and of least cost, if the solver finds such flows -/
  least : 1000000 ≤ E.big →
    (∀ t < n, ∀ (lp : Lp) (x : Nat → ℚ), E.solver t lp = some x → ∀ y, lp.Feasible y → lp.objective x ≤ lp.objective y) →
    ∀ t < n, ∀ cost : Topology.TNode → ℚ,
      (∀ nd ∈ C.model.net.nodes, nd.incoming ≠ [] ∨ nd.outgoing ≠ [] → CostIs C.model (st t).metric nd (cost nd)) →
      ∀ g, Allowed C.model (st t) g → WithinLimits C.model E.big E.negBig (st t) g →
        totalCost C.model cost (f t) ≤ totalCost C.model cost g
  /-- metrics about flows show the flows -/
  flows : ∀ t < n, ∀ r u, (D.refs r).metric D.net = .ok u → IsFlow u = true → ∀ side o q,
    SNum (D.args E F C) S side t o (.component r) q ↔ u.flow F C.model.net (flowsAt f t side) = some q
  /-- what the deficit of an output shows at the end of a step is what its inflow lacks of its maximum flow -/
  deficits : ∀ t < n, ∀ r x, (D.refs r).metric D.net = .ok (.parameter x "deficit") → ∀ o q,
    SNum (D.args E F C) S .late t o (.component r) q → ∃ d ∈ F.nodes, d.name = (x, none) ∧
      ∃ m, ValueIs (st t).metric d.data.maxFlow f64MAX m ∧ q = max (m - Schema.into F (f t) (x, none)) 0
  /-- metrics about transfers show what is transferred in the step -/
  transfers : ∀ t < n, ∀ r x, D.refs r = .transfer x → E.transfers.Nodup → ∀ k : Nat, E.transfers[k]? = some x → ∀ side o q,
    SNum (D.args E F C) S side t o (.component r) q ↔ (E.given t)[k]? = some q
  /-- volumes start as the document says, and change by what flows in less what flows out -/
  initial : 0 < n → ∀ d ∈ F.nodes, d.kind = .storage → ∃ hi v, ValueIs (st 0).metric d.data.maxVolume f64MAX hi ∧
    Begins (st 0).metric hi d.initial v ∧ Schema.stored F (st 0) d.name = some v
  balance : ∀ t, t + 1 < n → ∀ d ∈ F.nodes, d.kind = .storage → ∃ v, Schema.stored F (st t) d.name = some v ∧
    Schema.stored F (st (t + 1)) d.name = some (v + (E.time t).days * Schema.coreFlow F (f t) d)
  /-- metrics about volumes show the volumes -/
  volumes : ∀ t < n, ∀ r x, (D.refs r).metric D.net = .ok (.nodeVolume x) → ∀ d ∈ F.nodes, d.name = x → d.kind = .storage →
    ∃ v, Schema.stored F (st t) x = some v ∧
      (∀ o q, SNum (D.args E F C) S .early t o (.component r) q ↔ q = v) ∧
      ∀ o q, SNum (D.args E F C) S .late t o (.component r) q ↔ q = v + (E.time t).days * Schema.coreFlow F (f t) d
  /-- metrics about proportional volumes show the volumes in proportion to the maximum: that of the step at its end, and that of
  the step before until then -/
  proportions : ∀ t < n, ∀ r x, (D.refs r).metric D.net = .ok (.nodeProportionalVolume x) → ∀ d ∈ F.nodes, d.name = x → d.kind = .storage →
    ∃ v now before, Schema.stored F (st t) x = some v ∧ ValueIs (st t).metric d.data.maxVolume f64MAX now ∧
      ValueIs (st (t - 1)).metric d.data.maxVolume f64MAX before ∧
      (∀ o q, SNum (D.args E F C) S .early t o (.component r) q ↔ q = Coupled.share v before) ∧
      ∀ o q, SNum (D.args E F C) S .late t o (.component r) q ↔
        q = Coupled.share (v + (E.time t).days * Schema.coreFlow F (f t) d) now
  /-- metrics of maximum volumes show the maximum of the step, before and after its allocation -/
  maxima : ∀ t < n, ∀ r x, (D.refs r).metric D.net = .ok (.nodeMaxVolume x) → ∀ d ∈ F.nodes, d.name = x → d.kind = .storage →
    ∃ now, ValueIs (st t).metric d.data.maxVolume f64MAX now ∧ ∀ side o q, SNum (D.args E F C) S side t o (.component r) q ↔ q = now
  /-- metrics of aggregated nodes show the total of the flows of their members -/
  aggregated : ∀ t < n, ∀ r, ∀ d ∈ F.aggs, ∀ side o q,
    (Names D r (.inFlow d.name) → (SNum (D.args E F C) S side t o (.component r) q ↔
      q = (d.nodes.flatten.map (Schema.into F (flowsAt f t side))).sum)) ∧
    (Names D r (.outFlow d.name) → (SNum (D.args E F C) S side t o (.component r) q ↔
      q = (d.nodes.flatten.map (Schema.outOf F (flowsAt f t side))).sum))
  /-- metrics of aggregated storages and of piecewise storages show the total of the volumes of their members -/
  stores : ∀ t < n, ∀ s ∈ F.stores, ∀ ds,
    List.Forall₂ (fun x (d : Decl) => d ∈ F.nodes ∧ d.name = x ∧ d.kind = .storage) s.nodes ds →
    ∃ vs nows befores, List.Forall₂ (fun (d : Decl) v => Schema.stored F (st t) d.name = some v) ds vs ∧
      List.Forall₂ (fun (d : Decl) v => ValueIs (st t).metric d.data.maxVolume f64MAX v) ds nows ∧
      List.Forall₂ (fun (d : Decl) v => ValueIs (st (t - 1)).metric d.data.maxVolume f64MAX v) ds befores ∧ ∀ r,
      (NamesVolume D r s.name →
        (∀ o q, SNum (D.args E F C) S .early t o (.component r) q ↔ q = vs.sum) ∧
        ∀ o q, SNum (D.args E F C) S .late t o (.component r) q ↔
          q = (List.zipWith (fun (d : Decl) v => v + (E.time t).days * Schema.coreFlow F (f t) d) ds vs).sum) ∧
      (NamesShare D r s.name →
        (∀ o q, SNum (D.args E F C) S .early t o (.component r) q ↔ q = Coupled.share vs.sum befores.sum) ∧
        ∀ o q, SNum (D.args E F C) S .late t o (.component r) q ↔
          q = Coupled.share (List.zipWith (fun (d : Decl) v => v + (E.time t).days * Schema.coreFlow F (f t) d) ds vs).sum nows.sum)
  /-- licences are drawn down by what is used, and metrics of licences show how much is left -/
  licences : ∀ (k : Nat) v, C.model.vs[k]? = some v → ∃ pre post, Drawn (D.licences k) E C n f st k v pre post ∧
    ∀ d, F.vs[k]? = some d → ∀ t < n, ∀ r,
      (Names D r (.vsVolume d.name) → ∀ o q,
        (SNum (D.args E F C) S .early t o (.component r) q ↔ q = pre t) ∧ (SNum (D.args E F C) S .late t o (.component r) q ↔ q = post t)) ∧
      (Names D r (.vsShare d.name) → ∀ o q,
        (SNum (D.args E F C) S .early t o (.component r) q ↔ q = Coupled.share (pre t) (D.licences k).hi) ∧
        (SNum (D.args E F C) S .late t o (.component r) q ↔ q = Coupled.share (post t) (D.licences k).hi))
  /-- the bounds of volumes and initial volumes are known at the start of a step -/
  bounds : ∀ d ∈ F.nodes, ∀ id, d.data.minVolume = some (.dyn id) ∨ d.data.maxVolume = some (.dyn id) ∨ ReadBy d.initial id →
    ∀ o m, D.doc.uses[id]? = some (o, m) → Load.Known S o m

/-- What is asked of a document, its setting and the network built from it, for `n` steps. -/
structure Fit (D : Document) (E : Setting) (F : Frag) (C : Core) (n : Nat) : Prop where
  apart : D.doc.Apart (D.args E F C)
  codes : ∀ a b, E.code a = E.code b → a = b
  factors : C.model.FactorsOk
  /-- licences are about nodes that are not storages, and those with a rolling window have no negative factors -/
  members : ∀ v ∈ C.model.vs, ∀ p ∈ v.members, ∃ t, C.model.net.nodes[p.1]? = some t ∧ t.kind ≠ .storage
  windows : ∀ k v, C.model.vs[k]? = some v → ∀ w, (D.licences k).rollingWindow = some w → 0 < w ∧ ∀ p ∈ v.members, 0 ≤ p.2
  single : C.model.NoExclusivity
  index : ∀ t < n, (E.time t).index = t
  days : ∀ t < n, 0 < (E.time t).days
  /-- what the solver returns satisfies the program -/
  sound : ∀ t < n, ∀ lp x, E.solver t lp = some x → lp.Feasible x
  /-- licences start within their bounds; see `Sim.InputsOk` -/
  licences : ∀ k < C.model.vs.length, (D.licences k).lo ≤ (D.licences k).initialVolume.get (D.licences k).hi ∧
    (D.licences k).initialVolume.get (D.licences k).hi ≤ (D.licences k).hi
  rolling : ∀ k < C.model.vs.length, (D.licences k).rollingWindow.isSome = true →
    (D.licences k).initialVolume.get (D.licences k).hi = (D.licences k).hi ∨
    (D.licences k).resetVolume = .initial ∧ ∀ t < n, (E.time t).days ≤ 1
  shorter : ∀ k < C.model.vs.length, (D.licences k).rollingWindow.isSome = true →
    ∀ s t, s < t → t < n → (E.time t).days ≤ (E.time s).days

/-! ## Parameters that nodes make for themselves -/

/-- The metric of the node is the metric `m'` of the document. -/
def SameAs (D : Document) (owner : String) : Metric → Load.SMetric → Prop
  | .const v, m' => m' = .literal v
  | .dyn id, m' => D.doc.uses[id]? = some (some owner, m')

/-- The same for a metric that may be missing. -/
def SameOr (D : Document) (owner : String) (default : ℚ) : Option Metric → Load.SMetric → Prop
  | none, m' => m' = .literal default
  | some m, m' => SameAs D owner m m'

/-- The parameter that a node makes is described by the document. -/
def Described (D : Document) (owner : String) : Schema.PDef → Load.SKind → Prop
  | .volumeBetween t u l, k => ∃ t' u' l', k = .volumeBetween t' u' l' ∧ SameAs D owner t t' ∧ SameOr D owner 1 u u' ∧ SameOr D owner 0 l l'
  | .sum ms, k => ∃ ms', k = .aggregated .sum ms' .before ∧ List.Forall₂ (SameAs D owner) ms ms'
  | .product ms, k => ∃ ms', k = .aggregated .product ms' .before ∧ List.Forall₂ (SameAs D owner) ms ms'
  | .difference a b lo hi, k => ∃ a' b' lo' hi' l u, lo = some l ∧ hi = some u ∧ k = .difference a' b' lo' hi' ∧ SameAs D owner a a' ∧
      SameAs D owner b b' ∧ SameAs D owner l lo' ∧ SameAs D owner u hi'
  | _, _ => True

/-- All parameters that nodes make from other metrics are described by the document, and are the metrics of those nodes. -/
def Declares (D : Document) (F : Frag) : Prop :=
  ∀ q ∈ F.params, ∃ k, (some q.1, q.2.1, k) ∈ D.doc.declared ∧ Described D q.1 q.2.2 k ∧
    D.doc.uses[D.numbers q.1 q.2.1 none]? = some (some q.1, .localParam ⟨q.2.1, none, none⟩)

end Verif.EndToEnd
