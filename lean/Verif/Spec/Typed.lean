import Verif.Model.Typed
import Verif.Spec.Whole
import Verif.Spec.Kinds

/-!
# What a network with its parameters does

Every parameter has the value its type defines, in terms of what is seen of the network; the network is simulated with those values.
-/

namespace Verif.Coupled

open Verif.State Verif.Solver Verif.Time Verif.Simulation

/-- A run of `n` steps. -/
structure Typed.Runs (T : Typed) (n : Nat) (h : Kinds.Record Seen) (cs : List Kinds.Val) (input : Nat → Inp) (record : Nat → Record) :
    Prop where
  /-- the parameters have the values their types define -/
  params : ∀ p ∈ T.ps, ∀ form, Params.Takes (Kinds.builders T.ps) (p.kind.builder p.name) form →
    Kinds.Holds (Kinds.builders T.ps) ⟨fun t => (T.time t).date.date.year, f64MAX⟩ h n p.name form p.kind
  /-- the constants of nodes -/
  consts : Params.Given (Kinds.builders T.ps) h ⟨0, 0⟩ .before 0 (uses T.constRefs) cs
  /-- what a step is given -/
  times : ∀ t < n, (input t).t = T.time t ∧ (input t).solve = T.solver t
  metrics : ∀ t < n, ∃ vs, Params.Given (Kinds.builders T.ps) h ⟨0, 0⟩ .before t (uses (T.simpleRefs ++ T.otherRefs)) vs ∧
    ∀ id q, (input t).metric id = some q ↔
      match T.source id with
      | .ref j key => key = none ∧ ∃ v, vs[j]? = some v ∧ q = v.num
      | .comp c => h.ready t c = some q
  /-- the network is simulated -/
  run : ∃ s₀ s', (T.sim cs).initial T.big T.negBig = .ok s₀ ∧
    (T.sim cs).run ((List.range n).map input) s₀ = ((List.range n).map record, .ok s')
  /-- what is seen of components is what happens in the simulation -/
  ready : ∀ t < n, SeenBefore (T.sim cs) input record t (h.ready t)
  world : ∀ t < n, SeenAfter (T.sim cs) input record t (h.world (t + 1))

/-- Conditions on the network, as for `Whole`. -/
structure Typed.Valid (T : Typed) : Prop where
  refs : ∀ r ∈ T.constRefs ++ (T.simpleRefs ++ T.otherRefs), r.target.isSome
  consts : ∀ r ∈ T.constRefs, ∀ sh, Params.Gives (Kinds.builders T.ps) ⟨r, .before⟩ sh → sh = .const
  sims : ∀ cs, (T.sim cs).model.Valid
  volumes : ∀ cs i, T.whole.SimpleMetric ((T.sim cs).data i).minVolume ∧ T.whole.SimpleMetric ((T.sim cs).data i).maxVolume
  licences : ∀ cs k, T.whole.SimpleMetric ((T.sim cs).vsMin k) ∧ T.whole.SimpleMetric ((T.sim cs).vsMax k)
  starts : ∀ cs σ σ', (∀ id j key, T.source id = .ref j key → j < T.simpleRefs.length → σ id = σ' id) → (T.sim cs).iv σ = (T.sim cs).iv σ'

/-- The metric of a node is the value from before the solver of the parameter `name`. -/
def Typed.RefersTo (T : Typed) (m : Option Metric) (name : Params.Name) : Prop :=
  ∃ id j, m = some (.dyn id) ∧ T.source id = .ref j none ∧ (T.simpleRefs ++ T.otherRefs)[j]? = some (.value name .before)

end Verif.Coupled
