import Verif.Spec.Load

/-!
# Which documents can be loaded

A reference to a parameter of the own node is only understood in some places; `o` is the node there, and none elsewhere.
-/

namespace Verif.Load

open Verif.Params Verif.Kinds

variable {W : Type}

/-- A metric can be loaded in a place where local parameters are those of `o`. -/
def SMetric.Loads (A : Args W) (o : Option String) : SMetric → Prop
  | .literal _ => True
  | .table r => ∃ q, A.table r = some q
  | .component c => ∃ found, A.comp c = .ok found
  | .series s columns => ∃ table, A.series s = some table ∧
      match columns with
      | none => table.length = 1
      | some (.column name) => ∃ c ∈ table, c.1 = name
      | some (.scenario group) => ∃ i, A.scenario group = some i
  | .param _ => True
  | .localParam _ => ∃ node, o = some node

/-- The same for indices. -/
def SIndex.Loads (A : Args W) (o : Option String) : SIndex → Prop
  | .constant _ => True
  | .table r => ∃ k, A.tableIndex r = some k
  | .node _ => False
  | .param _ => True
  | .localParam _ => ∃ node, o = some node
  | .transfer _ => True

/-- A parameter of `o` can be loaded. -/
def SKind.Loads (A : Args W) (o : Option String) : SKind → Prop
  | .constant value => ∃ q, value.Is A q
  | .constantScenario values group => ∃ qs i, values.Is A qs ∧ A.scenario group = some (i, qs.length) ∧ i < qs.length
  | .controlCurveInterpolated storage curves values =>
    storage.Loads A none ∧ (∀ m ∈ curves, m.Loads A none) ∧ ∀ m ∈ values, m.Loads A none
  | .aggregated _ metrics _ => ∀ m ∈ metrics, m.Loads A o
  | .aggregatedIndex _ metrics _ => ∀ m ∈ metrics, m.Loads A o
  | .asymmetric on off => on.Loads A none ∧ off.Loads A none
  | .controlCurvePiecewise storage curves _ _ _ => storage.Loads A o ∧ ∀ m ∈ curves, m.Loads A o
  | .controlCurveIndex storage curves => storage.Loads A o ∧ ∀ m ∈ curves, m.Loads A o
  | .controlCurve storage curves values => storage.Loads A none ∧ (∀ m ∈ curves, m.Loads A o) ∧ ∀ m ∈ values, m.Loads A o
  | .daily values => ∃ qs, values.Is A qs ∧ (qs.length = 365 ∨ qs.length = 366)
  | .indexed index metrics => index.Loads A none ∧ ∀ m ∈ metrics, m.Loads A o
  | .monthly values _ => ∃ qs, values.Is A qs ∧ qs.length = 12
  | .weekly values _ => ∃ qs, values.Is A qs ∧ (qs.length = 52 ∨ qs.length = 53)
  | .drawdown day month residual => ∃ d m r, NatIs A 1 day d ∧ NatIs A 1 month m ∧ NatIs A 0 residual r ∧
      d % 256 < 128 ∧ m % 256 < 128 ∧ (⟨2016, m % 256, d % 256⟩ : Calendar.Date).Valid
  | .max metric _ => metric.Loads A none
  | .min metric _ => metric.Loads A none
  | .negative metric => metric.Loads A none
  | .polynomial metric _ _ _ => metric.Loads A none
  | .threshold metric limit _ returned _ => metric.Loads A none ∧ limit.Loads A none ∧
      ∀ ms, returned = some ms → ∀ m ∈ ms, m.Loads A none
  | .delay metric _ _ => metric.Loads A none
  | .delayIndex metric _ _ => metric.Loads A none
  | .division a b _ => a.Loads A none ∧ b.Loads A none
  | .difference a b lo hi => a.Loads A o ∧ b.Loads A o ∧ lo.Loads A o ∧ hi.Loads A o
  | .volumeBetween total upper lower => total.Loads A o ∧ upper.Loads A o ∧ lower.Loads A o
  | .offset metric change => metric.Loads A none ∧ ∃ q, change.Is A q
  | .discount rate _ => rate.Loads A none
  | .interpolated x xp fp _ => x.Loads A none ∧ xp.length = fp.length ∧ (∀ m ∈ xp, m.Loads A none) ∧ ∀ m ∈ fp, m.Loads A none
  | .negativeMax metric _ => metric.Loads A none
  | .negativeMin metric _ => metric.Loads A none
  | .rolling metric _ _ _ _ => metric.Loads A none
  | .rollingIndex metric _ _ _ _ => metric.Loads A none
  | .placeholder => False
  | .multiThreshold metric limits _ returned _ => metric.Loads A none ∧ (∀ m ∈ limits, m.Loads A o) ∧
      ∀ ms, returned = some ms → ∀ m ∈ ms, m.Loads A none
  | .diurnal values => ∃ qs, values.Is A qs ∧ qs.length = 24

/-- A metric can be recorded by a metric set. -/
def Doc.Records (A : Args W) (D : Doc) : SMetric → Prop
  | .literal _ => False
  | .param r => ∃ p ∈ D.params, p.1 = r.name
  | .localParam _ => False
  | m => m.Loads A none

/-- A document can be loaded. -/
structure Doc.Loads (A : Args W) (D : Doc) : Prop where
  names : ((D.nodes ++ D.virtuals).map SNode.name).Nodup
  uses : ∀ n ∈ D.nodes ++ D.virtuals, ∀ m ∈ n.uses, m.Loads A (some n.name)
  locals : ∀ n ∈ D.nodes, ∀ p ∈ n.params, p.2.Loads A (some n.name)
  params : ∀ p ∈ D.params, p.2.Loads A none
  outputs : ∀ m ∈ D.outputs, D.Records A m
  links : ∀ m ∈ D.links, m.Loads A none

end Verif.Load
