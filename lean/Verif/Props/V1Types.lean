import Verif.Props.V1

/-! # C89 and C90 by type

Which old types become virtual nodes, and which references to storages find virtual nodes. -/

namespace Verif.V1

/-- The values of an attribute do not refer to data frames where that would be lost. -/
def allPlain (frames : List (String × Ref)) (vs : List String) (l : List Value) : Bool := l.all (Value.plain frames vs false)

theorem many_plain (frames : List (String × Ref)) (vs : List String) (attr : String) (rest : Fields) : ∀ l : List Value,
    (Fields.many attr l rest).plain frames vs false = (allPlain frames vs l && rest.plain frames vs false)
  | [] => by simp [Fields.many, allPlain]
  | v :: l => by
    have := many_plain frames vs attr rest l
    simp only [allPlain] at this
    simp [Fields.many, Fields.plain, this, allPlain, Bool.and_assoc]

theorem constants_plain (frames : List (String × Ref)) (vs : List String) (l : List ℚ) : allPlain frames vs (l.map .constant) = true := by
  simp [allPlain, Value.plain]

theorem curves_plain (frames : List (String × Ref)) (vs : List String) (curves : Option (List Value)) (curve : Option Value) (rest : Fields) :
    (Fields.curves curves curve rest).plain frames vs false =
      (allPlain frames vs (curves.getD curve.toList) && rest.plain frames vs false) := by
  cases curves with
  | some l => simp [Fields.curves, many_plain]
  | none =>
    cases curve with
    | some v => simp [Fields.curves, Fields.plain, allPlain]
    | none => simp [Fields.curves, Fields.plain, allPlain]

/-- **C90 (control curves).** The conditions of `C90_means_partial` ask nothing of the storage of a control curve, whether it is virtual or not, but for
control curves of the plain type without values. -/
theorem C90_curves (frames : List (String × Ref)) (vs : List String) (md : Meta) (storage : String) (curves : Option (List Value)) (curve : Option Value)
    (values : Option (List ℚ)) (parameters : Option (List Value)) (h : allPlain frames vs (curves.getD curve.toList) = true)
    (hp : allPlain frames vs (parameters.getD []) = true) :
    (controlCurvePiecewise md storage curves curve).plain frames vs = true ∧
    (controlCurveIndex md storage (curves.getD [])).plain frames vs = true ∧
    (controlCurveInterpolated md storage curves curve values parameters).plain frames vs = true ∧
    (values.isSome = true ∨ parameters.isSome = true → (controlCurve md storage curves curve values parameters).plain frames vs = true) := by
  have hc : allPlain frames vs (curves.getD []) = true := by
    cases curves with
    | none => rfl
    | some l => simpa using h
  refine ⟨?_, ?_, ?_, fun hg => ?_⟩
  · simp [controlCurvePiecewise, Param.plain, curves_plain, h, Fields.plain]
  · simp [controlCurveIndex, Param.plain, many_plain, hc, Fields.plain]
  · simp [controlCurveInterpolated, Param.plain, curves_plain, h, Fields.plain, many_plain, constants_plain, hp]
  · have hg' : (values.isSome || parameters.isSome) = true := by simpa using hg
    cases values with
    | some qs => simp [controlCurve, Param.plain, curves_plain, h, Fields.plain, many_plain, constants_plain]
    | none => simp [controlCurve, Param.plain, curves_plain, h, Fields.plain, many_plain, hp, show parameters.isSome = true by simpa using hg']

/-- **C90 (nodes as metrics).** Polynomials, thresholds, interpolations and rolling means are understood only if their node is not virtual. -/
theorem C90_unaware (frames : List (String × Ref)) (vs : List String) (md : Meta) (node : String) (threshold : Value) (values : Option (List ℚ))
    (l points : List Value) (xs : String) (k : Bool) (n : Nat) (hv : node ∈ vs) :
    (polynomial md node).plain frames vs = false ∧ (nodeThreshold md node threshold values).plain frames vs = false ∧
    (storageThreshold md node threshold values).plain frames vs = false ∧ (multiThreshold md node l).plain frames vs = false ∧
    (interpolated md node xs points l k).plain frames vs = false ∧ (rollingMeanFlow md node (some n) none).plain frames vs = false := by
  simp [polynomial, nodeThreshold, storageThreshold, multiThreshold, interpolated, rollingMeanFlow, Param.plain, Fields.plain, hv]

/-- **C89 (virtual nodes).** In a network of the types modelled the virtual nodes are the storages that are not single reservoirs, and the aggregated
nodes. -/
theorem C89_virtual (name : String) (tags initial : Bool) (a b c : Option Value) (d e : Option Nat) (l : Option (List Value)) (vs : List Value)
    (ms : List (Option Value)) (ty : String) :
    [virtualStorage name tags a b c initial, rollingVirtualStorage name tags a b c initial d e, aggregatedNode name tags l a b,
      aggregatedStorage name tags].all Node.isVirtual = true ∧
    [flowNode ty name tags a b c, storageNode name tags a b c initial, catchment name tags a b, riverGauge name tags a b c,
      lossLink name tags a b c a, delay name tags d e, piecewiseLink name tags vs ms].any Node.isVirtual = false := by
  exact ⟨rfl, rfl⟩

/-- A reservoir and a group of it: a control curve on the group refers to the virtual node. -/
example : ((convert ⟨[storageNode "tank" true none none none true, aggregatedStorage "group" true], [],
      [controlCurvePiecewise (.given (some "level") true) "group" (some [.constant 1]) none], []⟩).map fun r =>
        (r.nodes.map Component.name, r.virtualNodes.map Component.name, r.parameters.flatMap (·.attrs))) =
    some (["tank"], ["group"], [⟨"control_curves", false, .literal 1⟩, ⟨"storage_node", false, .virtualNode "group"⟩]) := by decide +kernel

end Verif.V1
