import Verif.Model.Scenario

/-!
# Conversion of the scenarios of an old model

Transcribed from `/repo/pywr-schema/src/model.rs`. A group of the schema has the fields of `ScenarioGroupBuilder` in
pywr-core, to which it is loaded one to one (lines 195-217); both are `GroupBuilder` here. A step of zero makes
`step_by` panic: the error `zeroStep`.
-/

namespace Verif.Scenario

/-- `Scenario` of `pywr_v1_schema::model`: a group of an old model. The slice is a list of up to three optional numbers. -/
structure Old where
  name : String
  size : Nat
  names : Option (List String)
  slice : Option (List (Option Nat))
  deriving DecidableEq, Repr

/-- What can go wrong: `InvalidScenarioSlice`, `ScenarioCombinationsWithoutGroups`, and the panic of `step_by(0)`. -/
inductive ConvErr
  | invalidSlice (length : Nat)
  | combinationsWithoutGroups
  | zeroStep
  deriving DecidableEq, Repr

/-- `(start..end).step_by(step).collect()`. -/
def stepBy (start stop step : Nat) : List Nat :=
  (List.range ((stop - start + step - 1) / step)).map (fun k => start + k * step)

/-- `ScenarioGroup::try_from`, lines 223-253: the subset. -/
def Old.subset (o : Old) : Except ConvErr (Option SubsetBuilder) :=
  match o.slice with
  | none => .ok none
  | some [_] => .ok (some (.slice 0 o.size))
  | some [a, b] => .ok (some (.slice (a.getD 0) (b.getD o.size)))
  | some [a, b, none] => .ok (some (.slice (a.getD 0) (b.getD o.size)))
  | some [a, b, some c] =>
    if c = 0 then .error .zeroStep else .ok (some (.indices (stepBy (a.getD 0) (b.getD o.size) c)))
  | some s => .error (.invalidSlice s.length)

/-- `ScenarioGroup::try_from`, lines 220-262. -/
def Old.convert (o : Old) : Except ConvErr GroupBuilder :=
  match o.subset with
  | .error e => .error e
  | .ok s => .ok ⟨o.name, o.size, s, o.names⟩

/-- `ScenarioDomain` of the schema, lines 323-329. -/
structure SchemaDomain where
  groups : List GroupBuilder
  combinations : Option (List (List LabelOrIndex))

/-- `ModelSchema::from_v1`, lines 561-588: the scenarios of the new model, and what is reported. The panic is `none`.
`ScenarioDomain::try_from`, lines 331-341, stops at the first group that cannot be converted. -/
def convScenarios (scenarios : Option (List Old)) (combinations : Option (List (List Nat))) :
    Option (Option SchemaDomain × List ConvErr) :=
  let first : Option (Option SchemaDomain × List ConvErr) :=
    match scenarios with
    | none => some (none, [])
    | some os =>
      match mapE Old.convert os with
      | .error .zeroStep => none
      | .error e => some (none, [e])
      | .ok gs => some (some ⟨gs, none⟩, [])
  match first with
  | none => none
  | some (d, errors) =>
    match combinations with
    | none => some (d, errors)
    | some cs =>
      match d with
      | some d => some (some { d with combinations := some (cs.map (·.map LabelOrIndex.index)) }, errors)
      | none => some (none, errors ++ [.combinationsWithoutGroups])

/-- The loop of `ScenarioDomain::try_into`, lines 347-351. -/
def addGroups : List GroupBuilder → DomainBuilder → Except Err DomainBuilder
  | [], b => .ok b
  | g :: gs, b =>
    match g.build with
    | .error e => .error e
    | .ok g =>
      match b.withGroup g with
      | .error e => .error e
      | .ok b => addGroups gs b

/-- `ScenarioDomain::try_into`, lines 344-360, and `build`. -/
def SchemaDomain.build (d : SchemaDomain) : Except Err Domain :=
  match addGroups d.groups ⟨[], none⟩ with
  | .error e => .error e
  | .ok b =>
    match d.combinations with
    | none => b.build
    | some cs => ({ b with combinations := some cs } : DomainBuilder).build

end Verif.Scenario
