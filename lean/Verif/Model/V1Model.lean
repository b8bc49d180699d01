import Verif.Model.Timestep
import Verif.Model.V1Scenario
import Verif.Model.V1

/-!
# The conversion of a whole old model, and the dates and scenarios of a model

Transcribed from `/repo/pywr-schema/src/model.rs`.

Simplifications: the texts of frequencies are parsed by `polars` (`timestep.rs:318`), which is an arbitrary partial function here (`none` is the panic
on a text that it does not understand); a panic of the conversion is `none`; of the network there is what `Model/V1.lean` models.
-/

namespace Verif.V1Model

open Verif.Calendar (DateTime)
open Verif.Time (Timestep TimestepDuration)

/-- `Timestep` of `pywr_v1_schema::model`. -/
inductive OldStep
  | days (n : Nat)
  | frequency (text : String)
  deriving DecidableEq, Repr

/-- `Metadata` of `pywr_v1_schema::model`. -/
structure OldMeta where
  title : Option String
  description : Option String
  minimumVersion : Option String
  deriving DecidableEq, Repr

/-- `PywrModel` of `pywr_v1_schema`. -/
structure Old where
  metadata : OldMeta
  start : DateTime
  stop : DateTime
  step : OldStep
  scenarios : Option (List Scenario.Old)
  combinations : Option (List (List Nat))
  network : V1.Network

/-- `Metadata`, lines 40-44. -/
structure Metadata where
  title : String
  description : Option String
  minimumVersion : Option String
  deriving DecidableEq, Repr

/-- `Timestep`, lines 78-85. `Hours` and `Days` are not zero. -/
inductive Step
  | hours (n : Nat)
  | days (n : Nat)
  | frequency (text : String)
  deriving DecidableEq, Repr

/-- `TimeDomain`, lines 107-111. -/
structure Times where
  start : DateTime
  stop : DateTime
  step : Step
  deriving DecidableEq, Repr

/-- `ModelSchema`, lines 441-446, with the network as it is converted. -/
structure New where
  metadata : Metadata
  time : Times
  scenarios : Option Scenario.SchemaDomain
  network : V1.Converted

/-- `ComponentConversionError` of a model. -/
inductive Report
  | scenarios (e : Scenario.ConvErr)
  | network (r : V1.Report)
  deriving DecidableEq, Repr

/-- `From<pywr_v1_schema::model::Metadata>`, lines 56-67. -/
def convMetadata (m : OldMeta) : Metadata :=
  ⟨m.title.getD "Model converted from Pywr v1.x with no title.", m.description, m.minimumVersion⟩

/-- `From<pywr_v1_schema::model::Timestep>`, lines 87-96: `NonZeroU64::new(d).expect(..)`. -/
def convStep : OldStep → Option Step
  | .days n => if n = 0 then none else some (.days n)
  | .frequency t => some (.frequency t)

/-- `From<pywr_v1_schema::model::Timestepper>`, lines 123-131. -/
def convTimes (o : Old) : Option Times :=
  match convStep o.step with
  | none => none
  | some s => some ⟨o.start, o.stop, s⟩

/-- `ModelSchema::from_v1`, lines 555-597. -/
def convert (o : Old) : Option (New × List Report) :=
  match convTimes o with
  | none => none
  | some t =>
    match Scenario.convScenarios o.scenarios o.combinations with
    | none => none
    | some (s, errors) =>
      match V1.convert o.network with
      | none => none
      | some n => some (⟨convMetadata o.metadata, t, s, n⟩, errors.map .scenarios ++ n.errors.map .network)

/-- What `polars` makes of a text: whether it is negative, months, weeks, days and nanoseconds. -/
abbrev Parse := String → Option (Bool × Nat × Nat × Nat × Nat)

/-- `From<TimeDomain> for TimeDomainBuilder`, lines 134-144, with the parsing of the text. -/
def Step.duration (parse : Parse) : Step → Option TimestepDuration
  | .hours n => some (.hours n)
  | .days n => some (.days n)
  | .frequency t => (parse t).map fun p => .frequency p.1 p.2.1 p.2.2.1 p.2.2.2.1 p.2.2.2.2

/-- Why a model has no dates and scenarios. -/
inductive Err
  | panic
  | time (e : Time.BuildError)
  | scenario (e : Scenario.Err)
  deriving DecidableEq, Repr

/-- `create_model_builder`, lines 518-553, as far as the domain, and `ModelDomainBuilder::build`: time first. The conversion of the scenarios
(`try_into`) precedes the building of either, so that both errors of scenarios come before those of time if there are any in the groups. -/
def New.domain (parse : Parse) (m : New) : Except Err (List Timestep × Scenario.Domain) :=
  let groups : Except Err Scenario.DomainBuilder :=
    match m.scenarios with
    | none => .ok ⟨[], none⟩
    | some s =>
      match Scenario.addGroups s.groups ⟨[], none⟩ with
      | .error e => .error (.scenario e)
      | .ok b => .ok (match s.combinations with | none => b | some cs => { b with combinations := some cs })
  match groups with
  | .error e => .error e
  | .ok b =>
    match m.time.step.duration parse with
    | none => .error .panic
    | some d =>
      match Time.build m.time.start m.time.stop d with
      | .error e => .error (.time e)
      | .ok ts =>
        match b.build with
        | .error e => .error (.scenario e)
        | .ok s => .ok (ts, s)

end Verif.V1Model
