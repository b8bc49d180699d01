import Mathlib.Algebra.Order.Field.Rat
import Std.Data.String.ToNat

/-!
# Conversion of networks of version 1

Transcribed from `/repo/pywr-schema/src/v1.rs`, `network.rs` lines 314-463 (`NetworkSchema::from_v1`), `metric.rs`
lines 228-275 and 765-820, `parameters/mod.rs` lines 593-737, `nodes/mod.rs` lines 618-722, `timeseries/mod.rs` lines
467-551, `edge.rs` lines 23-44 and the conversions of the single types of nodes and parameters.

The conversions of the single types all have the same form: the metadata are converted, then the attributes one after
the other, until one fails. A component is therefore a type, metadata and a list of attributes in the order in which
they are converted (`Fields`); `aggregated`, `division`, ... say what the list is for each type. Attributes that are
copied without change (e.g. the kind of aggregation) are left out, floating point numbers are rationals, `as u64` casts
are left out, and an error is the component, the attribute and the kind of the cause.

The documents of version 1 are read by the crate `pywr_v1_schema`, which is not modelled.
-/

namespace Verif.V1

/-- `ConversionError`, `error.rs`: the kinds that occur. -/
inductive Cause
  | unexpectedType | tableRef | floatToIndex | missingAttribute | unexpectedAttribute | unsupportedFeature
  | deprecatedParameter | unrecognisedType | customType | incorrectNumberOfValues | ambiguousAttributes | nonConstantValue
  | invalidSlot
  deriving DecidableEq, Repr

/-- `ParameterMeta` of version 1: it may be missing altogether, and so may the name; `tags` says whether all tags are
strings (`v1.rs` 79-99). -/
inductive Meta
  | missing
  | given (name : Option String) (tags : Bool)
  deriving DecidableEq, Repr

mutual

/-- `ParameterValue` of version 1. A reference to a table converts or not (`data_tables/mod.rs` 366-391). -/
inductive Value
  | constant (value : ℚ)
  | reference (name : String)
  | table (name : String) (ok : Bool)
  | inline (p : Param)

/-- The parameters of version 1, by the way they are converted (`parameters/mod.rs` 601-736). -/
inductive Param
  /-- a type with one conversion: metadata, then attributes -/
  | core (ty : String) (md : Meta) (fields : Fields)
  /-- lines 625-628: a control curve, with the control curves, whether `values` or `parameters` are given, and these -/
  | controlCurve (md : Meta) (storage : String) (curves : Fields) (given : Bool) (values : Fields)
  /-- lines 668-675: a data frame -/
  | dataFrame (md : Meta) (url table column scenario : Option String)
  /-- lines 676-684, 700-708, 713-721 and 730-735: types that are refused without looking at them -/
  | refused (name : Option String) (why : Cause)
  /-- lines 661, 662 and 712: `todo!()` -/
  | unimplemented

/-- The attributes of a component in the order of their conversion. -/
inductive Fields
  | done
  /-- an attribute that becomes a `Metric` -/
  | value (attr : String) (v : Value) (rest : Fields)
  /-- an attribute that becomes an `IndexMetric` -/
  | index (attr : String) (v : Value) (rest : Fields)
  /-- a reference to a node; `aware` says whether the conversion asks if it is virtual -/
  | node (attr : String) (target : String) (aware : Bool) (rest : Fields)
  /-- a check that ends the conversion if it fails -/
  | check (attr : String) (ok : Bool) (why : Cause) (rest : Fields)

end

/-- `TimeseriesReference`, `timeseries/mod.rs` 428-431; the column is tagged with whether it is of a scenario group. -/
structure Ref where
  name : String
  columns : Option (Bool × String)
  deriving DecidableEq, Repr

/-- `Metric` and `IndexMetric`: the forms that a conversion makes. -/
inductive Metric
  | literal (value : ℚ)
  | parameter (name : String)
  | timeseries (r : Ref)
  | table (name : String)
  | node (name : String)
  | virtualNode (name : String)
  deriving DecidableEq, Repr

/-- A converted attribute: its name, whether it is an `IndexMetric`, and the metric. -/
structure Attr where
  name : String
  index : Bool
  metric : Metric
  deriving DecidableEq, Repr

/-- A converted node or parameter. -/
structure Component where
  ty : String
  name : String
  attrs : List Attr
  deriving DecidableEq, Repr

/-- A converted timeseries: name and URL. -/
structure Series where
  name : String
  url : String
  deriving DecidableEq, Repr

/-- `ConversionData`, `v1.rs` 28-33. -/
structure Data where
  count : Nat
  virtualNodes : List String
  parameters : List Component
  timeseries : List Series
  deriving DecidableEq, Repr

/-- `ComponentConversionError::{Parameter, Node}`: name, attribute and cause. -/
structure Problem where
  name : String
  attr : String
  cause : Cause
  deriving DecidableEq, Repr

/-- The result of a conversion: a value, an error, or the panic of `todo!()`. -/
inductive Res (α : Type)
  | ok (a : α)
  | err (p : Problem)
  | panic
  deriving DecidableEq, Repr

/-- The names made up in `v1.rs` 110-116. -/
def madeUp : Option String → Nat → String
  | some parent, k => parent ++ "-p" ++ Nat.repr k
  | none, k => "unnamed-" ++ Nat.repr k

/-- `ParameterMeta::try_from_v1`, `v1.rs` 101-154: the name of the new parameter. -/
def convMeta (md : Meta) (parent : Option String) (d : Data) : Res String × Data :=
  match md with
  | .missing => (.ok (madeUp none d.count), { d with count := d.count + 1 })
  | .given (some name) tags => (if tags then .ok name else .err ⟨name, "tags", .unexpectedType⟩, d)
  | .given none tags =>
    let name := madeUp parent d.count
    (if tags then .ok name else .err ⟨name, "tags", .unexpectedType⟩, { d with count := d.count + 1 })

/-- `ParameterOrTimeseriesRef`, `parameters/mod.rs` 575-579. -/
inductive Definition
  | parameter (c : Component)
  | series (original : String) (r : Ref)
  deriving DecidableEq, Repr

/-- `Metric::Node` or `Metric::VirtualNode`, e.g. `control_curves.rs` 118-130. -/
def nodeMetric (d : Data) (target : String) (aware : Bool) : Metric :=
  if aware && d.virtualNodes.contains target then .virtualNode target else .node target

/-- `ConvertedTimeseriesReference::try_from_v1`, `timeseries/mod.rs` 475-549, after the metadata. -/
def convDataFrame (name : String) (url table column scenario : Option String) (d : Data) : Res Definition × Data :=
  let columns : Option (Option (Bool × String)) :=
    match column, scenario with
    | some c, none => some (some (false, c))
    | none, some s => some (some (true, s))
    | some _, some _ => none
    | none, none => some none
  let finish (target : String) (d : Data) : Res Definition × Data :=
    match columns with
    | some cs => (.ok (.series name ⟨target, cs⟩), d)
    | none => (.err ⟨name, "column", .ambiguousAttributes⟩, d)
  match url with
  | some u =>
    finish name
      (if d.timeseries.any (fun s => s.name == name) then d else { d with timeseries := d.timeseries ++ [⟨name, u⟩] })
  | none =>
    match table with
    | some t => finish t d
    | none => (.err ⟨name, "url", .missingAttribute⟩, d)

/-- An inline parameter is moved to the conversion data and leaves a reference, `metric.rs` 252-271 and 803-815. -/
def extract (r : Res Definition × Data) : Res Metric × Data :=
  match r with
  | (.ok (.parameter c), d) => (.ok (.parameter c.name), { d with parameters := d.parameters ++ [c] })
  | (.ok (.series _ ref), d) => (.ok (.timeseries ref), d)
  | (.err p, d) => (.err p, d)
  | (.panic, d) => (.panic, d)

mutual

/-- `Metric::try_from_v1`, `metric.rs` 228-275, and `IndexMetric::try_from_v1`, lines 765-820 (`index`). The name and
the attribute of an error are replaced by the caller. -/
def convValue (index : Bool) (v : Value) (parent : Option String) (d : Data) : Res Metric × Data :=
  match v with
  | .constant q =>
    (if index && (q.den != 1 || decide (q < 0)) then .err ⟨"", "", .floatToIndex⟩ else .ok (.literal q), d)
  | .reference n => (.ok (.parameter n), d)
  | .table t ok => (if ok then .ok (.table t) else .err ⟨"", "", .tableRef⟩, d)
  | .inline p => extract (convParam p parent d)

/-- The attributes of the component `name`, `try_convert_node_attr` and `try_convert_parameter_attr`, `v1.rs`
157-201. -/
def convFields (f : Fields) (name : String) (parent : Option String) (d : Data) : Res (List Attr) × Data :=
  match f with
  | .done => (.ok [], d)
  | .value attr v rest =>
    match convValue false v (parent.or (some name)) d with
    | (.ok m, d1) =>
      match convFields rest name parent d1 with
      | (.ok as, d2) => (.ok (⟨attr, false, m⟩ :: as), d2)
      | r => r
    | (.err p, d1) => (.err ⟨name, attr, p.cause⟩, d1)
    | (.panic, d1) => (.panic, d1)
  | .index attr v rest =>
    match convValue true v (parent.or (some name)) d with
    | (.ok m, d1) =>
      match convFields rest name parent d1 with
      | (.ok as, d2) => (.ok (⟨attr, true, m⟩ :: as), d2)
      | r => r
    | (.err p, d1) => (.err ⟨name, attr, p.cause⟩, d1)
    | (.panic, d1) => (.panic, d1)
  | .node attr target aware rest =>
    match convFields rest name parent d with
    | (.ok as, d2) => (.ok (⟨attr, false, nodeMetric d target aware⟩ :: as), d2)
    | r => r
  | .check attr ok why rest =>
    if ok then convFields rest name parent d else (.err ⟨name, attr, why⟩, d)

/-- `ParameterOrTimeseriesRef::try_from_v1`, `parameters/mod.rs` 593-737. -/
def convParam (p : Param) (parent : Option String) (d : Data) : Res Definition × Data :=
  match p with
  | .core ty md fields =>
    match convMeta md parent d with
    | (.ok name, d1) =>
      match convFields fields name parent d1 with
      | (.ok as, d2) => (.ok (.parameter ⟨ty, name, as⟩), d2)
      | (.err p, d2) => (.err p, d2)
      | (.panic, d2) => (.panic, d2)
    | (.err p, d1) => (.err p, d1)
    | (.panic, d1) => (.panic, d1)
  | .controlCurve md storage curves given values =>
    -- lines 625-626; `control_curves.rs` 297-355
    let first : Res Definition × Data :=
      match convMeta md parent d with
      | (.ok name, d1) =>
        match convFields curves name parent d1 with
        | (.ok cs, d2) =>
          if given then
            match convFields values name parent d2 with
            | (.ok vs, d3) =>
              (.ok (.parameter ⟨"ControlCurve", name, cs ++ vs ++ [⟨"storage_node", false, nodeMetric d3 storage true⟩]⟩),
                d3)
            | (.err p, d3) => (.err p, d3)
            | (.panic, d3) => (.panic, d3)
          else (.err ⟨name, "values", .missingAttribute⟩, d2)
        | (.err p, d2) => (.err p, d2)
        | (.panic, d2) => (.panic, d2)
      | (.err p, d1) => (.err p, d1)
      | (.panic, d1) => (.panic, d1)
    match first with
    | (.err _, d') =>
      -- line 627; `control_curves.rs` 216-257
      match convMeta md parent d' with
      | (.ok name, d1) =>
        match convFields curves name parent d1 with
        | (.ok cs, d2) =>
          if given then (.err ⟨name, "values", .unexpectedAttribute⟩, d2)
          else
            (.ok (.parameter ⟨"ControlCurveIndex", name, cs ++ [⟨"storage_node", false, nodeMetric d2 storage false⟩]⟩), d2)
        | (.err p, d2) => (.err p, d2)
        | (.panic, d2) => (.panic, d2)
      | (.err p, d1) => (.err p, d1)
      | (.panic, d1) => (.panic, d1)
    | r => r
  | .dataFrame md url table column scenario =>
    match convMeta md parent d with
    | (.ok name, d1) => convDataFrame name url table column scenario d1
    | (.err p, d1) => (.err p, d1)
    | (.panic, d1) => (.panic, d1)
  | .refused name why => (.err ⟨name.getD "unnamed", "", why⟩, d)
  | .unimplemented => (.panic, d)

end

/-- The nodes of version 1, by the way they are converted (`nodes/mod.rs` 618-722). -/
inductive Node
  /-- metadata, then attributes; `virtual` says whether it becomes a virtual node -/
  | core (isVirtual : Bool) (ty : String) (name : String) (tags : Bool) (fields : Fields)
  /-- lines 691-693: with the factors and the names of the slots -/
  | riverSplit (name : String) (tags : Bool) (fields : Fields) (factors : List Value) (slots : List String)
  /-- lines 633-638 -/
  | custom (name : String)
  /-- lines 703 and 706: `todo!()` -/
  | unimplemented (name : String)

/-- `river_split_with_gauge.rs` 338-349: the values of the factors. They are converted without a parent. -/
def convFactors : List Value → Data → Res (List ℚ) × Data
  | [], d => (.ok [], d)
  | v :: vs, d =>
    match convValue false v none d with
    | (.ok (.literal q), d1) =>
      match convFactors vs d1 with
      | (.ok qs, d2) => (.ok (q :: qs), d2)
      | r => r
    | (.ok _, d1) => (.err ⟨"", "", .nonConstantValue⟩, d1)
    | (.err p, d1) => (.err p, d1)
    | (.panic, d1) => (.panic, d1)

/-- `river_split_with_gauge.rs` 352-356: proportional factors of all but the first. -/
def proportions : List ℚ → List ℚ
  | [] => []
  | q :: qs => qs.map fun f => f / (qs.sum + q)

/-- `river_split_with_gauge.rs` 308-317: the splits, one for each factor and slot. -/
def splits (qs : List ℚ) (slots : List String) : List Attr :=
  ((proportions qs).zip (slots.drop 1)).map fun p => ⟨p.2, false, .literal p.1⟩

/-- `NodeOrVirtualNode::try_from_v1`, `nodes/mod.rs` 618-722. -/
def convNode (n : Node) (d : Data) : Res (Bool × Component) × Data :=
  match n with
  | .core isVirtual ty name tags fields =>
    if tags then
      match convFields fields name none d with
      | (.ok as, d1) => (.ok (isVirtual, ⟨ty, name, as⟩), d1)
      | (.err p, d1) => (.err p, d1)
      | (.panic, d1) => (.panic, d1)
    else (.err ⟨name, "tags", .unexpectedType⟩, d)
  | .riverSplit name tags fields factors slots =>
    if tags then
      match convFields fields name none d with
      | (.ok as, d1) =>
        match convFactors factors d1 with
        | (.ok qs, d2) => (.ok (false, ⟨"RiverSplitWithGauge", name, as ++ splits qs slots⟩), d2)
        | (.err p, d2) => (.err ⟨name, "factors", p.cause⟩, d2)
        | (.panic, d2) => (.panic, d2)
      | (.err p, d1) => (.err p, d1)
      | (.panic, d1) => (.panic, d1)
    else (.err ⟨name, "tags", .unexpectedType⟩, d)
  | .custom name => (.err ⟨name, "", .customType⟩, d)
  | .unimplemented _ => (.panic, d)

/-- An edge of version 1: the slots are text. -/
structure Edge where
  fromNode : String
  toNode : String
  fromSlot : Option String
  toSlot : Option String
  deriving DecidableEq, Repr

/-- `NodeSlot`, `slots.rs`: the slots that a conversion makes. -/
inductive Slot
  | abstraction | river | storage | spill | compensation
  deriving DecidableEq, Repr

/-- `NodeSlot::try_from_v1_str`, `slots.rs` 21-30. -/
def convSlot (s : String) : Option Slot :=
  if s = "abstraction" then some .abstraction
  else if s = "river" then some .river
  else if s = "storage" then some .storage
  else if s = "spill" then some .spill
  else if s = "compensation" then some .compensation
  else none

/-- A converted edge. -/
structure NewEdge where
  fromNode : String
  toNode : String
  fromSlot : Option Slot
  toSlot : Option Slot
  deriving DecidableEq, Repr

/-- `Edge::try_from`, `edge.rs` 23-44; `none` is the error. -/
def convEdge (e : Edge) : Option NewEdge :=
  let slot : Option String → Option (Option Slot)
    | none => some none
    | some s => (convSlot s).map some
  match slot e.fromSlot with
  | none => none
  | some f =>
    match slot e.toSlot with
    | none => none
    | some t => some ⟨e.fromNode, e.toNode, f, t⟩

/-- `PywrNetwork` of version 1. -/
structure Network where
  nodes : List Node
  edges : List Edge
  parameters : List Param
  tables : List String

/-- `ComponentConversionError`. -/
inductive Report
  | component (p : Problem)
  | edge (fromNode toNode : String)
  | table (name : String)
  deriving DecidableEq, Repr

/-- The result of `NetworkSchema::from_v1`. -/
structure Converted where
  nodes : List Component
  virtualNodes : List Component
  edges : List NewEdge
  parameters : List Component
  timeseries : List Series
  errors : List Report
  deriving DecidableEq, Repr

/-- `network.rs` 333-349: the names of the virtual nodes. -/
def virtualNames : List Node → List String
  | [] => []
  | .core true _ name _ _ :: ns => name :: virtualNames ns
  | _ :: ns => virtualNames ns

/-- What the loop over nodes collects, `network.rs` 325-329. -/
structure Nodes where
  nodes : List Component
  virtualNodes : List Component
  errors : List Problem
  deriving DecidableEq, Repr

/-- `network.rs` 352-366; the count is reset before each node. `none` is the panic. -/
def convNodes : List Node → Nodes → Data → Option (Nodes × Data)
  | [], acc, d => some (acc, d)
  | n :: ns, acc, d =>
    match convNode n { d with count := 0 } with
    | (.ok (false, c), d1) => convNodes ns { acc with nodes := acc.nodes ++ [c] } d1
    | (.ok (true, c), d1) => convNodes ns { acc with virtualNodes := acc.virtualNodes ++ [c] } d1
    | (.err p, d1) => convNodes ns { acc with errors := acc.errors ++ [p] } d1
    | (.panic, _) => none

/-- `network.rs` 369-388: the edges, and the nodes of those that do not convert. -/
def convEdges : List Edge → List NewEdge × List (String × String)
  | [] => ([], [])
  | e :: es =>
    match convEdge e with
    | some e' => (e' :: (convEdges es).1, (convEdges es).2)
    | none => ((convEdges es).1, (e.fromNode, e.toNode) :: (convEdges es).2)

/-- What the loop over parameters collects, `network.rs` 328, 393. -/
structure Params where
  parameters : List Component
  refs : List (String × Ref)
  errors : List Problem
  deriving DecidableEq, Repr

/-- `network.rs` 397-406. `none` is the panic. -/
def convParams : List Param → Params → Data → Option (Params × Data)
  | [], acc, d => some (acc, d)
  | p :: ps, acc, d =>
    match convParam p none d with
    | (.ok (.parameter c), d1) => convParams ps { acc with parameters := acc.parameters ++ [c] } d1
    | (.ok (.series original r), d1) => convParams ps { acc with refs := acc.refs ++ [(original, r)] } d1
    | (.err e, d1) => convParams ps { acc with errors := acc.errors ++ [e] } d1
    | (.panic, _) => none

/-- `network.rs` 415-421: a reference to a parameter that became a timeseries. -/
def update (refs : List (String × Ref)) (m : Metric) : Metric :=
  match m with
  | .parameter n =>
    match refs.find? (fun r => r.1 == n) with
    | some r => .timeseries r.2
    | none => m
  | _ => m

/-- `visit_metrics_mut`: index metrics are not visited, `visit.rs` 29-33. -/
def updateComponent (refs : List (String × Ref)) (c : Component) : Component :=
  { c with attrs := c.attrs.map fun a => if a.index then a else { a with metric := update refs a.metric } }

/-- `NetworkSchema::from_v1`, `network.rs` 321-463. `none` is the panic. -/
def convert (v1 : Network) : Option Converted :=
  match convNodes v1.nodes ⟨[], [], []⟩ ⟨0, virtualNames v1.nodes, [], []⟩ with
  | none => none
  | some (ns, d) =>
    match convParams v1.parameters ⟨[], [], []⟩ { d with count := 0 } with
    | none => none
    | some (ps, d) =>
      some {
        nodes := ns.nodes.map (updateComponent ps.refs)
        virtualNodes := ns.virtualNodes
        edges := (convEdges v1.edges).1
        parameters := (ps.parameters ++ d.parameters).map (updateComponent ps.refs)
        timeseries := d.timeseries
        errors := ns.errors.map .component ++ (convEdges v1.edges).2.map (fun e => .edge e.1 e.2)
          ++ ps.errors.map .component ++ v1.tables.map .table }

/-! ## The types of parameters and nodes -/

/-- Values of one attribute, one after the other. -/
def Fields.many (attr : String) : List Value → Fields → Fields
  | [], rest => rest
  | v :: vs, rest => .value attr v (Fields.many attr vs rest)

/-- Index values of one attribute. -/
def Fields.manyIndex (attr : String) : List Value → Fields → Fields
  | [], rest => rest
  | v :: vs, rest => .index attr v (Fields.manyIndex attr vs rest)

/-- An optional attribute, `v1.rs` 46-58. -/
def Fields.opt (attr : String) : Option Value → Fields → Fields
  | none, rest => rest
  | some v, rest => .value attr v rest

/-- `try_convert_values`, `v1.rs` 252-288: numbers, an external source, or a table. -/
def Fields.values (values : Option (List ℚ)) (isExternal : Bool) (table : Option Bool) : Fields :=
  match values with
  | some _ => .done
  | none =>
    if isExternal then .check "url" false .unsupportedFeature .done
    else
      match table with
      | some ok => .check "table" ok .tableRef .done
      | none => .check "table" false .missingAttribute .done

/-- `try_convert_control_curves`, `v1.rs` 290-327. -/
def Fields.curves (curves : Option (List Value)) (curve : Option Value) (rest : Fields) : Fields :=
  match curves with
  | some vs => .many "control_curves" vs rest
  | none =>
    match curve with
    | some v => .value "control_curve" v rest
    | none => .check "control_curves" false .missingAttribute rest

/-- `aggregated.rs` 79-103 -/
def aggregated (md : Meta) (ps : List Value) : Param := .core "Aggregated" md (.many "parameters" ps .done)

/-- `aggregated.rs` 148-172 -/
def aggregatedIndex (md : Meta) (ps : List Value) : Param :=
  .core "AggregatedIndex" md (.manyIndex "parameters" ps .done)

/-- `asymmetric_switch.rs` 47-79 -/
def asymmetricSwitch (md : Meta) (on off : Value) : Param :=
  .core "AsymmetricSwitchIndex" md (.index "on_index_parameter" on (.index "off_index_parameter" off .done))

/-- `core.rs` 187-216: without a value and a table the value is zero -/
def constant (md : Meta) (value : Option ℚ) (table : Option Bool) : Param :=
  .core "Constant" md (.check "table" (value.isSome || table.getD true) .tableRef .done)

/-- `core.rs` 254-273 -/
def constantScenario (md : Meta) (values : Option (List ℚ)) (isExternal : Bool) (table : Option Bool) : Param :=
  .core "ConstantScenario" md (.values values isExternal table)

/-- `profiles.rs` 68-83, 149-169 and 612-632: daily, monthly and weekly profiles -/
def profile (ty : String) (md : Meta) (values : Option (List ℚ)) (isExternal : Bool) (table : Option Bool) : Param :=
  .core ty md (.values values isExternal table)

/-- `control_curves.rs` 72-140 -/
def controlCurveInterpolated (md : Meta) (storage : String) (curves : Option (List Value)) (curve : Option Value)
    (values : Option (List ℚ)) (parameters : Option (List Value)) : Param :=
  .core "ControlCurveInterpolated" md (.curves curves curve
    (.check "control_curves" (values.isSome || parameters.isSome) .missingAttribute
      (.check "control_curves" (!(values.isSome && parameters.isSome)) .unexpectedAttribute
        (.many "values" ((values.getD []).map .constant)
          (.many "parameters" (parameters.getD []) (.node "storage_node" storage true .done))))))

/-- `control_curves.rs` 174-212 -/
def controlCurveIndex (md : Meta) (storage : String) (curves : List Value) : Param :=
  .core "ControlCurveIndex" md (.many "control_curves" curves (.node "storage_node" storage true .done))

/-- `control_curves.rs` 401-444 -/
def controlCurvePiecewise (md : Meta) (storage : String) (curves : Option (List Value)) (curve : Option Value) : Param :=
  .core "ControlCurvePiecewiseInterpolated" md (.curves curves curve (.node "storage_node" storage true .done))

/-- `parameters/mod.rs` 625-628 with `control_curves.rs` 216-257 and 297-355 -/
def controlCurve (md : Meta) (storage : String) (curves : Option (List Value)) (curve : Option Value)
    (values : Option (List ℚ)) (parameters : Option (List Value)) : Param :=
  .controlCurve md storage (.curves curves curve .done) (values.isSome || parameters.isSome)
    (match values with
    | some qs => .many "values" (qs.map .constant) .done
    | none => .many "parameters" (parameters.getD []) .done)

/-- `indexed_array.rs` 49-80 -/
def indexedArray (md : Meta) (ps : List Value) (index : Value) : Param :=
  .core "IndexedArray" md (.many "parameters" ps (.index "index_parameter" index .done))

/-- `core.rs` 307-327, 442-462, 490-506, 554-574 and 622-641: `Max`, `Min`, `Negative`, `NegativeMax`, `NegativeMin` -/
def oneParameter (ty : String) (md : Meta) (p : Value) : Param := .core ty md (.value "parameter" p .done)

/-- `core.rs` 374-397 -/
def division (md : Meta) (numerator denominator : Value) : Param :=
  .core "Division" md (.value "numerator" numerator (.value "denominator" denominator .done))

/-- `polynomial.rs` 53-79 -/
def polynomial (md : Meta) (storage : String) : Param := .core "Polynomial1D" md (.node "storage_node" storage false .done)

/-- `thresholds.rs` 156-200; `values` are two numbers or none -/
def parameterThreshold (md : Meta) (p threshold : Value) (values : Option (List ℚ)) : Param :=
  .core "Threshold" md (.value "parameter" p (.value "threshold" threshold
    (.check "values" (values.all (·.length == 2)) .incorrectNumberOfValues
      (.many "values" ((values.getD []).map .constant) .done))))

/-- `thresholds.rs` 202-247 -/
def nodeThreshold (md : Meta) (node : String) (threshold : Value) (values : Option (List ℚ)) : Param :=
  .core "Threshold" md (.node "node" node false (.value "threshold" threshold
    (.check "values" (values.all (·.length == 2)) .incorrectNumberOfValues
      (.many "values" ((values.getD []).map .constant) .done))))

/-- `thresholds.rs` 249-294 -/
def storageThreshold (md : Meta) (node : String) (threshold : Value) (values : Option (List ℚ)) : Param :=
  .core "Threshold" md (.node "storage_node" node false
    (.check "values" (values.all (·.length == 2)) .incorrectNumberOfValues
      (.many "values" ((values.getD []).map .constant) (.value "threshold" threshold .done))))

/-- `thresholds.rs` 376-404 -/
def multiThreshold (md : Meta) (node : String) (thresholds : List Value) : Param :=
  .core "MultiThreshold" md (.node "node" node false (.many "thresholds" thresholds .done))

/-- `thresholds.rs` 406-434 -/
def multiParameterThreshold (md : Meta) (p : Value) (thresholds : List Value) : Param :=
  .core "MultiThreshold" md (.value "parameter" p (.many "thresholds" thresholds .done))

/-- `interpolated.rs` 80-144 and 146-210; `kind` is whether the kind of interpolation is linear or not given -/
def interpolated (md : Meta) (node xs : String) (points values : List Value) (kind : Bool) : Param :=
  .core "Interpolated" md (.node "node" node false (.many xs points (.many "values" values
    (.check "interp_kwargs" kind .unsupportedFeature .done))))

/-- `hydropower.rs` 139-175 -/
def hydropowerTarget (md : Meta) (target : Value) (elevation minFlow maxFlow : Option Value) : Param :=
  .core "HydropowerTarget" md (.value "target" target (.opt "water_elevation_parameter" elevation
    (.opt "min_flow" minFlow (.opt "max_flow" maxFlow .done))))

/-- `rolling.rs` 101-160 -/
def rollingMeanFlow (md : Meta) (node : String) (timesteps days : Option Nat) : Param :=
  .core "Rolling" md
    (match timesteps, days with
    | some _, none => .node "node" node false .done
    | none, some _ => .check "days" false .unsupportedFeature .done
    | _, _ => .check "timesteps" false .unsupportedFeature .done)

/-- `tables.rs` 108-138; `checksum` is whether it is of a known kind -/
def tablesArray (md : Meta) (checksum : Option Bool) : Param :=
  .core "TablesArray" md (.check "checksum" (checksum.getD true) .unsupportedFeature .done)

/-- `discount_factor.rs` 45-61 and `profiles.rs` 215-232: nothing can fail -/
def plain (ty : String) (md : Meta) : Param := .core ty md .done

/-- `nodes/core.rs` 160-183, 614-642, 644-671 and 819-842: inputs, links, break links and outputs -/
def flowNode (ty : String) (name : String) (tags : Bool) (cost maxFlow minFlow : Option Value) : Node :=
  .core false ty name tags (.opt "cost" cost (.opt "max_flow" maxFlow (.opt "min_flow" minFlow .done)))

/-- `nodes/core.rs` 1007-1063; `initial` is whether one of the two initial volumes is given, `v1.rs` 222-250 -/
def storageNode (name : String) (tags : Bool) (cost maxVolume minVolume : Option Value) (initial : Bool) : Node :=
  .core false "Storage" name tags (.opt "cost" cost (.opt "max_volume" maxVolume (.opt "min_volume" minVolume
    (.check "initial_volume" initial .missingAttribute .done))))

/-- `virtual_storage.rs` 323-357, 359-402, 404-444 and 516-563 -/
def virtualStorage (name : String) (tags : Bool) (cost maxVolume minVolume : Option Value) (initial : Bool) : Node :=
  .core true "VirtualStorage" name tags (.opt "cost" cost (.opt "max_volume" maxVolume (.opt "min_volume" minVolume
    (.check "initial_volume" initial .missingAttribute .done))))

/-- `virtual_storage.rs` 446-514 -/
def rollingVirtualStorage (name : String) (tags : Bool) (cost maxVolume minVolume : Option Value) (initial : Bool)
    (days timesteps : Option Nat) : Node :=
  .core true "VirtualStorage" name tags (.opt "cost" cost (.opt "max_volume" maxVolume (.opt "min_volume" minVolume
    (.check "initial_volume" initial .missingAttribute
      (match days, timesteps with
      | some n, _ => .check "window" (n != 0) .unsupportedFeature .done
      | none, some n => .check "window" (n != 0) .unsupportedFeature .done
      | none, none => .check "window" false .missingAttribute .done)))))

/-- `virtual_nodes/aggregated.rs` 233-276 -/
def aggregatedNode (name : String) (tags : Bool) (factors : Option (List Value)) (maxFlow minFlow : Option Value) : Node :=
  .core true "Aggregated" name tags (.many "factors" (factors.getD []) (.opt "max_flow" maxFlow
    (.opt "min_flow" minFlow .done)))

/-- `virtual_nodes/aggregated.rs` 379-391 -/
def aggregatedStorage (name : String) (tags : Bool) : Node := .core true "AggregatedStorage" name tags .done

/-- `nodes/core.rs` 1187-1208; the flow is reported as `min_flow` -/
def catchment (name : String) (tags : Bool) (cost flow : Option Value) : Node :=
  .core false "Catchment" name tags (.opt "cost" cost (.opt "min_flow" flow .done))

/-- `river_gauge.rs` 168-191 -/
def riverGauge (name : String) (tags : Bool) (mrf mrfCost cost : Option Value) : Node :=
  .core false "RiverGauge" name tags (.opt "mrf" mrf (.opt "mrf_cost" mrfCost (.opt "cost" cost .done)))

/-- `loss_link.rs` 293-321 -/
def lossLink (name : String) (tags : Bool) (lossFactor cost maxFlow minFlow : Option Value) : Node :=
  .core false "LossLink" name tags (.opt "loss_factor" lossFactor (.opt "cost" cost (.opt "max_flow" maxFlow
    (.opt "min_flow" minFlow .done))))

/-- `delay.rs` 166-199 -/
def delay (name : String) (tags : Bool) (days timesteps : Option Nat) : Node :=
  .core false "Delay" name tags (.check "delay" (days.isSome || timesteps.isSome) .missingAttribute .done)

/-- `piecewise_link.rs` 188-245; the pairing of costs and flows into steps is left out -/
def piecewiseLink (name : String) (tags : Bool) (costs : List Value) (maxFlows : List (Option Value)) : Node :=
  .core false "PiecewiseLink" name tags (.many "costs" costs
    (maxFlows.foldr (fun v rest => Fields.opt "max_flows" v rest) .done))

end Verif.V1
