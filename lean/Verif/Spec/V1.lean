import Verif.Model.V1

/-!
# What the conversion of an old network should do

Two descriptions of a document that do not refer to the conversion: which of its components can be converted
(`verdict`), and what its attributes mean in a new network (`means`).
-/

namespace Verif.V1

/-! ## What can be converted -/

/-- A component can be converted, or there is something wrong with an attribute, or its type is not supported at all and
the conversion of the whole network ends. -/
inductive Verdict
  | fine
  | wrong (attr : String) (cause : Cause)
  | stops
  deriving DecidableEq, Repr

/-- The first of two that is not fine. -/
def Verdict.and : Verdict → Verdict → Verdict
  | .fine, v => v
  | v, _ => v

/-- An attribute with something wrong inside is wrong for the same reason. -/
def Verdict.at (attr : String) : Verdict → Verdict
  | .wrong _ c => .wrong attr c
  | v => v

/-- All tags must be text. -/
def Meta.verdict : Meta → Verdict
  | .given _ false => .wrong "tags" .unexpectedType
  | _ => .fine

mutual

/-- Numbers for indices must be whole and not negative, references to tables must convert. -/
def Value.verdict (index : Bool) : Value → Verdict
  | .constant q => if index ∧ ¬ (q.den = 1 ∧ 0 ≤ q) then .wrong "" .floatToIndex else .fine
  | .reference _ => .fine
  | .table _ ok => if ok then .fine else .wrong "" .tableRef
  | .inline p => p.verdict

/-- A control curve with values that cannot be converted is reported as having values. A data frame needs a file or a
table, and not both a column and a scenario group. -/
def Param.verdict : Param → Verdict
  | .core _ md f => md.verdict.and f.verdict
  | .controlCurve md _ curves given values =>
    (md.verdict.and curves.verdict).and
      (if given then
        match values.verdict with
        | .wrong _ _ => .wrong "values" .unexpectedAttribute
        | v => v
      else .fine)
  | .dataFrame md url table column scenario =>
    md.verdict.and
      (if url.isNone ∧ table.isNone then .wrong "url" .missingAttribute
      else if column.isSome ∧ scenario.isSome then .wrong "column" .ambiguousAttributes
      else .fine)
  | .refused _ why => .wrong "" why
  | .unimplemented => .stops

/-- Attributes are looked at in order. -/
def Fields.verdict : Fields → Verdict
  | .done => .fine
  | .value attr v rest => ((v.verdict false).at attr).and rest.verdict
  | .index attr v rest => ((v.verdict true).at attr).and rest.verdict
  | .node _ _ _ rest => rest.verdict
  | .check attr ok why rest => if ok then rest.verdict else .wrong attr why

end

/-- The factors of a river split must be numbers. -/
def factorsVerdict : List Value → Verdict
  | [] => .fine
  | .constant _ :: vs => factorsVerdict vs
  | v :: _ => (v.verdict false).and (.wrong "" .nonConstantValue)

def Node.verdict : Node → Verdict
  | .core _ _ _ tags f => (Meta.given none tags).verdict.and f.verdict
  | .riverSplit _ tags f factors _ =>
    ((Meta.given none tags).verdict.and f.verdict).and ((factorsVerdict factors).at "factors")
  | .custom _ => .wrong "" .customType
  | .unimplemented _ => .stops

/-! ## Names -/

def Node.name : Node → String
  | .core _ _ n _ _ => n
  | .riverSplit n _ _ _ _ => n
  | .custom n => n
  | .unimplemented n => n

def Node.ty : Node → String
  | .core _ ty _ _ _ => ty
  | .riverSplit .. => "RiverSplitWithGauge"
  | _ => ""

def Node.isVirtual : Node → Bool
  | .core b _ _ _ _ => b
  | _ => false

/-- The name written in the metadata. -/
def Meta.name : Meta → Option String
  | .given n _ => n
  | .missing => none

/-- The name of a parameter, if it has one. -/
def Param.name : Param → Option String
  | .core _ md _ => md.name
  | .controlCurve md _ _ _ _ => md.name
  | .dataFrame md _ _ _ _ => md.name
  | .refused n _ => n
  | .unimplemented => none

mutual

/-- The names written in a value, in order. -/
def Value.written : Value → List String
  | .inline p => p.written
  | _ => []

def Param.written : Param → List String
  | .core _ md f => md.name.toList ++ f.written
  | .controlCurve md _ curves _ values => md.name.toList ++ (curves.written ++ values.written)
  | .dataFrame md _ _ _ _ => md.name.toList
  | .refused _ _ => []
  | .unimplemented => []

def Fields.written : Fields → List String
  | .done => []
  | .value _ v rest => v.written ++ rest.written
  | .index _ v rest => v.written ++ rest.written
  | .node _ _ _ rest => rest.written
  | .check _ _ _ rest => rest.written

end

def Node.fields : Node → Fields
  | .core _ _ _ _ f => f
  | .riverSplit _ _ f _ _ => f
  | _ => .done

def Node.factors : Node → List Value
  | .riverSplit _ _ _ vs _ => vs
  | _ => []

mutual

/-- The names that are made up are made for this component: the metadata are there, and names inside control curves,
which may be converted twice, are not written down unless they are converted once. -/
def Value.regular : Value → Bool
  | .inline p => p.regular
  | _ => true

def Param.regular : Param → Bool
  | .core _ md f => md != .missing && f.regular
  | .controlCurve md _ curves given values =>
    md != .missing && curves.regular && values.regular &&
      (curves.written.isEmpty || (given && curves.verdict == .fine && values.verdict == .fine))
  | .dataFrame md _ _ _ _ => md != .missing
  | _ => true

def Fields.regular : Fields → Bool
  | .done => true
  | .value _ v rest => v.regular && rest.regular
  | .index _ v rest => v.regular && rest.regular
  | .node _ _ _ rest => rest.regular
  | .check _ _ _ rest => rest.regular

end

/-- A number as the factor of a river split. -/
def Value.isConstant : Value → Bool
  | .constant _ => true
  | _ => false

/-- The names in a network are distinct: those of nodes and global parameters, and all written names of parameters; the
global parameters have names; and no written name has the form of a made-up one. -/
structure Network.Distinct (v1 : Network) : Prop where
  regularNodes : ∀ n ∈ v1.nodes, n.fields.regular = true ∧ n.factors.all Value.isConstant = true
  regularParams : ∀ p ∈ v1.parameters, p.regular = true
  named : ∀ p ∈ v1.parameters, p.name.isSome = true
  bases : (v1.nodes.map Node.name ++ v1.parameters.filterMap Param.name).Nodup
  written : (v1.nodes.flatMap (fun n => n.fields.written) ++ v1.parameters.flatMap Param.written).Nodup
  notMadeUp : ∀ n ∈ v1.nodes.flatMap (fun n => n.fields.written) ++ v1.parameters.flatMap Param.written,
    ∀ parent k, n ≠ madeUp parent k

/-! ## What must appear in the new network -/

/-- The type of the new parameter. -/
def Param.ty : Param → String
  | .core ty _ _ => ty
  | .controlCurve _ _ _ given _ => if given then "ControlCurve" else "ControlCurveIndex"
  | _ => ""

/-- Data frames become timeseries. -/
def Param.isFrame : Param → Bool
  | .dataFrame .. => true
  | _ => false

/-- A component of a type and with a name, if the name is known. -/
def Param.Shape (p : Param) (c : Component) : Prop := c.ty = p.ty ∧ ∀ x, p.name = some x → c.name = x

/-- The report of what is wrong with a node. -/
def Node.report (n : Node) : Option Report :=
  match n.verdict with
  | .wrong a c => some (.component ⟨n.name, a, c⟩)
  | _ => none

/-- Something is wrong with a parameter. -/
def Param.faulty (p : Param) : Bool :=
  match p.verdict with
  | .wrong _ _ => true
  | _ => false

/-- The report of what is wrong with a parameter: its name, if it has one, the attribute and the cause. -/
def Param.Reported (p : Param) (r : Report) : Prop :=
  ∃ n a c, p.verdict = .wrong a c ∧ (∀ x, p.name = some x → n = x) ∧ r = .component ⟨n, a, c⟩

/-- The text of a slot. -/
def Slot.text : Slot → String
  | .abstraction => "abstraction"
  | .river => "river"
  | .storage => "storage"
  | .spill => "spill"
  | .compensation => "compensation"

/-- The slots of an edge have a counterpart. -/
def Edge.known (e : Edge) : Bool :=
  e.fromSlot.all (fun s => [Slot.abstraction, .river, .storage, .spill, .compensation].any fun t => t.text == s) &&
    e.toSlot.all (fun s => [Slot.abstraction, .river, .storage, .spill, .compensation].any fun t => t.text == s)

/-- A new edge written as an old one. -/
def NewEdge.old (e : NewEdge) : Edge := ⟨e.fromNode, e.toNode, e.fromSlot.map Slot.text, e.toSlot.map Slot.text⟩

/-! ## What attributes mean -/

/-- The timeseries and column that a global data frame becomes. -/
def Param.frame : Param → Option (String × Ref)
  | .dataFrame (.given (some n) true) url table column scenario =>
    if column.isSome ∧ scenario.isSome then none
    else
      match url, table with
      | some _, _ => some (n, ⟨n, (column.map (false, ·)).or (scenario.map (true, ·))⟩)
      | none, some t => some (n, ⟨t, (column.map (false, ·)).or (scenario.map (true, ·))⟩)
      | none, none => none
  | _ => none

/-- The new network, as far as attributes refer to it, and what is needed of the old one: which nodes are virtual, and
which global parameters are data frames. -/
structure Env where
  parameters : List Component
  timeseries : List Series
  virtualNodes : List String
  frames : List (String × Ref)

/-- The timeseries that a parameter has become. -/
def Env.frame (E : Env) (n : String) : Option Ref := (E.frames.find? fun r => r.1 == n).map (·.2)

/-- A reference to a node. -/
def Env.nodeRef (E : Env) (n : String) : Metric := if n ∈ E.virtualNodes then .virtualNode n else .node n

/-- A parameter keeps its name. -/
def Meta.keeps : Meta → String → Prop
  | .given (some n) _, name => name = n
  | _, _ => True

mutual

/-- What a value means. -/
def Value.means (E : Env) : Value → Metric → Prop
  | .constant q, m => m = .literal q
  | .reference n, m =>
    match E.frame n with
    | some r => m = .timeseries r
    | none => m = .parameter n
  | .table t _, m => m = .table t
  | .inline p, m => p.means E m

/-- What a parameter means: a reference to a parameter with the same type, name and attributes, or the timeseries from
the same file. -/
def Param.means (E : Env) : Param → Metric → Prop
  | .core ty md f, m => ∃ c ∈ E.parameters, m = .parameter c.name ∧ c.ty = ty ∧ md.keeps c.name ∧ f.means E c.attrs
  | .controlCurve md storage curves given values, m =>
    ∃ c ∈ E.parameters, m = .parameter c.name ∧ md.keeps c.name ∧
      c.ty = (if given then "ControlCurve" else "ControlCurveIndex") ∧
      ∃ cs vs, c.attrs = cs ++ vs ++ [⟨"storage_node", false, E.nodeRef storage⟩] ∧ curves.means E cs ∧
        (if given then values.means E vs else vs = [])
  | .dataFrame md url table column scenario, m =>
    ∃ name, md.keeps name ∧
      match url, table with
      | some u, _ => ⟨name, u⟩ ∈ E.timeseries ∧ m = .timeseries ⟨name, (column.map (false, ·)).or (scenario.map (true, ·))⟩
      | none, some t => m = .timeseries ⟨t, (column.map (false, ·)).or (scenario.map (true, ·))⟩
      | none, none => False
  | .refused _ _, _ => False
  | .unimplemented, _ => False

/-- What attributes mean, one by one. -/
def Fields.means (E : Env) : Fields → List Attr → Prop
  | .done, as => as = []
  | .value attr v rest, as => ∃ m as', as = ⟨attr, false, m⟩ :: as' ∧ v.means E m ∧ rest.means E as'
  | .index attr v rest, as => ∃ m as', as = ⟨attr, true, m⟩ :: as' ∧ v.means E m ∧ rest.means E as'
  | .node attr target _ rest, as => ∃ as', as = ⟨attr, false, E.nodeRef target⟩ :: as' ∧ rest.means E as'
  | .check _ _ _ rest, as => rest.means E as

end

/-- The new network of a conversion. -/
def env (v1 : Network) (r : Converted) : Env :=
  ⟨r.parameters, r.timeseries, (v1.nodes.filter Node.isVirtual).map Node.name, v1.parameters.filterMap Param.frame⟩

/-- The numbers of a list of constants. -/
def constants : List Value → List ℚ
  | .constant q :: vs => q :: constants vs
  | _ => []

/-- The splits of a river: each factor but the first, as a part of all factors, with its slot. -/
def splitAttrs (factors : List ℚ) (slots : List String) : List Attr :=
  List.zipWith (fun f s => ⟨s, false, .literal (f / factors.sum)⟩) factors.tail slots.tail

/-- A node in the new network: the same type and name, and attributes that mean the same; a river split has in addition
the splits. -/
def Node.becomes (E : Env) (n : Node) (c : Component) : Prop :=
  c.ty = n.ty ∧ c.name = n.name ∧
    match n with
    | .core _ _ _ _ f => f.means E c.attrs
    | .riverSplit _ _ f factors slots => ∃ as, c.attrs = as ++ splitAttrs (constants factors) slots ∧ f.means E as
    | _ => False

mutual

/-- References that are carried over as they are do not go to data frames, and references to nodes that do not ask
whether the node is virtual do not go to virtual nodes. `kept` says that references in this attribute are carried over
as they are. -/
def Value.plain (frames : List (String × Ref)) (virtualNodes : List String) (kept : Bool) : Value → Bool
  | .reference n => !(kept && frames.any (fun r => r.1 == n))
  | .inline p => p.plain frames virtualNodes
  | _ => true

def Param.plain (frames : List (String × Ref)) (virtualNodes : List String) : Param → Bool
  | .core _ _ f => f.plain frames virtualNodes false
  | .controlCurve _ storage curves given values =>
    curves.plain frames virtualNodes false && values.plain frames virtualNodes false &&
      (given || !virtualNodes.contains storage)
  | _ => true

def Fields.plain (frames : List (String × Ref)) (virtualNodes : List String) (kept : Bool) : Fields → Bool
  | .done => true
  | .value _ v rest => v.plain frames virtualNodes kept && rest.plain frames virtualNodes kept
  | .index _ v rest => v.plain frames virtualNodes true && rest.plain frames virtualNodes kept
  | .node _ target aware rest =>
    (aware || !virtualNodes.contains target) && rest.plain frames virtualNodes kept
  | .check _ _ _ rest => rest.plain frames virtualNodes kept

end

/-- The attributes of virtual nodes and all index attributes are carried over as they are. -/
structure Network.Plain (v1 : Network) : Prop where
  nodes : ∀ n ∈ v1.nodes, n.fields.plain (v1.parameters.filterMap Param.frame)
    ((v1.nodes.filter Node.isVirtual).map Node.name) n.isVirtual = true
  params : ∀ p ∈ v1.parameters, p.plain (v1.parameters.filterMap Param.frame)
    ((v1.nodes.filter Node.isVirtual).map Node.name) = true

end Verif.V1
