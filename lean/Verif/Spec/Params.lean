import Mathlib.Logic.Relation
import Verif.Model.Params

/-!
# What a user may expect of a set of parameters

References, evaluation order and what a reference observes, stated without the build loop,
the indices or the resolution functions.
-/

namespace Verif.Params

/-- The parameter a reference names. -/
def Ref.target : Ref → Option Name
  | .value n _ => some n
  | .valueMulti n _ => some n
  | .index n _ => some n
  | .indexMulti n _ => some n
  | .literal => none
  | .component => none

/-- Which of the parameter's values the reference asks for. -/
def Ref.want : Ref → Option Want
  | .value _ w => some w
  | .valueMulti _ w => some w
  | .index _ w => some w
  | .indexMulti _ w => some w
  | .literal => none
  | .component => none

/-- Whether a parameter of the given type has a value of the kind the reference asks for: an
integer can be used as a number, but not the other way round. -/
def Ref.Usable : Ref → Ty → Prop
  | .value _ _, t => t = .f64 ∨ t = .u64
  | .valueMulti _ _, t => t = .multi
  | .index _ _, t => t = .u64
  | .indexMulti _ _, t => t = .multi
  | _, _ => False

/-- `n` mentions `m`. -/
def Refers (bs : List Builder) (n m : Name) : Prop :=
  ∃ b ∈ bs, b.name = n ∧ ∃ u ∈ b.uses, u.ref.target = some m

/-- No parameter depends on itself, directly or through others. -/
def Acyclic (bs : List Builder) : Prop := ∀ n, ¬ Relation.TransGen (Refers bs) n n

/-- Some parameter provides what the reference asks for. -/
def Exists (bs : List Builder) (r : Ref) : Prop :=
  ∃ b ∈ bs, r.target = some b.name ∧ r.Usable b.ty

/-- Every reference names a parameter that exists, with a value of the right kind. -/
def Complete (bs : List Builder) : Prop :=
  ∀ b ∈ bs, ∀ u ∈ b.uses, u.ref.target ≠ none → Exists bs u.ref

/-- What holds of every builder in the code base: those that always return a constant or
simple parameter have no references, and those that may return a constant one
(aggregated.rs, aggregated_index.rs) resolve all references for the "before" phase. -/
def WellFormed (b : Builder) : Prop :=
  match b.style with
  | .constant => b.uses = []
  | .simple => b.uses = []
  | .simplest => ∀ u ∈ b.uses, u.phase = .before
  | _ => True

instance (b : Builder) : Decidable (WellFormed b) := by
  unfold WellFormed; cases b.style <;> infer_instance

/-- The order of evaluation from setting up to the end of the first step; every later step
repeats the last three parts. -/
def sequence (c : Collection) : List Op :=
  c.ops .const ++ c.ops .simple ++ c.ops .before ++ c.ops .after

/-- The position of the stages in time. -/
def Stage.rank : Stage → Nat
  | .const => 0
  | .simple => 1
  | .before => 2
  | .after => 3

/-- The operations of a parameter in a stage. -/
def opsOf (c : Collection) (st : Stage) (n : Name) : List Op :=
  (c.ops st).filter (fun op => op.name = n)

/-- The parameter is calculated in exactly one way, with all its references: once as a constant, or
once per step as a simple parameter, or at most once in each phase of a step, where each phase
uses the references meant for it. -/
inductive EvaluatedOnce (c : Collection) (b : Builder) : Prop
  | const (s : Slot) (rs : List Read) (uses : rs.map Read.use = b.uses)
      (const : opsOf c .const b.name = [⟨b.name, some s, rs⟩]) (simple : opsOf c .simple b.name = [])
      (before : opsOf c .before b.name = []) (after : opsOf c .after b.name = [])
      (style : b.style = .constant ∨ b.style = .simplest)
  | simple (s : Slot) (rs : List Read) (uses : rs.map Read.use = b.uses)
      (const : opsOf c .const b.name = []) (simple : opsOf c .simple b.name = [⟨b.name, some s, rs⟩])
      (before : opsOf c .before b.name = []) (after : opsOf c .after b.name = [])
      (style : b.style = .simple ∨ b.style = .simplest ∨ ∃ a, b.style = .simpleOr a)
  | general (hasBefore : Bool) (a : AfterOp) (s s' : Slot) (rs rs' : List Read)
      (uses : rs.map Read.use = b.uses.filter (fun u => u.phase ≠ .after))
      (uses' : rs'.map Read.use = b.uses.filter (fun u => u.phase ≠ .before))
      (const : opsOf c .const b.name = []) (simple : opsOf c .simple b.name = [])
      (before : opsOf c .before b.name = if hasBefore then [⟨b.name, some s, rs⟩] else [])
      (after : opsOf c .after b.name = match a with
        | .none => []
        | .value => [⟨b.name, some s', rs'⟩]
        | .hook => [⟨b.name, none, rs'⟩])
      (style : b.style = .general hasBefore a ∨ (hasBefore = true ∧
        ((b.style = .simplest ∧ a = .none) ∨ b.style = .simpleOr a)))

/-- A metric without the position in the value arrays. -/
def Metric.anon : Metric → Metric
  | .slot s => .slot { s with i := 0 }
  | m => m

/-- An operation without positions in the value arrays: what is calculated, when, and from what. -/
def Op.anon (op : Op) : Op :=
  ⟨op.name, op.out.map (fun s => { s with i := 0 }),
    op.reads.map (fun r => { r with metric := r.metric.anon })⟩

/-- When the values of a parameter are available: always, from the start of each step, or where the
solver runs between the two values. -/
inductive Kind
  | const
  | simple
  | general (before after : Bool)
  deriving DecidableEq, Repr

def Form.kind : Form → Kind
  | .const => .const
  | .simple => .simple
  | .general b a => .general b (a = .value)

/-- What a reference from the given phase to a parameter of the given kind gives, if anything. -/
def Offers (p : Phase) : Ref → Kind → Option Shape
  | .literal, _ => some .literal
  | .component, _ => some .component
  | .value _ w, k => strict p w k
  | .valueMulti _ w, k => strict p w k
  | .index _ w, k => lenient p w k
  | .indexMulti _ w, k => lenient p w k
where
  general (p : Phase) (w : Want) (hasBefore hasAfter : Bool) : Option Shape :=
    match w with
    | .before => if hasBefore then some .before else none
    | .after => if hasAfter ∧ p = .after then some .after else none
    | .afterOrInitial => if hasAfter then some .after else none
  strict (p : Phase) (w : Want) : Kind → Option Shape
    | .const => if w = .before then some .const else none
    | .simple => if w = .before then some .simple else none
    | .general b a => general p w b a
  /-- Integer references do not check what is asked of a constant or simple parameter. -/
  lenient (p : Phase) (w : Want) : Kind → Option Shape
    | .const => some .const
    | .simple => some .simple
    | .general b a => general p w b a

/-- The parameter `n` can be calculated, and its values have this type and kind: it passes
its own checks, and everything it refers to can be calculated and offers what is asked for. -/
inductive Calculable (bs : List Builder) : Name → Ty → Kind → Prop
  | intro (b : Builder) (mem : b ∈ bs) (ty : Use → Ty) (kind : Use → Kind) (shape : Use → Shape)
      (usable : ∀ u ∈ b.uses, ∀ m, u.ref.target = some m → u.ref.Usable (ty u))
      (refs : ∀ u ∈ b.uses, ∀ m, u.ref.target = some m → Calculable bs m (ty u) (kind u))
      (offers : ∀ u ∈ b.uses, Offers u.phase u.ref (kind u) = some (shape u))
      (accepts : b.accepts (b.uses.map shape) = true) :
      Calculable bs b.name b.ty (formOf b.style (b.uses.map shape)).kind

/-- What an operation should observe when it follows a reference to the value `want` of
parameter `m` at step `t`: values asked for from before the solver are those of this step (or
constants), end-of-step values are those of this step, except that a calculation before the solver
that accepts earlier ones sees those of the previous step, or the initial content at the first. -/
def Expected (want : Want) (m : Name) (reader : Stage) (t : Nat) (seen : Option Content) : Prop :=
  match want with
  | .before =>
    seen = some ⟨m, .const, 0⟩ ∨ seen = some ⟨m, .simple, t⟩ ∨ seen = some ⟨m, .before, t⟩
  | .after => reader = .after ∧ seen = some ⟨m, .after, t⟩
  | .afterOrInitial =>
    (reader = .after ∧ seen = some ⟨m, .after, t⟩) ∨
      (reader = .before ∧ seen = match t with | 0 => none | k + 1 => some ⟨m, .after, k⟩)

/-- A value of parameter `m` that has been calculated in this step, or once and for all. -/
def Computed (m : Name) (t : Nat) (seen : Option Content) : Prop :=
  seen = some ⟨m, .const, 0⟩ ∨ seen = some ⟨m, .simple, t⟩ ∨ seen = some ⟨m, .before, t⟩ ∨
    seen = some ⟨m, .after, t⟩

/-- References that check what is asked for of every parameter; the integer ones do not. -/
def Ref.Strict : Ref → Prop
  | .value _ _ => True
  | .valueMulti _ _ => True
  | _ => False

end Verif.Params
