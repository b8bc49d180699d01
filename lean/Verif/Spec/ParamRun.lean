import Verif.Model.ParamRun
import Verif.Spec.Params
import Mathlib.Data.List.Forall2

/-!
# The equations between the values of parameters

Nothing here mentions schedules, positions in arrays or the order in which parameters are defined.
-/

namespace Verif.Params

variable {V S W : Type}

/-- All that happens in a run: the values calculated at each step, the internal state of each parameter at the start
of a step and before the solver, and the state of the nodes at the start of a step and before the solver. -/
structure History (V S W : Type) where
  value : Nat → Stage → Name → V
  start : Nat → Name → S
  held : Nat → Name → S
  world : Nat → W
  ready : Nat → W

/-- The reference leads to a parameter that offers it a value of this shape. -/
def Gives (bs : List Builder) (u : Use) (sh : Shape) : Prop :=
  ∃ b ∈ bs, u.ref.target = some b.name ∧ u.ref.Usable b.ty ∧
    ∃ k, Calculable bs b.name b.ty k ∧ Offers u.phase u.ref k = some sh

/-- The end-of-step value of the step before. -/
def History.previous (h : History V S W) (zero : V) (t : Nat) (m : Name) : V :=
  match t with
  | 0 => zero
  | t + 1 => h.value t .after m

/-- What a reference to parameter `m` means in a calculation at a stage of step `t`: a constant, the value from
before the solver in this step, or the end-of-step value, which before the end of a step is the one of the step
before. -/
def History.meaning (h : History V S W) (zero : V) (stage : Stage) (t : Nat) (m : Name) : Shape → V
  | .const => h.value 0 .const m
  | .simple => h.value t .simple m
  | .before => h.value t .before m
  | .after => if stage = .after then h.value t .after m else h.previous zero t m
  | .literal => zero
  | .component => zero

/-- One reference gives one value. -/
def Means (bs : List Builder) (h : History V S W) (zero : V) (stage : Stage) (t : Nat) (u : Use) (v : V) : Prop :=
  ∃ m sh, u.ref.target = some m ∧ Gives bs u sh ∧ v = h.meaning zero stage t m sh

/-- The values of the references to parameters, in order. -/
def Given (bs : List Builder) (h : History V S W) (zero : V) (stage : Stage) (t : Nat) (us : List Use)
    (vs : List V) : Prop :=
  List.Forall₂ (Means bs h zero stage t) (us.filter fun u => u.ref.target.isSome) vs

/-- How the parameter is calculated. -/
def Takes (bs : List Builder) (b : Builder) (form : Form) : Prop :=
  ∃ shapes, List.Forall₂ (fun u sh =>
      (u.ref = .literal ∧ sh = .literal) ∨ (u.ref = .component ∧ sh = .component) ∨ Gives bs u sh) b.uses shapes ∧
    form = formOf b.style shapes

/-- The equation of a constant. -/
def ConstHolds (bs : List Builder) (k : Calcs V S W) (h : History V S W) (b : Builder) (form : Form) : Prop :=
  if form = .const then
    ∃ vs, Given bs h k.zero .const 0 b.uses vs ∧
      k.compute b.name .const 0 none (k.setup b.name) vs = some (h.value 0 .const b.name, h.start 0 b.name)
  else h.start 0 b.name = k.setup b.name

/-- The equations of a parameter for the part of a step before the solver. -/
def BeforeHolds (bs : List Builder) (k : Calcs V S W) (h : History V S W) (t : Nat) (b : Builder) (form : Form) : Prop :=
  match form with
  | .simple => ∃ vs, Given bs h k.zero .simple t b.uses vs ∧
      k.compute b.name .simple t none (h.start t b.name) vs = some (h.value t .simple b.name, h.held t b.name)
  | .general true _ => ∃ vs, Given bs h k.zero .before t (b.uses.filter fun u => u.phase ≠ .after) vs ∧
      k.compute b.name .before t (some (h.ready t)) (h.start t b.name) vs =
        some (h.value t .before b.name, h.held t b.name)
  | _ => h.held t b.name = h.start t b.name

/-- The equations of a parameter for the part of a step after the solver. -/
def AfterHolds (bs : List Builder) (k : Calcs V S W) (h : History V S W) (t : Nat) (b : Builder) (form : Form) : Prop :=
  match form with
  | .general _ .value => ∃ vs, Given bs h k.zero .after t (b.uses.filter fun u => u.phase ≠ .before) vs ∧
      k.compute b.name .after t (some (h.world (t + 1))) (h.held t b.name) vs =
        some (h.value t .after b.name, h.start (t + 1) b.name)
  | .general _ .hook => ∃ vs, Given bs h k.zero .after t (b.uses.filter fun u => u.phase ≠ .before) vs ∧
      k.hook b.name t (h.world (t + 1)) (h.held t b.name) vs = some (h.start (t + 1) b.name)
  | _ => h.start (t + 1) b.name = h.held t b.name

/-- A history of `n` steps obeys the definitions of all parameters, nodes and the solver. -/
structure Obeys (bs : List Builder) (nodeRefs solveRefs : List Ref) (k : Calcs V S W) (w : W) (n : Nat)
    (h : History V S W) : Prop where
  world : h.world 0 = w
  const : ∀ b ∈ bs, ∀ form, Takes bs b form → ConstHolds bs k h b form
  before : ∀ t < n, ∀ b ∈ bs, ∀ form, Takes bs b form → BeforeHolds bs k h t b form
  after : ∀ t < n, ∀ b ∈ bs, ∀ form, Takes bs b form → AfterHolds bs k h t b form
  nodes : ∀ t < n, ∃ vs, Given bs h k.zero .before t (nodeRefs.map fun r => ⟨r, .before⟩) vs ∧
    k.nodes t (h.world t) vs = some (h.ready t)
  solve : ∀ t < n, ∃ vs, Given bs h k.zero .before t (solveRefs.map fun r => ⟨r, .before⟩) vs ∧
    k.solve t (h.ready t) vs = some (h.world (t + 1))

end Verif.Params
