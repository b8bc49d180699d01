import Verif.Model.Backends
import Verif.Spec.Choice
import Verif.Spec.IpmLp

/-! # What the programs held by solver libraries mean -/

namespace Verif.Backends

open Verif.Solver

/-- `x` satisfies the bounds of rows and columns of the program held; whole columns take whole values. -/
structure Held.Feasible (h : Held) (x : Nat → ℚ) : Prop where
  rows : ∀ (i : Nat) (row : List (Nat × ℚ)) (lo hi : ℚ), h.rows[i]? = some row → h.rowLower[i]? = some lo →
    h.rowUpper[i]? = some hi → lo ≤ value row x ∧ value row x ≤ hi
  cols : ∀ (c : Nat) (lo hi : ℚ), h.colLower[c]? = some lo → h.colUpper[c]? = some hi → lo ≤ x c ∧ x c ≤ hi
  whole : ∀ c, h.integer[c]? = some true → ∃ n : Int, x c = n

/-- The cost of `x`. -/
def Held.objective (h : Held) (x : Nat → ℚ) : ℚ := (h.colObj.zipIdx.map fun p => p.1 * x p.2).sum

/-- `x` solves the program held: it is feasible and of least cost. -/
def Held.Optimal (h : Held) (x : Nat → ℚ) : Prop := h.Feasible x ∧ ∀ y, h.Feasible y → h.objective x ≤ h.objective y

/-- A constraint holds. -/
def Op.Holds (v : ℚ) : Op → ℚ → Prop
  | .eq, q => v = q
  | .ge, q => q ≤ v
  | .le, q => v ≤ q

/-- `x` satisfies the constraints and bounds of a problem. -/
structure Problem.Feasible (p : Problem) (x : Nat → ℚ) : Prop where
  rows : ∀ c ∈ p.constraints, Op.Holds (value c.1 x) c.2.1 c.2.2
  vars : ∀ (i : Nat) (v : Var), p.vars[i]? = some v → v.lower ≤ x i ∧ x i ≤ v.upper ∧ (v.integer = true → ∃ n : Int, x i = n)

/-- The cost of `x`. -/
def Problem.objective (p : Problem) (x : Nat → ℚ) : ℚ := (p.vars.zipIdx.map fun q => q.1.obj * x q.2).sum

/-- The program of the step that follows the steps `sts`: what is left of the creation and all updates with the coefficients put
in place. -/
def programs (M : Model) : List StepState → Built → Except SolveErr Built
  | [], s => .ok s
  | st :: sts, s =>
    match step M s st with
    | .error e => .error e
    | .ok s => programs M sts s

/-- All factors in force have at most this size. -/
def SmallFactors (M : Model) (k : ℚ) (st : StepState) : Prop :=
  ∀ a ∈ M.aggs, ∀ F ps, a.factors = some F → F.pairs a.nodes st.metric = .ok ps →
    ∀ p ∈ ps, ∀ v, p.f0 = some v ∨ p.f1 = some v → |v| ≤ k

/-- The coefficients that change in these steps all satisfy `P`. -/
def Changes (M : Model) (P : ℚ → Prop) : List StepState → Built → Prop
  | [], _ => True
  | st :: sts, s =>
    (∀ u, update M s st = .ok u → ∀ t ∈ u.lp.coefficientsToUpdate, P t.2.2) ∧ ∀ s', step M s st = .ok s' → Changes M P sts s'

/-- What a library needs of the changes: Cbc takes none, HiGHS none beyond ten thousand million, and Clp no whole columns. -/
def Suits (L : Library) (M : Model) (sets : List (List Nat)) (sts : List StepState) (s : Built) : Prop :=
  match L with
  | .clp => sets = []
  | .cbc => Changes M (fun _ => False) sts s
  | .highs => Changes M (fun q => |q| ≤ 10000000000) sts s

/-- The features each library is registered with. -/
def Library.features : Library → List Verif.IpmLp.Feature
  | .clp => Verif.IpmLp.clpFeatures
  | .cbc => Verif.IpmLp.cbcFeatures
  | .highs => Verif.IpmLp.highsFeatures

/-- `f` are the values of the columns of the edges. -/
def Read (cols : List Nat) (values f : List ℚ) : Prop :=
  f.length = cols.length ∧ ∀ (e c : Nat), cols[e]? = some c → ∃ v, values[c]? = some v ∧ f[e]? = some v

/-- A list as the values of columns. -/
def point (values : List ℚ) : Nat → ℚ := fun c => values.getD c 0

/-- A call of HiGHS that did not fail. -/
def HighsReturn.Fine (r : HighsReturn) : Prop := r = .ok ∨ r = .warning

/-- A run of HiGHS that reported a solution of least cost. -/
def RunOptimal (r : HighsReturn × HighsStatus) : Prop := r.1.Fine ∧ r.2 = .optimal

/-- A run of HiGHS without an outcome: it failed, or the status is unknown. -/
def RunUnknown (r : HighsReturn × HighsStatus) : Prop := r.1 = .error ∨ r.1.Fine ∧ r.2 = .unknown

/-- HiGHS reported a solution of least cost, at once or after a run without an outcome and a restart. -/
def HighsAnswers.Solved (a : HighsAnswers) : Prop :=
  (RunOptimal a.first ∨ RunUnknown a.first ∧ a.clear.Fine ∧ RunOptimal a.second) ∧ a.solution.Fine

/-- `f` are flows of least cost among those allowed in the step. -/
def Best (M : Model) (st : StepState) (f : Nat → ℚ) : Prop :=
  AllowedChoice M st f ∧ ∀ cost : Verif.Topology.TNode → ℚ,
    (∀ n ∈ M.net.nodes, n.incoming ≠ [] ∨ n.outgoing ≠ [] → CostIs M st.metric n (cost n)) →
    ∀ g, AllowedChoice M st g → WithinLimits M f64MAX (-f64MAX) st g → totalCost M cost f ≤ totalCost M cost g

end Verif.Backends
