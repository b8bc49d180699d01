import Verif.Model.Factors
import Mathlib.Algebra.BigOperators.Group.List.Basic

/-! # What the factors of an aggregated node mean -/

namespace Verif.Solver

/-- Flow of a set of nodes. -/
def setFlow (q : Nat → ℚ) (nodes : List Nat) : ℚ := (nodes.map q).sum

/-- The relation a pair imposes on the flows `q` of the nodes. -/
def Pair.Holds (p : Pair) (q : Nat → ℚ) : Prop :=
  ∃ a b, p.f0 = some a ∧ p.f1 = some b ∧ a * setFlow q p.nodes0 + b * setFlow q p.nodes1 = p.rhs

/-- Proportions: each later set carries its share of the total; the first set the rest. -/
def ProportionSplit (q : Nat → ℚ) (first : List Nat) (later : List (List Nat × ℚ)) : Prop :=
  let total := setFlow q first + (later.map (fun p => setFlow q p.1)).sum
  (∀ p ∈ later, setFlow q p.1 = p.2 * total) ∧ setFlow q first = (1 - (later.map (·.2)).sum) * total

/-- Ratios: any two sets carry flow in the ratio of their factors. -/
def RatioSplit (q : Nat → ℚ) (sets : List (List Nat × ℚ)) : Prop :=
  ∀ a ∈ sets, ∀ b ∈ sets, setFlow q a.1 * b.2 = setFlow q b.1 * a.2

/-- A pair known at setup says the same, as far as it goes, as a pair of a step. -/
structure Agree (c : CPair) (p : Pair) : Prop where
  nodes0 : c.nodes0 = p.nodes0
  nodes1 : c.nodes1 = p.nodes1
  f0 : ∀ x, c.f0 = some x → p.f0 = x
  f1 : ∀ x, c.f1 = some x → p.f1 = x
  rhs : c.f0.isSome → c.f1.isSome → c.rhs = p.rhs

/-- A right-hand side varying in time comes with a factor that varies in time. -/
def Factors.RhsSeen : Factors → Prop
  | .coefficients fs (some (.dyn _)) => ∃ f ∈ fs, f.const? = none
  | _ => True

end Verif.Solver
