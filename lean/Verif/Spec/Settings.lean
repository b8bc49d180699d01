import Verif.Model.Settings
import Verif.Spec.IpmLp

/-!
# Settings of runs: what is claimed
-/

namespace Verif.Settings

open Verif.IpmLp (ConstantFactors)

/-- The names of solvers in Python. -/
inductive Named : String → Solver → Prop
  | clp : Named "clp" .clp
  | cbc : Named "cbc" .cbc
  | highs : Named "highs" .highs
  | simd : Named "ipm-simd" .ipmSimd
  | f32 : Named "clipm-f32" .clIpmF32
  | f64 : Named "clipm-f64" .clIpmF64

/-- A number of threads in Python. -/
inductive Count : PyVal → Nat → Prop
  | int (n : Nat) : n < 2 ^ 64 → Count (.int n) n
  | no : Count (.bool false) 0
  | yes : Count (.bool true) 1

/-- The arguments are known and of the right type. -/
def Fits (s : Solver) (d : Dict) : Prop := ∀ p ∈ d,
  (p.1 = "threads" ∧ ∃ n, Count p.2 n) ∨ (p.1 = "parallel" ∧ ∃ b, p.2 = .bool b) ∨
  (s = .ipmSimd ∧ p.1 = "ignore_feature_requirements" ∧ ∃ b, p.2 = .bool b)

/-- The number of threads asked for; 0 is one for each core. -/
def Threads (d : Dict) (n : Nat) : Prop := (∃ v, ("threads", v) ∈ d ∧ Count v n) ∨ (n = 0 ∧ ∀ v, ("threads", v) ∉ d)

/-- What a solver can do. -/
def Takes (s : Solver) (M : Verif.Solver.Model) : Prop :=
  match s with
  | .clp => M.NoExclusivity
  | .cbc => ConstantFactors M
  | .highs | .microlp => True
  | .ipmSimd | .clIpmF32 | .clIpmF64 => M.aggs = [] ∧ M.vs = []

/-- Without threads of its own, a run is on the thread of the caller, or on one other for solvers of many scenarios at once. -/
def Alone (s : Solver) (w : Workers) : Prop :=
  match s with
  | .clp | .cbc | .highs | .microlp => w = .caller
  | .ipmSimd | .clIpmF32 | .clIpmF64 => w = .pool 1

end Verif.Settings
