import Mathlib.Algebra.Order.Field.Rat

/-!
# Factors of aggregated nodes

Transcribed from `/repo/pywr-core/src/aggregated_node.rs`, lines 14-33 and 723-1086.

A metric is either constant or one of the values of the current state, whose retrieval may fail
(`MetricF64::try_get_constant_value` and `MetricF64::get_value`). Failing retrieval of a constant is left out. A division by
zero gives a non-finite `f64`; it is `none` here (`Fin`).
-/

namespace Verif.Solver

/-- A metric of type `MetricF64`. -/
inductive Metric
  | const (v : ℚ)
  | dyn (k : Nat)
  deriving DecidableEq, Repr

/-- `try_get_constant_value`. -/
def Metric.const? : Metric → Option ℚ
  | .const v => some v
  | .dyn _ => none

/-- `get_value` with the current values `σ` (`none`: an error). -/
def Metric.get (σ : Nat → Option ℚ) : Metric → Option ℚ
  | .const v => some v
  | .dyn k => σ k

/-- A finite number, or `none` for an infinite or undefined one. -/
abbrev Fin? := Option ℚ

/-- `-a / b`. -/
def negDiv (a b : ℚ) : Fin? := if b = 0 then none else some (-a / b)

/-- `Factors`, lines 16-24. -/
inductive Factors
  | proportion (fs : List Metric)
  | ratio (fs : List Metric)
  | coefficients (fs : List Metric) (rhs : Option Metric)
  deriving DecidableEq, Repr

/-- The error enums of lines 712-1052, merged. `panic`: an index out of range or an underflow. -/
inductive FactorErr
  | incorrectNumber
  | metric
  | negative (v : ℚ)
  | totalTooLarge (t : ℚ)
  | moreThanTwo
  | panic
  deriving DecidableEq, Repr

/-- `NodeFactorPair`. -/
structure Pair where
  nodes0 : List Nat
  f0 : Fin?
  nodes1 : List Nat
  f1 : Fin?
  rhs : ℚ
  deriving DecidableEq, Repr

/-- `NodeConstFactorPair`: a factor that is not known yet is `none`. -/
structure CPair where
  nodes0 : List Nat
  f0 : Option Fin?
  nodes1 : List Nat
  f1 : Option Fin?
  rhs : ℚ
  deriving DecidableEq, Repr

/-- The loop of lines 742-752: current values, none of them negative. -/
def currentValues (σ : Nat → Option ℚ) : List Metric → Except FactorErr (List ℚ)
  | [] => .ok []
  | f :: fs =>
    match f.get σ with
    | none => .error .metric
    | some v =>
      if v < 0 then .error (.negative v)
      else
        match currentValues σ fs with
        | .error e => .error e
        | .ok vs => .ok (v :: vs)

/-- `get_norm_proportional_factor_pairs`, lines 728-772. `nodes.len() - 1` underflows without nodes. -/
def proportional (fs : List Metric) (nodes : List (List Nat)) (σ : Nat → Option ℚ) : Except FactorErr (List Pair) :=
  match nodes with
  | [] => .error .panic
  | n0 :: rest =>
    if fs.length ≠ rest.length then .error .incorrectNumber
    else
      match currentValues σ fs with
      | .error e => .error e
      | .ok vs =>
        if vs.sum ≥ 1 then .error (.totalTooLarge vs.sum)
        else .ok ((rest.zip vs).map fun p => ⟨n0, some 1, p.1, negDiv (1 - vs.sum) p.2, 0⟩)

/-- The loop of lines 807-822: constant values, none of them negative. -/
def constValues : List Metric → Except FactorErr (List (Option ℚ))
  | [] => .ok []
  | f :: fs =>
    match f.const? with
    | some v =>
      if v < 0 then .error (.negative v)
      else
        match constValues fs with
        | .error e => .error e
        | .ok vs => .ok (some v :: vs)
    | none =>
      match constValues fs with
      | .error e => .error e
      | .ok vs => .ok (none :: vs)

/-- `get_const_norm_proportional_factor_pairs`, lines 794-867. -/
def constProportional (fs : List Metric) (nodes : List (List Nat)) : Except FactorErr (List CPair) :=
  match nodes with
  | [] => .error .panic
  | n0 :: rest =>
    if fs.length ≠ rest.length then .error .incorrectNumber
    else
      match constValues fs with
      | .error e => .error e
      | .ok vs =>
        if vs.any Option.isNone then .ok ((rest.zip vs).map fun p => ⟨n0, some (some 1), p.1, none, 0⟩)
        else
          let total := (vs.filterMap id).sum
          if total ≥ 1 then .error (.totalTooLarge total)
          else .ok ((rest.zip vs).map fun p => ⟨n0, some (some 1), p.1, p.2.map (negDiv (1 - total)), 0⟩)

/-- The loop of lines 908-921. -/
def ratioLoop (σ : Nat → Option ℚ) (n0 : List Nat) (f0 : ℚ) : List (List Nat × Metric) → Except FactorErr (List Pair)
  | [] => .ok []
  | (n1, f1) :: rest =>
    match f1.get σ with
    | none => .error .metric
    | some v1 =>
      match ratioLoop σ n0 f0 rest with
      | .error e => .error e
      | .ok ps => .ok (⟨n0, some 1, n1, negDiv f0 v1, 0⟩ :: ps)

/-- `get_norm_ratio_factor_pairs`, lines 888-924. -/
def ratio (fs : List Metric) (nodes : List (List Nat)) (σ : Nat → Option ℚ) : Except FactorErr (List Pair) :=
  if fs.length ≠ nodes.length then .error .incorrectNumber
  else
    match nodes, fs with
    | n0 :: ns, f0 :: fs =>
      match f0.get σ with
      | none => .error .metric
      | some v0 => if v0 < 0 then .error (.negative v0) else ratioLoop σ n0 v0 (ns.zip fs)
    | _, _ => .error .panic

/-- The loop of lines 965-986. -/
def constRatioLoop (n0 : List Nat) (f0 : Option ℚ) : List (List Nat × Metric) → Except FactorErr (List CPair)
  | [] => .ok []
  | (n1, f1) :: rest =>
    match f1.const? with
    | some v =>
      if v < 0 then .error (.negative v)
      else
        match constRatioLoop n0 f0 rest with
        | .error e => .error e
        | .ok ps => .ok (⟨n0, some (some 1), n1, f0.map (fun f0 => negDiv f0 v), 0⟩ :: ps)
    | none =>
      match constRatioLoop n0 f0 rest with
      | .error e => .error e
      | .ok ps => .ok (⟨n0, some (some 1), n1, none, 0⟩ :: ps)

/-- `get_const_norm_ratio_factor_pairs`, lines 942-989. -/
def constRatio (fs : List Metric) (nodes : List (List Nat)) : Except FactorErr (List CPair) :=
  if fs.length ≠ nodes.length then .error .incorrectNumber
  else
    match nodes, fs with
    | n0 :: ns, f0 :: fs =>
      match f0.const? with
      | some v0 => if v0 < 0 then .error (.negative v0) else constRatioLoop n0 (some v0) (ns.zip fs)
      | none => constRatioLoop n0 none (ns.zip fs)
    | _, _ => .error .panic

/-- `get_coefficient_factor_pairs`, lines 1008-1039. -/
def coefficients (fs : List Metric) (rhs : Option Metric) (nodes : List (List Nat)) (σ : Nat → Option ℚ) :
    Except FactorErr (List Pair) :=
  if fs.length ≠ nodes.length then .error .incorrectNumber
  else
    match nodes, fs with
    | [n0, n1], [f0, f1] =>
      match f0.get σ with
      | none => .error .metric
      | some v0 =>
        match f1.get σ with
        | none => .error .metric
        | some v1 =>
          match rhs with
          | none => .ok [⟨n0, some v0, n1, some v1, 0⟩]
          | some r =>
            match r.get σ with
            | none => .error .metric
            | some r => .ok [⟨n0, some v0, n1, some v1, r⟩]
    | _, _ => .error .moreThanTwo

/-- `get_const_coefficient_factor_pairs`, lines 1054-1086: a right-hand side that is not constant becomes zero. -/
def constCoefficients (fs : List Metric) (rhs : Option Metric) (nodes : List (List Nat)) : Except FactorErr (List CPair) :=
  if fs.length ≠ nodes.length then .error .incorrectNumber
  else
    match nodes, fs with
    | [n0, n1], [f0, f1] =>
      .ok [⟨n0, f0.const?.map some, n1, f1.const?.map some, (rhs.bind Metric.const?).getD 0⟩]
    | _, _ => .error .moreThanTwo

/-- `get_norm_factor_pairs`, lines 475-498. -/
def Factors.pairs (f : Factors) (nodes : List (List Nat)) (σ : Nat → Option ℚ) : Except FactorErr (List Pair) :=
  match f with
  | .proportion fs => proportional fs nodes σ
  | .ratio fs => Solver.ratio fs nodes σ
  | .coefficients fs rhs => Solver.coefficients fs rhs nodes σ

/-- `get_const_norm_factor_pairs`, lines 443-466. -/
def Factors.constPairs (f : Factors) (nodes : List (List Nat)) : Except FactorErr (List CPair) :=
  match f with
  | .proportion fs => constProportional fs nodes
  | .ratio fs => constRatio fs nodes
  | .coefficients fs rhs => constCoefficients fs rhs nodes

/-- `Factors::is_constant`, lines 27-33. -/
def Factors.isConstant : Factors → Bool
  | .proportion fs => fs.all (fun m => m.const?.isSome)
  | .ratio fs => fs.all (fun m => m.const?.isSome)
  | .coefficients fs rhs => fs.all (fun m => m.const?.isSome) && (rhs.all fun m => m.const?.isSome)

end Verif.Solver
