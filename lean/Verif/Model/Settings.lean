import Verif.Model.IpmLp

/-!
# Settings of runs

The builders of settings in `/repo/pywr-core/src/solvers/*/settings.rs` with their Python keyword arguments, the `run` methods
offered to Python (`/repo/pywr-core/src/models/simple.rs:652-702`, the same in `multi.rs:900-950`), the commands `run` and
`run-multi` of `/repo/pywr-cli/src/main.rs`, the check of features (`network.rs:670-711`) and the choice of thread pools
(`simple.rs:505-522`, `559-575`).

Python values other than integers and Booleans are opaque; none of them converts to a `usize` or `bool` (no `__index__`, no
NumPy). `usize` has 64 bits. The number of chunks, tolerances and numbers of iterations of the interior point methods keep
their defaults in all of these ways to run and are left out.
-/

namespace Verif.Settings

open Verif.IpmLp (Feature accepted ipmFeatures clpFeatures cbcFeatures highsFeatures)

/-- Solvers, `main.rs:26-41`. -/
inductive Solver
  | clp | highs | cbc | clIpmF32 | clIpmF64 | ipmSimd | microlp
  deriving DecidableEq, Repr

/-- `Solver::features` and `MultiStateSolver::features` of each, `solvers/*/mod.rs`. -/
def Solver.features : Solver → List Feature
  | .clp => clpFeatures
  | .highs => highsFeatures
  | .cbc => cbcFeatures
  | .clIpmF32 => []
  | .clIpmF64 => []
  | .ipmSimd => ipmFeatures
  | .microlp => [.virtualStorage, .mutualExclusivity, .aggregatedNode, .aggregatedNodeFactors, .aggregatedNodeDynamicFactors,
      .virtualStorage]

/-- Solvers that are a `MultiStateSolver`, run by `run_multi_scenario`. -/
def Solver.multi : Solver → Bool
  | .clIpmF32 | .clIpmF64 | .ipmSimd => true
  | _ => false

/-- `ClpSolverSettings` and its likes, `clp/settings.rs:9-13`; the builder has the same fields (60-64). -/
structure Settings where
  parallel : Bool
  threads : Nat
  ignoreFeatures : Bool
  deriving DecidableEq, Repr

/-- `Default` of the builders, `clp/settings.rs:59`, `ipm_simd/settings.rs:84-95`. -/
def Settings.default : Settings := ⟨false, 0, false⟩

/-- `parallel`, `clp/settings.rs:67-70`. -/
def Settings.withParallel (s : Settings) : Settings := { s with parallel := true }

/-- `threads`, `clp/settings.rs:72-75`. -/
def Settings.withThreads (s : Settings) (n : Nat) : Settings := { s with threads := n }

/-- `ignore_feature_requirements`, `clp/settings.rs:77-80`. -/
def Settings.withIgnore (s : Settings) : Settings := { s with ignoreFeatures := true }

/-! ## Keyword arguments from Python -/

/-- Values of Python. -/
inductive PyVal
  | bool (b : Bool)
  | int (i : Int)
  | other (s : String)
  deriving DecidableEq, Repr

/-- A dictionary of Python; keys are distinct. It is shared with the caller. -/
abbrev Dict := List (String × PyVal)

/-- `get_item`. -/
def getItem (d : Dict) (k : String) : Option PyVal := (d.find? fun p => decide (p.1 = k)).map (·.2)

/-- `del_item`. -/
def delItem (d : Dict) (k : String) : Dict := d.filter fun p => decide (p.1 ≠ k)

/-- `extract::<usize>()`: by `__index__`, which Booleans have. -/
def asUsize : PyVal → Option Nat
  | .bool b => some (if b then 1 else 0)
  | .int i => if 0 ≤ i ∧ i < 18446744073709551616 then some i.toNat else none
  | .other _ => none

/-- `extract::<bool>()`: Booleans only. -/
def asBool : PyVal → Option Bool
  | .bool b => some b
  | _ => none

/-- Errors. -/
inductive Err
  | wrongType
  | unknownArguments
  | unknownSolver
  | missingFeatures
  deriving DecidableEq, Repr

/-- The part for `threads`, `clp/settings.rs:97-100`. -/
def takeThreads (b : Settings) (d : Dict) : Except Err Settings × Dict :=
  match getItem d "threads" with
  | none => (.ok b, d)
  | some v =>
    match asUsize v with
    | none => (.error .wrongType, d)
    | some n => (.ok (b.withThreads n), delItem d "threads")

/-- The parts for `parallel`, `clp/settings.rs:102-107`, and `ignore_feature_requirements`, `ipm_simd/settings.rs:160-166`. -/
def takeFlag (k : String) (f : Settings → Settings) (b : Settings) (d : Dict) : Except Err Settings × Dict :=
  match getItem d k with
  | none => (.ok b, d)
  | some v =>
    match asBool v with
    | none => (.error .wrongType, d)
    | some c => (.ok (if c then f b else b), delItem d k)

/-- The end, `clp/settings.rs:109-117`. -/
def noMore (b : Settings) (d : Dict) : Except Err Settings × Dict :=
  if d.isEmpty then (.ok b, d) else (.error .unknownArguments, d)

/-- `build_ipm_simd_settings_py`, `ipm_simd/settings.rs:141-176`, with the dictionary afterwards; the others
(`clp/settings.rs:93-119`, `cbc/settings.rs`, `highs/settings.rs`) lack the third argument (`simd` is false). -/
def buildDict (simd : Bool) (d : Dict) : Except Err Settings × Dict :=
  match takeThreads .default d with
  | (.error e, d) => (.error e, d)
  | (.ok b, d) =>
    match takeFlag "parallel" Settings.withParallel b d with
    | (.error e, d) => (.error e, d)
    | (.ok b, d) =>
      if simd then
        match takeFlag "ignore_feature_requirements" Settings.withIgnore b d with
        | (.error e, d) => (.error e, d)
        | (.ok b, d) => noMore b d
      else noMore b d

/-- The settings in each arm of `run_py`, `simple.rs:677-700`. `None` in place of a dictionary is one without entries. -/
def settingsPy (s : Solver) (d : Dict) : Except Err Settings × Dict :=
  match s with
  | .clIpmF32 | .clIpmF64 => (.ok .default, d)
  | .ipmSimd => buildDict true d
  | _ => buildDict false d

/-- The arms of `run_py`, `simple.rs:676-701`; `built` tells which solvers were compiled in. -/
def solverPy (built : Solver → Bool) (name : String) : Option Solver :=
  if name = "clp" ∧ built .clp then some .clp
  else if name = "cbc" ∧ built .cbc then some .cbc
  else if name = "highs" ∧ built .highs then some .highs
  else if name = "ipm-simd" ∧ built .ipmSimd then some .ipmSimd
  else if name = "clipm-f32" ∧ built .clIpmF32 then some .clIpmF32
  else if name = "clipm-f64" ∧ built .clIpmF64 then some .clIpmF64
  else none

/-! ## Start of a run -/

/-- Who computes the scenarios: the thread of the caller, or a pool of `n` threads, where 0 is one for each core. -/
inductive Workers
  | caller
  | pool (n : Nat)
  deriving DecidableEq, Repr

/-- `run_with_state`, `simple.rs:512-522`, and `run_multi_scenario_with_state`, `simple.rs:568-574`. -/
def workers (s : Solver) (st : Settings) : Workers :=
  if s.multi then .pool (if st.parallel then st.threads else 1)
  else if st.parallel then .pool st.threads else .caller

/-- A run that has passed the check of features. -/
structure Started where
  solver : Solver
  workers : Workers
  deriving DecidableEq, Repr

/-- `setup_solver` and `setup_multi_scenario_solver`, `network.rs:680-682`, `705-707`. -/
def start (s : Solver) (st : Settings) (M : Verif.Solver.Model) : Except Err Started :=
  if !st.ignoreFeatures && !accepted s.features M then .error .missingFeatures else .ok ⟨s, workers s st⟩

/-- `run_py`, with the dictionary afterwards. -/
def runPy (built : Solver → Bool) (name : String) (d : Dict) (M : Verif.Solver.Model) : Except Err Started × Dict :=
  match solverPy built name with
  | none => (.error .unknownSolver, d)
  | some s =>
    match settingsPy s d with
    | (.error e, d) => (.error e, d)
    | (.ok st, d) => (start s st M, d)

/-- `run`, `main.rs:269-379`, after the model was read and built: the arms are all alike. -/
def runCli (s : Solver) (threads : Nat) (ignore : Bool) (M : Verif.Solver.Model) : Except Err Started :=
  let b := Settings.default
  let b := if threads > 1 then (b.withParallel).withThreads threads else b
  let b := if ignore then b.withIgnore else b
  start s b M

/-- `run_multi`, `main.rs:381-409`, called with the number of threads dropped (`main.rs:162-168`); `M` is one of the networks. -/
def runMultiCli (s : Solver) (_threads : Nat) (M : Verif.Solver.Model) : Except Err Started := start s .default M

end Verif.Settings
