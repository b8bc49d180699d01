import Verif.Model.Scenario

/-!
# Array parameters

Transcribed from `/repo/pywr-core/src/parameters/array.rs`. `i32`/`usize` conversions are exact (indices below 2^31).
-/

namespace Verif.ArrayParam

open Verif.Scenario

/-- Errors: `OutOfBoundsError` of lines 51-55 and 188-201; build errors of lines 291-303; `panic` of the column slice. -/
inductive Err
  | outOfBounds (index length axis : Nat)
  | groupNotFound
  | arraySubset
  | panic
  deriving DecidableEq, Repr

/-- `ndarray::Array2`: a shape and its elements. -/
structure Array2 (α : Type) where
  rows : Nat
  cols : Nat
  elem : Nat → Nat → α

/-- `timestep_index`, lines 23-30 and 160-167. A negative result of the clamp (empty array) is a huge `usize`, here
represented by the array length, which is out of bounds just the same. -/
def timestepIndex (offset : Option Int) (len t : Nat) : Nat :=
  match offset with
  | none => t
  | some o =>
    let i := min (max ((t : Int) + o) 0) ((len : Int) - 1)
    if i < 0 then len else i.toNat

/-- `Array1Parameter::compute`, lines 41-57. -/
def compute1 {α : Type} (array : List α) (offset : Option Int) (t : Nat) : Except Err α :=
  let idx := timestepIndex offset array.length t
  match array[idx]? with
  | none => .error (.outOfBounds idx array.length 0)
  | some v => .ok v

/-- `Array2Parameter`, lines 148-153. -/
structure Param2 (α : Type) where
  array : Array2 α
  groupIndex : Nat
  offset : Option Int

/-- `Array2Parameter::compute`, lines 180-210. -/
def Param2.compute {α : Type} (p : Param2 α) (t : Nat) (s : Index) : Except Err α :=
  let tIdx := timestepIndex p.offset p.array.rows t
  match s.simulationIndexForGroup p.groupIndex with
  | none => .error .panic
  | some sIdx =>
    if tIdx < p.array.rows ∧ sIdx < p.array.cols then .ok (p.array.elem tIdx sIdx)
    else if tIdx ≥ p.array.rows then .error (.outOfBounds tIdx p.array.rows 0)
    else .error (.outOfBounds sIdx p.array.cols 1)

/-- `subset_array2`, lines 352-365: a column out of range panics in `slice`, an empty list fails in `stack`. -/
def subsetArray2 {α : Type} (a : Array2 α) (subset : List Nat) : Except Err (Array2 α) :=
  if subset.any (fun c => decide (c ≥ a.cols)) then .error .panic
  else if subset = [] then .error .arraySubset
  else .ok ⟨a.rows, subset.length, fun r j => a.elem r (subset.getD j 0)⟩

/-- `Array2ParameterBuilder::build`, lines 287-313. -/
def build2 {α : Type} (d : Domain) (group : String) (a : Array2 α) (offset : Option Int) : Except Err (Param2 α) :=
  match d.groupIndex group with
  | none => .error .groupNotFound
  | some g =>
    match d.scenarioMap[g]? with
    | none => .error .panic
    | some none => .ok ⟨a, g, offset⟩
    | some (some subset) =>
      match subsetArray2 a subset with
      | .error e => .error e
      | .ok a' => .ok ⟨a', g, offset⟩

end Verif.ArrayParam
