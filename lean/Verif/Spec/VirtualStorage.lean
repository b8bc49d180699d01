import Verif.Spec.Storage

/-! # Specification of virtual storages -/

namespace Verif.State

open Verif.Calendar Verif.Time

/-- What a member of a virtual storage uses: outflow of an input, inflow of an output or link. -/
def memberUse (kinds : List NodeKind) (edges : List Edge) (flow : Nat → ℚ) (i : Nat) : ℚ :=
  if kinds[i]? = some .input then outSum edges flow i else inSum edges flow i

/-- Total use of a virtual storage: every member's flow times its factor. -/
def vsUse (kinds : List NodeKind) (edges : List Edge) (n : VSNode) (flow : Nat → ℚ) : ℚ :=
  ((n.nodes.zip n.factors).map fun (i, f) => f * memberUse kinds edges flow i).sum

/-- The sum that the solver's row contains for the member `i` (`solvers/builder.rs:792-823`): links and inputs by their
outgoing edges, outputs by their incoming edges. -/
def lpUse (kinds : List NodeKind) (edges : List Edge) (flow : Nat → ℚ) (i : Nat) : ℚ :=
  if kinds[i]? = some .output then inSum edges flow i else outSum edges flow i

/-- The row of a virtual storage in the solver (`solvers/builder.rs:597-622` and `1028-1049`): minus the weighted flow
lies between `-available / dt` and `missing / dt`. -/
def VSRow (kinds : List NodeKind) (edges : List Edge) (n : VSNode) (volume lo hi days : ℚ) (flow : Nat → ℚ) : Prop :=
  -(availableBounds volume lo hi).1 / days ≤ ((n.nodes.zip n.factors).map fun (i, f) => -f * lpUse kinds edges flow i).sum ∧
  ((n.nodes.zip n.factors).map fun (i, f) => -f * lpUse kinds edges flow i).sum ≤ (availableBounds volume lo hi).2 / days

/-- Members exist and none of them is a storage node. -/
def MembersOk (kinds : List NodeKind) (n : VSNode) : Prop :=
  ∀ i ∈ n.nodes, i < kinds.length ∧ kinds[i]? ≠ some .storage

/-- The last `k` elements of a list. -/
def lastN (k : Nat) (l : List ℚ) : List ℚ := l.drop (l.length - k)

/-- Position of a month and day in a year of 366 days. -/
def slot (month day : Nat) : Nat :=
  (match month with
   | 1 => 0 | 2 => 31 | 3 => 60 | 4 => 91 | 5 => 121 | 6 => 152 | 7 => 182 | 8 => 213 | 9 => 244 | 10 => 274 | 11 => 305
   | _ => 335) + day

/-- Walking forward from `s` in a cycle of 366 days, `x` is reached no later than `e`. -/
def CyclicBetween (s e x : Nat) : Prop := (x + 366 - s) % 366 ≤ (e + 366 - s) % 366

end Verif.State
