import Verif.Model.IpmSolve
import Mathlib.Algebra.BigOperators.Intervals

/-!
# Specification of the interior point solver

In terms of dense matrices, without index lists.
-/

namespace Verif.Ipm

open Finset

variable {K : Type} [Field K] [LinearOrder K]

/-- The number in row `i` and column `c` of a sparse matrix. -/
def Csr.entry (a : Csr K) (i c : Nat) : K :=
  ∑ p ∈ Ico (a.off i) (a.off (i + 1)), if a.cols.getD p 0 = c then rd a.values p else 0

/-- `(A x)_i`. -/
def Csr.apply (a : Csr K) (x : List K) (i : Nat) : K := ∑ c ∈ range a.ncols, a.entry i c * rd x c

/-- `(Aᵀ y)_c`. -/
def Csr.applyT (a : Csr K) (y : List K) (c : Nat) : K := ∑ i ∈ range a.nrows, a.entry i c * rd y i

/-- No row is empty. -/
def Csr.NoEmptyRow (a : Csr K) : Prop := ∀ i < a.nrows, a.off i < a.off (i + 1)

/-- The rows from `wlen` on, those of the equalities, are linearly independent. -/
def Csr.Independent (a : Csr K) (wlen : Nat) : Prop :=
  ∀ v : Nat → K, (∀ i < wlen, v i = 0) → (∀ c < a.ncols, ∑ i ∈ range a.nrows, v i * a.entry i c = 0) → ∀ i < a.nrows, v i = 0

/-- The vectors have the sizes of the program, with a slack for each of the first `wlen` rows. -/
structure Sized (a : Csr K) (wlen : Nat) (pt : Point K) : Prop where
  x : pt.x.length = a.ncols
  z : pt.z.length = a.ncols
  y : pt.y.length = a.nrows
  w : pt.w.length = wlen
  slacks : wlen ≤ a.nrows

/-- Variables, dual slacks, slacks and the multipliers of inequalities are positive. -/
structure Inside (a : Csr K) (wlen : Nat) (pt : Point K) : Prop extends Sized a wlen pt where
  xPos : ∀ c < a.ncols, 0 < rd pt.x c
  zPos : ∀ c < a.ncols, 0 < rd pt.z c
  wPos : ∀ i < wlen, 0 < rd pt.w i
  yPos : ∀ i < wlen, 0 < rd pt.y i

/-- The normal matrix `A X Z⁻¹ Aᵀ + W Y⁻¹`. -/
def normalEntry (a : Csr K) (pt : Point K) (i j : Nat) : K :=
  (if i = j ∧ i < pt.w.length then rd pt.w i / rd pt.y i else 0) +
    ∑ c ∈ range a.ncols, a.entry i c * a.entry j c * (rd pt.x c / rd pt.z c)

/-- By how much row `i` of `A x + w = b` is missed; rows from the number of slacks on have no slack. -/
def violation (a : Csr K) (b : List K) (pt : Point K) (i : Nat) : K :=
  rd b i - (if i < pt.w.length then rd pt.w i else 0) - a.apply pt.x i

/-- By how much column `c` of `Aᵀ y - z = c` is missed. -/
def dualViolation (a : Csr K) (cs : List K) (pt : Point K) (c : Nat) : K := rd pt.z c + rd cs c - a.applyT pt.y c

/-- The products of variables and dual slacks, and of slacks and multipliers. -/
def complementarity (a : Csr K) (pt : Point K) : K :=
  ∑ c ∈ range a.ncols, rd pt.z c * rd pt.x c + ∑ i ∈ range pt.w.length, rd pt.w i * rd pt.y i

/-- The work arrays of a lane have the lengths they were made with. -/
structure Ready (st : Setup K) (ln : Lane K) : Prop where
  l : ln.l.length = st.ix.l.lInd.length
  dy : ln.dy.length = st.a.nrows

/-- The factor as a sparse matrix: index lists from the setup, values from the decomposition. -/
def factor (st : Setup K) (values : List K) : Csr K := ⟨st.a.nrows, st.a.nrows, st.ix.l.lPtr, st.ix.l.lInd, values⟩

/-- A function that takes square roots. -/
structure IsSqrt (sqrt : K → K) : Prop where
  sq : ∀ v, 0 ≤ v → sqrt v * sqrt v = v
  nonneg : ∀ v, 0 ≤ sqrt v

/-- The Euclidean length of the first `n` numbers. -/
def euclid (sqrt : K → K) (n : Nat) (f : Nat → K) : K := sqrt (∑ i ∈ range n, f i * f i)

/-- The constraints of a program: `wlen` inequalities, then equalities, and no negative variable. -/
structure Feasible (a : Csr K) (wlen : Nat) (b : List K) (x : Nat → K) : Prop where
  nonneg : ∀ c < a.ncols, 0 ≤ x c
  le : ∀ i < a.nrows, i < wlen → ∑ c ∈ range a.ncols, a.entry i c * x c ≤ rd b i
  eq : ∀ i < a.nrows, wlen ≤ i → ∑ c ∈ range a.ncols, a.entry i c * x c = rd b i

/-- The objective, which is to be as large as possible. -/
def objective (a : Csr K) (c : List K) (x : Nat → K) : K := ∑ j ∈ range a.ncols, rd c j * x j

end Verif.Ipm
