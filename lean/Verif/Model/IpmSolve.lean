import Verif.Model.IpmIndices
import Mathlib.Algebra.Order.Field.Basic

/-!
# The interior point solver

Transcribed from `/repo/ipm-simd/src/path_following_direct.rs`, `/repo/ipm-simd/src/common.rs` and
`/repo/ipm-simd/src/lib.rs`.

Simplifications. `f64` is an ordered field with a function for the square root. The operations on `f64x4` act on each of
the four lanes separately, so a vector of `f64x4` is described as one vector for each lane (`Lane`); the lanes meet only
in the test whether all have finished. Loops that add up are sums. Reading outside a vector gives 0, writing outside does
nothing. Dividing by zero gives 0; in the code it gives an infinity or `NaN`, and the solver panics when it sees `NaN`
(`path_following_direct.rs:206-209`, left out).
-/

namespace Verif.Ipm

variable {K : Type} [Field K] [LinearOrder K]

/-- A vector read as a function. -/
def rd (v : List K) (i : Nat) : K := v.getD i 0

/-- The positions of row `r`. -/
def Csr.span (a : Csr K) (r : Nat) : List Nat := List.range' (a.off r) (a.off (r + 1) - a.off r)

/-- `Σ data[index] * x[indices[index]]` over a row. -/
def Csr.rowDot (a : Csr K) (x : List K) (r : Nat) : K :=
  ((a.span r).map fun ind => rd a.values ind * rd x (a.cols.getD ind 0)).sum

/-- `matrix_vector_product`, `common.rs:27-41`. -/
def matVec (a : Csr K) (x : List K) : List K := (List.range a.nrows).map (a.rowDot x)

/-- `dot_product`, `common.rs:44-46`. -/
def dot (x y : List K) : K := ((x.zip y).map fun p => p.1 * p.2).sum

/-- `vector_norm`, `common.rs:61-63`. -/
def norm (sqrt : K → K) (x : List K) : K := sqrt ((x.map fun a => a * a).sum)

/-- The variables of a lane (`PathData`, `lib.rs:16-21`). -/
structure Point (K : Type) where
  x : List K
  z : List K
  y : List K
  w : List K
  deriving DecidableEq, Repr

/-! ## Decomposition and substitution -/

/-- The value of an entry of the factor, `path_following_direct.rs:93-121`; `rowInd` is its place in `l_ptr`, `e` the running
number. -/
def entryVal (sqrt : K → K) (a : Csr K) (ix : Idx) (pt : Point K) (l : List K) (row rowInd e : Nat) : K :=
  let col := ix.lInd.getD rowInd 0
  let val := if row = col ∧ row < pt.w.length then rd pt.w row / rd pt.y row else 0
  let val := val + ((List.range' (ix.anPtr.getD e 0) (ix.anPtr.getD (e + 1) 0 - ix.anPtr.getD e 0)).map fun ind =>
    rd a.values (ix.anI.getD ind 0) * rd a.values (ix.anJ.getD ind 0) * rd pt.x (ix.anK.getD ind 0) /
      rd pt.z (ix.anK.getD ind 0)).sum
  let val := val - ((List.range' (ix.ldPtr.getD e 0) (ix.ldPtr.getD (e + 1) 0 - ix.ldPtr.getD e 0)).map fun ind =>
    rd l (ix.ldI.getD ind 0) * rd l (ix.ldJ.getD ind 0)).sum
  if row = col then sqrt |val| else val / rd l (ix.lDiag.getD col 0)

/-- The loop over the entries of a row, `path_following_direct.rs:92-124`, for the places `rowInd, rowInd + 1, …`. -/
def decompRow (sqrt : K → K) (a : Csr K) (ix : Idx) (pt : Point K) (row : Nat) : Nat → Nat → List K × Nat → List K × Nat
  | 0, _, s => s
  | k + 1, rowInd, s =>
    decompRow sqrt a ix pt row k (rowInd + 1) (s.1.set s.2 (entryVal sqrt a ix pt s.1 row rowInd s.2), s.2 + 1)

/-- `normal_matrix_cholesky_decomposition`, `path_following_direct.rs:75-126`: the first `n` rows, writing into `l`. -/
def decompRows (sqrt : K → K) (a : Csr K) (ix : Idx) (pt : Point K) (l : List K) : Nat → List K × Nat
  | 0 => (l, 0)
  | n + 1 =>
    decompRow sqrt a ix pt n (ix.lPtr.getD (n + 1) 0 - ix.lPtr.getD n 0) (ix.lPtr.getD n 0) (decompRows sqrt a ix pt l n)

/-- `normal_matrix_cholesky_decomposition`, `path_following_direct.rs:75-126`. -/
def decompose (sqrt : K → K) (a : Csr K) (ix : Idx) (pt : Point K) (l : List K) : List K :=
  (decompRows sqrt a ix pt l a.nrows).1

/-- The `while` loop of forward substitution, `path_following_direct.rs:138-145`: the value of `x[i]` and the place reached. -/
def forwardWhile (ix : Idx) (l xs : List K) (i : Nat) : Nat → Nat → K → K × Nat
  | 0, jk, xi => (xi, jk)
  | fuel + 1, jk, xi =>
    if ix.lInd.getD jk 0 < i then
      forwardWhile ix l xs i fuel (jk + 1) (xi - rd xs (ix.lInd.getD jk 0) * rd l jk)
    else (xi, jk)

/-- Forward substitution, `path_following_direct.rs:135-148`: the first `n` rows. -/
def forward (ix : Idx) (l b xs : List K) : Nat → List K
  | 0 => xs
  | n + 1 =>
    let xs := forward ix l b xs n
    let r := forwardWhile ix l xs n ix.lInd.length (ix.lPtr.getD n 0) (rd b n)
    xs.set n (r.1 / rd l r.2)

/-- Backward substitution, `path_following_direct.rs:151-165`: the rows `n - 1, …, 0`. -/
def backward (ix : Indices) (l : List K) : Nat → List K → List K
  | 0, xs => xs
  | n + 1, xs =>
    let first := ix.ltPtr.getD n 0 + 1
    let s := ((List.range' first (ix.ltPtr.getD (n + 1) 0 - first)).map fun jk =>
      rd xs (ix.ltInd.getD jk 0) * rd l (ix.ltMap.getD jk 0)).sum
    backward ix l n (xs.set n ((rd xs n - s) / rd l (ix.l.lPtr.getD (n + 1) 0 - 1)))

/-- `cholesky_solve`, `path_following_direct.rs:133-166`, writing into `xs`. -/
def choleskySolve (ix : Indices) (n : Nat) (l b xs : List K) : List K :=
  backward ix l n (forward ix.l l b xs n)

/-! ## Right-hand side, residuals and directions -/

/-- `tmp` of `normal_eqn_rhs`, `common.rs:83-89`. -/
def rhsTmp (at_ : Csr K) (pt : Point K) (c : List K) (mu : K) : List K :=
  (List.range at_.nrows).map fun r =>
    rd pt.x r * (rd c r - at_.rowDot pt.y r + mu / rd pt.x r) / rd pt.z r

/-- `normal_eqn_rhs`, `common.rs:70-108`. -/
def normalRhs (a at_ : Csr K) (pt : Point K) (b c : List K) (mu : K) : List K :=
  (List.range a.nrows).map fun r =>
    let out := a.rowDot (rhsTmp at_ pt c mu) r
    let val := (if r < pt.w.length then mu / rd pt.y r else 0) + a.rowDot pt.x r
    let res := -(rd b r - val - out)
    res

/-- What is left over in a row, `common.rs:126-138`. -/
def primalResidual (a : Csr K) (pt : Point K) (b : List K) (r : Nat) : K :=
  (if r < pt.w.length then rd b r - rd pt.w r else rd b r) - a.rowDot pt.x r

/-- `primal_feasibility`, `common.rs:114-144`. -/
def primalFeasibility (sqrt : K → K) (a : Csr K) (pt : Point K) (b : List K) : K :=
  sqrt (((List.range a.nrows).map fun r => primalResidual a pt b r * primalResidual a pt b r).sum) / (1 + norm sqrt pt.x)

/-- What is left over in a row of the dual, `common.rs:160-169`. -/
def dualResidual (at_ : Csr K) (pt : Point K) (c : List K) (r : Nat) : K := rd pt.z r + rd c r - at_.rowDot pt.y r

/-- `dual_feasibility`, `common.rs:149-175`. -/
def dualFeasibility (sqrt : K → K) (at_ : Csr K) (pt : Point K) (c : List K) : K :=
  sqrt (((List.range at_.nrows).map fun r => dualResidual at_ pt c r * dualResidual at_ pt c r).sum) / (1 + norm sqrt pt.y)

/-- `dx`, `common.rs:215`. -/
def dirX (at_ : Csr K) (pt : Point K) (c dy : List K) (mu : K) : List K :=
  (List.range at_.nrows).map fun r =>
    (rd c r - at_.rowDot pt.y r - at_.rowDot dy r + mu / rd pt.x r) * rd pt.x r / rd pt.z r

/-- `dz`, `common.rs:216`. -/
def dirZ (at_ : Csr K) (pt : Point K) (dx : List K) (mu : K) : List K :=
  (List.range at_.nrows).map fun r => (mu - rd pt.z r * rd dx r) / rd pt.x r - rd pt.z r

/-- `dw`, `common.rs:223`. -/
def dirW (pt : Point K) (dy : List K) (mu : K) : List K :=
  (List.range pt.w.length).map fun r => (mu - rd pt.w r * rd dy r) / rd pt.y r - rd pt.w r

/-- The largest of 0 and the relative decreases, `common.rs:199-227`. -/
def maxDecrease (at_ : Csr K) (pt : Point K) (dx dz dy dw : List K) : K :=
  max ((List.range at_.nrows).foldl (fun t r => max (max t (-rd dx r / rd pt.x r)) (-rd dz r / rd pt.z r)) 0)
    ((List.range pt.w.length).foldl (fun t r => max (max t (-rd dw r / rd pt.w r)) (-rd dy r / rd pt.y r)) 0)

/-- The step length, `path_following_direct.rs:246`; `0.9995 / 0` is an infinity, so its minimum with 1 is 1. -/
def stepLength (theta : K) : K := if theta = 0 then 1 else min (9995 / 10000 / theta) 1

/-- `vector_update`, `common.rs:49-53`. -/
def vectorUpdate (x y : List K) (xscale yscale : K) : List K :=
  (List.range x.length).map fun i => xscale * rd x i + yscale * rd y i

/-! ## The solver -/

/-- What the lanes share: the matrix, its transpose and the index lists, and the tolerances (`PathFollowingDirectSimdData`,
`lib.rs:34-47`). -/
structure Setup (K : Type) where
  a : Csr K
  at_ : Csr K
  ix : Indices
  primal : K
  dual : K
  optimality : K

/-- A lane: its program, its variables, and the arrays `l_data` and `dy`. -/
structure Lane (K : Type) where
  b : List K
  c : List K
  pt : Point K
  l : List K
  dy : List K
  deriving DecidableEq, Repr

/-- `gamma` before it is made relative, `path_following_direct.rs:200`. -/
def gap (pt : Point K) : K := dot pt.z pt.x + dot pt.w pt.y

/-- The test of a lane, `path_following_direct.rs:195-219`. -/
def finished (sqrt : K → K) (s : Setup K) (ln : Lane K) : Bool :=
  decide (primalFeasibility sqrt s.a ln.pt ln.b < s.primal) && decide (dualFeasibility sqrt s.at_ ln.pt ln.c < s.dual) &&
    decide (gap ln.pt / (1 + norm sqrt ln.pt.x + norm sqrt ln.pt.y) < s.optimality)

/-- `mu`, `path_following_direct.rs:202`, with `delta` of `lib.rs:158`. -/
def muOf (s : Setup K) (pt : Point K) : K := 1 / 10 * gap pt / ((s.at_.nrows + pt.w.length : Nat) : K)

/-- The rest of `normal_eqn_step` for a lane, `path_following_direct.rs:228-259`; a lane that has finished gets the step
length 0. -/
def advance (sqrt : K → K) (s : Setup K) (ln : Lane K) : Lane K :=
  let mu := muOf s ln.pt
  let rhs := normalRhs s.a s.at_ ln.pt ln.b ln.c mu
  let l := decompose sqrt s.a s.ix.l ln.pt ln.l
  let dy := choleskySolve s.ix s.a.nrows l rhs ln.dy
  let dx := dirX s.at_ ln.pt ln.c dy mu
  let dz := dirZ s.at_ ln.pt dx mu
  let dw := dirW ln.pt dy mu
  let theta := if finished sqrt s ln then 0 else stepLength (maxDecrease s.at_ ln.pt dx dz dy dw)
  { ln with
    pt := ⟨vectorUpdate ln.pt.x dx 1 theta, vectorUpdate ln.pt.z dz 1 theta, vectorUpdate ln.pt.y dy 1 theta,
      vectorUpdate ln.pt.w dw 1 theta⟩
    l := l
    dy := dy }

/-- The loop of `solve`, `lib.rs:161-198`, with the iterations left; `none` is the panic when they are used up. -/
def solveLoop (sqrt : K → K) (s : Setup K) : Nat → List (Lane K) → Option (List (Lane K))
  | 0, _ => none
  | n + 1, lanes =>
    if lanes.all (finished sqrt s) then some lanes else solveLoop sqrt s n (lanes.map (advance sqrt s))

/-- `normal_eqn_init`, `path_following_direct.rs:263-268`. -/
def initPoint (m n wlen : Nat) : Point K :=
  ⟨List.replicate n 1000, List.replicate n 1000, List.replicate m 1000, List.replicate wlen 1000⟩

/-- `PathFollowingDirectSimdSolver::from_data`, `lib.rs:128-142` and `50-103`: `none` is a panic. -/
def mkSetup (a : Csr K) (primal dual optimality : K) : Option (Setup K) :=
  if a.check then
    match fromMatrix a with
    | none => none
    | some ix => some ⟨a, a.transpose, ix, primal, dual, optimality⟩
  else none

/-- `solve`, `lib.rs:144-203`, for lanes given by their programs and what is left in their work arrays. -/
def solve (sqrt : K → K) (s : Setup K) (wlen maxIter : Nat) (lanes : List (List K × List K × List K × List K)) :
    Option (List (List K)) :=
  (solveLoop sqrt s maxIter (lanes.map fun p => ⟨p.1, p.2.1, initPoint s.a.nrows s.a.ncols wlen, p.2.2.1, p.2.2.2⟩)).map
    fun ls => ls.map fun ln => ln.pt.x

end Verif.Ipm
