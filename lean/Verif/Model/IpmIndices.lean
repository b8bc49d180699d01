/-!
# Index lists of the sparse Cholesky decomposition

Transcribed from `/repo/ipm-common/src/lib.rs`, lines 22-136, with the sparse matrices of `nalgebra-sparse` it uses.

Simplifications. Vectors are lists; a read outside a vector, which would panic, gives 0. `u32` and `usize` are unbounded.
The two `while` loops with two pointers (lines 48-67 and 71-92) are the same recursion on the two remaining slices. A
stable sort by a column number is written as the concatenation, over the columns, of the positions with that column.
-/

namespace Verif.Ipm

/-- `CsrMatrix` of `nalgebra-sparse`. -/
structure Csr (K : Type) where
  nrows : Nat
  ncols : Nat
  /-- `row_offsets` -/
  offsets : List Nat
  /-- `col_indices` -/
  cols : List Nat
  values : List K
  deriving DecidableEq, Repr

/-- `l[a..b]`. -/
def slice {α : Type} (l : List α) (a b : Nat) : List α := (l.take b).drop a

/-- `row_offsets()[i]`. -/
def Csr.off {K : Type} (a : Csr K) (i : Nat) : Nat := a.offsets.getD i 0

/-- `get_row(i).col_indices()`. -/
def Csr.rowCols {K : Type} (a : Csr K) (i : Nat) : List Nat := slice a.cols (a.off i) (a.off (i + 1))

/-- What `CsrMatrix::try_from_csr_data` checks (otherwise it is an error, and the caller panics). -/
def Csr.check {K : Type} (a : Csr K) : Bool :=
  a.offsets.length == a.nrows + 1 && a.off 0 == 0 && a.off a.nrows == a.cols.length &&
    a.values.length == a.cols.length &&
    (List.range a.nrows).all (fun i => a.off i ≤ a.off (i + 1) &&
      decide ((a.rowCols i).Pairwise (· < ·))) &&
    a.cols.all (· < a.ncols)

/-- Positions of the entries of a matrix in the order of its transpose: by column, within a column by row. -/
def Csr.byColumn {K : Type} (a : Csr K) : List Nat :=
  (List.range a.ncols).flatMap fun c => (List.range a.cols.length).filter fun p => a.cols.getD p 0 = c

/-- The row an entry lies in. -/
def Csr.rowOf {K : Type} (a : Csr K) (p : Nat) : Nat := (a.offsets.filter (· ≤ p)).length - 1

/-- `transpose()` of `nalgebra-sparse`. -/
def Csr.transpose {K : Type} [Zero K] (a : Csr K) : Csr K where
  nrows := a.ncols
  ncols := a.nrows
  offsets := (List.range (a.ncols + 1)).map fun c => (a.cols.filter (· < c)).length
  cols := a.byColumn.map a.rowOf
  values := a.byColumn.map fun p => a.values.getD p 0

/-- The loops over two sorted slices, `lib.rs:48-67` and `71-92`: positions of the elements in common, and the elements.
`p` and `q` are the positions of the heads. -/
def common : Nat → List Nat → List Nat → Nat → Nat → List (Nat × Nat × Nat)
  | 0, _, _, _, _ => []
  | fuel + 1, ik :: is, jk :: js, p, q =>
    if ik = jk then (p, q, ik) :: common fuel is js (p + 1) (q + 1)
    else if ik < jk then common fuel is (jk :: js) (p + 1) q
    else common fuel (ik :: is) js p (q + 1)
  | _ + 1, [], _, _, _ => []
  | _ + 1, _ :: _, [], _, _ => []

/-- A loop with the iterations it takes at most. -/
def matches_ (is js : List Nat) (p q : Nat) : List (Nat × Nat × Nat) := common (is.length + js.length) is js p q

/-- `SparseNormalCholeskyIndices`, `lib.rs:6-20`, without the transpose. -/
structure Idx where
  /-- `anorm_indptr` -/
  anPtr : List Nat
  /-- `anorm_indptr_i` -/
  anI : List Nat
  /-- `anorm_indptr_j` -/
  anJ : List Nat
  /-- `anorm_indices` -/
  anK : List Nat
  /-- `ldecomp_indptr` -/
  ldPtr : List Nat
  /-- `ldecomp_indptr_i` -/
  ldI : List Nat
  /-- `ldecomp_indptr_j` -/
  ldJ : List Nat
  /-- `lindptr` -/
  lPtr : List Nat
  /-- `ldiag_indptr` -/
  lDiag : List Nat
  /-- `lindices` -/
  lInd : List Nat
  deriving DecidableEq, Repr

/-- `lib.rs:24-34`. -/
def Idx.init : Idx := ⟨[0], [], [], [], [0], [], [], [0], [], []⟩

/-- Common columns of rows `i` and `j` of the matrix, `lib.rs:38-68`. -/
def aMatches {K : Type} (a : Csr K) (i j : Nat) : List (Nat × Nat × Nat) :=
  matches_ (a.rowCols i) (a.rowCols j) (a.off i) (a.off j)

/-- Common columns of rows `i` and `j` of the factor as far as it is known, `lib.rs:70-92`. -/
def lMatches (s : Idx) (i j : Nat) : List (Nat × Nat × Nat) :=
  let ii := s.lPtr.getD i 0
  let jj := s.lPtr.getD j 0
  let iiMax := s.lInd.length
  let jjMax := if i = j then iiMax else s.lPtr.getD (j + 1) 0
  matches_ (slice s.lInd ii iiMax) (slice s.lInd jj jjMax) ii jj

/-- The body of the loop over `j`, `lib.rs:37-102`. `none` is the underflow at line 100. -/
def entryStep {K : Type} (a : Csr K) (i j : Nat) (s : Idx) : Option Idx :=
  let an := aMatches a i j
  let ld := lMatches s i j
  let s₁ : Idx := { s with
    anI := s.anI ++ an.map (·.1)
    anJ := s.anJ ++ an.map (·.2.1)
    anK := s.anK ++ an.map (·.2.2)
    ldI := s.ldI ++ ld.map (·.1)
    ldJ := s.ldJ ++ ld.map (·.2.1) }
  let s₂ : Idx :=
    if an.isEmpty && ld.isEmpty then s₁
    else { s₁ with
      anPtr := s₁.anPtr ++ [s₁.anI.length]
      ldPtr := s₁.ldPtr ++ [s₁.ldI.length]
      lInd := s₁.lInd ++ [j] }
  if i = j then
    if s₂.lInd.length = 0 then none else some { s₂ with lDiag := s₂.lDiag ++ [s₂.lInd.length - 1] }
  else some s₂

/-- The loop over `j`: the entries `j, j + 1, …` of row `i`, `k` of them. -/
def entryLoop {K : Type} (a : Csr K) (i : Nat) : Nat → Nat → Idx → Option Idx
  | 0, _, s => some s
  | k + 1, j, s =>
    match entryStep a i j s with
    | none => none
    | some s' => entryLoop a i k (j + 1) s'

/-- The body of the loop over `i`, `lib.rs:36-104`. -/
def rowStep {K : Type} (a : Csr K) (i : Nat) (s : Idx) : Option Idx :=
  match entryLoop a i (i + 1) 0 s with
  | none => none
  | some s' => some { s' with lPtr := s'.lPtr ++ [s'.lInd.length] }

/-- The loop over `i`: the first `n` rows. -/
def rowLoop {K : Type} (a : Csr K) : Nat → Option Idx
  | 0 => some Idx.init
  | n + 1 =>
    match rowLoop a n with
    | none => none
    | some s => rowStep a n s

/-- The factor as a sparse matrix, `lib.rs:106-114`; the values do not matter here. -/
def Idx.lower (s : Idx) (n : Nat) : Csr Nat := ⟨n, n, s.lPtr, s.lInd, s.lInd.map fun _ => 1⟩

/-- `SparseNormalCholeskyIndices`, with `ltindptr`, `ltindices` and `ltmap`. -/
structure Indices where
  l : Idx
  ltPtr : List Nat
  ltInd : List Nat
  ltMap : List Nat
  deriving DecidableEq, Repr

/-- `from_matrix`, `lib.rs:23-135`. `none` is a panic: the underflow at line 100, or a failed check at line 114. -/
def fromMatrix {K : Type} (a : Csr K) : Option Indices :=
  match rowLoop a a.nrows with
  | none => none
  | some s =>
    let lower := s.lower a.nrows
    if lower.check then some ⟨s, lower.transpose.offsets, lower.transpose.cols, lower.byColumn⟩ else none

end Verif.Ipm
