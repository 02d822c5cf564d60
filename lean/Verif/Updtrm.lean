import Verif.Kernel
import Verif.Blas2

/-!
# Triangular and symmetric rank-k updates

Model of `src/blas/updtrmm.c` and `src/blas/syrk.c`.
-/

namespace Armas

variable {α : Type}

/-- Rows `p,…,p+n-1` of `op(A)`: the `armas_submatrix_unsafe`, `armas_row_unsafe` and
`armas_column_unsafe` calls on `A` in the `switch` statements of `src/blas/updtrmm.c`. -/
def rowsOf (fl : Flags) (A : View) (p n : Nat) : View :=
  if fl.transA then A.sub 0 p A.rows n else A.sub p 0 n A.cols

/-- Columns `q,…,q+n-1` of `op(B)`, likewise. -/
def colsOf (fl : Flags) (B : View) (q n : Nat) : View :=
  if fl.transB then B.sub q 0 n B.cols else B.sub 0 q B.rows n

/-- Number of rows of `op(A)` as used in `A->cols-i`, `A->rows-i`. -/
def nRows (fl : Flags) (A : View) : Nat := if fl.transA then A.cols else A.rows
/-- Number of columns of `op(B)` as used in `B->cols-i`, `B->rows-i`. -/
def nCols (fl : Flags) (B : View) : Nat := if fl.transB then B.rows else B.cols

section upd
variable [Mul α] [Add α] [Zero α] [One α] [DecidableEq α]

/-- `update_trm_naive` (`src/blas/updtrmm.c:38-103`). -/
def updNaive (ab : α → α) (env : Env) (fuel : Nat) (m : Mem α) (beta : α) (C : View) (alpha : α)
    (A B : View) (fl : Flags) : Res (Mem α) := do
  let (_, m) ← forUp 0 (min C.rows C.cols) 1 (fun i m =>
    if fl.upper then
      mvmultUnsafe ab env fuel m beta (C.sub i i 1 (C.cols - i)) alpha
        (colsOf fl B i (nCols fl B - i)) (rowsOf fl A i 1) { transA := !fl.transB }
    else
      mvmultUnsafe ab env fuel m beta (C.sub i i (C.rows - i) 1) alpha
        (rowsOf fl A i (nRows fl A - i)) (colsOf fl B i 1) { transA := fl.transA }) m
  pure m

/-- The trapezoidal part at the end of the recursive versions (`src/blas/updtrmm.c:198-213` and
`:310-325`). -/
def updTrap (ab : α → α) (m : Mem α) (beta : α) (C : View) (alpha : α) (A B : View) (fl : Flags)
    (c : Cache) (nb : Nat) : Res (Mem α) :=
  if fl.upper then
    if C.rows ≥ C.cols then pure m
    else multKernel ab m beta (C.sub 0 nb C.rows (C.cols - nb)) alpha (A.sub 0 0 A.rows A.cols)
      (colsOf fl B nb (nCols fl B - nb)) fl c
  else
    if C.cols ≥ C.rows then pure m
    else multKernel ab m beta (C.sub nb 0 (C.rows - nb) C.cols) alpha
      (rowsOf fl A nb (nRows fl A - nb)) (B.sub 0 0 B.rows B.cols) fl c

/-- `update_upper_recursive` (`src/blas/updtrmm.c:105-214`) and `update_lower_recursive`
(`src/blas/updtrmm.c:216-326`), selected by `fl.upper` like at every call.  In the upper version the
block right of the first diagonal block has `nb-nb/2` rows (`:171`), in the lower version the block below it has
`nb/2` columns.  `fuel` bounds the depth of the recursion. -/
def updRec (ab : α → α) (env : Env) (c : Cache) (beta alpha : α) (fl : Flags) :
    Nat → Mem α → View → View → View → Res (Mem α)
  | 0, _, _, _, _ => .diverge
  | fuel + 1, m, C, A, B =>
    let nb := min C.rows C.cols
    if nb < env.blas2min then updNaive ab env fuel m beta C alpha A B fl
    else do
      let h := nb / 2
      -- upper left diagonal
      let m ← (if h < env.blas2min then
          updNaive ab env fuel m beta (C.sub 0 0 h h) alpha (rowsOf fl A 0 h) (colsOf fl B 0 h) fl
        else updRec ab env c beta alpha fl fuel m (C.sub 0 0 h h) (rowsOf fl A 0 h) (colsOf fl B 0 h))
      -- off diagonal
      let m ← (if fl.upper then
          multKernel ab m beta (C.sub 0 h (nb - h) (nb - h)) alpha (rowsOf fl A 0 h)
            (colsOf fl B h (nb - h)) fl c
        else multKernel ab m beta (C.sub h 0 (nb - h) h) alpha (rowsOf fl A h (nb - h))
            (colsOf fl B 0 h) fl c)
      -- lower right diagonal
      let m ← (if h < env.blas2min then
          updNaive ab env fuel m beta (C.sub h h (nb - h) (nb - h)) alpha (rowsOf fl A h (nb - h))
            (colsOf fl B h (nb - h)) fl
        else updRec ab env c beta alpha fl fuel m (C.sub h h (nb - h) (nb - h)) (rowsOf fl A h (nb - h))
            (colsOf fl B h (nb - h)))
      -- trapezoidal part
      updTrap ab m beta C alpha A B fl c nb

/-- `update_trm_blk` (`src/blas/updtrmm.c:335-431`). -/
def updBlk (ab : α → α) (env : Env) (fuel : Nat) (m : Mem α) (beta : α) (C : View) (alpha : α)
    (A B : View) (fl : Flags) (c : Cache) : Res (Mem α) := do
  let M := min C.rows C.cols
  let (_, m) ← forUp 0 M c.NB (fun i m => do
    let nI := if M - i < c.NB then M - i else c.NB
    let m ← updRec ab env c beta alpha fl fuel m (C.sub i i nI nI) (rowsOf fl A i nI) (colsOf fl B i nI)
    if fl.upper then
      multKernel ab m beta (C.sub i (i + nI) nI (C.cols - (i + nI))) alpha (rowsOf fl A i nI)
        (colsOf fl B (i + nI) (nCols fl B - (i + nI))) fl c
    else
      multKernel ab m beta (C.sub (i + nI) i (C.rows - (i + nI)) nI) alpha
        (rowsOf fl A (i + nI) (nRows fl A - (i + nI))) (colsOf fl B i nI) fl c) m
  pure m

/-- The size check of `armas_update_trm` (`src/blas/updtrmm.c:476-489`). -/
def updSizes (C A B : View) (fl : Flags) : Bool :=
  match fl.transA, fl.transB with
  | true, true => decide (A.rows = B.cols ∧ C.cols = B.rows ∧ C.rows = A.cols)
  | true, false => decide (A.rows = B.rows ∧ C.cols = B.cols ∧ C.rows = A.cols)
  | false, true => decide (A.cols = B.cols ∧ C.cols = B.rows ∧ C.rows = A.rows)
  | false, false => decide (A.cols = B.rows ∧ C.cols = B.cols ∧ C.rows = A.rows)

/-- `armas_update_trm` (`src/blas/updtrmm.c:459-524`); `cbuf` as in `mult`. -/
def updateTrm (ab : α → α) (env : Env) (fuel : Nat) (m : Mem α) (beta : α) (C : View) (alpha : α)
    (A B : View) (fl : Flags) (cbuf : Option Cache) : Res (Int × Mem α) :=
  if C.size = 0 ∨ A.size = 0 ∨ B.size = 0 then .ok (0, m)
  else if ¬ updSizes C A B fl then .ok (-ESIZE, m)
  else if env.naive then do
    let m ← updNaive ab env fuel m beta C alpha A B fl
    pure (0, m)
  else match cbuf with
    | none => .ok (-EMEMORY, m)
    | some c => do
      let m ← (if env.recursive then updRec ab env c beta alpha fl fuel m C A B
        else updBlk ab env fuel m beta C alpha A B fl c)
      pure (0, m)

/-- `armas_update_sym` (`src/blas/syrk.c:52-86`); `ARMAS_TRANS` is `fl.transA`.  Only the flags for the
triangle and the transpose are passed on. -/
def updateSym (ab : α → α) (env : Env) (fuel : Nat) (m : Mem α) (beta : α) (C : View) (alpha : α)
    (A : View) (fl : Flags) (cbuf : Option Cache) : Res (Int × Mem α) :=
  if A.size = 0 ∨ C.size = 0 then .ok (0, m)
  else if ¬ ((if fl.transA then C.rows = A.cols else C.rows = A.rows) ∧ C.rows = C.cols) then
    .ok (-ESIZE, m)
  else updateTrm ab env fuel m beta C alpha A A
    { upper := fl.upper, lower := fl.lower, transA := fl.transA, transB := !fl.transA } cbuf

end upd

end Armas
