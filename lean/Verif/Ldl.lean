import Verif.Updtrm
import Verif.Trxm
import Verif.MatOps
import Mathlib.Analysis.Real.Sqrt
import Mathlib.Algebra.Order.Floor.Semiring
import Mathlib.Data.Real.Archimedean

/-!
# Model of `src/lapack/ldl.c`

Exact arithmetic in a field (division by zero has Lean's value 0, the theorems exclude it).  The partition
walks (`src/include/partition.h`, modelled in `Verif.Views`) appear as loops over the number `k` of finished
rows and explicit sub-matrices of `A`.  Return values of the subroutines are ignored as in the code.  Not
modelled: `conf->error`, null arguments.
-/

namespace Armas

variable {α : Type} [Field α] [DecidableEq α]

/-- `armas_diag(&D, &A, 0)` (`src/include/matrix.h:390-408`): the diagonal as a row view. -/
def diagRow (A : View) : View := ⟨A.base, A.step + 1, 1, min A.rows A.cols⟩

/-- One pass of the loop in `unblk_ldlnp_lower` (`src/lapack/ldl.c:58-75`). -/
def unblkLdlLowerStep (env : Env) (fuel : Nat) (A : View) (k : Nat) (m : Mem α) : Res (Mem α) := do
  let x ← rd m (A.at' k k)
  let (_, m) ← mvupdateTrm env fuel m 1 (A.sub (k + 1) (k + 1) (A.rows - k - 1) (A.cols - k - 1)) (-(1 / x))
    (A.sub (k + 1) k (A.rows - k - 1) 1) (A.sub (k + 1) k (A.rows - k - 1) 1) { lower := true }
  let (_, m) ← scale m (A.sub (k + 1) k (A.rows - k - 1) 1) (1 / x)
  pure m

/-- `unblk_ldlnp_lower` (`src/lapack/ldl.c:43-77`). -/
def unblkLdlLower (env : Env) (fuel : Nat) (m : Mem α) (A : View) : Res (Int × Mem α) := do
  let (_, m) ← forUp 0 (min A.rows A.cols) 1 (unblkLdlLowerStep env fuel A) m
  pure (0, m)

/-- One pass of the loop in `unblk_ldlnp_upper` (`src/lapack/ldl.c:102-119`); `p` is the number of rows of
`A00`. -/
def unblkLdlUpperStep (env : Env) (fuel : Nat) (A : View) (p : Nat) (m : Mem α) : Res (Mem α) := do
  let x ← rd m (A.at' p p)
  let (_, m) ← mvupdateTrm env fuel m 1 (A.sub 0 0 p p) (-(1 / x)) (A.sub 0 p p 1) (A.sub 0 p p 1)
    { upper := true }
  let (_, m) ← scale m (A.sub 0 p p 1) (1 / x)
  pure m

/-- `unblk_ldlnp_upper` (`src/lapack/ldl.c:88-121`) of a square matrix. -/
def unblkLdlUpper (env : Env) (fuel : Nat) (m : Mem α) (A : View) : Res (Int × Mem α) := do
  let (_, m) ← forUp 0 A.rows 1 (fun k m => unblkLdlUpperStep env fuel A (A.rows - 1 - k) m) m
  pure (0, m)

/-- One pass of the loop in `blk_ldlnp_lower` (`src/lapack/ldl.c:147-177`); `w` is the address of the work
space, `nb` the block size clamped by `mat_repartition_2x2to3x3`. -/
def blkLdlLowerStep (ab : α → α) (env : Env) (fuel : Nat) (A : View) (w lb : Nat) (cbuf : Option Cache)
    (k : Nat) (m : Mem α) : Res (Mem α) := do
  let nb := min lb (A.rows - k)
  let A11 := A.sub k k nb nb
  let A21 := A.sub (k + nb) k (A.rows - k - nb) nb
  let A22 := A.sub (k + nb) (k + nb) (A.rows - k - nb) (A.cols - k - nb)
  let (_, m) ← unblkLdlLower env fuel m A11
  let (_, m) ← solveTrm ab env fuel m A21 1 A11 { right := true, lower := true, unit := true, transA := true } cbuf
  let (_, m) ← solveDiag m A21 1 (diagRow A11) true
  let L21 : View := ⟨w, A21.rows, A21.rows, A21.cols⟩
  let (_, m) ← mcopy m L21 A21 false
  let (_, m) ← multDiag m L21 1 (diagRow A11) true
  let (_, m) ← updateTrm ab env fuel m 1 A22 (-1) L21 A21 { lower := true, transB := true } cbuf
  pure m

/-- `blk_ldlnp_lower` (`src/lapack/ldl.c:134-180`) of a square matrix. -/
def blkLdlLower (ab : α → α) (env : Env) (fuel : Nat) (m : Mem α) (A : View) (w lb : Nat)
    (cbuf : Option Cache) : Res (Int × Mem α) := do
  let (_, m) ← forUp 0 A.rows lb (blkLdlLowerStep ab env fuel A w lb cbuf) m
  pure (0, m)

/-- One pass of the loop in `blk_ldlnp_upper` (`src/lapack/ldl.c:194-223`); `p` is the number of rows of
`A00`. -/
def blkLdlUpperStep (ab : α → α) (env : Env) (fuel : Nat) (A : View) (w lb : Nat) (cbuf : Option Cache)
    (p : Nat) (m : Mem α) : Res (Mem α) := do
  let A11 := A.sub p p lb lb
  let A01 := A.sub 0 p p lb
  let A00 := A.sub 0 0 p p
  let (_, m) ← unblkLdlUpper env fuel m A11
  let (_, m) ← solveTrm ab env fuel m A01 1 A11 { right := true, upper := true, unit := true, transA := true } cbuf
  let (_, m) ← solveDiag m A01 1 (diagRow A11) true
  let L01 : View := ⟨w, A01.rows, A01.rows, A01.cols⟩
  let (_, m) ← mcopy m L01 A01 false
  let (_, m) ← multDiag m L01 1 (diagRow A11) true
  let (_, m) ← updateTrm ab env fuel m 1 A00 (-1) L01 A01 { upper := true, transB := true } cbuf
  pure m

/-- `blk_ldlnp_upper` (`src/lapack/ldl.c:183-229`) of a square matrix. -/
def blkLdlUpper (ab : α → α) (env : Env) (fuel : Nat) (m : Mem α) (A : View) (w lb : Nat)
    (cbuf : Option Cache) : Res (Int × Mem α) := do
  let (k, m) ← forUp 0 (A.rows - lb) lb
    (fun k m => blkLdlUpperStep ab env fuel A w lb cbuf (A.rows - k - lb) m) m
  if 0 < A.rows - k then do
    let (_, m) ← unblkLdlUpper env fuel m (A.sub 0 0 (A.rows - k) (A.rows - k))
    pure (0, m)
  else pure (0, m)

/-- `new_lb` (`src/lapack/ldl.h:36-51`) with the exact square root (the code computes in `double`) and for
`4*ws <= rows*rows`, which its callers guarantee. -/
noncomputable def newLb (rows lb ws : Nat) : Nat :=
  if 0 < lb ∧ lb * (rows - lb) < ws then lb
  else
    let l := ⌊((rows : ℝ) - Real.sqrt ((rows : ℝ) * rows - 4 * ws)) / 2⌋₊
    l - l % 4

/-- The block size used by `ldlfactor_np` (`src/lapack/ldl.c:261-268`): `env->lb`, made smaller if the work
space of `ws` elements is too small.  `ws_calculate` (`src/lapack/ldl.h:30-34`) is negative if `rows < lb`,
which the truncated subtraction here turns into 0; both mean that `lb` is kept. -/
noncomputable def ldlLb (rows lb ws : Nat) : Nat :=
  if 0 < ws ∧ ws < (rows - lb) * lb then newLb rows lb ws else lb

/-- `ldlfactor_np` (`src/lapack/ldl.c:249-286`), called by `armas_ldlfactor_w` with `P == ARMAS_NOPIVOT`
(`src/lapack/ldlpv.c:570-574`); `W` is a column vector of `ws` elements at address `w`, `lb` is `env->lb`. -/
noncomputable def ldlfactor (ab : α → α) (env : Env) (lb fuel : Nat) (m : Mem α) (A : View) (w ws : Nat)
    (fl : Flags) (cbuf : Option Cache) : Res (Int × Mem α) :=
  if A.rows ≠ A.cols then .ok (-ESIZE, m)
  else
    let lb := ldlLb A.rows lb ws
    if lb = 0 ∨ ws = 0 ∨ A.rows ≤ lb then
      if fl.upper then unblkLdlUpper env fuel m A else unblkLdlLower env fuel m A
    else if fl.upper then blkLdlUpper ab env fuel m A w lb cbuf else blkLdlLower ab env fuel m A w lb cbuf

/-- `ldlsolve_np` (`src/lapack/ldl.c:304-333`). -/
def ldlsolve (ab : α → α) (env : Env) (fuel : Nat) (m : Mem α) (B A : View) (fl : Flags)
    (cbuf : Option Cache) : Res (Int × Mem α) :=
  if B.size = 0 ∨ A.size = 0 then .ok (0, m)
  else if A.rows ≠ A.cols ∨ A.cols ≠ B.rows then .ok (-ESIZE, m)
  else if fl.transA then do
    let (_, m) ← solveTrm ab env fuel m B 1 A { fl with unit := true, transA := true, left := true } cbuf
    let (_, m) ← solveDiag m B 1 A false
    let (_, m) ← solveTrm ab env fuel m B 1 A { fl with unit := true, left := true } cbuf
    pure (0, m)
  else do
    let (_, m) ← solveTrm ab env fuel m B 1 A { fl with unit := true, left := true } cbuf
    let (_, m) ← solveDiag m B 1 A false
    let (_, m) ← solveTrm ab env fuel m B 1 A { fl with unit := true, transA := true } cbuf
    pure (0, m)

end Armas
