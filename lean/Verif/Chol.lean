import Verif.Updtrm
import Verif.Trxm
import Mathlib.Analysis.Real.Sqrt

/-!
# Model of `src/lapack/chol.c`

Exact real arithmetic; a division by zero has Lean's value `x/0 = 0` (the theorems exclude it or do not
look at the values).  The 2x2/3x3 partition walks (`src/include/partition.h`, modelled in `Verif.Views`)
appear as loops over the position `k` of the diagonal block and explicit sub-matrices of `A`; the loop
condition `ABR.rows > 0 && ABR.cols > 0` is `k < min(A.rows, A.cols)`.  Return values of the subroutines
are ignored as in the code.  Not modelled: `conf->error`, the pivoting variant
(`src/lapack/cholpv.c`, chosen by `P != ARMAS_NOPIVOT`), a null `A`.
-/

namespace Armas

open Classical

/-- One pass of the loop in `unblk_cholfactor_lower` (`src/lapack/chol.c:57-75`). -/
noncomputable def unblkCholLowerStep (env : Env) (fuel : Nat) (A : View) (k : Nat) (st : Int × Mem ℝ) :
    Res (Int × Mem ℝ) := do
  let (err, m) := st
  let x ← rd m (A.at' k k)
  if 0 ≤ x then do
    let m ← wr m (A.at' k k) (Real.sqrt x)
    let (_, m) ← scale m (A.sub (k + 1) k (A.rows - k - 1) 1) (1 / Real.sqrt x)
    let (_, m) ← mvupdateSym env fuel m 1 (A.sub (k + 1) (k + 1) (A.rows - k - 1) (A.cols - k - 1)) (-1)
      (A.sub (k + 1) k (A.rows - k - 1) 1) { lower := true }
    pure (err, m)
  else pure (if err = 0 then -1 else err, m)

/-- `unblk_cholfactor_lower` (`src/lapack/chol.c:36-82`). -/
noncomputable def unblkCholLower (env : Env) (fuel : Nat) (m : Mem ℝ) (A : View) : Res (Int × Mem ℝ) := do
  let (_, st) ← forUp 0 (min A.rows A.cols) 1 (unblkCholLowerStep env fuel A) (0, m)
  pure st

/-- One pass of the loop in `unblk_cholfactor_upper` (`src/lapack/chol.c:153-171`). -/
noncomputable def unblkCholUpperStep (env : Env) (fuel : Nat) (A : View) (k : Nat) (st : Int × Mem ℝ) :
    Res (Int × Mem ℝ) := do
  let (err, m) := st
  let x ← rd m (A.at' k k)
  if 0 < x then do
    let m ← wr m (A.at' k k) (Real.sqrt x)
    let (_, m) ← scale m (A.sub k (k + 1) 1 (A.cols - k - 1)) (1 / Real.sqrt x)
    let (_, m) ← mvupdateSym env fuel m 1 (A.sub (k + 1) (k + 1) (A.rows - k - 1) (A.cols - k - 1)) (-1)
      (A.sub k (k + 1) 1 (A.cols - k - 1)) { upper := true }
    pure (err, m)
  else pure (if err = 0 then -1 else err, m)

/-- `unblk_cholfactor_upper` (`src/lapack/chol.c:132-178`). -/
noncomputable def unblkCholUpper (env : Env) (fuel : Nat) (m : Mem ℝ) (A : View) : Res (Int × Mem ℝ) := do
  let (_, st) ← forUp 0 (min A.rows A.cols) 1 (unblkCholUpperStep env fuel A) (0, m)
  pure st

/-- One pass of the loop in `blk_cholfactor_lower` (`src/lapack/chol.c:102-117`). -/
noncomputable def blkCholLowerStep (ab : ℝ → ℝ) (env : Env) (fuel : Nat) (A : View) (lb : Nat)
    (cbuf : Option Cache) (k : Nat) (st : Int × Mem ℝ) : Res (Int × Mem ℝ) := do
  let (err, m) := st
  let (e, m) ← unblkCholLower env fuel m (A.sub k k lb lb)
  let err := if e ≠ 0 then (if err = 0 then -1 else err) else err
  let (_, m) ← solveTrm ab env fuel m (A.sub (k + lb) k (A.rows - k - lb) lb) 1 (A.sub k k lb lb)
    { right := true, lower := true, transA := true } cbuf
  let (_, m) ← updateSym ab env fuel m 1 (A.sub (k + lb) (k + lb) (A.rows - k - lb) (A.cols - k - lb)) (-1)
    (A.sub (k + lb) k (A.rows - k - lb) lb) { lower := true } cbuf
  pure (err, m)

/-- `blk_cholfactor_lower` (`src/lapack/chol.c:85-128`). -/
noncomputable def blkCholLower (ab : ℝ → ℝ) (env : Env) (fuel : Nat) (m : Mem ℝ) (A : View) (lb : Nat)
    (cbuf : Option Cache) : Res (Int × Mem ℝ) := do
  let (k, st) ← forUp 0 (min A.rows A.cols - lb) lb (blkCholLowerStep ab env fuel A lb cbuf) (0, m)
  let (err, m) := st
  if 0 < A.rows - k then do
    let (e, m) ← unblkCholLower env fuel m (A.sub k k (A.rows - k) (A.cols - k))
    pure (if e ≠ 0 then (if err = 0 then -1 else err) else err, m)
  else pure (err, m)

/-- One pass of the loop in `blk_cholfactor_upper` (`src/lapack/chol.c:197-211`). -/
noncomputable def blkCholUpperStep (ab : ℝ → ℝ) (env : Env) (fuel : Nat) (A : View) (lb : Nat)
    (cbuf : Option Cache) (k : Nat) (st : Int × Mem ℝ) : Res (Int × Mem ℝ) := do
  let (err, m) := st
  let (e, m) ← unblkCholUpper env fuel m (A.sub k k lb lb)
  let err := if e ≠ 0 then (if err = 0 then -1 else err) else err
  let (_, m) ← solveTrm ab env fuel m (A.sub k (k + lb) lb (A.cols - k - lb)) 1 (A.sub k k lb lb)
    { left := true, upper := true, transA := true } cbuf
  let (_, m) ← updateSym ab env fuel m 1 (A.sub (k + lb) (k + lb) (A.rows - k - lb) (A.cols - k - lb)) (-1)
    (A.sub k (k + lb) lb (A.cols - k - lb)) { upper := true, transA := true } cbuf
  pure (err, m)

/-- `blk_cholfactor_upper` (`src/lapack/chol.c:181-221`). -/
noncomputable def blkCholUpper (ab : ℝ → ℝ) (env : Env) (fuel : Nat) (m : Mem ℝ) (A : View) (lb : Nat)
    (cbuf : Option Cache) : Res (Int × Mem ℝ) := do
  let (k, st) ← forUp 0 (min A.rows A.cols - lb) lb (blkCholUpperStep ab env fuel A lb cbuf) (0, m)
  let (err, m) := st
  if 0 < A.rows - k then do
    let (e, m) ← unblkCholUpper env fuel m (A.sub k k (A.rows - k) (A.cols - k))
    pure (if e ≠ 0 then (if err = 0 then -1 else err) else err, m)
  else pure (err, m)

/-- `armas_cholfactor_w` with `P == ARMAS_NOPIVOT` (`src/lapack/chol.c:343-399`); `lb` is `env->lb`. -/
noncomputable def cholfactor (ab : ℝ → ℝ) (env : Env) (lb : Nat) (fuel : Nat) (m : Mem ℝ) (A : View)
    (fl : Flags) (cbuf : Option Cache) : Res (Int × Mem ℝ) :=
  if A.rows ≠ A.cols then .ok (-ESIZE, m)
  else if lb = 0 ∨ A.cols ≤ lb then
    if fl.lower then unblkCholLower env fuel m A else unblkCholUpper env fuel m A
  else if fl.lower then blkCholLower ab env fuel m A lb cbuf else blkCholUpper ab env fuel m A lb cbuf

/-- `armas_cholsolve` with `P == ARMAS_NOPIVOT` (`src/lapack/chol.c:425-460`). -/
noncomputable def cholsolve (ab : ℝ → ℝ) (env : Env) (fuel : Nat) (m : Mem ℝ) (B A : View) (fl : Flags)
    (cbuf : Option Cache) : Res (Int × Mem ℝ) :=
  if ¬ (B.rows = A.cols ∧ A.rows = A.cols) then .ok (-1, m)
  else if fl.lower then do
    let (_, m) ← solveTrm ab env fuel m B 1 A { left := true, lower := true } cbuf
    let (_, m) ← solveTrm ab env fuel m B 1 A { left := true, lower := true, transA := true } cbuf
    pure (0, m)
  else do
    let (_, m) ← solveTrm ab env fuel m B 1 A { left := true, upper := true, transA := true } cbuf
    let (_, m) ← solveTrm ab env fuel m B 1 A { left := true, upper := true } cbuf
    pure (0, m)

end Armas
