import Verif.Qr

/-!
# Model of the unblocked part of `src/lapack/hess.c`

Exact arithmetic.  `tau` is a column vector.  The return values of the BLAS calls are not looked at, as in the code.  Not modelled:
`conf->error`, null arguments, the workspace query, the allocating wrapper and the blocked algorithm.
-/

namespace Armas

/-- `armas_compute_householder_vec` (`src/lapack/house.c:298-317`). -/
noncomputable def houseVec (safmin : ℝ) (m : Mem ℝ) (x : View) (tau : Nat) (nonneg : Bool) : Res (Mem ℝ) :=
  if x.size = 0 then wr m tau 0
  else householder safmin m (x.at' 0 0) (if x.rows = 1 then x.sub 0 1 1 (x.size - 1) else x.sub 1 0 (x.size - 1) 1) tau false nonneg

/-- One pass of the loop in `unblk_hess_gqvdg` (`src/lapack/hess.c:99-139`); `W` is the address of the work space, `row` the row of the
first diagonal element. -/
noncomputable def hessStep (safmin : ℝ) (nonneg : Bool) (ab : ℝ → ℝ) (env : Env) (fuel : Nat) (A tau : View) (W row k : Nat) (m : Mem ℝ) :
    Res (Mem ℝ) := do
  let a21 := A.sub (row + k + 1) k (A.rows - (row + k) - 1) 1
  let A22 := A.sub (row + k + 1) (k + 1) (A.rows - (row + k) - 1) (A.cols - k - 1)
  let A2 := A.sub 0 (k + 1) A.rows (A.cols - k - 1)
  let v1 : View := ⟨W, A.rows, A.rows, 1⟩
  let w12 : View := ⟨W, A.rows, A22.cols, 1⟩
  let m ← houseVec safmin m a21 (tau.at' k 0) nonneg
  let tauval ← rd m (tau.at' k 0)
  let beta ← rd m (a21.at' 0 0)
  let m ← wr m (a21.at' 0 0) 1
  let (_, m) ← mvmult ab env fuel m 0 v1 1 A2 a21 {}
  let (_, m) ← mvupdate env fuel m 1 A2 (-tauval) v1 a21
  let (_, m) ← mvmult ab env fuel m 0 w12 1 A22 a21 { transA := true }
  let (_, m) ← mvupdate env fuel m 1 A22 (-tauval) a21 w12
  wr m (a21.at' 0 0) beta

/-- `unblk_hess_gqvdg` (`src/lapack/hess.c:75-142`). -/
noncomputable def unblkHess (safmin : ℝ) (nonneg : Bool) (ab : ℝ → ℝ) (env : Env) (fuel : Nat) (m : Mem ℝ) (A tau : View) (W row : Nat) :
    Res (Mem ℝ) := do
  let (_, m) ← forUp 0 (min (A.rows - row - 1) A.cols) 1 (hessStep safmin nonneg ab env fuel A tau W row) m
  pure m

/-- `armas_hessreduce_w` (`src/lapack/hess.c:488-556`) with a work space of `ws` elements at `w`, for a block size that selects the unblocked
algorithm (`env->lb` is 0 or not less than the order).  `A->rows - 1` is an `int`: a matrix without rows fails the test of `tau`. -/
noncomputable def hessreduceW (safmin : ℝ) (nonneg : Bool) (ab : ℝ → ℝ) (env : Env) (fuel : Nat) (m : Mem ℝ) (A tau : View) (w ws : Nat) :
    Res (Int × Mem ℝ) :=
  if A.rows ≠ A.cols then .ok (-ESIZE, m)
  else if ¬ tau.isVec ∨ tau.size + 1 ≠ A.rows then .ok (-EINVAL, m)
  else if ws < A.rows then .ok (-EWORK, m)
  else do
    let m ← unblkHess safmin nonneg ab env fuel m A tau w 0
    pure (0, m)

end Armas
