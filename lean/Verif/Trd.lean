import Verif.Hess

/-!
# Model of the unblocked lower part of `src/lapack/trired.c`

Exact arithmetic.  `tauq` is a column vector, either empty or with at least as many elements as `A` has columns (with fewer, but some, the code takes
empty parts of it, reads zero from them, and in `src/lapack/house.c:165` stores behind its end).  The return values of the BLAS calls are not looked at, as in the code.  Not modelled:
`conf->error`, null arguments, the workspace query, the allocating wrapper, the blocked algorithm and the upper triangle.
-/

namespace Armas

variable {α : Type}

/-- `armas_get(V, 0, 0)` (`src/include/matrix.h:434-444`): zero for an empty matrix. -/
def getOr0 [Zero α] (m : Mem α) (V : View) : Res α := if V.size = 0 then .ok 0 else rd m (V.at' 0 0)

/-- `armas_set(V, 0, 0, x)` (`src/include/matrix.h:456-466`): no effect on an empty matrix. -/
def setIf (m : Mem α) (V : View) (x : α) : Res (Mem α) := if V.size = 0 then .ok m else wr m (V.at' 0 0) x

/-- One pass of the loop in `unblk_trdreduce_lower` (`src/lapack/trired.c:94-131`); `W` is the address of the work space. -/
noncomputable def trdStep (safmin : ℝ) (nonneg : Bool) (ab : ℝ → ℝ) (env : Env) (fuel : Nat) (A tau : View) (W k : Nat) (m : Mem ℝ) :
    Res (Mem ℝ) := do
  let a21 := A.sub (k + 1) k (A.rows - k - 1) 1
  let A22 := A.sub (k + 1) (k + 1) (A.rows - k - 1) (A.cols - k - 1)
  let y21 : View := ⟨W, A22.rows, A22.rows, 1⟩
  let m ← houseVec safmin m a21 (tau.at' k 0) nonneg
  let tauval ← rd m (tau.at' k 0)
  let v0 ← getOr0 m a21
  let m ← setIf m a21 1
  let (_, m) ← mvmultSym ab env fuel m 0 y21 tauval A22 a21 { lower := true }
  let d ← dot fuel m env.blas1min env.naive a21 y21
  let (_, m) ← axpy m y21 (-(1 / 2) * (tauval * d)) a21
  let (_, m) ← mvupdate2Sym env fuel m 1 A22 (-1) a21 y21 { lower := true }
  setIf m a21 v0

/-- `unblk_trdreduce_lower` (`src/lapack/trired.c:73-134`). -/
noncomputable def unblkTrdLower (safmin : ℝ) (nonneg : Bool) (ab : ℝ → ℝ) (env : Env) (fuel : Nat) (m : Mem ℝ) (A tau : View) (W : Nat) :
    Res (Mem ℝ) :=
  if tau.size = 0 then .ok m
  else do
    let (_, m) ← forUp 0 (min A.rows A.cols) 1 (trdStep safmin nonneg ab env fuel A tau W) m
    pure m

/-- `armas_trdreduce_w` (`src/lapack/trired.c:631-705`) without `ARMAS_UPPER`, with a work space of `ws` elements at `w`, for a block size that
selects the unblocked algorithm (`env->lb` is 0 or not less than the order).  The test of `tauq` is the one of the code. -/
noncomputable def trdreduceW (safmin : ℝ) (nonneg : Bool) (ab : ℝ → ℝ) (env : Env) (fuel : Nat) (m : Mem ℝ) (A tau : View) (w ws : Nat) :
    Res (Int × Mem ℝ) :=
  if A.rows ≠ A.cols then .ok (-ESIZE, m)
  else if ¬ tau.isVec ∧ tau.size ≠ A.cols then .ok (-EINVAL, m)
  else if ws < A.cols then .ok (-EWORK, m)
  else do
    let m ← unblkTrdLower safmin nonneg ab env fuel m A tau w
    pure (0, m)

end Armas
