import Verif.Qr

/-!
# Model of `src/lapack/qrt.c`

Exact arithmetic.  The return values of the BLAS calls are not looked at, as in the code.  Not modelled: `conf->error`, null arguments,
the workspace query (`wb->bytes == 0`) and the allocating wrapper `armas_qrtfactor`.
-/

namespace Armas

section ring

variable {α : Type} [CommRing α] [DecidableEq α]

/-- The part of the loop in `unblk_qrtfactor` that computes column `k` of `T` (`src/lapack/qrt.c:67-75`): `a12` and `A22` are the blocks to the
right of column `k`. -/
def qrtCol (ab : α → α) (env : Env) (fuel : Nat) (A T : View) (k : Nat) (m : Mem α) : Res (Mem α) := do
  let t ← rd m (T.at' k k)
  if t = 0 then pure m
  else do
    let t01 := T.sub 0 k k 1
    let (_, m) ← axpby m 0 t01 1 (A.sub k (k + 1) 1 (A.cols - k - 1))
    let (_, m) ← mvmult ab env fuel m (-t) t01 (-t) (A.sub (k + 1) (k + 1) (A.rows - k - 1) (A.cols - k - 1))
      (A.sub (k + 1) k (A.rows - k - 1) 1) { transA := true }
    let (_, m) ← mvmultTrm ab env fuel m t01 1 (T.sub 0 0 k k) { upper := true }
    pure m

end ring

/-- One pass of the loop in `unblk_qrtfactor` (`src/lapack/qrt.c:50-84`).  `armas_compute_householder` and `armas_apply_householder2x1` are called
as in `armas_unblk_qrfactor` with element `(k, k)` of `T` for `tau`; `W` is the address of the work space, whose first column is used. -/
noncomputable def unblkQrtStep (safmin : ℝ) (nonneg : Bool) (ab : ℝ → ℝ) (env : Env) (fuel : Nat) (A T : View) (W k : Nat) (m : Mem ℝ) :
    Res (Mem ℝ) := do
  let m ← unblkQrStep safmin nonneg ab env fuel A (T.sub 0 k (k + 1) 1) W k m
  qrtCol ab env fuel A T k m

/-- `unblk_qrtfactor` (`src/lapack/qrt.c:34-86`). -/
noncomputable def unblkQrt (safmin : ℝ) (nonneg : Bool) (ab : ℝ → ℝ) (env : Env) (fuel : Nat) (m : Mem ℝ) (A T : View) (W : Nat) :
    Res (Mem ℝ) := do
  let (_, m) ← forUp 0 (min A.rows A.cols) 1 (unblkQrtStep safmin nonneg ab env fuel A T W) m
  pure m

/-- One pass of the loop in `blk_qrtfactor` (`src/lapack/qrt.c:112-136`), `k` the position of `A11`, `W` the address of the work space. -/
noncomputable def blkQrtStep (safmin : ℝ) (nonneg : Bool) (ab : ℝ → ℝ) (env : Env) (fuel : Nat) (A T : View) (W lb : Nat)
    (cbuf : Option Cache) (k : Nat) (m : Mem ℝ) : Res (Mem ℝ) := do
  let M := A.rows - k - lb
  let n := A.cols - k - lb
  let T01 := T.sub 0 k T.rows lb
  let m ← unblkQrt safmin nonneg ab env fuel m (A.sub k k (A.rows - k) lb) T01 W
  updateQrLeft ab env fuel m (A.sub k (k + lb) lb n) (A.sub (k + lb) (k + lb) M n) (A.sub k k lb lb) (A.sub (k + lb) k M lb) T01
    ⟨W, n, n, lb⟩ true cbuf

/-- `blk_qrtfactor` (`src/lapack/qrt.c:91-145`). -/
noncomputable def blkQrt (safmin : ℝ) (nonneg : Bool) (ab : ℝ → ℝ) (env : Env) (fuel : Nat) (m : Mem ℝ) (A T : View) (W lb : Nat)
    (cbuf : Option Cache) : Res (Mem ℝ) := do
  let (k, m) ← forUp 0 (min A.rows A.cols - lb) lb (blkQrtStep safmin nonneg ab env fuel A T W lb cbuf) m
  if 0 < A.rows - k ∧ 0 < A.cols - k then
    unblkQrt safmin nonneg ab env fuel m (A.sub k k (A.rows - k) (A.cols - k)) (T.sub 0 k (A.cols - k) (A.cols - k)) W
  else pure m

/-- `armas_qrtfactor_w` (`src/lapack/qrt.c:226-271`) with a work space of `ws` elements at `w`; the number of rows of `T` is the block size. -/
noncomputable def qrtfactorW (safmin : ℝ) (nonneg : Bool) (ab : ℝ → ℝ) (env : Env) (fuel : Nat) (m : Mem ℝ) (A T : View)
    (w ws : Nat) (cbuf : Option Cache) : Res (Int × Mem ℝ) :=
  if A.rows < A.cols ∨ T.cols < A.cols then .ok (-ESIZE, m)
  else if ws < (if T.rows = 0 ∨ A.cols < T.rows then A.cols else T.rows * (A.cols - T.rows)) then .ok (-EWORK, m)
  else do
    let m ← (if T.rows = 0 ∨ A.cols ≤ T.rows then unblkQrt safmin nonneg ab env fuel m A (T.sub 0 0 A.cols A.cols) w
      else blkQrt safmin nonneg ab env fuel m A T w T.rows cbuf)
    pure (0, m)

end Armas
