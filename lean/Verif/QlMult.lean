import Verif.QrMult

/-!
# Model of the unblocked part of `src/lapack/qlmult.c`

Exact arithmetic.  `tau` is a column vector.  Not modelled: `conf->error`, null arguments, the workspace query, the allocating wrapper and the blocked
algorithm.
-/

namespace Armas

variable {α : Type} [Field α] [DecidableEq α]

/-- One pass of the loop in `unblk_qlmult_left` (`src/lapack/qlmult.c:81-103`): the reflector in column `k` above row `r` of `A`, scalar in element `s` of `tau`,
is applied to rows `0 .. r` of `C`; `W` is the address of the work space. -/
def unblkQlmultLeftStep (ab : α → α) (env : Env) (fuel : Nat) (C A tau : View) (W r k s : Nat) (m : Mem α) : Res (Mem α) :=
  applyHH2x1 ab env fuel m (some (tau.at' s 0)) (A.sub 0 k r 1) (C.sub r 0 1 C.cols) (C.sub 0 0 r C.cols) ⟨W, C.cols, C.cols, 1⟩ true

/-- `unblk_qlmult_left` (`src/lapack/qlmult.c:38-103`): from the bottom right corner with `ARMAS_TRANS`, else towards it; the parts that are skipped first are
the sizes `mb`, `nb`, `tb` of the code. -/
def unblkQlmultLeft (ab : α → α) (env : Env) (fuel : Nat) (m : Mem α) (C A tau : View) (W : Nat) (trans : Bool) : Res (Mem α) := do
  let (_, m) ← forUp 0 (min A.rows A.cols) 1 (fun d =>
    if trans then unblkQlmultLeftStep ab env fuel C A tau W (A.rows - 1 - d) (A.cols - 1 - d) (tau.rows - 1 - d)
    else unblkQlmultLeftStep ab env fuel C A tau W (A.rows - A.cols + d) (A.cols - A.rows + d) (tau.rows - A.cols + d)) m
  pure m

/-- One pass of the loop in `unblk_qlmult_right` (`src/lapack/qlmult.c:231-252`): the same for columns `0 .. r` of `C`. -/
def unblkQlmultRightStep (ab : α → α) (env : Env) (fuel : Nat) (C A tau : View) (W r k s : Nat) (m : Mem α) : Res (Mem α) :=
  applyHH2x1 ab env fuel m (some (tau.at' s 0)) (A.sub 0 k r 1) (C.sub 0 r C.rows 1) (C.sub 0 0 C.rows r) ⟨W, C.rows, C.rows, 1⟩ false

/-- `unblk_qlmult_right` (`src/lapack/qlmult.c:183-254`), in the opposite order.  The code starts with column `cb` of `C` where `C` and `A` have the same number
of columns and rows; the model takes `mb`, which is the same for the shapes that are accepted with `A.cols ≤ A.rows`. -/
def unblkQlmultRight (ab : α → α) (env : Env) (fuel : Nat) (m : Mem α) (C A tau : View) (W : Nat) (trans : Bool) : Res (Mem α) := do
  let (_, m) ← forUp 0 (min A.rows A.cols) 1 (fun d =>
    if trans then unblkQlmultRightStep ab env fuel C A tau W (A.rows - A.cols + d) (A.cols - A.rows + d) (tau.rows - min A.rows A.cols + d)
    else unblkQlmultRightStep ab env fuel C A tau W (A.rows - 1 - d) (A.cols - 1 - d) (tau.rows - 1 - d)) m
  pure m

/-- `armas_qlmult_w` (`src/lapack/qlmult.c:417-502`) with a work space of `ws` elements at `w`; the block size is computed as in `armas_qrmult_w`
(`src/lapack/qlmult.c:454-473`).  The blocked algorithm is left out: `diverge`. -/
def qlmultW (ab : α → α) (env : Env) (elb fuel : Nat) (m : Mem α) (C A tau : View) (trans right : Bool) (w ws : Nat) : Res (Int × Mem α) :=
  let K := if right then C.rows else C.cols
  let P := if right then C.cols else C.rows
  if P ≠ A.rows ∨ tau.size ≠ A.cols then .ok (-ESIZE, m)
  else if ws < K then .ok (-EWORK, m)
  else do
    let lb ← qrmultBlock elb K ws
    let m ← (if lb = 0 ∨ K ≤ lb then
        (if right then unblkQlmultRight ab env fuel m C A tau w trans else unblkQlmultLeft ab env fuel m C A tau w trans)
      else .diverge)
    pure (0, m)

end Armas
