import Verif.Qr
import Verif.Blocks

/-!
# Model of `src/lapack/qrmult.c`

Exact arithmetic.  `tau` is a column vector.  Not modelled: `conf->error`, null arguments, the workspace query (`wb->bytes == 0`) and the
allocating wrapper `armas_qrmult`.
-/

namespace Armas

variable {α : Type} [CommRing α] [DecidableEq α]

/-- One pass of the loop in `unblk_qrmult_left` (`src/lapack/qrmult.c:93-113`) at column `k` of `A`; `l` is the position in `tau`. -/
def unblkQrmultLeftStep (ab : α → α) (env : Env) (fuel : Nat) (C A tau : View) (W k l : Nat) (m : Mem α) : Res (Mem α) :=
  applyHH2x1 ab env fuel m (some (tau.at' l 0)) (A.sub (k + 1) k (A.rows - k - 1) 1) (C.sub k 0 1 C.cols)
    (C.sub (k + 1) 0 (C.rows - k - 1) C.cols) ⟨W, C.cols, C.cols, 1⟩ true

/-- `unblk_qrmult_left` (`src/lapack/qrmult.c:49-116`).  From the bottom right corner, `tau` starts at its last element (`:77`), which is not
the one of column `min(rows, cols) - 1` if `A` has more columns than rows. -/
def unblkQrmultLeft (ab : α → α) (env : Env) (fuel : Nat) (m : Mem α) (C A tau : View) (W : Nat) (trans : Bool) : Res (Mem α) :=
  let n := min A.rows A.cols
  if trans then do
    let (_, m) ← forUp 0 n 1 (fun k => unblkQrmultLeftStep ab env fuel C A tau W k k) m
    pure m
  else forDown n (fun k => unblkQrmultLeftStep ab env fuel C A tau W k (k + (A.cols - n))) m

/-- One pass of the loop in `unblk_qrmult_right` (`src/lapack/qrmult.c:258-279`) at column `k` of `A`. -/
def unblkQrmultRightStep (ab : α → α) (env : Env) (fuel : Nat) (C A tau : View) (W k : Nat) (m : Mem α) : Res (Mem α) :=
  applyHH2x1 ab env fuel m (some (tau.at' k 0)) (A.sub (k + 1) k (A.rows - k - 1) 1) (C.sub 0 k C.rows 1)
    (C.sub 0 (k + 1) C.rows (C.cols - k - 1)) ⟨W, C.rows, C.rows, 1⟩ false

/-- `unblk_qrmult_right` (`src/lapack/qrmult.c:209-281`), `cols(C) = rows(A)`. -/
def unblkQrmultRight (ab : α → α) (env : Env) (fuel : Nat) (m : Mem α) (C A tau : View) (W : Nat) (trans : Bool) : Res (Mem α) :=
  let n := min A.rows A.cols
  if trans then forDown n (fun k => unblkQrmultRightStep ab env fuel C A tau W k) m
  else do
    let (_, m) ← forUp 0 n 1 (fun k => unblkQrmultRightStep ab env fuel C A tau W k) m
    pure m

/-- One pass of the loop in `blk_qrmult_left` (`src/lapack/qrmult.c:161-190`) for the block of `nb` columns at `k`; `w` is the address of `T`,
`W` that of the work space. -/
def blkQrmultLeftStep (ab : α → α) (env : Env) (fuel : Nat) (C A tau : View) (w W : Nat) (trans : Bool) (cbuf : Option Cache) (k nb : Nat)
    (m : Mem α) : Res (Mem α) := do
  let T : View := ⟨w, nb, nb, nb⟩
  let (_, m) ← mscale m T 0 .all false
  let m ← qrReflector ab env fuel m T (A.sub k k (A.rows - k) nb) (tau.sub k 0 nb 1)
  updateQrLeft ab env fuel m (C.sub k 0 nb C.cols) (C.sub (k + nb) 0 (C.rows - k - nb) C.cols) (A.sub k k nb nb)
    (A.sub (k + nb) k (A.rows - k - nb) nb) T ⟨W, C.cols, C.cols, nb⟩ trans cbuf

/-- `blk_qrmult_left` (`src/lapack/qrmult.c:118-192`): blocks of `lb` columns, the last one found may be smaller; from the bottom right corner
the pass after `d` columns takes the block that ends at `min(rows, cols) - d`. -/
def blkQrmultLeft (ab : α → α) (env : Env) (fuel : Nat) (m : Mem α) (C A tau : View) (w W : Nat) (trans : Bool) (lb : Nat)
    (cbuf : Option Cache) : Res (Mem α) := do
  let n := min A.rows A.cols
  let (_, m) ← (if trans then forUp 0 n lb (fun k => blkQrmultLeftStep ab env fuel C A tau w W trans cbuf k (min lb (n - k))) m
    else forUp 0 n lb (fun d => blkQrmultLeftStep ab env fuel C A tau w W trans cbuf (n - d - min lb (n - d)) (min lb (n - d))) m)
  pure m

/-- One pass of the loop in `blk_qrmult_right` (`src/lapack/qrmult.c:345-374`). -/
def blkQrmultRightStep (ab : α → α) (env : Env) (fuel : Nat) (C A tau : View) (w W : Nat) (trans : Bool) (cbuf : Option Cache) (k nb : Nat)
    (m : Mem α) : Res (Mem α) := do
  let T : View := ⟨w, nb, nb, nb⟩
  let (_, m) ← mscale m T 0 .all false
  let m ← qrReflector ab env fuel m T (A.sub k k (A.rows - k) nb) (tau.sub k 0 nb 1)
  updateQrRight ab env fuel m (C.sub 0 k C.rows nb) (C.sub 0 (k + nb) C.rows (C.cols - k - nb)) (A.sub k k nb nb)
    (A.sub (k + nb) k (A.rows - k - nb) nb) T ⟨W, C.rows, C.rows, nb⟩ trans cbuf

/-- `blk_qrmult_right` (`src/lapack/qrmult.c:290-376`). -/
def blkQrmultRight (ab : α → α) (env : Env) (fuel : Nat) (m : Mem α) (C A tau : View) (w W : Nat) (trans : Bool) (lb : Nat)
    (cbuf : Option Cache) : Res (Mem α) := do
  let n := min A.rows A.cols
  let (_, m) ← (if trans then
      forUp 0 n lb (fun d => blkQrmultRightStep ab env fuel C A tau w W trans cbuf (n - d - min lb (n - d)) (min lb (n - d))) m
    else forUp 0 n lb (fun k => blkQrmultRightStep ab env fuel C A tau w W trans cbuf k (min lb (n - k))) m)
  pure m

/-- Block size of `armas_qrmult_w` (`src/lapack/qrmult.c:495-511`).  `K` and `lb` are `int`, the products may overflow.  The square root is
taken exactly and rounded down; the code takes it in floating point. -/
def qrmultBlock (elb K ws : Nat) : Res Nat :=
  if 0 < elb ∧ elb < K then
    if INT_MAX < (K + elb) * elb then .ub
    else if ws < (K + elb) * elb then
      if INT_MAX < K * K then .ub
      else
        let lb := (Nat.sqrt (K * K + 4 * ws) - K) / 2 / 4 * 4
        .ok (if lb < 32 then 0 else lb)
    else .ok elb
  else .ok elb

/-- `armas_qrmult_w` (`src/lapack/qrmult.c:454-543`) with a work space of `ws` elements at `w`; `elb` is the configured block size. -/
def qrmultW (ab : α → α) (env : Env) (elb fuel : Nat) (m : Mem α) (C A tau : View) (trans right : Bool) (w ws : Nat) (cbuf : Option Cache) :
    Res (Int × Mem α) :=
  let K := if right then C.rows else C.cols
  let P := if right then C.cols else C.rows
  if P ≠ A.rows ∨ tau.size ≠ A.cols then .ok (-ESIZE, m)
  else if ws < K then .ok (-EWORK, m)
  else do
    let lb ← qrmultBlock elb K ws
    let m ← (if lb = 0 ∨ K ≤ lb then
        (if right then unblkQrmultRight ab env fuel m C A tau w trans else unblkQrmultLeft ab env fuel m C A tau w trans)
      else
        (if right then blkQrmultRight ab env fuel m C A tau w (w + lb * lb) trans lb cbuf
        else blkQrmultLeft ab env fuel m C A tau w (w + lb * lb) trans lb cbuf))
    pure (0, m)

end Armas
