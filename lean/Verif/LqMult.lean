import Verif.Lq
import Verif.QrMult
import Verif.Blocks

/-!
# Model of `src/lapack/lqmult.c`

Exact arithmetic.  `tau` is a column vector.  Not modelled: `conf->error`, null arguments, the workspace query (`wb->bytes == 0`) and the
allocating wrapper `armas_lqmult`.
-/

namespace Armas

variable {α : Type} [CommRing α] [DecidableEq α]

/-- One pass of the loop in `unblk_lqmult_left` (`src/lapack/lqmult.c:87-108`) at row `k` of `A`; `l` is the position in `tau`. -/
def unblkLqmultLeftStep (ab : α → α) (env : Env) (fuel : Nat) (C A tau : View) (W k l : Nat) (m : Mem α) : Res (Mem α) :=
  applyHH2x1 ab env fuel m (some (tau.at' l 0)) (A.sub k (k + 1) 1 (A.cols - k - 1)) (C.sub k 0 1 C.cols)
    (C.sub (k + 1) 0 (C.rows - k - 1) C.cols) ⟨W, C.cols, C.cols, 1⟩ true

/-- `unblk_lqmult_left` (`src/lapack/lqmult.c:45-110`).  From the bottom right corner, `tau` starts at its last element (`:67`), which is not
the one of row `min(rows, cols) - 1` if `A` has more rows than columns. -/
def unblkLqmultLeft (ab : α → α) (env : Env) (fuel : Nat) (m : Mem α) (C A tau : View) (W : Nat) (trans : Bool) : Res (Mem α) :=
  let n := min A.cols A.rows
  if trans then forDown n (fun k => unblkLqmultLeftStep ab env fuel C A tau W k (k + (A.rows - n))) m
  else do
    let (_, m) ← forUp 0 n 1 (fun k => unblkLqmultLeftStep ab env fuel C A tau W k k) m
    pure m

/-- One pass of the loop in `unblk_lqmult_right` (`src/lapack/lqmult.c:252-273`) at row `k` of `A`. -/
def unblkLqmultRightStep (ab : α → α) (env : Env) (fuel : Nat) (C A tau : View) (W k : Nat) (m : Mem α) : Res (Mem α) :=
  applyHH2x1 ab env fuel m (some (tau.at' k 0)) (A.sub k (k + 1) 1 (A.cols - k - 1)) (C.sub 0 k C.rows 1)
    (C.sub 0 (k + 1) C.rows (C.cols - k - 1)) ⟨W, C.rows, C.rows, 1⟩ false

/-- `unblk_lqmult_right` (`src/lapack/lqmult.c:203-275`), `cols(C) = cols(A)`. -/
def unblkLqmultRight (ab : α → α) (env : Env) (fuel : Nat) (m : Mem α) (C A tau : View) (W : Nat) (trans : Bool) : Res (Mem α) :=
  let n := min A.cols A.rows
  if trans then do
    let (_, m) ← forUp 0 n 1 (fun k => unblkLqmultRightStep ab env fuel C A tau W k) m
    pure m
  else forDown n (fun k => unblkLqmultRightStep ab env fuel C A tau W k) m

/-- One pass of the loop in `blk_lqmult_left` (`src/lapack/lqmult.c:155-184`) for the block of `nb` rows at `k`; `w` is the address of `T`,
`W` that of the work space. -/
def blkLqmultLeftStep (ab : α → α) (env : Env) (fuel : Nat) (C A tau : View) (w W : Nat) (trans : Bool) (cbuf : Option Cache) (k nb : Nat)
    (m : Mem α) : Res (Mem α) := do
  let T : View := ⟨w, nb, nb, nb⟩
  let (_, m) ← mscale m T 0 .all false
  let m ← lqReflector ab env fuel m T (A.sub k k nb (A.cols - k)) (tau.sub k 0 nb 1)
  updateLqLeft ab env fuel m (C.sub k 0 nb C.cols) (C.sub (k + nb) 0 (C.rows - k - nb) C.cols) (A.sub k k nb nb)
    (A.sub k (k + nb) nb (A.cols - k - nb)) T ⟨W, C.cols, C.cols, nb⟩ (!trans) cbuf

/-- `blk_lqmult_left` (`src/lapack/lqmult.c:112-186`): blocks of `lb` rows, the last one found may be smaller; from the bottom right corner
the pass after `d` rows takes the block that ends at `min(rows, cols) - d`. -/
def blkLqmultLeft (ab : α → α) (env : Env) (fuel : Nat) (m : Mem α) (C A tau : View) (w W : Nat) (trans : Bool) (lb : Nat)
    (cbuf : Option Cache) : Res (Mem α) := do
  let n := min A.cols A.rows
  let (_, m) ← (if trans then
      forUp 0 n lb (fun d => blkLqmultLeftStep ab env fuel C A tau w W trans cbuf (n - d - min lb (n - d)) (min lb (n - d))) m
    else forUp 0 n lb (fun k => blkLqmultLeftStep ab env fuel C A tau w W trans cbuf k (min lb (n - k))) m)
  pure m

/-- One pass of the loop in `blk_lqmult_right` (`src/lapack/lqmult.c:337-366`). -/
def blkLqmultRightStep (ab : α → α) (env : Env) (fuel : Nat) (C A tau : View) (w W : Nat) (trans : Bool) (cbuf : Option Cache) (k nb : Nat)
    (m : Mem α) : Res (Mem α) := do
  let T : View := ⟨w, nb, nb, nb⟩
  let (_, m) ← mscale m T 0 .all false
  let m ← lqReflector ab env fuel m T (A.sub k k nb (A.cols - k)) (tau.sub k 0 nb 1)
  updateLqRight ab env fuel m (C.sub 0 k C.rows nb) (C.sub 0 (k + nb) C.rows (C.cols - k - nb)) (A.sub k k nb nb)
    (A.sub k (k + nb) nb (A.cols - k - nb)) T ⟨W, C.rows, C.rows, nb⟩ trans cbuf

/-- `blk_lqmult_right` (`src/lapack/lqmult.c:286-368`). -/
def blkLqmultRight (ab : α → α) (env : Env) (fuel : Nat) (m : Mem α) (C A tau : View) (w W : Nat) (trans : Bool) (lb : Nat)
    (cbuf : Option Cache) : Res (Mem α) := do
  let n := min A.cols A.rows
  let (_, m) ← (if trans then forUp 0 n lb (fun k => blkLqmultRightStep ab env fuel C A tau w W trans cbuf k (min lb (n - k))) m
    else forUp 0 n lb (fun d => blkLqmultRightStep ab env fuel C A tau w W trans cbuf (n - d - min lb (n - d)) (min lb (n - d))) m)
  pure m

/-- `armas_lqmult_w` (`src/lapack/lqmult.c:456-543`) with a work space of `ws` elements at `w`; `elb` is the configured block size.
Both errors return -1; which one it is shows in `conf->error` only.  The block size is computed as in `armas_qrmult_w`. -/
def lqmultW (ab : α → α) (env : Env) (elb fuel : Nat) (m : Mem α) (C A tau : View) (trans right : Bool) (w ws : Nat) (cbuf : Option Cache) :
    Res (Int × Mem α) :=
  let K := if right then C.rows else C.cols
  let P := if right then C.cols else C.rows
  if P ≠ A.cols ∨ tau.size ≠ A.rows then .ok (-1, m)
  else if ws < K then .ok (-1, m)
  else do
    let lb ← qrmultBlock elb K ws
    let m ← (if lb = 0 ∨ K ≤ lb then
        (if right then unblkLqmultRight ab env fuel m C A tau w trans else unblkLqmultLeft ab env fuel m C A tau w trans)
      else
        (if right then blkLqmultRight ab env fuel m C A tau w (w + lb * lb) trans lb cbuf
        else blkLqmultLeft ab env fuel m C A tau w (w + lb * lb) trans lb cbuf))
    pure (0, m)

end Armas
