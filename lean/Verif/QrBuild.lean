import Verif.QrMult
import Verif.Ldl

/-!
# Model of `src/lapack/qrbld.c`

Exact arithmetic in a field.  `tau` is a column vector with at least `cols(A)` elements (an empty sub-vector of `tau` would be read as zero by
`armas_get`; this is not modelled), and `K` is at most `rows(A)` and `cols(A)`; the code checks neither.  The return values of the BLAS calls are
not looked at, as in the code.  Not modelled: `conf->error`, null arguments, the workspace query (`wb->bytes == 0`) and the allocating wrapper
`armas_qrbuild`.
-/

namespace Armas

variable {α : Type} [Field α] [DecidableEq α]

/-- One pass of the loop in `unblk_qrbuild` (`src/lapack/qrbld.c:90-117`), `k` the position of `a11`.  The element of `tau` is counted from the
end of `tau` (lines 78-80, 96-98): `tau[k]` only when `tau` has `cols(A)` elements. -/
def unblkQrbuildStep (ab : α → α) (env : Env) (fuel : Nat) (A tau : View) (W k : Nat) (m : Mem α) : Res (Mem α) := do
  let a21 := A.sub (k + 1) k (A.rows - k - 1) 1
  let t1 := tau.at' (tau.rows - A.cols + k) 0
  let m ← applyHH2x1 ab env fuel m (some t1) a21 (A.sub k (k + 1) 1 (A.cols - k - 1))
    (A.sub (k + 1) (k + 1) (A.rows - k - 1) (A.cols - k - 1)) ⟨W, A.cols - k - 1, A.cols - k - 1, 1⟩ true
  let t ← rd m t1
  let (_, m) ← scale m a21 (-t)
  let m ← wr m (A.at' k k) (1 - t)
  let (_, m) ← scale m (A.sub 0 k k 1) 0
  pure m

/-- Clearing the columns right of the reflectors (`src/lapack/qrbld.c:82-88` and, with `r` for `K`, `155-168` without the unblocked corner). -/
def qrClear (m : Mem α) (A : View) (K : Nat) : Res (Mem α) := do
  let (_, m) ← mscale m (A.sub 0 K K (A.cols - K)) 0 .all false
  let ABR := A.sub K K (A.rows - K) (A.cols - K)
  let (_, m) ← mscale m ABR 0 .all false
  let (_, m) ← madd m (diagRow ABR) 1 .all false
  pure m

/-- `unblk_qrbuild` (`src/lapack/qrbld.c:61-119`) called with `mk = rows(A) - K` and `nk = cols(A) - K`, as all callers do. -/
def unblkQrbuild (ab : α → α) (env : Env) (fuel : Nat) (m : Mem α) (A tau : View) (W K : Nat) (mayclear : Bool) : Res (Mem α) := do
  let m ← (if 0 < A.cols - K ∧ mayclear then qrClear m A K else pure m)
  forDown K (unblkQrbuildStep ab env fuel A tau W) m

/-- One pass of the loop in `blk_qrbuild` (`src/lapack/qrbld.c:170-201`), `k` the position of `A11`; `T` at `w` is not cleared between the
passes. -/
def blkQrbuildStep (ab : α → α) (env : Env) (fuel : Nat) (A tau : View) (w W lb : Nat) (cbuf : Option Cache) (k : Nat) (m : Mem α) :
    Res (Mem α) := do
  let T : View := ⟨w, lb, lb, lb⟩
  let AL := A.sub k k (A.rows - k) lb
  let t1 := tau.sub (tau.rows - A.cols + k) 0 lb 1
  let n := A.cols - k - lb
  let m ← qrReflector ab env fuel m T AL t1
  let m ← updateQrLeft ab env fuel m (A.sub k (k + lb) lb n) (A.sub (k + lb) (k + lb) (A.rows - k - lb) n) (A.sub k k lb lb)
    (A.sub (k + lb) k (A.rows - k - lb) lb) T ⟨W, n, n, lb⟩ false cbuf
  let m ← unblkQrbuild ab env fuel m AL t1 W lb false
  let (_, m) ← mscale m (A.sub 0 k k lb) 0 .all false
  pure m

/-- `blk_qrbuild` (`src/lapack/qrbld.c:132-203`). -/
def blkQrbuild (ab : α → α) (env : Env) (fuel : Nat) (m : Mem α) (A tau : View) (w W K lb : Nat) (cbuf : Option Cache) : Res (Mem α) := do
  let uk := K % lb
  let r := K - uk
  let m ← (if 0 < A.cols - K + uk then
      if 0 < uk then do
        let (_, m) ← mscale m (A.sub 0 r r (A.cols - r)) 0 .all false
        unblkQrbuild ab env fuel m (A.sub r r (A.rows - r) (A.cols - r)) (tau.sub (tau.rows - (A.cols - r)) 0 (A.cols - r) 1) W uk true
      else qrClear m A r
    else pure m)
  let (_, m) ← forUp 0 r lb (fun d => blkQrbuildStep ab env fuel A tau w W lb cbuf (r - d - lb)) m
  pure m

/-- `armas_qrbuild_w` (`src/lapack/qrbld.c:273-337`); `elb` is `env->lb`, the work space has `ws` elements at `w`. -/
def qrbuildW (ab : α → α) (env : Env) (elb fuel : Nat) (m : Mem α) (A tau : View) (K w ws : Nat) (cbuf : Option Cache) : Res (Int × Mem α) :=
  if ws < A.cols then .ok (-EWORK, m)
  else do
    let lb := invBlock elb A.cols ws
    let m ← (if lb = 0 ∨ A.cols ≤ lb then unblkQrbuild ab env fuel m A tau w K true
      else blkQrbuild ab env fuel m A tau w (w + lb * lb) K lb cbuf)
    pure (0, m)

end Armas
