import Verif.LqMult
import Verif.Ldl

/-!
# Model of `src/lapack/lqbld.c`

Exact arithmetic in a field.  `tau` is a column vector with at least `rows(A)` elements (an empty sub-vector of `tau` would be read as zero by
`armas_get`; this is not modelled), and `K` is at most `rows(A)` and `cols(A)`; the code checks neither.  The return values of the BLAS calls are
not looked at, as in the code.  Not modelled: `conf->error`, null arguments, the workspace query (`wb->bytes == 0`) and the allocating wrapper
`armas_lqbuild`.
-/

namespace Armas

variable {α : Type} [Field α] [DecidableEq α]

/-- One pass of the loop in `unblk_lqbuild` (`src/lapack/lqbld.c:81-107`), `k` the position of `a11`.  The element of `tau` is counted from the
end of `tau` (lines 70-71, 87-88): `tau[k]` only when `tau` has `rows(A)` elements. -/
def unblkLqbuildStep (ab : α → α) (env : Env) (fuel : Nat) (A tau : View) (W k : Nat) (m : Mem α) : Res (Mem α) := do
  let a12 := A.sub k (k + 1) 1 (A.cols - k - 1)
  let t1 := tau.at' (tau.rows - A.rows + k) 0
  let m ← applyHH2x1 ab env fuel m (some t1) a12 (A.sub (k + 1) k (A.rows - k - 1) 1)
    (A.sub (k + 1) (k + 1) (A.rows - k - 1) (A.cols - k - 1)) ⟨W, A.rows - k - 1, A.rows - k - 1, 1⟩ false
  let t ← rd m t1
  let (_, m) ← scale m a12 (-t)
  let m ← wr m (A.at' k k) (1 - t)
  let (_, m) ← scale m (A.sub k 0 1 k) 0
  pure m

/-- Clearing the rows below the reflectors (`src/lapack/lqbld.c:73-79` and, with `r` for `K`, `136-148` without the unblocked corner). -/
def lqClear (m : Mem α) (A : View) (K : Nat) : Res (Mem α) := do
  let (_, m) ← mscale m (A.sub K 0 (A.rows - K) K) 0 .all false
  let ABR := A.sub K K (A.rows - K) (A.cols - K)
  let (_, m) ← mscale m ABR 0 .all false
  let (_, m) ← madd m (diagRow ABR) 1 .all false
  pure m

/-- `unblk_lqbuild` (`src/lapack/lqbld.c:54-109`) called with `mk = rows(A) - K` and `nk = cols(A) - K`, as all callers do. -/
def unblkLqbuild (ab : α → α) (env : Env) (fuel : Nat) (m : Mem α) (A tau : View) (W K : Nat) (mayclear : Bool) : Res (Mem α) := do
  let m ← (if 0 < A.rows - K ∧ mayclear then lqClear m A K else pure m)
  forDown K (unblkLqbuildStep ab env fuel A tau W) m

/-- One pass of the loop in `blk_lqbuild` (`src/lapack/lqbld.c:150-182`), `k` the position of `A11`. -/
def blkLqbuildStep (ab : α → α) (env : Env) (fuel : Nat) (A tau : View) (w W lb : Nat) (cbuf : Option Cache) (k : Nat) (m : Mem α) :
    Res (Mem α) := do
  let T : View := ⟨w, lb, lb, lb⟩
  let AL := A.sub k k lb (A.cols - k)
  let t1 := tau.sub (tau.rows - A.rows + k) 0 lb 1
  let n := A.rows - k - lb
  let (_, m) ← mscale m T 0 .all false
  let m ← lqReflector ab env fuel m T AL t1
  let m ← updateLqRight ab env fuel m (A.sub (k + lb) k n lb) (A.sub (k + lb) (k + lb) n (A.cols - k - lb)) (A.sub k k lb lb)
    (A.sub k (k + lb) lb (A.cols - k - lb)) T ⟨W, n, n, lb⟩ false cbuf
  let m ← unblkLqbuild ab env fuel m AL t1 W lb false
  let (_, m) ← mscale m (A.sub k 0 lb k) 0 .all false
  pure m

/-- `blk_lqbuild` (`src/lapack/lqbld.c:114-184`). -/
def blkLqbuild (ab : α → α) (env : Env) (fuel : Nat) (m : Mem α) (A tau : View) (w W K lb : Nat) (cbuf : Option Cache) : Res (Mem α) := do
  let uk := K % lb
  let r := K - uk
  let m ← (if 0 < A.rows - K + uk then
      if 0 < uk then do
        let (_, m) ← mscale m (A.sub r 0 (A.rows - r) r) 0 .all false
        unblkLqbuild ab env fuel m (A.sub r r (A.rows - r) (A.cols - r)) (tau.sub (tau.rows - (A.rows - r)) 0 (A.rows - r) 1) W uk true
      else lqClear m A r
    else pure m)
  let (_, m) ← forUp 0 r lb (fun d => blkLqbuildStep ab env fuel A tau w W lb cbuf (r - d - lb)) m
  pure m

/-- `armas_lqbuild_w` (`src/lapack/lqbld.c:255-317`); `elb` is `env->lb`, the work space has `ws` elements at `w`.  The block size is
adjusted to the number of rows (`:293`), but the choice of the code looks at the number of columns (`:305`).  `A->rows - lb` of `:312` may be
negative; it only goes to the header of `Wrk`, of which the data pointer alone is used. -/
def lqbuildW (ab : α → α) (env : Env) (elb fuel : Nat) (m : Mem α) (A tau : View) (K w ws : Nat) (cbuf : Option Cache) : Res (Int × Mem α) :=
  if ws < A.rows then .ok (-EWORK, m)
  else do
    let lb := invBlock elb A.rows ws
    let m ← (if lb = 0 ∨ A.cols ≤ lb then unblkLqbuild ab env fuel m A tau w K true
      else blkLqbuild ab env fuel m A tau w (w + lb * lb) K lb cbuf)
    pure (0, m)

end Armas
