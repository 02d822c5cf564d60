import Verif.QrBuild

/-!
# Model of the unblocked part of `src/lapack/qlbld.c`

Exact arithmetic.  `tau` is a column vector, and `K` is at most `rows(A)` and `cols(A)`; the code checks neither.  Not modelled: `conf->error`, null arguments,
the workspace query, the allocating wrapper and the blocked algorithm.
-/

namespace Armas

variable {α : Type} [Field α] [DecidableEq α]

/-- One pass of the loop in `unblk_qlbuild` (`src/lapack/qlbld.c:79-102`), `r`, `c` the position of `a11`.  The element of `tau` is counted from the top. -/
def unblkQlbuildStep (ab : α → α) (env : Env) (fuel : Nat) (A tau : View) (W r c : Nat) (m : Mem α) : Res (Mem α) := do
  let a01 := A.sub 0 c r 1
  let t1 := tau.at' c 0
  let m ← applyHH2x1 ab env fuel m (some t1) a01 (A.sub r 0 1 c) (A.sub 0 0 r c) ⟨W, c, c, 1⟩ true
  let t ← rd m t1
  let (_, m) ← scale m a01 (-t)
  let m ← wr m (A.at' r c) (1 - t)
  let (_, m) ← scale m (A.sub (r + 1) c (A.rows - r - 1) 1) 0
  pure m

/-- Clearing the columns left of the reflectors (`src/lapack/qlbld.c:71-77`), where `D` is the subdiagonal `mk - nk` of `ATL` (`src/include/matrix.h:399-404`). -/
def qlClear (m : Mem α) (A : View) (mk nk : Nat) : Res (Mem α) := do
  let (_, m) ← mscale m (A.sub mk 0 (A.rows - mk) nk) 0 .all false
  let (_, m) ← mscale m (A.sub 0 0 mk nk) 0 .all false
  let (_, m) ← madd m (diagRow (A.sub (mk - nk) 0 (mk - (mk - nk)) nk)) 1 .all false
  pure m

/-- `unblk_qlbuild` (`src/lapack/qlbld.c:50-102`) called with `mk = rows(A) - K`, `nk = cols(A) - K` and `mayclear`. -/
def unblkQlbuild (ab : α → α) (env : Env) (fuel : Nat) (m : Mem α) (A tau : View) (W K : Nat) : Res (Mem α) := do
  let m ← (if 0 < A.cols - K then qlClear m A (A.rows - K) (A.cols - K) else pure m)
  let (_, m) ← forUp 0 K 1 (fun d => unblkQlbuildStep ab env fuel A tau W (A.rows - K + d) (A.cols - K + d)) m
  pure m

/-- `armas_qlbuild_w` (`src/lapack/qlbld.c:254-311`) with a work space of `ws` elements at `w`, where the block size `elb` and the work space select the unblocked
algorithm (the other case is left out: `diverge`). -/
def qlbuildW (ab : α → α) (env : Env) (elb fuel : Nat) (m : Mem α) (A tau : View) (K w ws : Nat) : Res (Int × Mem α) :=
  if ws < A.cols then .ok (-EWORK, m)
  else if invBlock elb A.cols ws = 0 ∨ A.cols ≤ invBlock elb A.cols ws then do
    let m ← unblkQlbuild ab env fuel m A tau w K
    pure (0, m)
  else .diverge

end Armas
