import Verif.QrBuild

/-!
# Model of the unblocked part of `src/lapack/rqbld.c`

Exact arithmetic.  `tau` is a column vector, and `K` is at most `rows(A)` and `cols(A)`; the code does not check `K`.  Not modelled: `conf->error`, null arguments,
the workspace query, the allocating wrapper and the loop of the blocked algorithm.
-/

namespace Armas

variable {α : Type} [Field α] [DecidableEq α]

/-- One pass of the loop in `unblk_rqbuild` (`src/lapack/rqbld.c:78-99`), `k`, `r` row and column of `a11`. -/
def unblkRqbuildStep (ab : α → α) (env : Env) (fuel : Nat) (A tau : View) (W k r : Nat) (m : Mem α) : Res (Mem α) := do
  let a10 := A.sub k 0 1 r
  let t1 := tau.at' k 0
  let m ← applyHH2x1 ab env fuel m (some t1) a10 (A.sub 0 r k 1) (A.sub 0 0 k r) ⟨W, k, k, 1⟩ false
  let t ← rd m t1
  let (_, m) ← scale m a10 (-t)
  let m ← wr m (A.at' k r) (1 - t)
  let (_, m) ← scale m (A.sub k (r + 1) 1 (A.cols - r - 1)) 0
  pure m

/-- Clearing the rows above the reflectors (`src/lapack/rqbld.c:70-76`), where `D` is the superdiagonal `nk - mk` of `ATL` (`src/include/matrix.h:394-398`). -/
def rqClear (m : Mem α) (A : View) (mk nk : Nat) : Res (Mem α) := do
  let (_, m) ← mscale m (A.sub 0 0 mk nk) 0 .all false
  let (_, m) ← mscale m (A.sub 0 nk mk (A.cols - nk)) 0 .all false
  let (_, m) ← madd m (diagRow (A.sub 0 (nk - mk) mk (nk - (nk - mk)))) 1 .all false
  pure m

/-- `unblk_rqbuild` (`src/lapack/rqbld.c:51-101`) called with `mk = rows(A) - K`, `nk = cols(A) - K` and `mayclear`. -/
def unblkRqbuild (ab : α → α) (env : Env) (fuel : Nat) (m : Mem α) (A tau : View) (W K : Nat) : Res (Mem α) := do
  let m ← (if 0 < A.rows - K then rqClear m A (A.rows - K) (A.cols - K) else pure m)
  let (_, m) ← forUp 0 K 1 (fun d => unblkRqbuildStep ab env fuel A tau W (A.rows - K + d) (A.cols - K + d)) m
  pure m

/-- Block size of `armas_rqbuild_w` (`src/lapack/rqbld.c:281-288`); the reduced block size is computed with the columns. -/
def rqbBlock (elb rows cols ws : Nat) : Nat :=
  if 0 < elb ∧ elb < rows ∧ ws < rows * elb then
    let lb := ws / cols / 4 * 4
    if lb < 32 then 0 else lb
  else elb

/-- `armas_rqbuild_w` (`src/lapack/rqbld.c:237-306`) with a work space of `ws` elements at `w`.  Of the blocked algorithm (`:107-172`) only the case of fewer than `lb`
reflectors is modelled, where its loop is empty and the unblocked code is called with the work space behind the block reflector (`:133`, `:300`); the other case
is left out: `diverge`. -/
def rqbuildW (ab : α → α) (env : Env) (elb fuel : Nat) (m : Mem α) (A tau : View) (K w ws : Nat) : Res (Int × Mem α) :=
  let lb := rqbBlock elb A.rows A.cols ws
  if tau.size ≠ A.rows then .ok (-ESIZE, m)
  else if ws < A.rows then .ok (-EWORK, m)
  else if lb = 0 ∨ A.cols ≤ lb then do
    let m ← unblkRqbuild ab env fuel m A tau w K
    pure (0, m)
  else if 0 < K ∧ K < lb then do
    let m ← unblkRqbuild ab env fuel m A tau (w + lb * lb) K
    pure (0, m)
  else .diverge

end Armas
