import Verif.House
import Verif.LuInv

/-!
# Model of the unblocked part of `src/lapack/ql.c`

Exact arithmetic.  `tau` is a column vector.  The return values of the BLAS calls are not looked at, as in the code.  Not modelled: `conf->error`, null
arguments, the workspace query, the allocating wrapper and the blocked algorithm.
-/

namespace Armas

/-- Pass `d` of the loop in `unblk_qlfactor` (`src/lapack/ql.c:89-111`), which goes from the bottom right corner to the top left; `W` is the address of the work
space.  The last element of `tau` belongs to the last column. -/
noncomputable def unblkQlStep (safmin : ℝ) (nonneg : Bool) (ab : ℝ → ℝ) (env : Env) (fuel : Nat) (A tau : View) (W d : Nat) (m : Mem ℝ) :
    Res (Mem ℝ) := do
  let r := A.rows - 1 - d
  let k := A.cols - 1 - d
  let t1 := tau.at' (tau.rows - 1 - d) 0
  let m ← house safmin m (A.at' r k) (A.sub 0 k r 1) t1 true false nonneg
  applyHH2x1 ab env fuel m (some t1) (A.sub 0 k r 1) (A.sub r 0 1 k) (A.sub 0 0 r k) ⟨W, k, k, 1⟩ true

/-- `unblk_qlfactor` (`src/lapack/ql.c:74-113`). -/
noncomputable def unblkQl (safmin : ℝ) (nonneg : Bool) (ab : ℝ → ℝ) (env : Env) (fuel : Nat) (m : Mem ℝ) (A tau : View) (W : Nat) :
    Res (Mem ℝ) := do
  let (_, m) ← forUp 0 (min A.rows A.cols) 1 (unblkQlStep safmin nonneg ab env fuel A tau W) m
  pure m

/-- `armas_qlfactor_w` (`src/lapack/ql.c:443-507`) with a work space of `ws` elements at `w`, where the block size `elb` and the work space select the unblocked
algorithm (the other case is left out: `diverge`). -/
noncomputable def qlfactorW (safmin : ℝ) (nonneg : Bool) (ab : ℝ → ℝ) (env : Env) (elb fuel : Nat) (m : Mem ℝ) (A tau : View) (w ws : Nat) :
    Res (Int × Mem ℝ) :=
  if A.rows < A.cols then .ok (-ESIZE, m)
  else if ¬ tau.isVec ∨ tau.size < A.cols then .ok (-EINVAL, m)
  else if ws < A.cols then .ok (-EWORK, m)
  else if invBlock elb A.cols ws = 0 ∨ A.cols ≤ invBlock elb A.cols ws then do
    let m ← unblkQl safmin nonneg ab env fuel m A tau w
    pure (0, m)
  else .diverge

end Armas
