import Verif.House
import Verif.LuInv
import Verif.QrMult

/-!
# Model of the unblocked parts of `src/lapack/rq.c` and `src/lapack/rqmult.c`

Exact arithmetic.  `tau` is a column vector.  The return values of the BLAS calls are not looked at, as in the code.  Not modelled: `conf->error`, null
arguments, the workspace query, the allocating wrappers and the blocked algorithms.
-/

namespace Armas

/-- Pass `d` of the loop in `unblk_rqfactor` (`src/lapack/rq.c:88-110`), which goes from the bottom right corner to the top left; `W` is the address of the work
space. -/
noncomputable def unblkRqStep (safmin : ℝ) (nonneg : Bool) (ab : ℝ → ℝ) (env : Env) (fuel : Nat) (A tau : View) (W d : Nat) (m : Mem ℝ) :
    Res (Mem ℝ) := do
  let r := A.cols - 1 - d
  let k := A.rows - 1 - d
  let t1 := tau.at' (tau.rows - 1 - d) 0
  let m ← house safmin m (A.at' k r) (A.sub k 0 1 r) t1 true false nonneg
  applyHH2x1 ab env fuel m (some t1) (A.sub k 0 1 r) (A.sub 0 r k 1) (A.sub 0 0 k r) ⟨W, k, k, 1⟩ false

/-- `unblk_rqfactor` (`src/lapack/rq.c:73-112`). -/
noncomputable def unblkRq (safmin : ℝ) (nonneg : Bool) (ab : ℝ → ℝ) (env : Env) (fuel : Nat) (m : Mem ℝ) (A tau : View) (W : Nat) :
    Res (Mem ℝ) := do
  let (_, m) ← forUp 0 (min A.rows A.cols) 1 (unblkRqStep safmin nonneg ab env fuel A tau W) m
  pure m

/-- Block size of `armas_rqfactor_w` (`src/lapack/rq.c:471-477`); unlike in the other factorizations it is also reduced if the matrix has no more than `lb` rows. -/
def rqBlock (elb rows ws : Nat) : Nat :=
  if 0 < elb ∧ ws < rows * elb then
    let lb := ws / rows / 4 * 4
    if lb < 32 then 0 else lb
  else elb

/-- `armas_rqfactor_w` (`src/lapack/rq.c:430-494`) with a work space of `ws` elements at `w`, where the block size `elb` and the work space select the unblocked
algorithm (the other case is left out: `diverge`). -/
noncomputable def rqfactorW (safmin : ℝ) (nonneg : Bool) (ab : ℝ → ℝ) (env : Env) (elb fuel : Nat) (m : Mem ℝ) (A tau : View) (w ws : Nat) :
    Res (Int × Mem ℝ) :=
  if A.cols < A.rows then .ok (-ESIZE, m)
  else if ¬ tau.isVec ∨ tau.size ≠ A.rows then .ok (-EINVAL, m)
  else if ws < A.rows then .ok (-EWORK, m)
  else if rqBlock elb A.rows ws = 0 ∨ A.rows ≤ rqBlock elb A.rows ws then do
    let m ← unblkRq safmin nonneg ab env fuel m A tau w
    pure (0, m)
  else .diverge

section field

variable {α : Type} [Field α] [DecidableEq α]

/-- One pass of the loop in `unblk_rqmult_left` (`src/lapack/rqmult.c:88-109`): the reflector in row `k` left of column `r` of `A`, scalar in element `s` of `tau`,
is applied to rows `0 .. r` of `C`; `W` is the address of the work space. -/
def unblkRqmultLeftStep (ab : α → α) (env : Env) (fuel : Nat) (C A tau : View) (W r k s : Nat) (m : Mem α) : Res (Mem α) :=
  applyHH2x1 ab env fuel m (some (tau.at' s 0)) (A.sub k 0 1 r) (C.sub r 0 1 C.cols) (C.sub 0 0 r C.cols) ⟨W, C.cols, C.cols, 1⟩ true

/-- `unblk_rqmult_left` (`src/lapack/rqmult.c:44-111`): towards the bottom right corner with `ARMAS_TRANS`, else from it; the parts that are skipped first are the
sizes `mb`, `nb`, `tb` of the code, and `cb = rows(C) - rows(A)`. -/
def unblkRqmultLeft (ab : α → α) (env : Env) (fuel : Nat) (m : Mem α) (C A tau : View) (W : Nat) (trans : Bool) : Res (Mem α) := do
  let (_, m) ← forUp 0 (min A.rows A.cols) 1 (fun d =>
    if trans then unblkRqmultLeftStep ab env fuel C A tau W (A.cols - A.rows + d) (A.rows - A.cols + d) (tau.rows - A.rows + d)
    else unblkRqmultLeftStep ab env fuel C A tau W (A.cols - 1 - d) (A.rows - 1 - d) (tau.rows - 1 - d)) m
  pure m

/-- One pass of the loop in `unblk_rqmult_right` (`src/lapack/rqmult.c:246-267`): the same for columns `0 .. r` of `C`. -/
def unblkRqmultRightStep (ab : α → α) (env : Env) (fuel : Nat) (C A tau : View) (W r k s : Nat) (m : Mem α) : Res (Mem α) :=
  applyHH2x1 ab env fuel m (some (tau.at' s 0)) (A.sub k 0 1 r) (C.sub 0 r C.rows 1) (C.sub 0 0 C.rows r) ⟨W, C.rows, C.rows, 1⟩ false

/-- `unblk_rqmult_right` (`src/lapack/rqmult.c:199-269`), in the opposite order. -/
def unblkRqmultRight (ab : α → α) (env : Env) (fuel : Nat) (m : Mem α) (C A tau : View) (W : Nat) (trans : Bool) : Res (Mem α) := do
  let (_, m) ← forUp 0 (min A.rows A.cols) 1 (fun d =>
    if trans then unblkRqmultRightStep ab env fuel C A tau W (A.cols - 1 - d) (A.rows - 1 - d) (tau.rows - 1 - d)
    else unblkRqmultRightStep ab env fuel C A tau W (A.cols - A.rows + d) (A.rows - A.cols + d) (tau.rows - min A.rows A.cols + d)) m
  pure m

/-- `armas_rqmult_w` (`src/lapack/rqmult.c:448-534`) with a work space of `ws` elements at `w`; the block size is computed as in `armas_qrmult_w`
(`src/lapack/rqmult.c:493-503`).  All errors are reported as `-1` (`:484`, `:491`).  The blocked algorithm is left out: `diverge`. -/
def rqmultW (ab : α → α) (env : Env) (elb fuel : Nat) (m : Mem α) (C A tau : View) (trans right : Bool) (w ws : Nat) : Res (Int × Mem α) :=
  let K := if right then C.rows else C.cols
  let P := if right then C.cols else C.rows
  if P ≠ A.cols ∨ tau.size ≠ A.rows then .ok (-1, m)
  else if ws < K then .ok (-1, m)
  else do
    let lb ← qrmultBlock elb K ws
    let m ← (if lb = 0 ∨ K ≤ lb then
        (if right then unblkRqmultRight ab env fuel m C A tau w trans else unblkRqmultLeft ab env fuel m C A tau w trans)
      else .diverge)
    pure (0, m)

end field

end Armas
