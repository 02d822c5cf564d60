import Verif.LqMult
import Verif.Trxm

/-!
# Model of `src/lapack/lqsolve.c`

Exact arithmetic in a field.  `A` has at least as many columns as rows (not checked by the code, which would otherwise take a square part of `A`
with more columns than `A`).  Not modelled: `conf->error`, null arguments.
-/

namespace Armas

variable {α : Type} [Field α] [DecidableEq α]

/-- `armas_lqsolve_w` (`src/lapack/lqsolve.c:115-171`) with a work space; the return values of the calls are not looked at, as in the code.  `trans`
is `ARMAS_TRANS`, `elb` is `env->lb`, the work space has `ws` elements at `w`.  The work space is compared with the rows of `B` (`:140`), while
`armas_lqmult_w` wants as many elements as `B` has columns. -/
def lqsolveW (ab : α → α) (env : Env) (elb fuel : Nat) (m : Mem α) (B A tau : View) (trans : Bool) (w ws : Nat) (cbuf : Option Cache) :
    Res (Int × Mem α) :=
  if B.rows ≠ A.cols then .ok (-ESIZE, m)
  else if ws < B.rows then .ok (-EWORK, m)
  else
    let L := A.sub 0 0 A.rows A.rows
    let BL := B.sub 0 0 A.rows B.cols
    if trans then do
      let (_, m) ← lqmultW ab env elb fuel m B A tau false false w ws cbuf
      let (_, m) ← solveTrm ab env fuel m BL 1 L { left := true, lower := true, transA := true } cbuf
      pure (0, m)
    else do
      let (_, m) ← solveTrm ab env fuel m BL 1 L { left := true, lower := true } cbuf
      let (_, m) ← mscale m (B.sub A.rows 0 (B.rows - A.rows) B.cols) 0 .all false
      let (_, m) ← lqmultW ab env elb fuel m B A tau true false w ws cbuf
      pure (0, m)

/-- The number of elements the workspace query of `armas_lqsolve_w` returns (`src/lapack/lqsolve.c:130-132`, `src/lapack/lqmult.c:474-480`). -/
def lqsolveQuery (elb : Nat) (B : View) : Nat :=
  if 0 < elb ∧ elb < B.cols then (elb + B.cols) * elb else B.cols

/-- `armas_lqsolve` (`src/lapack/lqsolve.c:45-69`): the work space has the size the query returns.  The allocation succeeds and gives the area at
`w` (`armas_walloc`, `src/include/armas.h:556-562`); `B` has at least one column, so that the size is not zero. -/
def lqsolve (ab : α → α) (env : Env) (elb fuel : Nat) (m : Mem α) (B A tau : View) (trans : Bool) (w : Nat) (cbuf : Option Cache) :
    Res (Int × Mem α) :=
  lqsolveW ab env elb fuel m B A tau trans w (lqsolveQuery elb B) cbuf

end Armas
