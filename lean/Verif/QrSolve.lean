import Verif.QrMult
import Verif.Trxm

/-!
# Model of `src/lapack/qrsolve.c`

Exact arithmetic in a field.  `A` has at least as many rows as columns (not checked by the code, which would otherwise take a square part of `A`
with more rows than `A`).  Not modelled: `conf->error`, null arguments, the workspace query and the allocating wrapper `armas_qrsolve`.
-/

namespace Armas

variable {α : Type} [Field α] [DecidableEq α]

/-- `armas_qrsolve_w` (`src/lapack/qrsolve.c:103-157`); the return values of the calls are not looked at, as in the code.  `trans` is
`ARMAS_TRANS`, `elb` is `env->lb`, the work space has `ws` elements at `w`. -/
def qrsolveW (ab : α → α) (env : Env) (elb fuel : Nat) (m : Mem α) (B A tau : View) (trans : Bool) (w ws : Nat) (cbuf : Option Cache) :
    Res (Int × Mem α) :=
  if B.rows ≠ A.rows then .ok (-ESIZE, m)
  else if ws < B.cols then .ok (-EWORK, m)
  else
    let R := A.sub 0 0 A.cols A.cols
    let BT := B.sub 0 0 A.cols B.cols
    if trans then do
      let (_, m) ← solveTrm ab env fuel m BT 1 R { left := true, upper := true, transA := true } cbuf
      let (_, m) ← mscale m (B.sub A.cols 0 (B.rows - A.cols) B.cols) 0 .all false
      let (_, m) ← qrmultW ab env elb fuel m B A tau false false w ws cbuf
      pure (0, m)
    else do
      let (_, m) ← qrmultW ab env elb fuel m B A tau true false w ws cbuf
      let (_, m) ← solveTrm ab env fuel m BT 1 R { left := true, upper := true } cbuf
      pure (0, m)

end Armas
