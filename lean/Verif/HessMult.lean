import Verif.Hess
import Verif.QrMult

/-!
# Model of `src/lapack/hessm.c`
-/

namespace Armas

variable {α : Type} [Field α] [DecidableEq α]

/-- `armas_hessmult_w` (`src/lapack/hessm.c:107-133`).  `A`, `C` have rows and columns; not modelled: null arguments and the workspace query.
The part of `tau` is taken without a test of its size. -/
def hessmultW (ab : α → α) (env : Env) (elb fuel : Nat) (m : Mem α) (C A tau : View) (trans right : Bool) (w ws : Nat) (cbuf : Option Cache) :
    Res (Int × Mem α) :=
  qrmultW ab env elb fuel m (if right then C.sub 0 1 C.rows (C.cols - 1) else C.sub 1 0 (C.rows - 1) C.cols) (A.sub 1 0 (A.rows - 1) (A.cols - 1))
    (tau.sub 0 0 (A.rows - 1) 1) trans right w ws cbuf

end Armas
