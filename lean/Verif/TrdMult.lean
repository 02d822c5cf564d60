import Verif.Trd
import Verif.QrMult
import Verif.QrBuild

/-!
# Model of the lower part of `src/lapack/triredm.c` and `src/lapack/tribld.c`

Not modelled: null arguments, the workspace queries, the allocating wrappers and `ARMAS_UPPER`.
-/

namespace Armas

variable {α : Type} [Field α] [DecidableEq α]

/-- `armas_trdmult_w` (`src/lapack/triredm.c:87-147`) without `ARMAS_UPPER`.  The error value of the refused sizes is -1. -/
def trdmultW (ab : α → α) (env : Env) (elb fuel : Nat) (m : Mem α) (C A tau : View) (trans right : Bool) (w ws : Nat) (cbuf : Option Cache) :
    Res (Int × Mem α) :=
  if tau.size ≠ A.cols then .ok (-1, m)
  else if (if right then C.cols else C.rows) ≠ A.rows ∨ A.rows ≠ A.cols then .ok (-1, m)
  else qrmultW ab env elb fuel m (if right then C.sub 0 1 C.rows (C.cols - 1) else C.sub 1 0 (C.rows - 1) C.cols) (A.sub 1 0 (A.rows - 1) (A.rows - 1))
    (tau.sub 0 0 (A.rows - 1) 1) trans right w ws cbuf

/-- One pass of the loop in `armas_trdbuild_w` (`src/lapack/tribld.c:146-151`) for column `j`. -/
def trdShift (A : View) (j : Nat) (m : Mem α) : Res (Mem α) := do
  let (_, m) ← copyVec m (A.sub j j (A.rows - j) 1) (A.sub j (j - 1) (A.rows - j) 1)
  wr m (A.at' 0 j) 0

/-- `armas_trdbuild_w` (`src/lapack/tribld.c:86-163`) without `ARMAS_UPPER`, `K` not negative. -/
def trdbuildW (ab : α → α) (env : Env) (elb fuel : Nat) (m : Mem α) (A tau : View) (K w ws : Nat) (cbuf : Option Cache) : Res (Int × Mem α) :=
  if A.size = 0 then .ok (0, m)
  else if tau.size ≠ A.cols then .ok (-EINVAL, m)
  else if A.cols ≠ A.rows then .ok (-ESIZE, m)
  else do
    let m ← forDown (A.cols - 1) (fun d => trdShift A (d + 1)) m
    let (_, m) ← scale m (A.sub 0 0 A.rows 1) 0
    let m ← wr m (A.at' 0 0) 1
    qrbuildW ab env elb fuel m (A.sub 1 1 (A.rows - 1) (A.rows - 1)) (tau.sub 0 0 (A.rows - 1) 1) (min K (A.rows - 1)) w ws cbuf

end Armas
