import Verif.CholPv
import Verif.Lu
import Verif.Updtrm

/-!
# Model of the blocked functions of `src/lapack/cholpv.c`

Conventions as in `Verif.CholPv`.  `D` is the column of `ABR.rows` elements made at the start of the workspace.
-/

namespace Armas

variable {α : Type} [Field α] [LinearOrder α]

/-- `update_diag` (`src/lapack/cholpv.c:119-130`). -/
def updateDiag (m : Mem α) (D X : View) : Res (Mem α) := do
  let (_, m) ← forUp 0 D.size 1 (fun k m => do
    let d ← rd m (D.vat k)
    let x ← rd m (X.vat k)
    wr m (D.vat k) (d - x * x)) m
  pure m

/-- The exchange of the diagonal elements in the loops of `unblk_cholpv_lower_ncol` and
`unblk_cholpv_upper_ncol` (`src/lapack/cholpv.c:184-186,412-414`). -/
def ncolSwap (m : Mem α) (DB : View) (im : Nat) : Res (Mem α) :=
  if im ≠ 0 then do
    let x ← rd m (DB.vat im)
    let y ← rd m (DB.vat 0)
    let m ← wr m (DB.vat im) y
    wr m (DB.vat 0) x
  else pure m

/-- The column below or the row right of the diagonal element `k`. -/
def ncolX (upper : Bool) (A : View) (k : Nat) : View :=
  if upper then A.sub k (k + 1) 1 (A.cols - k - 1) else A.sub (k + 1) k (A.rows - k - 1) 1

/-- The update of this column or row with the previous ones and its scaling by `s`
(`src/lapack/cholpv.c:195-196,423-424`). -/
def ncolLine (ab : α → α) (upper : Bool) (env : Env) (fuel : Nat) (m : Mem α) (A : View) (k : Nat) (s : α) :
    Res (Mem α) := do
  let (_, m) ← (if upper then mvmult ab env fuel m 1 (ncolX upper A k) (-1) (A.sub 0 (k + 1) k (A.cols - k - 1))
      (A.sub 0 k k 1) { transA := true }
    else mvmult ab env fuel m 1 (ncolX upper A k) (-1) (A.sub (k + 1) 0 (A.rows - k - 1) k) (A.sub k 0 1 k) {})
  let (_, m) ← scale m (ncolX upper A k) s
  pure m

/-- The elimination part of one pass of the loops in `unblk_cholpv_lower_ncol` (`src/lapack/cholpv.c:191-199`) and
`unblk_cholpv_upper_ncol` (`src/lapack/cholpv.c:419-426`); `t` is the value of `ncol` after its decrement. -/
def ncolElim (sq ab : α → α) (upper : Bool) (env : Env) (fuel : Nat) (m : Mem α) (A D : View) (t k : Nat) :
    Res (Mem α) := do
  let d ← rd m ((D.sub k 0 1 1).vat 0)
  let m ← wr m (A.at' k k) (sq d)
  let m ← ncolLine ab upper env fuel m A k (1 / sq d)
  if t > 0 then updateDiag m (D.sub (k + 1) 0 (D.rows - k - 1) 1) (ncolX upper A k) else pure m

/-- The loops of `unblk_cholpv_lower_ncol` (`src/lapack/cholpv.c:160-209`) and `unblk_cholpv_upper_ncol`
(`src/lapack/cholpv.c:390-436`) from position `k` on, with `t` steps left. -/
def ncolLoop (sq ab : α → α) (upper : Bool) (env : Env) (fuel : Nat) (A D : View) (xstop : α) :
    Nat → Nat → Piv → Mem α → Res (Nat × Piv × Mem α)
  | 0, k, P, m => pure (k, P, m)
  | t + 1, k, P, m => do
    let DB := D.sub k 0 (D.rows - k) 1
    let im ← iamax m DB
    let x ← rd m (DB.vat im.toNat)
    if x ≤ xstop then do
      let (_, m, _) ← setElems (fun _ _ _ => 0) m (A.sub k k (A.rows - k) (A.cols - k))
        (if upper then .upper else .lower) false
      pure (k, P, m)
    else do
      let m ← cholpvSwap upper m A k im.toNat
      let m ← ncolSwap m DB im.toNat
      let m ← ncolElim sq ab upper env fuel m A D t k
      ncolLoop sq ab upper env fuel A D xstop t (k + 1) (P.set k (im + k + 1)) m

/-- `unblk_cholpv_lower_ncol` (`src/lapack/cholpv.c:137-210`) and `unblk_cholpv_upper_ncol`
(`src/lapack/cholpv.c:366-437`). -/
def unblkCholpvNcol (sq ab : α → α) (upper : Bool) (env : Env) (fuel : Nat) (m : Mem α) (A D : View) (P : Piv)
    (xstop : α) (ncol : Nat) : Res (Nat × Piv × Mem α) := do
  let (_, m) ← copyVec m D (diagRow A)
  ncolLoop sq ab upper env fuel A D xstop ncol 0 P m

/-- The statements after the factorization of a block (`src/lapack/cholpv.c:242-247,269-274,466-471,490-494`): the
pivots `Q` of the block, relative to it, are applied to the part left of or above it and then made absolute. -/
def cholpvApply (upper : Bool) (m : Mem α) (A : View) (k e : Nat) (P Q : Piv) : Res (Piv × Mem α) := do
  let (_, m) ← (if upper then pivot m (A.sub 0 k k (A.cols - k)) Q .cols true
    else pivot m (A.sub k 0 (A.rows - k) k) Q .rows true)
  pure (P.put k Q.n ⟨Q.n, fun l => if l < min e Q.n then Q.ix l + k else Q.ix l⟩, m)

/-- The loops of `blk_cholpv_lower` (`src/lapack/cholpv.c:231-281`) and `blk_cholpv_upper`
(`src/lapack/cholpv.c:456-502`) from position `k` on, at most `s` blocks. -/
def blkCholpvLoop (sq ab : α → α) (upper : Bool) (env : Env) (fuel : Nat) (A : View) (wb : Nat) (xstop : α) (lb : Nat)
    (cbuf : Option Cache) : Nat → Nat → Piv → Mem α → Res (Nat × Piv × Mem α)
  | 0, _, _, _ => .diverge
  | s + 1, k, P, m =>
    if A.rows - k > lb then do
      let (e, Q, m) ← unblkCholpvNcol sq ab upper env fuel m (A.sub k k (A.rows - k) (A.cols - k))
        ⟨wb, A.rows - k, A.rows - k, 1⟩ (P.sub k lb) xstop lb
      let (P, m) ← cholpvApply upper m A k e P Q
      if e ≠ lb then pure (e + k, P, m)
      else do
        let (_, m) ← (if upper then
            updateSym ab env fuel m 1 (A.sub (k + lb) (k + lb) (A.rows - k - lb) (A.cols - k - lb)) (-1)
              (A.sub k (k + lb) lb (A.cols - k - lb)) { upper := true, transA := true } cbuf
          else updateSym ab env fuel m 1 (A.sub (k + lb) (k + lb) (A.rows - k - lb) (A.cols - k - lb)) (-1)
              (A.sub (k + lb) k (A.rows - k - lb) lb) { lower := true } cbuf)
        blkCholpvLoop sq ab upper env fuel A wb xstop lb cbuf s (k + lb) P m
    else if A.cols - k > 0 then do
      let (e, Q, m) ← unblkCholpv sq upper env fuel m (A.sub k k (A.rows - k) (A.cols - k))
        (P.sub k (P.n - k)) xstop
      let (P, m) ← cholpvApply upper m A k e P Q
      if e ≠ A.cols - k then pure (e + k, P, m) else pure (A.cols, P, m)
    else pure (A.cols, P, m)

/-- `blk_cholpv_lower` (`src/lapack/cholpv.c:217-282`) and `blk_cholpv_upper` (`src/lapack/cholpv.c:442-503`); `wb`
is the address of the workspace, `lb > 0`. -/
def blkCholpv (sq ab : α → α) (upper : Bool) (env : Env) (fuel : Nat) (m : Mem α) (A : View) (wb : Nat) (P : Piv)
    (xstop : α) (lb : Nat) (cbuf : Option Cache) : Res (Nat × Piv × Mem α) :=
  blkCholpvLoop sq ab upper env fuel A wb xstop lb cbuf (A.rows + 1) 0 P m

end Armas
