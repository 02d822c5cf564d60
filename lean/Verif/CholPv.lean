import Verif.Chol
import Verif.Ldl
import Verif.MatOps
import Verif.Pivot

/-!
# Model of `src/lapack/cholpv.c`

Exact arithmetic in an ordered field with a function `sq` for `SQRT` (the theorems take the reals and the square
root).  The partition walks appear as recursion on the number `t` of remaining steps with
the position `k` of the diagonal element; `ABR` is `A.sub k k ..`, `ABL` is `A.sub k 0 ..`, `ATR` is
`A.sub 0 k ..`.  The part `p1` of the pivot vector at step `k` is element `k` of `P`.  Results of the
subroutines are ignored as in the code.  The blocked functions `blk_cholpv_lower`,
`blk_cholpv_upper` are a parameter of the driver here, modelled in `Verif.CholPvBlk`.  Not modelled: `cf->error`.
-/

namespace Armas

variable {α : Type}

/-- `apply_bkpivot_lower` (`src/lapack/sym.h:122-148`) for `srcix = p < dstix = q`. -/
def bkPivotLower (m : Mem α) (A : View) (p q : Nat) : Res (Mem α) := do
  let r ← swap m (A.sub (p + 1) p (q - p - 1) 1) (A.sub q (p + 1) 1 (q - p - 1))
  let r ← swap r.2 (A.sub (q + 1) p (A.rows - q - 1) 1) (A.sub (q + 1) q (A.rows - q - 1) 1)
  swapDiag r.2 A p q

/-- `apply_bkpivot_upper_top` (`src/lapack/sym.h:78-104`) for `srcix = p < dstix = q`. -/
def bkPivotUpperTop (m : Mem α) (A : View) (p q : Nat) : Res (Mem α) := do
  let r ← swap m (A.sub p (p + 1) 1 (q - p - 1)) (A.sub (p + 1) q (q - p - 1) 1)
  let r ← swap r.2 (A.sub p (q + 1) 1 (A.cols - q - 1)) (A.sub q (q + 1) 1 (A.cols - q - 1))
  swapDiag r.2 A p q

variable [Field α] [LinearOrder α]

/-- The pivoting part of one pass of the loops in `unblk_cholpv_lower` and `unblk_cholpv_upper`
(`src/lapack/cholpv.c:96-99,337-340`): rows and columns 0 and `im` of `ABR` are exchanged, and the rows of
`ABL` or the columns of `ATR` (`swap_rows`, `swap_cols`, `src/lapack/sym.h:199-228`, the same as the functions
of `src/base/pivot.c` modelled by `swapLines`; `im` is not negative there). -/
def cholpvSwap (upper : Bool) (m : Mem α) (A : View) (k im : Nat) : Res (Mem α) :=
  if im ≠ 0 then
    if upper then do
      let m ← bkPivotUpperTop m (A.sub k k (A.rows - k) (A.cols - k)) 0 im
      swapLines true m (A.sub 0 k k (A.cols - k)) 0 im
    else do
      let m ← bkPivotLower m (A.sub k k (A.rows - k) (A.cols - k)) 0 im
      swapLines false m (A.sub k 0 (A.rows - k) k) 0 im
  else pure m

/-- The elimination part of one pass of the loop in `unblk_cholpv_lower` (`src/lapack/cholpv.c:103-107`) or
`unblk_cholpv_upper` (`src/lapack/cholpv.c:344-349`). -/
def cholpvElim (sq : α → α) (upper : Bool) (env : Env) (fuel : Nat) (m : Mem α) (A : View) (k : Nat) :
    Res (Mem α) := do
  let y ← rd m (A.at' k k)
  let m ← wr m (A.at' k k) (sq y)
  let X := if upper then A.sub k (k + 1) 1 (A.cols - k - 1) else A.sub (k + 1) k (A.rows - k - 1) 1
  let (_, m) ← scale m X (1 / sq y)
  let (_, m) ← mvupdateSym env fuel m 1 (A.sub (k + 1) (k + 1) (A.rows - k - 1) (A.cols - k - 1)) (-1) X
    (if upper then { upper := true } else { lower := true })
  pure m

/-- The loops of `unblk_cholpv_lower` (`src/lapack/cholpv.c:76-115`) and `unblk_cholpv_upper`
(`src/lapack/cholpv.c:318-357`) from position `k` on, with `t` steps left; the result is the rank, the pivot vector
and the memory. -/
def cholpvLoop (sq : α → α) (upper : Bool) (env : Env) (fuel : Nat) (A : View) (xstop : α) :
    Nat → Nat → Piv → Mem α → Res (Nat × Piv × Mem α)
  | 0, k, P, m => pure (k, P, m)
  | t + 1, k, P, m => do
    let B := A.sub k k (A.rows - k) (A.cols - k)
    let im ← iamax m (diagRow B)
    let x ← rd m ((diagRow B).vat im.toNat)
    if x ≤ xstop then do
      let (_, m, _) ← setElems (fun _ _ _ => 0) m B (if upper then .upper else .lower) false
      pure (k, P, m)
    else do
      let m ← cholpvSwap upper m A k im.toNat
      let P := P.set k (im + k + 1)
      let m ← cholpvElim sq upper env fuel m A k
      cholpvLoop sq upper env fuel A xstop t (k + 1) P m

/-- `unblk_cholpv_lower` (`src/lapack/cholpv.c:60-116`) and `unblk_cholpv_upper`
(`src/lapack/cholpv.c:300-358`). -/
def unblkCholpv (sq : α → α) (upper : Bool) (env : Env) (fuel : Nat) (m : Mem α) (A : View) (P : Piv) (xstop : α) :
    Res (Nat × Piv × Mem α) :=
  cholpvLoop sq upper env fuel A xstop (min A.rows A.cols) 0 P m

/-- The stopping level chosen by `armas_cholfactor_pv` (`src/lapack/cholpv.c:552-561`): `stop` and `smult` are the
fields of the configuration, `eps` the constant `EPS`. -/
def cholpvStop (m : Mem α) (A : View) (stop smult eps : α) : Res α :=
  if 0 < stop then pure stop
  else do
    let x ← amax m (diagRow A)
    if 0 < smult then pure (x * smult) else pure (x * (A.rows * eps))

/-- `armas_cholfactor_pv` (`src/lapack/cholpv.c:526-580`); `wsize` is the size of the workspace, `lb` the block
size of the environment, `blk` stands for the blocked functions. -/
def cholfactorPv (sq : α → α) (env : Env) (fuel : Nat)
    (blk : Mem α → α → Res (Nat × Piv × Mem α)) (m : Mem α) (A : View) (wsize : Nat) (P : Piv) (lb : Nat)
    (stop smult eps : α) (upper : Bool) : Res (Int × Piv × Mem α) :=
  if A.rows ≠ A.cols then .ok (-ESIZE, P, m)
  else if A.rows ≠ P.n then .ok (-ESIZE, P, m)
  else do
    let ws := if wsize < A.cols then 0 else wsize
    let xstop ← cholpvStop m A stop smult eps
    let (nrank, P, m) ← (if lb = 0 ∨ ws = 0 ∨ A.rows ≤ lb then unblkCholpv sq upper env fuel m A P xstop
      else blk m xstop)
    pure (if nrank = A.cols then 0 else (nrank : Int), P, m)

/-- `armas_cholsolve_pv` (`src/lapack/cholpv.c:600-653`), over any field. -/
def cholsolvePv (ab : α → α) (env : Env) (fuel : Nat) (m : Mem α) (B A : View)
    (P : Piv) (upper : Bool) (cbuf : Option Cache) : Res (Int × Mem α) :=
  if B.size = 0 ∨ A.size = 0 then .ok (0, m)
  else if A.rows ≠ A.cols ∨ A.cols ≠ B.rows then .ok (-ESIZE, m)
  else do
    let (_, m) ← pivot m B P .rows true
    let n := if P.n < A.cols then P.n else A.rows
    let m ← (if P.n < A.cols then do
        let (_, m) ← mscale m (B.sub P.n 0 (B.rows - P.n) B.cols) 0 .all false
        pure m
      else pure m)
    let (_, m) ← solveTrm ab env fuel m (B.sub 0 0 n B.cols) 1 (A.sub 0 0 n n)
      { left := true, upper := upper, lower := !upper, transA := upper } cbuf
    let (_, m) ← solveTrm ab env fuel m (B.sub 0 0 n B.cols) 1 (A.sub 0 0 n n)
      { left := true, upper := upper, lower := !upper, transA := !upper } cbuf
    let (_, m) ← pivot m B P .rows false
    pure (0, m)

end Armas
