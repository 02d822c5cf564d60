import Verif.Inv
import Verif.MatOps

/-!
# Model of `src/lapack/inv.c`

Exact arithmetic in a field.  The two partition walks from the bottom right corner
(`src/include/partition.h`) appear as loops over the columns that are done; the block size is clamped to what is
left.  Not modelled: `conf->error`, a null `A`, the workspace query (`wb->bytes == 0`) and the allocating
wrapper `armas_luinverse`.
-/

namespace Armas

variable {α : Type} [Field α] [DecidableEq α]

/-- `src/include/armas.h:136`. -/
def EWORK : Int := 5

/-- One pass of the loop in `unblk_inverse_fused` (`src/lapack/inv.c:60-99`), `k` the position of `a11`, `w` the
address of the work space. -/
def unblkLuInvStep (ab : α → α) (env : Env) (fuel : Nat) (A : View) (w k : Nat) (st : Int × Mem α) :
    Res (Int × Mem α) := do
  let (err, m) := st
  let n := A.rows - k - 1
  let x ← rd m (A.at' k k)
  if x = 0 then pure (if err = 0 then -1 else err, m)
  else do
    let m ← wr m (A.at' k k) (1 / x)
    let (_, m) ← mvsolveTrm ab env fuel m (A.sub 0 k k 1) (-(1 / x)) (A.sub 0 0 k k) { upper := true }
    let l21 : View := ⟨w, n, n, 1⟩
    let (_, m) ← copyVec m l21 (A.sub (k + 1) k n 1)
    let (_, m) ← scale m (A.sub (k + 1) k n 1) 0
    let (_, m) ← mvmult ab env fuel m 1 (A.sub 0 k A.rows 1) (-1) (A.sub 0 (k + 1) A.rows n) l21 {}
    pure (err, m)

/-- `unblk_inverse_fused` (`src/lapack/inv.c:40-102`) of a square matrix. -/
def unblkLuInv (ab : α → α) (env : Env) (fuel : Nat) (m : Mem α) (A : View) (w : Nat) : Res (Int × Mem α) :=
  forDown A.rows (unblkLuInvStep ab env fuel A w) (0, m)

/-- One pass of the loop in `blk_inverse_fused` (`src/lapack/inv.c:123-160`), `s` columns are done; `elb` is the
block size of the run-time configuration, which `armas_inverse_trm` uses. -/
def blkLuInvStep (ab : α → α) (env : Env) (elb fuel : Nat) (A : View) (w lb : Nat) (cbuf : Option Cache) (s : Nat)
    (st : Int × Mem α) : Res (Int × Mem α) := do
  let (err, m) := st
  let nb := min lb (A.rows - s)
  let k := A.rows - s - nb
  let (e, m) ← inverseTrm ab env elb fuel m (A.sub k k nb nb) { upper := true } cbuf
  let err := if e < 0 ∧ err = 0 then e else err
  let (_, m) ← multTrm ab env fuel m (A.sub 0 k k nb) 1 (A.sub k k nb nb) { right := true, upper := true } cbuf
  let (_, m) ← solveTrm ab env fuel m (A.sub 0 k k nb) (-1) (A.sub 0 0 k k) { left := true, upper := true } cbuf
  let LB : View := ⟨w, nb + s, nb + s, nb⟩
  let (_, m) ← mcopy m LB (A.sub k k (nb + s) nb) false
  let (_, m) ← mscale m (A.sub k k nb nb) 0 .lower true
  let (_, m) ← mscale m (A.sub (k + nb) k s nb) 0 .all false
  let (_, m) ← mult ab m 1 (A.sub 0 k A.rows nb) (-1) (A.sub 0 (k + nb) A.rows s) (LB.sub nb 0 s nb) {} cbuf
  let (_, m) ← solveTrm ab env fuel m (A.sub 0 k A.rows nb) 1 (LB.sub 0 0 nb nb)
    { right := true, lower := true, unit := true } cbuf
  pure (err, m)

/-- `blk_inverse_fused` (`src/lapack/inv.c:104-163`) of a square matrix. -/
def blkLuInv (ab : α → α) (env : Env) (elb fuel : Nat) (m : Mem α) (A : View) (w lb : Nat) (cbuf : Option Cache) :
    Res (Int × Mem α) := do
  let (_, st) ← forUp 0 A.rows lb (blkLuInvStep ab env elb fuel A w lb cbuf) (0, m)
  pure st

/-- The block size that fits into a work space of `ws` elements (`src/lapack/inv.c:245-253`,
`src/lapack/invspd.c:311-319`); 32 is `ARMAS_BLOCKING_MIN`. -/
def invBlock (elb rows ws : Nat) : Nat :=
  if elb < rows ∧ ws < elb * rows then
    if ws / rows / 4 * 4 < 32 then 0 else ws / rows / 4 * 4
  else elb

/-- `armas_luinverse_w` (`src/lapack/inv.c:210-269`) with a work space of `ws` elements at `w`; `elb` is the
configured block size. -/
def luinverseW (ab : α → α) (env : Env) (elb fuel : Nat) (m : Mem α) (A : View) (P : Option Piv) (w ws : Nat)
    (cbuf : Option Cache) : Res (Int × Mem α) :=
  if A.rows ≠ A.cols ∨ P.any (fun Q => Q.n ≠ A.rows) then .ok (-ESIZE, m)
  else if ws < A.rows then .ok (-EWORK, m)
  else do
    let lb := invBlock elb A.rows ws
    let (err, m) ← (if lb = 0 ∨ A.rows ≤ lb then unblkLuInv ab env fuel m A w
      else blkLuInv ab env elb fuel m A w lb cbuf)
    match P with
    | some Q =>
      if err = 0 then do
        let (_, m) ← pivot m A Q .cols false
        pure (err, m)
      else pure (err, m)
    | none => pure (err, m)

end Armas
