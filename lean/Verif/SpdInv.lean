import Verif.LuInv
import Verif.Symm
import Verif.Updtrm
import Verif.Blas1

/-!
# Model of `src/lapack/invspd.c`

Exact arithmetic in a field.  The partition walks from the bottom right corner (`src/include/partition.h`) appear
as loops over what is done; the block size is clamped to what is left.  The status is 0 or minus the code the function
leaves in `conf->error` (it returns -1 for all of them).  Not modelled: `conf->error`, a null `A`, the
workspace query (`wb->bytes == 0`) and the allocating wrapper `armas_cholinverse`.
-/

namespace Armas

variable {α : Type} [Field α] [DecidableEq α]

/-- One pass of the loops in `unblk_invpsd_lower` (`src/lapack/invspd.c:49-80`, `up = false`) and `unblk_invpsd_upper`
(`src/lapack/invspd.c:163-190`, `up = true`), `k` the position of `a11`; `w` is the address of the work space, a column
of `ws` elements.  The return from inside the loop is a state with `err ≠ 0`, which the remaining passes keep. -/
def unblkSpdStep (ab : α → α) (env : Env) (fuel : Nat) (A : View) (up : Bool) (w ws k : Nat) (st : Int × Mem α) :
    Res (Int × Mem α) := do
  let (err, m) := st
  if err ≠ 0 then pure (err, m)
  else do
    let n := A.rows - k - 1
    let x ← rd m (A.at' k k)
    if x = 0 then pure (-ESINGULAR, m)
    else do
      let a21 := if up then A.sub k (k + 1) 1 n else A.sub (k + 1) k n 1
      let l21 : View := ⟨w, ws, n, 1⟩
      let (_, m) ← copyVec m l21 a21
      let (_, m) ← mvmultSym ab env fuel m 0 a21 (-1 / x) (A.sub (k + 1) (k + 1) n n) l21
        (if up then { upper := true, transA := true } else { lower := true })
      let udot ← dot fuel m env.blas1min env.naive a21 l21
      let m ← wr m (A.at' k k) ((1 / x - udot) / x)
      pure (0, m)

/-- `unblk_invpsd_lower` (`src/lapack/invspd.c:33-82`) and `unblk_invpsd_upper` (`src/lapack/invspd.c:147-192`) of a
square matrix. -/
def unblkSpd (ab : α → α) (env : Env) (fuel : Nat) (m : Mem α) (A : View) (up : Bool) (w ws : Nat) :
    Res (Int × Mem α) :=
  forDown A.rows (unblkSpdStep ab env fuel A up w ws) (0, m)

/-- One pass of the loop in `blk_invpsd_lower` (`src/lapack/invspd.c:115-143`), `s` columns are done. -/
def blkSpdLowerStep (ab : α → α) (env : Env) (fuel : Nat) (A : View) (w lb : Nat) (cbuf : Option Cache) (s : Nat)
    (st : Int × Mem α) : Res (Int × Mem α) := do
  let (err, m) := st
  let nb := min lb (A.rows - s)
  let k := A.rows - s - nb
  let L21 : View := ⟨w + lb, s, s, nb⟩
  let (_, m) ← mcopy m L21 (A.sub (k + nb) k s nb) false
  let (_, m) ← multSym ab m 0 (A.sub (k + nb) k s nb) (-1) (A.sub (k + nb) (k + nb) s s) L21 { lower := true } cbuf
  let (_, m) ← solveTrm ab env fuel m (A.sub (k + nb) k s nb) 1 (A.sub k k nb nb) { lower := true, right := true } cbuf
  let (_, m) ← solveTrm ab env fuel m L21 1 (A.sub k k nb nb) { lower := true, right := true } cbuf
  let (e, m) ← unblkSpd ab env fuel m (A.sub k k nb nb) false w lb
  let err := if e < 0 ∧ err = 0 then -ESINGULAR else err
  let (_, m) ← updateTrm ab env fuel m 1 (A.sub k k nb nb) (-1) (A.sub (k + nb) k s nb) L21
    { transA := true, lower := true } cbuf
  pure (err, m)

/-- `blk_invpsd_lower` (`src/lapack/invspd.c:99-145`) of a square matrix. -/
def blkSpdLower (ab : α → α) (env : Env) (fuel : Nat) (m : Mem α) (A : View) (w lb : Nat) (cbuf : Option Cache) :
    Res (Int × Mem α) := do
  let (_, st) ← forUp 0 A.rows lb (blkSpdLowerStep ab env fuel A w lb cbuf) (0, m)
  pure st

/-- One pass of the loop in `blk_invpsd_upper` (`src/lapack/invspd.c:225-253`), `s` rows are done. -/
def blkSpdUpperStep (ab : α → α) (env : Env) (fuel : Nat) (A : View) (w lb : Nat) (cbuf : Option Cache) (s : Nat)
    (st : Int × Mem α) : Res (Int × Mem α) := do
  let (err, m) := st
  let nb := min lb (A.rows - s)
  let k := A.rows - s - nb
  let U12 : View := ⟨w + lb, nb, nb, s⟩
  let (_, m) ← mcopy m U12 (A.sub k (k + nb) nb s) false
  let (_, m) ← multSym ab m 0 (A.sub k (k + nb) nb s) (-1) (A.sub (k + nb) (k + nb) s s) U12
    { right := true, upper := true } cbuf
  let (_, m) ← solveTrm ab env fuel m (A.sub k (k + nb) nb s) 1 (A.sub k k nb nb) { left := true, upper := true } cbuf
  let (_, m) ← solveTrm ab env fuel m U12 1 (A.sub k k nb nb) { left := true, upper := true } cbuf
  let (e, m) ← unblkSpd ab env fuel m (A.sub k k nb nb) true w lb
  let err := if e < 0 ∧ err = 0 then -ESINGULAR else err
  let (_, m) ← updateTrm ab env fuel m 1 (A.sub k k nb nb) (-1) U12 (A.sub k (k + nb) nb s)
    { upper := true, transB := true } cbuf
  pure (err, m)

/-- `blk_invpsd_upper` (`src/lapack/invspd.c:209-255`) of a square matrix. -/
def blkSpdUpper (ab : α → α) (env : Env) (fuel : Nat) (m : Mem α) (A : View) (w lb : Nat) (cbuf : Option Cache) :
    Res (Int × Mem α) := do
  let (_, st) ← forUp 0 A.rows lb (blkSpdUpperStep ab env fuel A w lb cbuf) (0, m)
  pure st

/-- `armas_cholinverse_w` (`src/lapack/invspd.c:273-342`) with a work space of `ws` elements at `w`; `elb` is the
configured block size. -/
def cholinverseW (ab : α → α) (env : Env) (elb fuel : Nat) (m : Mem α) (A : View) (fl : Flags) (w ws : Nat)
    (cbuf : Option Cache) : Res (Int × Mem α) :=
  if A.rows ≠ A.cols then .ok (-ESIZE, m)
  else if ws < A.rows then .ok (-EWORK, m)
  else
    let lb := invBlock elb A.rows ws
    if lb = 0 ∨ A.rows ≤ lb then unblkSpd ab env fuel m A (!fl.lower) w ws
    else if fl.lower then blkSpdLower ab env fuel m A w lb cbuf
    else blkSpdUpper ab env fuel m A w lb cbuf

end Armas
