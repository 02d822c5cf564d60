import Verif.Lu

/-!
# Model of `src/lapack/invtrm.c`

Exact arithmetic in a field.  The partition walks appear as loops over the position of the diagonal block and
explicit sub-matrices; the block size is clamped to what is left as in `mat_repartition_2x2to3x3`
(`src/include/partition.h`).  Not modelled: `conf->error`.
-/

namespace Armas

variable {α : Type} [Field α] [DecidableEq α]

/-- One pass of the loop in `unblk_inverse_upper` (`src/lapack/invtrm.c:54-82`).  The flag `ARMAS_UNIT` is
not handed to `armas_mvmult_trm` (line 76). -/
def unblkInvUpperStep (ab : α → α) (env : Env) (fuel : Nat) (A : View) (unit : Bool) (k : Nat)
    (st : Int × Mem α) : Res (Int × Mem α) := do
  let (err, m) := st
  if unit then do
    let (_, m) ← mvmultTrm ab env fuel m (A.sub 0 k k 1) (-1) (A.sub 0 0 k k) { upper := true }
    pure (err, m)
  else do
    let x ← rd m (A.at' k k)
    if x = 0 then pure (-1, m)
    else do
      let m ← wr m (A.at' k k) (1 / x)
      let (_, m) ← mvmultTrm ab env fuel m (A.sub 0 k k 1) (-(1 / x)) (A.sub 0 0 k k) { upper := true }
      pure (err, m)

/-- `unblk_inverse_upper` (`src/lapack/invtrm.c:38-84`). -/
def unblkInvUpper (ab : α → α) (env : Env) (fuel : Nat) (m : Mem α) (A : View) (unit : Bool) :
    Res (Int × Mem α) := do
  let (_, st) ← forUp 0 (min A.rows A.cols) 1 (unblkInvUpperStep ab env fuel A unit) (0, m)
  pure st

/-- One pass of the loop in `blk_inverse_upper` (`src/lapack/invtrm.c:97-116`). -/
def blkInvUpperStep (ab : α → α) (env : Env) (fuel : Nat) (A : View) (unit : Bool) (lb : Nat)
    (cbuf : Option Cache) (k : Nat) (st : Int × Mem α) : Res (Int × Mem α) := do
  let (err, m) := st
  let nb := min lb (min (A.rows - k) (A.cols - k))
  let (_, m) ← multTrm ab env fuel m (A.sub 0 k k nb) 1 (A.sub 0 0 k k)
    { left := true, upper := true, unit := unit } cbuf
  let (_, m) ← solveTrm ab env fuel m (A.sub 0 k k nb) (-1) (A.sub k k nb nb)
    { right := true, upper := true, unit := unit } cbuf
  let (e, m) ← unblkInvUpper ab env fuel m (A.sub k k nb nb) unit
  pure (if e ≠ 0 ∧ err = 0 then -1 else err, m)

/-- `blk_inverse_upper` (`src/lapack/invtrm.c:86-118`). -/
def blkInvUpper (ab : α → α) (env : Env) (fuel : Nat) (m : Mem α) (A : View) (unit : Bool) (lb : Nat)
    (cbuf : Option Cache) : Res (Int × Mem α) := do
  let (_, st) ← forUp 0 (min A.rows A.cols) lb (blkInvUpperStep ab env fuel A unit lb cbuf) (0, m)
  pure st

/-- One pass of the loop in `unblk_inverse_lower` (`src/lapack/invtrm.c:138-166`), `k` the position of `a11`.
The flag `ARMAS_UNIT` is not handed to `armas_mvmult_trm` (line 160). -/
def unblkInvLowerStep (ab : α → α) (env : Env) (fuel : Nat) (A : View) (unit : Bool) (k : Nat)
    (st : Int × Mem α) : Res (Int × Mem α) := do
  let (err, m) := st
  let n := A.rows - k - 1
  if unit then do
    let (_, m) ← mvmultTrm ab env fuel m (A.sub (k + 1) k n 1) (-1) (A.sub (k + 1) (k + 1) n n) { lower := true }
    pure (err, m)
  else do
    let x ← rd m (A.at' k k)
    if x = 0 then pure (-1, m)
    else do
      let m ← wr m (A.at' k k) (1 / x)
      let (_, m) ← mvmultTrm ab env fuel m (A.sub (k + 1) k n 1) (-(1 / x)) (A.sub (k + 1) (k + 1) n n)
        { lower := true }
      pure (err, m)

/-- `unblk_inverse_lower` (`src/lapack/invtrm.c:120-168`) of a square matrix: from the last diagonal element
to the first. -/
def unblkInvLower (ab : α → α) (env : Env) (fuel : Nat) (m : Mem α) (A : View) (unit : Bool) :
    Res (Int × Mem α) :=
  forDown A.rows (unblkInvLowerStep ab env fuel A unit) (0, m)

/-- One pass of the loop in `blk_inverse_lower` (`src/lapack/invtrm.c:185-204`), `s` rows are done. -/
def blkInvLowerStep (ab : α → α) (env : Env) (fuel : Nat) (A : View) (unit : Bool) (lb : Nat)
    (cbuf : Option Cache) (s : Nat) (st : Int × Mem α) : Res (Int × Mem α) := do
  let (err, m) := st
  let nb := min lb (A.rows - s)
  let k := A.rows - s - nb
  let (_, m) ← multTrm ab env fuel m (A.sub (k + nb) k s nb) 1 (A.sub (k + nb) (k + nb) s s)
    { left := true, lower := true, unit := unit } cbuf
  let (_, m) ← solveTrm ab env fuel m (A.sub (k + nb) k s nb) (-1) (A.sub k k nb nb)
    { right := true, lower := true, unit := unit } cbuf
  let (e, m) ← unblkInvLower ab env fuel m (A.sub k k nb nb) unit
  pure (if e ≠ 0 ∧ err = 0 then -1 else err, m)

/-- `blk_inverse_lower` (`src/lapack/invtrm.c:171-206`) of a square matrix. -/
def blkInvLower (ab : α → α) (env : Env) (fuel : Nat) (m : Mem α) (A : View) (unit : Bool) (lb : Nat)
    (cbuf : Option Cache) : Res (Int × Mem α) := do
  let (_, st) ← forUp 0 A.rows lb (blkInvLowerStep ab env fuel A unit lb cbuf) (0, m)
  pure st

/-- `armas_inverse_trm` (`src/lapack/invtrm.c:222-249`); `lb` is `env->lb`, of `flags` the bits `ARMAS_LOWER`
and `ARMAS_UNIT` are looked at. -/
def inverseTrm (ab : α → α) (env : Env) (lb fuel : Nat) (m : Mem α) (A : View) (fl : Flags)
    (cbuf : Option Cache) : Res (Int × Mem α) :=
  if A.rows ≠ A.cols then .ok (-ESIZE, m)
  else if A.rows = 0 then .ok (0, m)
  else if lb = 0 ∨ A.cols ≤ lb then
    if fl.lower then unblkInvLower ab env fuel m A fl.unit else unblkInvUpper ab env fuel m A fl.unit
  else if fl.lower then blkInvLower ab env fuel m A fl.unit lb cbuf
  else blkInvUpper ab env fuel m A fl.unit lb cbuf

end Armas
