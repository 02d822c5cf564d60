import Verif.Pivot
import Verif.Trxm

/-!
# Model of `src/lapack/lu.c`

Exact arithmetic in an ordered field; a division by zero has Lean's value `x/0 = 0` (the theorems exclude it
or do not look at the values).  The 2x2/3x3 partition walks (`src/include/partition.h`, modelled in
`Verif.Views`) appear as loops over the position `k` of the diagonal block and explicit sub-matrices of `A`;
the loop condition `ABR.rows > 0 && ABR.cols > 0` is `k < min(A.rows, A.cols)`.  Pivot vectors are values
(`Piv`) that are returned.  Not modelled: `conf->error`; a null `A`.
-/

namespace Armas

variable {α : Type}

section nopiv
variable [Field α] [DecidableEq α]

/-- One pass of the loop in `unblk_lufactor_nopiv` (`src/lapack/lu.c:46-63`). -/
def unblkLuNopivStep (env : Env) (fuel : Nat) (A : View) (k : Nat) (m : Mem α) : Res (Mem α) := do
  let x ← rd m (A.at' k k)
  let (_, m) ← scale m (A.sub (k + 1) k (A.rows - k - 1) 1) (1 / x)
  let (_, m) ← mvupdate env fuel m 1 (A.sub (k + 1) (k + 1) (A.rows - k - 1) (A.cols - k - 1)) (-1)
    (A.sub (k + 1) k (A.rows - k - 1) 1) (A.sub k (k + 1) 1 (A.cols - k - 1))
  pure m

/-- `unblk_lufactor_nopiv` (`src/lapack/lu.c:36-65`). -/
def unblkLuNopiv (env : Env) (fuel : Nat) (m : Mem α) (A : View) : Res (Int × Mem α) := do
  let (_, m) ← forUp 0 (min A.rows A.cols) 1 (unblkLuNopivStep env fuel A) m
  pure (0, m)

/-- One pass of the loop in `blk_lufactor_nopiv` (`src/lapack/lu.c:77-97`). -/
def blkLuNopivStep (ab : α → α) (env : Env) (fuel : Nat) (A : View) (lb : Nat) (cbuf : Option Cache) (k : Nat)
    (m : Mem α) : Res (Mem α) := do
  let A11 := A.sub k k lb lb
  let A12 := A.sub k (k + lb) lb (A.cols - k - lb)
  let A21 := A.sub (k + lb) k (A.rows - k - lb) lb
  let A22 := A.sub (k + lb) (k + lb) (A.rows - k - lb) (A.cols - k - lb)
  let (_, m) ← unblkLuNopiv env fuel m A11
  let (_, m) ← solveTrm ab env fuel m A12 1 A11 { left := true, lower := true, unit := true } cbuf
  let (_, m) ← solveTrm ab env fuel m A21 1 A11 { right := true, upper := true } cbuf
  let (_, m) ← mult ab m 1 A22 (-1) A21 A12 {} cbuf
  pure m

/-- `blk_lufactor_nopiv` (`src/lapack/lu.c:68-104`) for `lb > 0`. -/
def blkLuNopiv (ab : α → α) (env : Env) (fuel : Nat) (m : Mem α) (A : View) (lb : Nat)
    (cbuf : Option Cache) : Res (Int × Mem α) := do
  let (k, m) ← forUp 0 (min A.rows A.cols - lb) lb (blkLuNopivStep ab env fuel A lb cbuf) m
  if A.rows - k > 0 ∧ A.cols - k > 0 then do
    let (_, m) ← unblkLuNopiv env fuel m (A.sub k k (A.rows - k) (A.cols - k))
    pure (0, m)
  else pure (0, m)

end nopiv

/-- `subpivot` (`src/include/pivot.h`): `n` elements of `P` from position `s`. -/
def Piv.sub (P : Piv) (s n : Nat) : Piv := ⟨n, fun l => P.ix (s + l)⟩

/-- The effect on `P` of assigning the elements of its part of `n` elements from position `s`. -/
def Piv.put (P : Piv) (s n : Nat) (Q : Piv) : Piv :=
  { P with ix := fun l => if s ≤ l ∧ l < s + n then Q.ix (l - s) else P.ix l }

section piv
variable [Field α] [LinearOrder α]

/-- One pass of the loop in `unblk_lufactor` (`src/lapack/lu.c:127-178`) at diagonal position `k`; the parts
`p0` and `p1` of the pivot vector are clamped to its length (`src/include/pivot.h:96-118`). -/
def unblkLuStep (ab : α → α) (env : Env) (fuel : Nat) (A : View) (k : Nat) (st : Int × Mem α × Piv) :
    Res (Int × Mem α × Piv) := do
  let (_, m, P) := st
  let nT := min k P.n
  let n1 := min 1 (P.n - nT)
  let a01 := A.sub 0 k k 1
  let a21 := A.sub (k + 1) k (A.rows - k - 1) 1
  let aB0 := A.sub k k (A.rows - k) 1
  let (_, m) ← pivotLines false m (A.sub 0 k A.rows 1) (P.sub 0 nT) true
  let (_, m) ← mvsolveTrm ab env fuel m a01 1 (A.sub 0 0 k k) { left := true, lower := true, unit := true }
  let x ← rd m (A.at' k k)
  let aa ← dot fuel m env.blas1min env.naive (A.sub k 0 1 k) a01
  let m ← wr m (A.at' k k) (x - aa)
  let (err, m) ← mvmult ab env fuel m 1 a21 (-1) (A.sub (k + 1) 0 (A.rows - k - 1) k) a01 {}
  let i ← iamax m aB0
  let P := P.set nT (i + 1)
  let (_, m) ← pivotLines false m aB0 (P.sub nT n1) true
  let x ← rd m (A.at' k k)
  let (err, m) ← (if x = 0 then pure (-1, m)
    else do
      let (_, m) ← scale m a21 (1 / x)
      pure (err, m))
  let (_, m) ← pivotLines false m (A.sub k 0 (A.rows - k) k) (P.sub nT n1) true
  pure (err, m, P.set nT (i + 1 + k))

/-- The columns right of the square part (`src/lapack/lu.c:180-185,259-264`), `r` columns are factored. -/
def luRight (ab : α → α) (env : Env) (fuel : Nat) (m : Mem α) (A : View) (P : Piv) (r : Nat)
    (cbuf : Option Cache) : Res (Mem α) :=
  if A.cols - r > 0 then do
    let (_, m) ← pivotLines false m (A.sub 0 r r (A.cols - r)) P true
    let (_, m) ← solveTrm ab env fuel m (A.sub 0 r r (A.cols - r)) 1 (A.sub 0 0 r r)
      { left := true, unit := true, lower := true } cbuf
    pure m
  else pure m

/-- `unblk_lufactor` (`src/lapack/lu.c:110-187`); the argument `offset` is not used by the code. -/
def unblkLu (ab : α → α) (env : Env) (fuel : Nat) (m : Mem α) (A : View) (P : Piv) (cbuf : Option Cache) :
    Res (Int × Mem α × Piv) := do
  let (_, err, m, P) ← forUp 0 (min A.rows A.cols) 1 (unblkLuStep ab env fuel A) (0, m, P)
  let m ← luRight ab env fuel m A P (min A.rows A.cols) cbuf
  pure (err, m, P)

/-- One pass of the loop in `blk_lufactor` (`src/lapack/lu.c:214-257`); `nb` is the block size clamped by
`mat_repartition_2x2to3x3`; `AB0` is `mat_merge2x1` of the two adjacent blocks. -/
def blkLuStep (ab : α → α) (env : Env) (fuel : Nat) (A : View) (lb : Nat) (cbuf : Option Cache) (k : Nat)
    (st : Int × Mem α × Piv) : Res (Int × Mem α × Piv) := do
  let (_, m, P) := st
  let nb := min lb (min (A.rows - k) (A.cols - k))
  let nT := min k P.n
  let n1 := min nb (P.n - nT)
  let A01 := A.sub 0 k k nb
  let (_, m) ← pivotLines false m (A.sub 0 k A.rows nb) (P.sub 0 nT) true
  let (_, m) ← solveTrm ab env fuel m A01 1 (A.sub 0 0 k k) { left := true, lower := true, unit := true } cbuf
  let (_, m) ← mult ab m 1 (A.sub k k nb nb) (-1) (A.sub k 0 nb k) A01 {} cbuf
  let (_, m) ← mult ab m 1 (A.sub (k + nb) k (A.rows - k - nb) nb) (-1) (A.sub (k + nb) 0 (A.rows - k - nb) k)
    A01 {} cbuf
  let (err, m, p1) ← unblkLu ab env fuel m (A.sub k k (A.rows - k) nb) (P.sub nT n1) cbuf
  let (_, m) ← pivotLines false m (A.sub k 0 (A.rows - k) k) p1 true
  pure (err, m, P.put nT n1 ⟨n1, fun l => p1.ix l + k⟩)

/-- `blk_lufactor` (`src/lapack/lu.c:195-266`) for `lb > 0`. -/
def blkLu (ab : α → α) (env : Env) (fuel : Nat) (m : Mem α) (A : View) (P : Piv) (lb : Nat)
    (cbuf : Option Cache) : Res (Int × Mem α × Piv) := do
  let (_, err, m, P) ← forUp 0 (min A.rows A.cols) lb (blkLuStep ab env fuel A lb cbuf) (0, m, P)
  let m ← luRight ab env fuel m A P (min A.rows A.cols) cbuf
  pure (err, m, P)

/-- `armas_lufactor` (`src/lapack/lu.c:291-313`), `lb` is `env->lb`; without a pivot vector (`none`) the
factorization is computed without pivoting. -/
def lufactor (ab : α → α) (env : Env) (lb fuel : Nat) (m : Mem α) (A : View) (P : Option Piv)
    (cbuf : Option Cache) : Res (Int × Mem α × Option Piv) :=
  if lb = 0 ∨ A.cols ≤ lb ∨ A.rows ≤ lb then
    match P with
    | some P => do
      let (err, m, P) ← unblkLu ab env fuel m A P cbuf
      pure (err, m, some P)
    | none => do
      let (err, m) ← unblkLuNopiv env fuel m A
      pure (err, m, none)
  else
    match P with
    | some P => do
      let (err, m, P) ← blkLu ab env fuel m A P lb cbuf
      pure (err, m, some P)
    | none => do
      let (err, m) ← blkLuNopiv ab env fuel m A lb cbuf
      pure (err, m, none)

/-- `armas_lusolve` (`src/lapack/lu.c:342-373`). -/
def lusolve (ab : α → α) (env : Env) (fuel : Nat) (m : Mem α) (B A : View) (P : Option Piv) (fl : Flags)
    (cbuf : Option Cache) : Res (Int × Mem α) :=
  if ¬ (B.rows = A.cols ∧ A.rows = A.cols) then .ok (-ESIZE, m)
  else do
    let m ← (match P with
      | some P => do
        let (_, m) ← pivotLines false m B P true
        pure m
      | none => pure m)
    if fl.transA then do
      let (_, m) ← solveTrm ab env fuel m B 1 A { left := true, lower := true, unit := true, transA := true } cbuf
      let (_, m) ← solveTrm ab env fuel m B 1 A { left := true, upper := true, transA := true } cbuf
      pure (0, m)
    else do
      let (_, m) ← solveTrm ab env fuel m B 1 A { left := true, lower := true, unit := true } cbuf
      let (_, m) ← solveTrm ab env fuel m B 1 A { left := true, upper := true } cbuf
      pure (0, m)

end piv

end Armas
