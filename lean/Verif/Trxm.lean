import Verif.Kernel

/-!
# Triangular matrix-matrix multiply and solve

Model of `src/blas/trmm_unb.c`, `trmm_rec.c`, `trmm_blk.c`, `trmm.c` and `src/blas/trsm_unb.c`,
`trsm_rec.c`, `trsm_blk.c`, `trsm.c`.

The C functions come in pairs that do the same with the rows of `B` (`ARMAS_LEFT`) and with its columns
(`ARMAS_RIGHT`).  The model writes such a pair once: `lines right B p n` are `n` rows or columns of `B`
starting with number `p`.  Where the code takes the number of rows of `B` and the number of columns of
`A` for one another the model takes the columns of `A`; the entry points check that they are equal.
-/

namespace Armas

variable {α : Type}

/-- `armas_submatrix_unsafe(&B1, B, p, 0, n, B->cols)` for `ARMAS_LEFT` and
`armas_submatrix_unsafe(&B1, B, 0, p, B->rows, n)` for `ARMAS_RIGHT` (`src/blas/trmm_unb.c:53,185`);
`armas_row_unsafe` and `armas_column_unsafe` (`src/blas/trsm_unb.c:63,228`) for `n = 1`. -/
def lines (right : Bool) (B : View) (p n : Nat) : View :=
  if right then B.sub 0 p B.rows n else B.sub p 0 n B.cols

/-- `mat_partition_2x1` for `ARMAS_LEFT`, `mat_partition_1x2` for `ARMAS_RIGHT`, as called in
`src/blas/trmm_rec.c:65-67,152-153`; the first argument of the result is the top or left part. -/
def partLines (right : Bool) (B : View) (nb : Nat) (first : Bool) : View × View :=
  if right then partition1x2 B nb first else partition2x1 B nb first

section trmm
variable [Mul α] [Add α] [Zero α] [One α] [DecidableEq α]

/-- `scale = unit ? alpha : alpha * A[i,i]` (`src/blas/trmm_unb.c:56`). -/
def trmmScale (m : Mem α) (A : View) (alpha : α) (unit : Bool) (i : Nat) : Res α :=
  if unit then pure alpha else do
    let d ← rd m (A.at' i i)
    pure (alpha * d)

/-- The last line: `if (scale == ONE) return; armas_scale_unsafe(&b0, scale)`
(`src/blas/trmm_unb.c:59-63`). -/
def trmmLast (m : Mem α) (b0 A : View) (alpha : α) (unit : Bool) (i : Nat) : Res (Mem α) := do
  let s ← trmmScale m A alpha unit i
  if s = 1 then pure m else scaleUnsafe m b0 s

/-- `trmm_unb_lu`, `trmm_unb_llt`, `trmm_unb_rl`, `trmm_unb_rut` (`src/blas/trmm_unb.c:46-64,145-163,
211-228,242-260`): the lines of `B` from the first to the last; they differ in the vector `a0` of
off-diagonal elements of `A`.  For an empty `A` the last step would address line -1 (the entry points
return before). -/
def trmmUp (ab : α → α) (env : Env) (fuel : Nat) (right : Bool) (a0 : Nat → View) (m : Mem α) (B : View)
    (alpha : α) (A : View) (unit : Bool) : Res (Mem α) :=
  if A.cols = 0 then .ub
  else do
    let (i, m) ← forUp 0 (A.cols - 1) 1 (fun i m => do
      let s ← trmmScale m A alpha unit i
      mvmultUnsafe ab env fuel m s (lines right B i 1) alpha (lines right B (i + 1) (A.cols - i - 1))
        (a0 i) {transA := !right}) m
    trmmLast m (lines right B i 1) A alpha unit i

/-- `trmm_unb_lut`, `trmm_unb_ll`, `trmm_unb_ru`, `trmm_unb_rlt` (`src/blas/trmm_unb.c:79-97,112-130,
178-196,274-292`): the lines of `B` from the last to the first. -/
def trmmDown (ab : α → α) (env : Env) (fuel : Nat) (right : Bool) (a0 : Nat → View) (m : Mem α) (B : View)
    (alpha : α) (A : View) (unit : Bool) : Res (Mem α) :=
  if A.cols = 0 then .ub
  else do
    let m ← forDown (A.cols - 1) (fun k m => do
      let s ← trmmScale m A alpha unit (k + 1)
      mvmultUnsafe ab env fuel m s (lines right B (k + 1) 1) alpha (lines right B 0 (k + 1))
        (a0 (k + 1)) {transA := !right}) m
    trmmLast m (lines right B 0 1) A alpha unit 0

/-- `armas_trmm_unb` (`src/blas/trmm_unb.c:295-331`). -/
def trmmUnb (ab : α → α) (env : Env) (fuel : Nat) (m : Mem α) (B : View) (alpha : α) (A : View)
    (fl : Flags) : Res (Mem α) :=
  if fl.right then
    if fl.upper then
      if fl.transA then
        trmmUp ab env fuel true (fun i => A.sub i (i + 1) 1 (A.cols - i - 1)) m B alpha A fl.unit
      else trmmDown ab env fuel true (fun i => A.sub 0 i i 1) m B alpha A fl.unit
    else
      if fl.transA then trmmDown ab env fuel true (fun i => A.sub i 0 1 i) m B alpha A fl.unit
      else trmmUp ab env fuel true (fun i => A.sub (i + 1) i (A.cols - i - 1) 1) m B alpha A fl.unit
  else
    if fl.upper then
      if fl.transA then trmmDown ab env fuel false (fun i => A.sub 0 i i 1) m B alpha A fl.unit
      else trmmUp ab env fuel false (fun i => A.sub i (i + 1) 1 (A.cols - i - 1)) m B alpha A fl.unit
    else
      if fl.transA then
        trmmUp ab env fuel false (fun i => A.sub (i + 1) i (A.cols - i - 1) 1) m B alpha A fl.unit
      else trmmDown ab env fuel false (fun i => A.sub i 0 1 i) m B alpha A fl.unit

/-- The call of `armas_mult_kernel_nc` with an off-diagonal block `A0` and the lines `B0` of `B`
(`src/blas/trmm_rec.c:70-74,156-160`, `src/blas/trsm_rec.c:75-79,158-162`): operand order and transpose
flag of the `ARMAS_LEFT` and the `ARMAS_RIGHT` functions. -/
def offBlock (ab : α → α) (right : Bool) (m : Mem α) (B1 : View) (alpha : α) (A0 B0 : View) (trans : Bool)
    (abs : Bool) (c : Cache) : Res (Mem α) :=
  if right then multKernelNc ab m B1 alpha B0 A0 {transB := trans, absA := abs, absB := abs} c
  else multKernelNc ab m B1 alpha A0 B0 {transA := trans, absA := abs, absB := abs} c

/-- `mult_left_forward` (`src/blas/trmm_rec.c:47-76`) and `mult_right_forward`
(`src/blas/trmm_rec.c:132-163`). -/
def trmmFwdRec (ab : α → α) (env : Env) (right : Bool) (alpha : α) (fl : Flags) (c : Cache) :
    Nat → Mem α → View → View → Res (Mem α)
  | 0, _, _, _ => .diverge
  | fuel + 1, m, B, A =>
    if A.cols < env.blas2min then trmmUnb ab env fuel m B alpha A fl
    else
      let q := partition2x2 A (A.rows / 2) (A.cols / 2) .fwd
      let b := partLines right B (A.cols / 2) true
      do
      let m ← trmmFwdRec ab env right alpha fl c fuel m b.1 q.tl
      let m ← (if fl.upper then offBlock ab right m b.1 alpha q.tr b.2 right false c
        else offBlock ab right m b.1 alpha q.bl b.2 (!right) false c)
      trmmFwdRec ab env right alpha fl c fuel m b.2 q.br

/-- `mult_left_backward` (`src/blas/trmm_rec.c:90-119`) and `mult_right_backward`
(`src/blas/trmm_rec.c:177-207`). -/
def trmmBwdRec (ab : α → α) (env : Env) (right : Bool) (alpha : α) (fl : Flags) (c : Cache) :
    Nat → Mem α → View → View → Res (Mem α)
  | 0, _, _, _ => .diverge
  | fuel + 1, m, B, A =>
    if A.cols < env.blas2min then trmmUnb ab env fuel m B alpha A fl
    else
      let q := partition2x2 A (A.rows / 2) (A.cols / 2) .bwd
      let b := partLines right B (A.cols / 2) false
      do
      let m ← trmmBwdRec ab env right alpha fl c fuel m b.2 q.br
      let m ← (if fl.upper then offBlock ab right m b.2 alpha q.tr b.1 (!right) false c
        else offBlock ab right m b.2 alpha q.bl b.1 right false c)
      trmmBwdRec ab env right alpha fl c fuel m b.1 q.tl

/-- `armas_trmm_recursive` (`src/blas/trmm_rec.c:209-240`): dispatch on the exact combination of the
four bits. -/
def trmmRecursive (ab : α → α) (env : Env) (fuel : Nat) (m : Mem α) (B : View) (alpha : α) (A : View)
    (fl : Flags) (c : Cache) : Res (Mem α) :=
  match fl.right, fl.upper, fl.lower, fl.transA with
  | true, true, false, false => trmmBwdRec ab env true alpha fl c fuel m B A
  | true, false, true, true => trmmBwdRec ab env true alpha fl c fuel m B A
  | true, false, true, false => trmmFwdRec ab env true alpha fl c fuel m B A
  | true, true, false, true => trmmFwdRec ab env true alpha fl c fuel m B A
  | false, true, false, false => trmmFwdRec ab env false alpha fl c fuel m B A
  | false, false, true, true => trmmFwdRec ab env false alpha fl c fuel m B A
  | _, _, _, _ => trmmBwdRec ab env false alpha fl c fuel m B A

/-- `trmm_blk_upper`, `trmm_blk_l_trans`, `trmm_blk_ru_trans`, `trmm_blk_r_lower`
(`src/blas/trmm_blk.c:49-77,175-201,258-283,299-324`): blocks of lines from the first to the last. -/
def trmmBlkUp (ab : α → α) (env : Env) (fuel : Nat) (right : Bool) (A0 : Nat → Nat → View) (trans : Bool)
    (m : Mem α) (B : View) (alpha : α) (A : View) (fl : Flags) (c : Cache) : Res (Mem α) := do
  let (_, m) ← forUp 0 A.cols c.NB (fun i m => do
    let nI := if A.cols - i < c.NB then A.cols - i else c.NB
    let B1 := lines right B i nI
    let m ← trmmRecursive ab env fuel m B1 alpha (A.sub i i nI nI) fl c
    offBlock ab right m B1 alpha (A0 i nI) (lines right B (i + nI) (A.cols - i - nI)) trans fl.absA c) m
  pure m

/-- `trmm_blk_u_trans`, `trmm_blk_lower`, `trmm_blk_r_upper`, `trmm_blk_rl_trans`
(`src/blas/trmm_blk.c:91-119,135-160,217-242,340-366`): `for (i = A->cols; i > 0; i -= NB)`, with
`t = A->cols - i` as the loop counter here. -/
def trmmBlkDown (ab : α → α) (env : Env) (fuel : Nat) (right : Bool) (A0 : Nat → Nat → View) (trans : Bool)
    (m : Mem α) (B : View) (alpha : α) (A : View) (fl : Flags) (c : Cache) : Res (Mem α) := do
  let (_, m) ← forUp 0 A.cols c.NB (fun t m => do
    let i := A.cols - t
    let nI := if i < c.NB then i else c.NB
    let B1 := lines right B (i - nI) nI
    let m ← trmmRecursive ab env fuel m B1 alpha (A.sub (i - nI) (i - nI) nI nI) fl c
    offBlock ab right m B1 alpha (A0 (i - nI) nI) (lines right B 0 (i - nI)) trans fl.absA c) m
  pure m

/-- `armas_trmm_blk` (`src/blas/trmm_blk.c:368-407`). -/
def trmmBlk (ab : α → α) (env : Env) (fuel : Nat) (m : Mem α) (B : View) (alpha : α) (A : View)
    (fl : Flags) (c : Cache) : Res (Mem α) :=
  if fl.right then
    if fl.upper then
      if fl.transA then
        trmmBlkUp ab env fuel true (fun i n => A.sub i (i + n) n (A.cols - i - n)) true m B alpha A fl c
      else trmmBlkDown ab env fuel true (fun i n => A.sub 0 i i n) false m B alpha A fl c
    else
      if fl.transA then trmmBlkDown ab env fuel true (fun i n => A.sub i 0 n i) true m B alpha A fl c
      else trmmBlkUp ab env fuel true (fun i n => A.sub (i + n) i (A.cols - i - n) n) false m B alpha A fl c
  else
    if fl.upper then
      if fl.transA then trmmBlkDown ab env fuel false (fun i n => A.sub 0 i i n) true m B alpha A fl c
      else
        trmmBlkUp ab env fuel false (fun i n => A.sub i (i + n) n (A.cols - i - n)) false m B alpha A fl c
    else
      if fl.transA then
        trmmBlkUp ab env fuel false (fun i n => A.sub (i + n) i (A.cols - i - n) n) true m B alpha A fl c
      else trmmBlkDown ab env fuel false (fun i n => A.sub i 0 n i) false m B alpha A fl c

/-- The size check of `armas_mult_trm` and `armas_solve_trm` (`src/blas/trmm.c:75-89`,
`src/blas/trsm.c:77-91`). -/
def trxmSizes (B A : View) (fl : Flags) : Bool :=
  if fl.right ∧ ¬ fl.left then decide (B.cols = A.rows ∧ A.cols = A.rows)
  else decide (B.rows = A.cols ∧ A.cols = A.rows)

/-- `armas_mult_trm` (`src/blas/trmm.c:60-124`) without accelerators; `cbuf` as in `mult`. -/
def multTrm (ab : α → α) (env : Env) (fuel : Nat) (m : Mem α) (B : View) (alpha : α) (A : View)
    (fl : Flags) (cbuf : Option Cache) : Res (Int × Mem α) :=
  if B.size = 0 ∨ A.size = 0 then .ok (0, m)
  else if ¬ trxmSizes B A fl then .ok (-ESIZE, m)
  else if env.naive then do
    let m ← trmmUnb ab env fuel m B alpha A fl
    pure (0, m)
  else match cbuf with
    | none => .ok (-EMEMORY, m)
    | some c => do
      let m ← (if env.recursive then trmmRecursive ab env fuel m B alpha A fl c
        else trmmBlk ab env fuel m B alpha A fl c)
      pure (0, m)

end trmm

section trsm
variable [Field α] [DecidableEq α]

/-- The first line: `scal = unit ? alpha : alpha/A[i,i]; if (scal != ONE) armas_scale_unsafe(&b1, scal)`
(`src/blas/trsm_unb.c:63-66`). -/
def trsmFirst (m : Mem α) (b1 A : View) (alpha : α) (unit : Bool) (i : Nat) : Res (Mem α) := do
  let s ← (if unit then pure alpha else do
    let d ← rd m (A.at' i i)
    pure (alpha / d))
  if s ≠ 1 then scaleUnsafe m b1 s else pure m

/-- `if (!unit) armas_scale_unsafe(&b1, ONE/A[j,j])` (`src/blas/trsm_unb.c:74-75`). -/
def trsmDiag (m : Mem α) (b1 A : View) (unit : Bool) (j : Nat) : Res (Mem α) :=
  if unit then pure m else do
    let d ← rd m (A.at' j j)
    scaleUnsafe m b1 (1 / d)

/-- `solve_unblk_lut`, `solve_unblk_ll`, `solve_unblk_ru`, `solve_unblk_rlt` (`src/blas/trsm_unb.c:94-120,
135-161,217-243,341-367`): lines of `B` from the first to the last.  An empty `A` (the entry point
returns before) would address element (0,0). -/
def trsmUp (ab : α → α) (env : Env) (fuel : Nat) (right : Bool) (a1 : Nat → View) (m : Mem α) (B : View)
    (alpha : α) (A : View) (unit : Bool) : Res (Mem α) :=
  if A.cols = 0 then .ub
  else do
    let m ← trsmFirst m (lines right B 0 1) A alpha unit 0
    let (_, m) ← forUp 1 A.cols 1 (fun j m => do
      let m ← mvmultUnsafe ab env fuel m alpha (lines right B j 1) (-1) (lines right B 0 j) (a1 j)
        {transA := !right}
      trsmDiag m (lines right B j 1) A unit j) m
    pure m

/-- `solve_unblk_lu`, `solve_unblk_llt`, `solve_unblk_rut`, `solve_unblk_rl` (`src/blas/trsm_unb.c:52-77,
176-201,260-286,300-326`): lines of `B` from the last to the first. -/
def trsmDown (ab : α → α) (env : Env) (fuel : Nat) (right : Bool) (a1 : Nat → View) (m : Mem α) (B : View)
    (alpha : α) (A : View) (unit : Bool) : Res (Mem α) :=
  if A.cols = 0 then .ub
  else do
    let m ← trsmFirst m (lines right B (A.cols - 1) 1) A alpha unit (A.cols - 1)
    forDown (A.cols - 1) (fun j m => do
      let m ← mvmultUnsafe ab env fuel m alpha (lines right B j 1) (-1)
        (lines right B (j + 1) (A.cols - 1 - j)) (a1 j) {transA := !right}
      trsmDiag m (lines right B j 1) A unit j) m

/-- `armas_solve_unb` (`src/blas/trsm_unb.c:370-416`): dispatch on the exact combination of the three
bits. -/
def trsmUnb (ab : α → α) (env : Env) (fuel : Nat) (m : Mem α) (B : View) (alpha : α) (A : View)
    (fl : Flags) : Res (Mem α) :=
  match fl.right, fl.upper, fl.lower, fl.transA with
  | true, true, false, true =>
    trsmDown ab env fuel true (fun j => A.sub j (j + 1) 1 (A.cols - 1 - j)) m B alpha A fl.unit
  | true, true, false, false => trsmUp ab env fuel true (fun j => A.sub 0 j j 1) m B alpha A fl.unit
  | true, false, true, true => trsmUp ab env fuel true (fun j => A.sub j 0 1 j) m B alpha A fl.unit
  | true, _, _, _ =>
    trsmDown ab env fuel true (fun j => A.sub (j + 1) j (A.cols - 1 - j) 1) m B alpha A fl.unit
  | false, true, false, true => trsmUp ab env fuel false (fun j => A.sub 0 j j 1) m B alpha A fl.unit
  | false, true, false, false =>
    trsmDown ab env fuel false (fun j => A.sub j (j + 1) 1 (A.cols - 1 - j)) m B alpha A fl.unit
  | false, false, true, true =>
    trsmDown ab env fuel false (fun j => A.sub (j + 1) j (A.cols - 1 - j) 1) m B alpha A fl.unit
  | false, _, _, _ => trsmUp ab env fuel false (fun j => A.sub j 0 1 j) m B alpha A fl.unit

/-- `solve_left_forward` (`src/blas/trsm_rec.c:52-81`) and `solve_right_forward`
(`src/blas/trsm_rec.c:136-164`).  As in the code, `alpha` is applied to both parts. -/
def trsmFwdRec (ab : α → α) (env : Env) (right : Bool) (alpha : α) (fl : Flags) (c : Cache) :
    Nat → Mem α → View → View → Res (Mem α)
  | 0, _, _, _ => .diverge
  | fuel + 1, m, B, A =>
    if A.cols < env.blas2min then trsmUnb ab env fuel m B alpha A 
      { fl with right := fl.right || right, left := fl.left || !right }
    else
      let q := partition2x2 A (A.rows / 2) (A.cols / 2) .fwd
      let b := partLines right B (A.cols / 2) true
      do
      let m ← trsmFwdRec ab env right alpha fl c fuel m b.1 q.tl
      let m ← (if fl.upper then offBlock ab right m b.2 (-1) q.tr b.1 (!right) false c
        else offBlock ab right m b.2 (-1) q.bl b.1 right false c)
      trsmFwdRec ab env right alpha fl c fuel m b.2 q.br

/-- `solve_left_backward` (`src/blas/trsm_rec.c:101-129`) and `solve_right_backward`
(`src/blas/trsm_rec.c:170-198`). -/
def trsmBwdRec (ab : α → α) (env : Env) (right : Bool) (alpha : α) (fl : Flags) (c : Cache) :
    Nat → Mem α → View → View → Res (Mem α)
  | 0, _, _, _ => .diverge
  | fuel + 1, m, B, A =>
    if A.cols < env.blas2min then trsmUnb ab env fuel m B alpha A 
      { fl with right := fl.right || right, left := fl.left || !right }
    else
      let q := partition2x2 A (A.rows / 2) (A.cols / 2) .bwd
      let b := partLines right B (A.cols / 2) false
      do
      let m ← trsmBwdRec ab env right alpha fl c fuel m b.2 q.br
      let m ← (if fl.upper then offBlock ab right m b.1 (-1) q.tr b.2 right false c
        else offBlock ab right m b.1 (-1) q.bl b.2 (!right) false c)
      trsmBwdRec ab env right alpha fl c fuel m b.1 q.tl

/-- `armas_solve_recursive` (`src/blas/trsm_rec.c:200-230`). -/
def trsmRecursive (ab : α → α) (env : Env) (fuel : Nat) (m : Mem α) (B : View) (alpha : α) (A : View)
    (fl : Flags) (c : Cache) : Res (Mem α) :=
  match fl.right, fl.upper, fl.lower, fl.transA with
  | true, true, false, false => trsmFwdRec ab env true alpha fl c fuel m B A
  | true, false, true, true => trsmFwdRec ab env true alpha fl c fuel m B A
  | true, false, true, false => trsmBwdRec ab env true alpha fl c fuel m B A
  | true, true, false, true => trsmBwdRec ab env true alpha fl c fuel m B A
  | false, true, false, false => trsmBwdRec ab env false alpha fl c fuel m B A
  | false, false, true, true => trsmBwdRec ab env false alpha fl c fuel m B A
  | _, _, _, _ => trsmFwdRec ab env false alpha fl c fuel m B A

/-- Update of a block of lines in the blocked solve, `armas_mult_kernel(alpha, &B1, -ONE, …)`
(`src/blas/trsm_blk.c:84,138,193,250`).  The `ARMAS_LEFT` functions hand over all their flags, the
`ARMAS_RIGHT` functions only `ARMAS_TRANSB`. -/
def trsmUpdate (ab : α → α) (right : Bool) (m : Mem α) (alpha : α) (B1 A0 B0 : View) (transB : Bool)
    (fl : Flags) (c : Cache) : Res (Mem α) :=
  if right then multKernel ab m alpha B1 (-1) B0 A0 {transB := transB} c
  else multKernel ab m alpha B1 (-1) A0 B0 fl c

/-- `solve_blk_lut_ll` (`src/blas/trsm_blk.c:108-141`) and `solve_blk_ru_rlt`
(`src/blas/trsm_blk.c:162-196`). -/
def trsmBlkUp (ab : α → α) (env : Env) (fuel : Nat) (right : Bool) (m : Mem α) (B : View) (alpha : α)
    (A : View) (fl : Flags) (c : Cache) : Res (Mem α) := do
  let fl' := { fl with right := fl.right || right, left := fl.left || !right }
  let nI := if c.NB < A.cols then c.NB else A.cols
  let m ← trsmRecursive ab env fuel m (lines right B 0 nI) alpha (A.sub 0 0 nI nI) fl' c
  let (_, m) ← forUp c.NB A.cols c.NB (fun i m => do
    let nI := if i < A.cols - c.NB then c.NB else A.cols - i
    let A0 := if fl.upper then A.sub 0 i i nI else A.sub i 0 nI i
    let m ← trsmUpdate ab right m alpha (lines right B i nI) A0 (lines right B 0 i) fl.lower fl c
    trsmRecursive ab env fuel m (lines right B i nI) 1 (A.sub i i nI nI) fl' c) m
  pure m

/-- `solve_blk_lu_llt` (`src/blas/trsm_blk.c:53-87`) and `solve_blk_rut_rl`
(`src/blas/trsm_blk.c:217-253`).  `for (i = A->cols-NB; i > 0; i -= NB)`, with `t = A->cols - i` as the
loop counter here.  The `ARMAS_RIGHT` function exchanges the sizes of `A0`, which the kernel does not
use. -/
def trsmBlkDown (ab : α → α) (env : Env) (fuel : Nat) (right : Bool) (m : Mem α) (B : View) (alpha : α)
    (A : View) (fl : Flags) (c : Cache) : Res (Mem α) := do
  let fl' := { fl with right := fl.right || right, left := fl.left || !right }
  let nI := if c.NB < A.cols then c.NB else A.cols
  let cI := if c.NB < A.cols then A.cols - c.NB else 0
  let m ← trsmRecursive ab env fuel m (lines right B cI nI) alpha (A.sub cI cI nI nI) fl' c
  let (_, m) ← forUp c.NB A.cols c.NB (fun t m => do
    let i := A.cols - t
    let nI := if i < c.NB then i else c.NB
    let cI := if i < c.NB then 0 else i - c.NB
    let A0 := if right then (if fl.upper then A.sub cI i (A.rows - i) nI else A.sub i cI nI (A.cols - i))
      else (if fl.upper then A.sub cI i nI (A.cols - i) else A.sub i cI (A.cols - i) nI)
    let m ← trsmUpdate ab right m alpha (lines right B cI nI) A0 (lines right B i (A.cols - i)) fl.upper
      fl c
    trsmRecursive ab env fuel m (lines right B cI nI) 1 (A.sub cI cI nI nI) fl' c) m
  pure m

/-- `armas_solve_blocked` (`src/blas/trsm_blk.c:255-283`); there is no default case. -/
def trsmBlk (ab : α → α) (env : Env) (fuel : Nat) (m : Mem α) (B : View) (alpha : α) (A : View)
    (fl : Flags) (c : Cache) : Res (Mem α) :=
  match fl.right, fl.upper, fl.lower, fl.transA with
  | true, true, false, false => trsmBlkUp ab env fuel true m B alpha A fl c
  | true, false, true, true => trsmBlkUp ab env fuel true m B alpha A fl c
  | true, false, true, false => trsmBlkDown ab env fuel true m B alpha A fl c
  | true, true, false, true => trsmBlkDown ab env fuel true m B alpha A fl c
  | false, true, false, false => trsmBlkDown ab env fuel false m B alpha A fl c
  | false, false, true, true => trsmBlkDown ab env fuel false m B alpha A fl c
  | false, false, true, false => trsmBlkUp ab env fuel false m B alpha A fl c
  | false, true, false, true => trsmBlkUp ab env fuel false m B alpha A fl c
  | _, _, _, _ => .ok m

/-- `armas_solve_trm` (`src/blas/trsm.c:61-126`) without accelerators; `cbuf` as in `mult`. -/
def solveTrm (ab : α → α) (env : Env) (fuel : Nat) (m : Mem α) (B : View) (alpha : α) (A : View)
    (fl : Flags) (cbuf : Option Cache) : Res (Int × Mem α) :=
  if B.size = 0 ∨ A.size = 0 then .ok (0, m)
  else if ¬ trxmSizes B A fl then .ok (-ESIZE, m)
  else if env.naive then do
    let m ← trsmUnb ab env fuel m B alpha A fl
    pure (0, m)
  else match cbuf with
    | none => .ok (-EMEMORY, m)
    | some c => do
      let m ← (if env.recursive then trsmRecursive ab env fuel m B alpha A fl c
        else trsmBlk ab env fuel m B alpha A fl c)
      pure (0, m)

end trsm

end Armas
