import Verif.Kernel

/-!
# Symmetric matrix-matrix multiplication

Model of `src/blas/symm.c` and of the two copy functions that it uses (`src/include/matcpy.h`).
-/

namespace Armas

variable {α : Type}

/-- `d[q] = s[p]`. -/
def cpElem (m : Mem α) (p q : Nat) : Res (Mem α) := do
  let v ← rd m p
  wr m q v

/-- `d[j + j*ldD] = unit ? 1.0 : s[j + j*ldS]`. -/
def cpDiag [One α] (m : Mem α) (D S : View) (unit : Bool) (j : Nat) : Res (Mem α) :=
  if unit then wr m (D.at' j j) 1 else cpElem m (S.at' j j) (D.at' j j)

/-- `colcpy_fill_low` (`src/include/matcpy.h:131-146`). -/
def fillLow [One α] (m : Mem α) (D S : View) (nC : Nat) (unit : Bool) : Res (Mem α) := do
  let (_, m) ← forUp 0 nC 1 (fun j m => do
    let (_, m) ← forUp 0 j 1 (fun i m => do
      let m ← cpElem m (S.at' i j) (D.at' i j)
      cpElem m (S.at' i j) (D.at' j i)) m
    cpDiag m D S unit j) m
  pure m

/-- `colcpy_fill_up` (`src/include/matcpy.h:151-167`). -/
def fillUp [One α] (m : Mem α) (D S : View) (nC : Nat) (unit : Bool) : Res (Mem α) := do
  let (_, m) ← forUp 0 nC 1 (fun j m => do
    let m ← cpDiag m D S unit j
    let (_, m) ← forUp (j + 1) nC 1 (fun i m => do
      let m ← cpElem m (S.at' i j) (D.at' i j)
      cpElem m (S.at' i j) (D.at' j i)) m
    pure m) m
  pure m

section symm
variable [Mul α] [Add α] [Zero α] [One α] [DecidableEq α]

/-- `mult_symm_diag` (`src/blas/symm.c:34-79`). -/
def symmDiag (ab : α → α) (m : Mem α) (C : View) (alpha : α) (A B : View) (fl : Flags) (c : Cache) :
    Res (Mem α) := do
  let Acpy := c.A A.rows A.cols
  let m ← (if fl.lower then fillUp m Acpy A A.cols fl.unit else fillLow m Acpy A A.cols fl.unit)
  if fl.right then
    if fl.transB then do
      let m ← cpBlk ab m (c.B B.rows B.cols) B B.rows B.cols fl
      kernelInner m C alpha (c.B B.rows B.cols) Acpy c.rb
    else do
      let m ← cpBlkTrans ab m (c.B B.cols B.rows) B B.rows B.cols fl
      kernelInner m C alpha (c.B B.cols B.rows) Acpy c.rb
  else
    if fl.transB then do
      let m ← cpBlkTrans ab m (c.B B.cols B.rows) B B.rows B.cols fl
      kernelInner m C alpha Acpy (c.B B.cols B.rows) c.rb
    else do
      let m ← cpBlk ab m (c.B B.rows B.cols) B B.rows B.cols fl
      kernelInner m C alpha Acpy (c.B B.rows B.cols) c.rb

/-- The block of `B` or `B^T` for the inner indices `k,…,k+nk-1` and the block `j,…,j+nJ-1` of `C`
(`src/blas/symm.c:142-146,152-156,166-170` for `ARMAS_LEFT`, `:239-243,248-252,261-267` for
`ARMAS_RIGHT`). -/
def symmOpB (right transB : Bool) (B : View) (k nk j nJ : Nat) : View :=
  if right then (if transB then B.sub k j nk nJ else B.sub j k nJ nk)
  else (if transB then B.sub j k nJ nk else B.sub k j nk nJ)

/-- One block of the result (`src/blas/symm.c:130-171` for `ARMAS_LEFT`, `:230-268` for
`ARMAS_RIGHT`): `i, nI` is the range of rows of `A` that belongs to the block, `j, nJ` the range in
the other direction. -/
def symmBlock (ab : α → α) (right : Bool) (m : Mem α) (beta : α) (C : View) (alpha : α) (A B : View)
    (fl : Flags) (c : Cache) (i nI j nJ : Nat) : Res (Mem α) := do
  let flags1 : Flags := if right then { transA := fl.transB, transB := !fl.upper }
    else { transA := fl.upper, transB := fl.transB }
  let flags2 : Flags := if right then { transA := fl.transB, transB := fl.upper }
    else { transA := !fl.upper, transB := fl.transB }
  let C0 := if right then C.sub j i nJ nI else C.sub i j nI nJ
  let m ← scaleUnsafe m C0 beta
  let A0 := if fl.upper then A.sub 0 i i nI else A.sub i 0 nI i
  let B0 := symmOpB right fl.transB B 0 i j nJ
  let m ← (if right then multKernelNc ab m C0 alpha B0 A0 flags1 c
    else multKernelNc ab m C0 alpha A0 B0 flags1 c)
  let m ← symmDiag ab m C0 alpha (A.sub i i nI nI) (symmOpB right fl.transB B i nI j nJ) fl c
  let A0 := if fl.upper then A.sub i (i + nI) nI (A.cols - (i + nI))
    else A.sub (i + nI) i (A.cols - (i + nI)) nI
  let nB := if right then (if fl.transB then B.rows else B.cols)
    else (if fl.transB then B.cols else B.rows)
  let B0 := symmOpB right fl.transB B (i + nI) (nB - (i + nI)) j nJ
  if right then multKernelNc ab m C0 alpha B0 A0 flags2 c
  else multKernelNc ab m C0 alpha A0 B0 flags2 c

/-- `armas_mult_symm_left` (`src/blas/symm.c:82-174`) and `armas_mult_symm_right`
(`src/blas/symm.c:178-271`) for the offset `P = 0`, the only value that `armas_mult_sym` uses.
The functions differ in the roles of rows and columns of `C` and are written once here. -/
def symmSide (ab : α → α) (right : Bool) (m : Mem α) (beta : α) (C : View) (alpha : α) (A B : View)
    (fl : Flags) (c : Cache) : Res (Mem α) :=
  if alpha = 0 then (if beta ≠ 1 then scaleUnsafe m C beta else pure m)
  else do
    let mb := if C.rows < c.MB then C.rows else c.MB
    let nb := if C.cols < c.NB then C.cols else c.NB
    let nl := if right then C.cols else C.rows
    let nq := if right then C.rows else C.cols
    let bi := if right then nb else mb
    let bj := if right then mb else nb
    let (_, m) ← forUp 0 nl bi (fun i m => do
      let nI := if nl - i < bi then nl - i else bi
      let (_, m) ← forUp 0 nq bj (fun j m =>
        symmBlock ab right m beta C alpha A B fl c i nI j (if nq - j < bj then nq - j else bj)) m
      pure m) m
    pure m

/-- The size check of `armas_mult_sym` (`src/blas/symm.c:320-350`). -/
def symmSizes (C A B : View) (fl : Flags) : Bool :=
  match fl.left, fl.right, fl.transB with
  | false, true, true =>
    decide (C.rows = B.cols ∧ C.cols = A.cols ∧ B.rows = A.rows ∧ A.rows = A.cols)
  | false, true, false =>
    decide (C.rows = B.rows ∧ C.cols = A.cols ∧ B.cols = A.rows ∧ A.rows = A.cols)
  | _, false, true =>
    decide (C.rows = A.rows ∧ C.cols = B.rows ∧ A.cols = B.cols ∧ A.rows = A.cols)
  | _, _, _ =>
    decide (C.rows = A.rows ∧ C.cols = B.cols ∧ A.cols = B.rows ∧ A.rows = A.cols)

/-- `armas_mult_sym` (`src/blas/symm.c:303-382`) without accelerators; `cbuf` as in `mult`. -/
def multSym (ab : α → α) (m : Mem α) (beta : α) (C : View) (alpha : α) (A B : View) (fl : Flags)
    (cbuf : Option Cache) : Res (Int × Mem α) :=
  if C.rows = 0 ∨ C.cols = 0 then .ok (0, m)
  else if A.size = 0 ∨ B.size = 0 then .ok (0, m)
  else if ¬ symmSizes C A B fl then .ok (-ESIZE, m)
  else match cbuf with
    | none => .ok (-EMEMORY, m)
    | some c => do
      let m ← symmSide ab fl.right m beta C alpha A B fl c
      pure (0, m)

end symm

end Armas
