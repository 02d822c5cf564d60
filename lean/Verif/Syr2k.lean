import Verif.Updtrm

/-!
# Symmetric rank-2k update

Model of `src/blas/syr2k.c`.  The versions for the transposed operands
(`update_syr2k_trans_unb`, `update_syr2k_trans_recursive`) are the same as the others with rows and columns of the
operands exchanged; one definition with the parameter `fl.transA` stands for both.  Partitions are
given by their indices (see `Verif/Views.lean` and C02 for the partition functions).
-/

namespace Armas

variable {α : Type}

section
variable [Mul α] [Add α] [Zero α] [One α] [DecidableEq α]

/-- `update_syr2k_unb` (`src/blas/syr2k.c:31-88`) and `update_syr2k_trans_unb`
(`src/blas/syr2k.c:128-182`); `rowsOf fl X` takes rows of `X`, or columns with `fl.transA`. -/
def syr2kUnb (ab : α → α) (env : Env) (fuel : Nat) (m : Mem α) (beta : α) (A : View) (alpha : α)
    (X Y : View) (fl : Flags) : Res (Mem α) := do
  let (_, m) ← forUp 0 (min A.rows A.cols) 1 (fun i m => do
    let ak ← adotUnsafe fuel m env.blas1min 0 ((1 + 1) * alpha) (rowsOf fl X i 1) (rowsOf fl Y i 1)
    let a11 ← rd m (A.at' i i)
    let m ← wr m (A.at' i i) (ak + a11 * beta)
    let a := if fl.upper then A.sub 0 i i 1 else A.sub i 0 1 i
    let m ← mvmultUnsafe ab env fuel m beta a alpha (rowsOf fl Y 0 i) (rowsOf fl X i 1)
      { transA := fl.transA }
    mvmultUnsafe ab env fuel m 1 a alpha (rowsOf fl X 0 i) (rowsOf fl Y i 1)
      { transA := fl.transA }) m
  pure m

/-- `update_syr2k_recursive` (`src/blas/syr2k.c:90-126`) and `update_syr2k_trans_recursive`
(`src/blas/syr2k.c:184-220`); `lb` is `minblock`, `fuel` bounds the depth of the recursion. -/
def syr2kRec (ab : α → α) (env : Env) (lb : Nat) (c : Cache) (beta alpha : α) (fl : Flags) :
    Nat → Mem α → View → View → View → Res (Mem α)
  | 0, _, _, _, _ => .diverge
  | fuel + 1, m, A, X, Y =>
    if A.rows < lb then syr2kUnb ab env fuel m beta A alpha X Y fl
    else do
      let h := A.rows / 2
      let n := A.rows - h
      let kfl : Flags := { transA := fl.transA, transB := !fl.transA }
      let m ← syr2kRec ab env lb c beta alpha fl fuel m (A.sub 0 0 h h) (rowsOf fl X 0 h) (rowsOf fl Y 0 h)
      let m ← (if fl.upper then do
          let m ← multKernel ab m beta (A.sub 0 h h (A.cols - h)) alpha (rowsOf fl X 0 h)
            (rowsOf fl Y h (nRows fl Y - h)) kfl c
          multKernelNc ab m (A.sub 0 h h (A.cols - h)) alpha (rowsOf fl Y 0 h)
            (rowsOf fl X h (nRows fl X - h)) kfl c
        else do
          let m ← multKernel ab m beta (A.sub h 0 n h) alpha (rowsOf fl X h (nRows fl X - h))
            (rowsOf fl Y 0 h) kfl c
          multKernelNc ab m (A.sub h 0 n h) alpha (rowsOf fl Y h (nRows fl Y - h))
            (rowsOf fl X 0 h) kfl c)
      syr2kRec ab env lb c beta alpha fl fuel m (A.sub h h n (A.cols - h)) (rowsOf fl X h (nRows fl X - h))
        (rowsOf fl Y h (nRows fl Y - h))

/-- `armas_update2_sym` (`src/blas/syr2k.c:246-299`); `ARMAS_TRANS` is `fl.transA`, `lb` the setting
`env->lb`, `cbuf` as in `mult`. -/
def update2Sym (ab : α → α) (env : Env) (lb : Nat) (fuel : Nat) (m : Mem α) (beta : α) (C : View)
    (alpha : α) (A B : View) (fl : Flags) (cbuf : Option Cache) : Res (Int × Mem α) :=
  if C.size = 0 ∨ A.size = 0 ∨ B.size = 0 then .ok (0, m)
  else if ¬ (A.rows = B.rows ∧ A.cols = B.cols ∧ C.rows = C.cols ∧
      if fl.transA then C.rows = A.cols else C.rows = A.rows) then .ok (-1, m)
  else if env.naive then do
    let m ← syr2kUnb ab env fuel m beta C alpha A B fl
    pure (0, m)
  else match cbuf with
    | none => .ok (-EMEMORY, m)
    | some c => do
      let m ← syr2kRec ab env lb c beta alpha fl fuel m C A B
      pure (0, m)

end

end Armas
