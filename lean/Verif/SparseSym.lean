import Verif.SparseMv

/-!
# Symmetric sparse matrix times vector

Model of `src/sparse/symv.c`.  The simplifications are those of `Verif.SparseMv`.
-/

namespace Armas

variable {α : Type}

/-- `for (k = A->ptr[j]; A->ix[k] < j && k < A->ptr[j+1]; k++);` (`src/sparse/symv.c:113`): the index is read before the bound is tested.
The first argument is `A->ptr[j+1] - k`. -/
def skipUpTo (ix : Mem Nat) (j : Nat) : Nat → Nat → Res Nat
  | 0, k => do
    let _ ← rd ix k
    pure k
  | f + 1, k => do
    let c ← rd ix k
    if c < j then skipUpTo ix j f (k + 1) else pure k

/-- `for (k = A->ptr[j+1] - 1; A->ix[k] > j && k >= A->ptr[j]; k--);` (`src/sparse/symv.c:145`), `p0` is `A->ptr[j]`.  The argument is
`k + 1`; `k` = -1 is outside the array. -/
def skipDownTo (ix : Mem Nat) (j p0 : Nat) : Nat → Res Nat
  | 0 => .ub
  | k + 1 => do
    let c ← rd ix k
    if j < c ∧ p0 ≤ k then skipDownTo ix j p0 k else pure k

/-- The loop body `yk += x[A->ix[k]] * Ae[k]; y[A->ix[k]] += ax * Ae[k]` (`src/sparse/symv.c:120-123`, `152-155`). -/
def symPair [Mul α] [Add α] (A : Sp α) (y x : Nat) (ax : α) (k : Nat) (st : α × Mem α) : Res (α × Mem α) := do
  let c ← rd A.ix k
  let t ← rd st.2 (x + c)
  let a ← rd A.v k
  let u ← rd st.2 (y + c)
  let m ← wr st.2 (y + c) (u + ax * a)
  pure (st.1 + t * a, m)

/-- Body of the column loop of `csc_mvmult_lsym` (`src/sparse/symv.c:111-124`). -/
def lsymStep [Mul α] [Add α] [Zero α] (A : Sp α) (y x : Nat) (alpha : α) (j : Nat) (m : Mem α) : Res (Mem α) := do
  let xj ← rd m (x + j)
  let ax := alpha * xj
  let p0 ← rd A.ptr j
  let p1 ← rd A.ptr (j + 1)
  let k ← skipUpTo A.ix j (p1 - p0) p0
  let c ← rd A.ix k
  let (yk, k) ← (if c = j then do
      let t ← rd m (x + c)
      let a ← rd A.v k
      pure (t * a, k + 1)
    else pure (0, k) : Res (α × Nat))
  let (_, yk, m) ← forUp k p1 1 (fun k st => symPair A y x ax k st) (yk, m)
  let t ← rd m (y + j)
  wr m (y + j) (t + alpha * yk)

/-- Body of the column loop of `csc_mvmult_usym` (`src/sparse/symv.c:143-156`). -/
def usymStep [Mul α] [Add α] [Zero α] (A : Sp α) (y x : Nat) (alpha : α) (j : Nat) (m : Mem α) : Res (Mem α) := do
  let xj ← rd m (x + j)
  let ax := alpha * xj
  let p1 ← rd A.ptr (j + 1)
  let p0 ← rd A.ptr j
  let k ← skipDownTo A.ix j p0 p1
  let c ← rd A.ix k
  let (yk, e) ← (if c = j then do
      let t ← rd m (x + c)
      let a ← rd A.v k
      pure (t * a, k)
    else pure (0, k + 1) : Res (α × Nat))
  let (_, yk, m) ← forUp p0 e 1 (fun k st => symPair A y x ax k st) (yk, m)
  let t ← rd m (y + j)
  wr m (y + j) (t + alpha * yk)

/-- `if (beta != ONE) y *= beta` (`src/sparse/symv.c:105-108`, `137-140`). -/
def symScale [Mul α] [One α] [DecidableEq α] (n : Nat) (beta : α) (y : Nat) (m : Mem α) : Res (Mem α) :=
  if beta ≠ 1 then do
    let (_, m) ← forUp 0 n 1 (fun i m => do
      let t ← rd m (y + i)
      wr m (y + i) (t * beta)) m
    pure m
  else pure m

/-- `csc_mvmult_lsym` (`src/sparse/symv.c:98-127`). -/
def cscMvmultLsym [Mul α] [Add α] [Zero α] [One α] [DecidableEq α] (beta : α) (y : Nat) (alpha : α) (A : Sp α) (x : Nat) (m : Mem α) :
    Res (Mem α) := do
  let m ← symScale A.rows beta y m
  let (_, m) ← forUp 0 A.cols 1 (fun j m => lsymStep A y x alpha j m) m
  pure m

/-- `csc_mvmult_usym` (`src/sparse/symv.c:130-159`). -/
def cscMvmultUsym [Mul α] [Add α] [Zero α] [One α] [DecidableEq α] (beta : α) (y : Nat) (alpha : α) (A : Sp α) (x : Nat) (m : Mem α) :
    Res (Mem α) := do
  let m ← symScale A.rows beta y m
  forDown A.cols (fun j m => usymStep A y x alpha j m) m

/-- `armassp_mvmult_sym` (`src/sparse/symv.c:182-226`).  `upper`, `lower`, `trans` are the flags `ARMAS_UPPER`, `ARMAS_LOWER` and
`ARMAS_TRANS`; the size test is that of `armassp_mvmult`, with the same precedence of `&&` and `?:`. -/
def spMvmultSym [Mul α] [Add α] [Zero α] [One α] [DecidableEq α] (beta : α) (Y : View) (alpha : α) (A : Sp α) (X : View)
    (upper lower trans : Bool) (m : Mem α) : Res (Int × Mem α) :=
  if A.kind = .coo then pure (-3, m)
  else if !spMvOk Y.size X.size A trans then pure (-1, m)
  else do
    let m ← (if upper && !lower then
        (if A.kind = .csr then cscMvmultLsym beta Y.base alpha A X.base m else cscMvmultUsym beta Y.base alpha A X.base m)
      else
        (if A.kind = .csr then cscMvmultUsym beta Y.base alpha A X.base m else cscMvmultLsym beta Y.base alpha A X.base m))
    pure (0, m)

end Armas
