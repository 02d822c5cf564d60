import Verif.SparseMv

/-!
# Triangular sparse matrix times vector

Model of `src/sparse/trmv.c`.  `x` is the first cell of the vector; the element arrays are those of `Sp`.
-/

namespace Armas

variable {α : Type}

/-- One update `x[A->ix[k]] += alpha * Ae[k] * xj` (`src/sparse/trmv.c:35`, `93`, `118`, `173`). -/
def addAt [Mul α] [Add α] (A : Sp α) (x : Nat) (alpha xj : α) (k : Nat) (m : Mem α) : Res (Mem α) := do
  let c ← rd A.ix k
  let t ← rd m (x + c)
  let a ← rd A.v k
  wr m (x + c) (t + alpha * a * xj)

/-- One update `xv += Ae[k] * x[A->ix[k]]` (`src/sparse/trmv.c:59`, `77`, `139`, `157`). -/
def mulAt [Mul α] [Add α] (A : Sp α) (x : Nat) (m : Mem α) (k : Nat) (xv : α) : Res α := do
  let a ← rd A.v k
  let c ← rd A.ix k
  let t ← rd m (x + c)
  pure (xv + a * t)

/-- The element of the diagonal (`src/sparse/trmv.c:37-42`, `96-100`, `121-125`, `176-180`), `k` the position where it is expected, `none` for
a position before the array. -/
def trmDiag [Mul α] [Zero α] (A : Sp α) (x j : Nat) (alpha xj : α) (unit : Bool) (k : Option Nat) (m : Mem α) : Res (Mem α) :=
  if unit then wr m (x + j) (alpha * xj)
  else match k with
    | none => .ub
    | some k => do
      let c ← rd A.ix k
      if c = j then do
        let a ← rd A.v k
        wr m (x + j) (alpha * a * xj)
      else wr m (x + j) 0

/-- `for (; k < A->ptr[j + 1] && A->ix[k] < lim; k++) x[A->ix[k]] += ...` (`src/sparse/trmv.c:34-36`, `172-174`).  The first argument is
`A->ptr[j + 1] - k`. -/
def addWhile [Mul α] [Add α] (A : Sp α) (x : Nat) (alpha xj : α) (lim : Nat) : Nat → Nat → Mem α → Res (Nat × Mem α)
  | 0, k, m => pure (k, m)
  | f + 1, k, m => do
    let c ← rd A.ix k
    if c < lim then do
      let m ← addAt A x alpha xj k m
      addWhile A x alpha xj lim f (k + 1) m
    else pure (k, m)

/-- `for (k = A->ptr[j]; k < A->ptr[j + 1] && A->ix[k] <= j - unit; k++) xv += ...` (`src/sparse/trmv.c:76-78`, `138-140`), `lim` is
`j - unit + 1`.  The first argument is `A->ptr[j + 1] - k`. -/
def mulWhile [Mul α] [Add α] (A : Sp α) (x : Nat) (m : Mem α) (lim : Nat) : Nat → Nat → α → Res α
  | 0, _, xv => pure xv
  | f + 1, k, xv => do
    let c ← rd A.ix k
    if c < lim then do
      let xv ← mulAt A x m k xv
      mulWhile A x m lim f (k + 1) xv
    else pure xv

/-- `for (k = A->ptr[j + 1] - 1; k >= A->ptr[j] && A->ix[k] > j; k--) x[A->ix[k]] += ...` (`src/sparse/trmv.c:92-94`), `p0` is `A->ptr[j]`.
The argument is `k + 1`, and so is the result. -/
def addDown [Mul α] [Add α] (A : Sp α) (x : Nat) (alpha xj : α) (j p0 : Nat) : Nat → Mem α → Res (Nat × Mem α)
  | 0, m => pure (0, m)
  | k + 1, m =>
    if p0 ≤ k then do
      let c ← rd A.ix k
      if j < c then do
        let m ← addAt A x alpha xj k m
        addDown A x alpha xj j p0 k m
      else pure (k + 1, m)
    else pure (k + 1, m)

/-- The index `k - 1` (`src/sparse/trmv.c:41`; in `csr_mvmult_ut`, `src/sparse/trmv.c:99`, the model counts `k + 1`). -/
def prevIx (k : Nat) : Option Nat := if k = 0 then none else some (k - 1)

/-- `j + unit` (`src/sparse/trmv.c:57`, `115`, `155`). -/
def plusUnit (j : Nat) (unit : Bool) : Nat := if unit then j + 1 else j

/-- Body of `csc_mvmult_un` (`src/sparse/trmv.c:33-43`). -/
def cscTrmUnStep [Mul α] [Add α] [Zero α] (A : Sp α) (x : Nat) (alpha : α) (unit : Bool) (j : Nat) (m : Mem α) : Res (Mem α) := do
  let xj ← rd m (x + j)
  let p0 ← rd A.ptr j
  let p1 ← rd A.ptr (j + 1)
  let (k, m) ← addWhile A x alpha xj (j + 1) (p1 - p0) p0 m
  trmDiag A x j alpha xj unit (prevIx k) m

/-- Body of `csr_mvmult_un` and of `csc_mvmult_lt` (`src/sparse/trmv.c:55-61`, `153-159`). -/
def trmSkipStep [Mul α] [Add α] [Zero α] (A : Sp α) (x : Nat) (alpha : α) (unit : Bool) (j : Nat) (m : Mem α) : Res (Mem α) := do
  let xj ← rd m (x + j)
  let p0 ← rd A.ptr j
  let k ← skipUp A.ix (plusUnit j unit) (A.nnz - p0) p0
  let p1 ← rd A.ptr (j + 1)
  let (_, xv) ← forUp k p1 1 (fun k xv => mulAt A x m k xv) (if unit then xj else 0)
  wr m (x + j) (alpha * xv)

/-- Body of `csc_mvmult_ut` and of `csr_mvmult_ln` (`src/sparse/trmv.c:74-79`, `137-141`). -/
def trmHeadStep [Mul α] [Add α] [Zero α] (A : Sp α) (x : Nat) (alpha : α) (unit : Bool) (j : Nat) (m : Mem α) : Res (Mem α) := do
  let xj ← rd m (x + j)
  let p0 ← rd A.ptr j
  let p1 ← rd A.ptr (j + 1)
  let xv ← mulWhile A x m (if unit then j else j + 1) (p1 - p0) p0 (if unit then xj else 0)
  wr m (x + j) (alpha * xv)

/-- Body of `csr_mvmult_ut` (`src/sparse/trmv.c:91-101`). -/
def csrTrmUtStep [Mul α] [Add α] [Zero α] (A : Sp α) (x : Nat) (alpha : α) (unit : Bool) (j : Nat) (m : Mem α) : Res (Mem α) := do
  let xj ← rd m (x + j)
  let p1 ← rd A.ptr (j + 1)
  let p0 ← rd A.ptr j
  let (k, m) ← addDown A x alpha xj j p0 p1 m
  trmDiag A x j alpha xj unit (prevIx k) m

/-- Body of `csc_mvmult_ln` (`src/sparse/trmv.c:113-126`). -/
def cscTrmLnStep [Mul α] [Add α] [Zero α] (A : Sp α) (x : Nat) (alpha : α) (unit : Bool) (j : Nat) (m : Mem α) : Res (Mem α) := do
  let xj ← rd m (x + j)
  let p0 ← rd A.ptr j
  let k ← skipUp A.ix (plusUnit j unit) (A.nnz - p0) p0
  let p1 ← rd A.ptr (j + 1)
  let (_, m) ← forUp k p1 1 (fun i m => addAt A x alpha xj i m) m
  trmDiag A x j alpha xj unit (some k) m

/-- Body of `csr_mvmult_lt` (`src/sparse/trmv.c:170-181`). -/
def csrTrmLtStep [Mul α] [Add α] [Zero α] (A : Sp α) (x : Nat) (alpha : α) (unit : Bool) (j : Nat) (m : Mem α) : Res (Mem α) := do
  let xj ← rd m (x + j)
  let p0 ← rd A.ptr j
  let p1 ← rd A.ptr (j + 1)
  let (k, m) ← addWhile A x alpha xj j (p1 - p0) p0 m
  trmDiag A x j alpha xj unit (some k) m

/-- A loop over all rows or columns in ascending order (`src/sparse/trmv.c:32`, `54`, `152`, `169`). -/
def trmUp (n : Nat) (step : Nat → Mem α → Res (Mem α)) (m : Mem α) : Res (Mem α) := do
  let (_, m) ← forUp 0 n 1 step m
  pure m

/-- The `switch` of `armassp_mvmult_trm` (`src/sparse/trmv.c:224-252`) with the loops of the eight functions. -/
def spTrmSwitch [Mul α] [Add α] [Zero α] (A : Sp α) (x : Nat) (alpha : α) (upper lower trans unit : Bool) (m : Mem α) : Res (Mem α) :=
  if upper && lower then
    (if A.kind = .csr then forDown A.rows (fun j m => trmHeadStep A x alpha unit j m) m
     else forDown A.cols (fun j m => cscTrmLnStep A x alpha unit j m) m)
  else if upper && trans then
    (if A.kind = .csr then forDown A.rows (fun j m => csrTrmUtStep A x alpha unit j m) m
     else forDown A.cols (fun j m => trmHeadStep A x alpha unit j m) m)
  else if upper then
    (if A.kind = .csr then trmUp A.rows (fun j m => trmSkipStep A x alpha unit j m) m
     else trmUp A.cols (fun j m => cscTrmUnStep A x alpha unit j m) m)
  else if trans then
    (if A.kind = .csr then trmUp A.rows (fun j m => csrTrmLtStep A x alpha unit j m) m
     else trmUp A.cols (fun j m => trmSkipStep A x alpha unit j m) m)
  else
    (if A.kind = .csr then forDown A.rows (fun j m => trmHeadStep A x alpha unit j m) m
     else forDown A.cols (fun j m => cscTrmLnStep A x alpha unit j m) m)

/-- `armassp_mvmult_trm` (`src/sparse/trmv.c:203-254`). -/
def spMvmultTrm [Mul α] [Add α] [Zero α] (X : View) (alpha : α) (A : Sp α) (upper lower trans unit : Bool) (m : Mem α) : Res (Int × Mem α) :=
  if A.kind = .coo then pure (-3, m)
  else if (if !trans then X.size != A.cols else X.size != A.rows) then pure (-1, m)
  else do
    let m ← spTrmSwitch A X.base alpha upper lower trans unit m
    pure (0, m)

end Armas
