import Verif.Sparse
import Verif.Blas1

/-!
# Sparse matrix times vector, triangular solve, incomplete LU

Model of `src/sparse/gemv.c`, `src/sparse/trsv.c` and `src/sparse/iluz.c`.

The dense vectors live in the memory `m`, element `k` of a vector with data pointer (`armas_data`) `b` is the cell `b + k`: the code
assumes a contiguous vector.  The arrays of the sparse matrix are separate from `m` (they are other allocations); a bound such as
`A->ptr[j+1]` tested in every round of a loop is read once, the loops do not write it.
-/

namespace Armas

variable {α : Type}

/-! ## Product -/

/-- The two loops `y := beta*y` over `n` elements and `y += (alpha*x[j]) * column j` over `nm` columns of `csc_mvmult`
(`src/sparse/gemv.c:34-44`) and, with rows for columns, of `csr_mvmult` (`src/sparse/gemv.c:72-82`). -/
def spScatter [Mul α] [Add α] (n nm : Nat) (beta alpha : α) (A : Sp α) (y x : Nat) (m : Mem α) : Res (Mem α) := do
  let (_, m) ← forUp 0 n 1 (fun i m => do
    let t ← rd m (y + i)
    wr m (y + i) (t * beta)) m
  let (_, m) ← forUp 0 nm 1 (fun j m => do
    let xj ← rd m (x + j)
    let p0 ← rd A.ptr j
    let p1 ← rd A.ptr (j + 1)
    let (_, m) ← forUp p0 p1 1 (fun k m => do
      let c ← rd A.ix k
      let a ← rd A.v k
      let t ← rd m (y + c)
      wr m (y + c) (t + alpha * xj * a)) m
    pure m) m
  pure m

/-- The loop `y[j] := beta*y[j] + alpha * (row j) * x` of `csr_mvmult` (`src/sparse/gemv.c:64-70`) and of the transposed `csc_mvmult`
(`src/sparse/gemv.c:46-52`). -/
def spGather [Mul α] [Add α] [Zero α] (nm : Nat) (beta alpha : α) (A : Sp α) (y x : Nat) (m : Mem α) : Res (Mem α) := do
  let (_, m) ← forUp 0 nm 1 (fun j m => do
    let p0 ← rd A.ptr j
    let p1 ← rd A.ptr (j + 1)
    let (_, ax) ← forUp p0 p1 1 (fun k ax => do
      let a ← rd A.v k
      let c ← rd A.ix k
      let t ← rd m (x + c)
      pure (ax + a * t)) 0
    let t ← rd m (y + j)
    wr m (y + j) (beta * t + alpha * ax)) m
  pure m

/-- `csc_mvmult` (`src/sparse/gemv.c:28-55`), `zero` is the test `flags == 0`. -/
def cscMvmult [Mul α] [Add α] [Zero α] (beta : α) (y : Nat) (alpha : α) (A : Sp α) (x : Nat) (zero : Bool) (m : Mem α) : Res (Mem α) :=
  if zero then spScatter A.rows A.cols beta alpha A y x m else spGather A.cols beta alpha A y x m

/-- `csr_mvmult` (`src/sparse/gemv.c:58-85`); the transposed product scales `A->rows` elements of `y`. -/
def csrMvmult [Mul α] [Add α] [Zero α] (beta : α) (y : Nat) (alpha : α) (A : Sp α) (x : Nat) (zero : Bool) (m : Mem α) : Res (Mem α) :=
  if zero then spGather A.rows beta alpha A y x m else spScatter A.rows A.rows beta alpha A y x m

/-- The size test of `armassp_mvmult` (`src/sparse/gemv.c:98-101`).  The second assignment is
`ok = (ok && (flags & ARMAS_TRANS) == 0) ? size(x) == cols : size(x) == rows`: `&&` binds stronger than `?:`. -/
def spMvOk (ys xs : Nat) (A : Sp α) (trans : Bool) : Bool :=
  let ok := if !trans then ys == A.rows else ys == A.cols
  if ok && !trans then xs == A.cols else xs == A.rows

/-- `armassp_mvmult` (`src/sparse/gemv.c:91-120`).  `trans` is the flag `ARMAS_TRANS`, `other` tells if any other flag is set. -/
def spMvmult [Mul α] [Add α] [Zero α] (beta : α) (Y : View) (alpha : α) (A : Sp α) (X : View) (trans other : Bool) (m : Mem α) :
    Res (Int × Mem α) :=
  if !spMvOk Y.size X.size A trans then pure (-1, m)
  else match A.kind with
    | .csc => do
      let m ← cscMvmult beta Y.base alpha A X.base (!trans && !other) m
      pure (0, m)
    | .csr => do
      let m ← csrMvmult beta Y.base alpha A X.base (!trans && !other) m
      pure (0, m)
    | .coo => pure (-1, m)

/-! ## Triangular solve -/

/-- `for (p = ...; A->ix[p] < j; p++);` as in `csr_mvsolve_ut`, `csc_mvsolve_ln`, `csc_mvsolve_lt` (`src/sparse/trsv.c:91`, `107`, `147`,
`154`).  The first argument is the number of elements left; the array `ix` has `nnz` initialized elements, going on is undefined. -/
def skipUp (ix : Mem Nat) (j : Nat) : Nat → Nat → Res Nat
  | 0, _ => .ub
  | f + 1, p => do
    let c ← rd ix p
    if c < j then skipUp ix j f (p + 1) else pure p

/-- `for (k = ...; A->ix[k] > j; k--);` as in `csc_mvsolve_un`, `csr_mvsolve_lt` (`src/sparse/trsv.c:34`, `173`).  The argument is `k + 1`;
`k` = -1 is outside the array. -/
def skipDown (ix : Mem Nat) (j : Nat) : Nat → Res Nat
  | 0 => .ub
  | k + 1 => do
    let c ← rd ix k
    if j < c then skipDown ix j k else pure k

/-- One update `x[A->ix[p]] -= A->elems.v[p] * xj` (`src/sparse/trsv.c:36-38`, `93-95`, `111-113`, `176-178`), `x[j]` read again each time. -/
def axpyAt [Mul α] [Sub α] (A : Sp α) (x j p : Nat) (m : Mem α) : Res (Mem α) := do
  let c ← rd A.ix p
  let t ← rd m (x + c)
  let a ← rd A.v p
  let xj ← rd m (x + j)
  wr m (x + c) (t - a * xj)

/-- `x[j] = unit ? x[j] : x[j] / Ae[k]` (`src/sparse/trsv.c:35`, `109-110`, `124-125`, `133-134`, `149-150`, `160-161`, `174-175`). -/
def divAt [Div α] (A : Sp α) (x j k : Nat) (unit : Bool) (m : Mem α) : Res (Mem α) :=
  if unit then pure m
  else do
    let t ← rd m (x + j)
    let a ← rd A.v k
    wr m (x + j) (t / a)

/-- Body of `csc_mvsolve_un` (`src/sparse/trsv.c:33-38`). -/
def cscUnStep [Mul α] [Sub α] [Div α] (A : Sp α) (x : Nat) (unit : Bool) (j : Nat) (m : Mem α) : Res (Mem α) := do
  let p1 ← rd A.ptr (j + 1)
  let k ← skipDown A.ix j p1
  let m ← divAt A x j k unit m
  let p0 ← rd A.ptr j
  let (_, m) ← forUp p0 k 1 (fun i m => axpyAt A x j i m) m
  pure m

/-- `csc_mvsolve_un` (`src/sparse/trsv.c:28-41`). -/
def cscMvsolveUn [Mul α] [Sub α] [Div α] (A : Sp α) (x : Nat) (unit : Bool) (m : Mem α) : Res (Mem α) :=
  forDown A.cols (fun j m => cscUnStep A x unit j m) m

/-- The loop `for (i = ...; i >= p0 && A->ix[i] > j; i--) xk += Ae[i]*x[A->ix[i]]` of `csr_mvsolve_un` (`src/sparse/trsv.c:50-52`); first
argument and result are `i + 1`. -/
def dotDown [Mul α] [Add α] (A : Sp α) (x j p0 : Nat) (m : Mem α) : Nat → α → Res (Nat × α)
  | 0, xk => pure (0, xk)
  | i + 1, xk =>
    if p0 ≤ i then do
      let c ← rd A.ix i
      if j < c then do
        let a ← rd A.v i
        let t ← rd m (x + c)
        dotDown A x j p0 m i (xk + a * t)
      else pure (i + 1, xk)
    else pure (i + 1, xk)

/-- Body of `csr_mvsolve_un` (`src/sparse/trsv.c:49-58`); with an implicit diagonal of a first row the division reads `Ae[-1]`. -/
def csrUnStep [Mul α] [Add α] [Sub α] [Div α] [Zero α] (A : Sp α) (x : Nat) (unit : Bool) (j : Nat) (m : Mem α) : Res (Mem α) := do
  let p1 ← rd A.ptr (j + 1)
  let p0 ← rd A.ptr j
  let (i, xk) ← dotDown A x j p0 m p1 0
  let t ← rd m (x + j)
  if unit then wr m (x + j) (t - xk)
  else if i = 0 then .ub
  else do
    let a ← rd A.v (i - 1)
    wr m (x + j) ((t - xk) / a)

/-- `csr_mvsolve_un` (`src/sparse/trsv.c:44-61`). -/
def csrMvsolveUn [Mul α] [Add α] [Sub α] [Div α] [Zero α] (A : Sp α) (x : Nat) (unit : Bool) (m : Mem α) : Res (Mem α) :=
  forDown A.rows (fun j m => csrUnStep A x unit j m) m

/-- The loop `for (i = ...; i < p1 && A->ix[i] < j; i++) xk += Ae[i]*x[A->ix[i]]` of `csc_mvsolve_ut` (`src/sparse/trsv.c:71-73`); the
first argument is `p1 - i`. -/
def dotUp [Mul α] [Add α] (A : Sp α) (x j : Nat) (m : Mem α) : Nat → Nat → α → Res (Nat × α)
  | 0, i, xk => pure (i, xk)
  | f + 1, i, xk => do
    let c ← rd A.ix i
    if c < j then do
      let a ← rd A.v i
      let t ← rd m (x + c)
      dotUp A x j m f (i + 1) (xk + a * t)
    else pure (i, xk)

/-- Body of `csc_mvsolve_ut` (`src/sparse/trsv.c:70-79`). -/
def cscUtStep [Mul α] [Add α] [Sub α] [Div α] [Zero α] (A : Sp α) (x : Nat) (unit : Bool) (j : Nat) (m : Mem α) : Res (Mem α) := do
  let p0 ← rd A.ptr j
  let p1 ← rd A.ptr (j + 1)
  let (i, xk) ← dotUp A x j m (p1 - 1 - p0) p0 0
  let t ← rd m (x + j)
  if unit then wr m (x + j) (t - xk)
  else do
    let a ← rd A.v i
    wr m (x + j) ((t - xk) / a)

/-- `csc_mvsolve_ut` (`src/sparse/trsv.c:65-82`). -/
def cscMvsolveUt [Mul α] [Add α] [Sub α] [Div α] [Zero α] (A : Sp α) (x : Nat) (unit : Bool) (m : Mem α) : Res (Mem α) := do
  let (_, m) ← forUp 0 A.cols 1 (fun j m => cscUtStep A x unit j m) m
  pure m

/-- The division in `csr_mvsolve_ut` (`src/sparse/trsv.c:92`), `c` is `A->ix[p]`.  A missing diagonal element divides by 0.0. -/
def csrUtDiv [Div α] [Zero α] (A : Sp α) (x : Nat) (unit : Bool) (j p c : Nat) (m : Mem α) : Res (Mem α) :=
  if unit then pure m
  else if c = j then divAt A x j p false m
  else do
    let t ← rd m (x + j)
    wr m (x + j) (t / 0)

/-- Body of `csr_mvsolve_ut` (`src/sparse/trsv.c:90-95`). -/
def csrUtStep [Mul α] [Sub α] [Div α] [Zero α] (A : Sp α) (x : Nat) (unit : Bool) (j : Nat) (m : Mem α) : Res (Mem α) := do
  let p0 ← rd A.ptr j
  let p ← skipUp A.ix j (A.nnz - p0) p0
  let c ← rd A.ix p
  let m ← csrUtDiv A x unit j p c m
  let p1 ← rd A.ptr (j + 1)
  let (_, m) ← forUp (p + 1) p1 1 (fun i m => axpyAt A x j i m) m
  pure m

/-- `csr_mvsolve_ut` (`src/sparse/trsv.c:85-98`). -/
def csrMvsolveUt [Mul α] [Sub α] [Div α] [Zero α] (A : Sp α) (x : Nat) (unit : Bool) (m : Mem α) : Res (Mem α) := do
  let (_, m) ← forUp 0 A.rows 1 (fun j m => csrUtStep A x unit j m) m
  pure m

/-- Body of `csc_mvsolve_ln` (`src/sparse/trsv.c:106-113`). -/
def cscLnStep [Mul α] [Sub α] [Div α] (A : Sp α) (x : Nat) (unit : Bool) (j : Nat) (m : Mem α) : Res (Mem α) := do
  let p0 ← rd A.ptr j
  let p ← skipUp A.ix j (A.nnz - p0) p0
  let m ← divAt A x j p unit m
  let p1 ← rd A.ptr (j + 1)
  let (_, m) ← forUp (p + 1) p1 1 (fun i m => axpyAt A x j i m) m
  pure m

/-- `csc_mvsolve_ln` (`src/sparse/trsv.c:102-116`). -/
def cscMvsolveLn [Mul α] [Sub α] [Div α] (A : Sp α) (x : Nat) (unit : Bool) (m : Mem α) : Res (Mem α) := do
  let (_, m) ← forUp 0 A.cols 1 (fun j m => cscLnStep A x unit j m) m
  pure m

/-- The loop `for (p = ...; p < p1 && A->ix[p] < j; p++) x[j] -= Ae[p] * x[A->ix[p]]` of `csr_mvsolve_ln` (`src/sparse/trsv.c:129-131`); the
first argument is `p1 - p`. -/
def subUp [Mul α] [Sub α] (A : Sp α) (x j : Nat) : Nat → Nat → Mem α → Res (Nat × Mem α)
  | 0, p, m => pure (p, m)
  | f + 1, p, m => do
    let c ← rd A.ix p
    if c < j then do
      let t ← rd m (x + j)
      let a ← rd A.v p
      let s ← rd m (x + c)
      let m ← wr m (x + j) (t - a * s)
      subUp A x j f (p + 1) m
    else pure (p, m)

/-- Body of `csr_mvsolve_ln` (`src/sparse/trsv.c:128-134`). -/
def csrLnStep [Mul α] [Sub α] [Div α] (A : Sp α) (x : Nat) (unit : Bool) (j : Nat) (m : Mem α) : Res (Mem α) := do
  let p0 ← rd A.ptr j
  let p1 ← rd A.ptr (j + 1)
  let (p, m) ← subUp A x j (p1 - p0) p0 m
  divAt A x j p unit m

/-- The first row in `csr_mvsolve_ln` (`src/sparse/trsv.c:124-125`). -/
def csrLnFirst [Div α] (A : Sp α) (x : Nat) (unit : Bool) (m : Mem α) : Res (Mem α) :=
  if unit then pure m
  else do
    let p0 ← rd A.ptr 0
    divAt A x 0 p0 false m

/-- `csr_mvsolve_ln` (`src/sparse/trsv.c:119-137`). -/
def csrMvsolveLn [Mul α] [Sub α] [Div α] (A : Sp α) (x : Nat) (unit : Bool) (m : Mem α) : Res (Mem α) := do
  let m ← csrLnFirst A x unit m
  let (_, m) ← forUp 1 A.rows 1 (fun j m => csrLnStep A x unit j m) m
  pure m

/-- Body of `csc_mvsolve_lt` (`src/sparse/trsv.c:153-161`). -/
def cscLtStep [Mul α] [Sub α] [Div α] (A : Sp α) (x : Nat) (unit : Bool) (j : Nat) (m : Mem α) : Res (Mem α) := do
  let p0 ← rd A.ptr j
  let k ← skipUp A.ix j (A.nnz - p0) p0
  let p1 ← rd A.ptr (j + 1)
  let (_, m) ← forUp (k + 1) p1 1 (fun i m => do
    let t ← rd m (x + j)
    let a ← rd A.v i
    let c ← rd A.ix i
    let s ← rd m (x + c)
    wr m (x + j) (t - a * s)) m
  divAt A x j k unit m

/-- `csc_mvsolve_lt` (`src/sparse/trsv.c:141-164`); without columns it reads `A->ptr[-1]`. -/
def cscMvsolveLt [Mul α] [Sub α] [Div α] (A : Sp α) (x : Nat) (unit : Bool) (m : Mem α) : Res (Mem α) :=
  if A.cols = 0 then .ub
  else do
    let p0 ← rd A.ptr (A.cols - 1)
    let i ← skipUp A.ix (A.cols - 1) (A.nnz - p0) p0
    let m ← divAt A x (A.cols - 1) i unit m
    forDown (A.cols - 1) (fun j m => cscLtStep A x unit j m) m

/-- The loop `for (p--; p >= p0; p--) x[A->ix[p]] -= Ae[p] * x[j]` of `csr_mvsolve_lt` (`src/sparse/trsv.c:176-178`); the argument is `p + 1`. -/
def axpyDown [Mul α] [Sub α] (A : Sp α) (x j p0 : Nat) : Nat → Mem α → Res (Mem α)
  | 0, m => pure m
  | p + 1, m =>
    if p0 ≤ p then do
      let m ← axpyAt A x j p m
      axpyDown A x j p0 p m
    else pure m

/-- Body of `csr_mvsolve_lt` (`src/sparse/trsv.c:172-178`). -/
def csrLtStep [Mul α] [Sub α] [Div α] (A : Sp α) (x : Nat) (unit : Bool) (j : Nat) (m : Mem α) : Res (Mem α) := do
  let p1 ← rd A.ptr (j + 1)
  let p ← skipDown A.ix j p1
  let m ← divAt A x j p unit m
  let p0 ← rd A.ptr j
  axpyDown A x j p0 p m

/-- `csr_mvsolve_lt` (`src/sparse/trsv.c:167-181`). -/
def csrMvsolveLt [Mul α] [Sub α] [Div α] (A : Sp α) (x : Nat) (unit : Bool) (m : Mem α) : Res (Mem α) :=
  forDown A.rows (fun j m => csrLtStep A x unit j m) m


/-- The `switch` of `armassp_mvsolve_trm` (`src/sparse/trsv.c:225-253`). -/
def spSolveSwitch [Mul α] [Add α] [Sub α] [Div α] [Zero α] (A : Sp α) (x : Nat) (upper lower trans unit : Bool) (m : Mem α) :
    Res (Mem α) :=
  if upper && lower then (if A.kind = .csr then csrMvsolveLn A x unit m else cscMvsolveLn A x unit m)
  else if upper && trans then (if A.kind = .csr then csrMvsolveUt A x unit m else cscMvsolveUt A x unit m)
  else if upper then (if A.kind = .csr then csrMvsolveUn A x unit m else cscMvsolveUn A x unit m)
  else if trans then (if A.kind = .csr then csrMvsolveLt A x unit m else cscMvsolveLt A x unit m)
  else (if A.kind = .csr then csrMvsolveLn A x unit m else cscMvsolveLn A x unit m)

/-- `armassp_mvsolve_trm` (`src/sparse/trsv.c:203-255`).  With `ARMAS_UPPER | ARMAS_LOWER` the default case (lower, not transposed) is
taken.  `alpha` is passed to the solvers, which do not use it. -/
def spMvsolveTrm [Mul α] [Add α] [Sub α] [Div α] [Zero α] (X : View) (_alpha : α) (A : Sp α) (upper lower trans unit : Bool) (m : Mem α) :
    Res (Int × Mem α) :=
  if A.kind = .coo then pure (-1, m)
  else if (if !trans then X.size != A.cols else X.size != A.rows) then pure (-1, m)
  else do
    let m ← spSolveSwitch A X.base upper lower trans unit m
    pure (0, m)

/-! ## Incomplete LU -/

/-- `armassp_nz` (`src/include/sparse.h:252-260`): position of the element `ix` of row (column) `k`, `none` if there is none.  The index is
read before the bound is tested.  The first argument is `nnz - p`, the array `ix` has `nnz` initialized elements. -/
def spNz (A : Sp α) (ix p1 : Nat) : Nat → Nat → Res (Option Nat)
  | 0, _ => .ub
  | f + 1, p => do
    let c ← rd A.ix p
    if c ≤ ix ∧ p < p1 then
      if c = ix then pure (some p) else spNz A ix p1 f (p + 1)
    else pure none

/-- The merge loop `for (p = p1+1, u = p0+1; p < pe && u < ue;)` of `csr_iluz` and `csc_iluz` (`src/sparse/iluz.c:75-88`, `120-133`):
`Le[p] -= Le[p1]*Le[u]` where the indices agree.  Every round decreases the first argument `(pe - p) + (ue - u)`. -/
def iluMerge [Mul α] [Sub α] (ix : Mem Nat) (p1 pe ue : Nat) : Nat → Nat → Nat → Mem α → Res (Mem α)
  | 0, _, _, v => pure v
  | f + 1, p, u, v =>
    if p < pe ∧ u < ue then do
      let cp ← rd ix p
      let cu ← rd ix u
      if cp = cu then do
        let t ← rd v p
        let a ← rd v p1
        let b ← rd v u
        let v ← wr v p (t - a * b)
        iluMerge ix p1 pe ue f (p + 1) (u + 1) v
      else if cp < cu then iluMerge ix p1 pe ue f (p + 1) u v
      else iluMerge ix p1 pe ue f p (u + 1) v
    else pure v

/-- Body of the loop over `k` in `csr_iluz` (`src/sparse/iluz.c:69-89`). -/
def csrIluRow [Mul α] [Sub α] [Div α] (A : Sp α) (i p0 : Nat) (a11 : α) (k : Nat) (v : Mem α) : Res (Mem α) := do
  let q0 ← rd A.ptr k
  let q1 ← rd A.ptr (k + 1)
  match ← spNz A i q1 (A.nnz - q0) q0 with
  | none => pure v
  | some p1 => do
    let t ← rd v p1
    let v ← wr v p1 (t / a11)
    let ue ← rd A.ptr (i + 1)
    iluMerge A.ix p1 q1 ue ((q1 - (p1 + 1)) + (ue - (p0 + 1))) (p1 + 1) (p0 + 1) v

/-- `csr_iluz` (`src/sparse/iluz.c:53-92`): returns the new values, undefined if the assertion on the diagonal fails. -/
def csrIluz [Mul α] [Sub α] [Div α] (A : Sp α) : Res (Sp α) := do
  let (_, v) ← forUp 0 A.rows 1 (fun i v => do
    let q ← rd A.ptr i
    let p0 ← skipUp A.ix i (A.nnz - q) q
    let c ← rd A.ix p0
    if c ≠ i then .ub
    else do
      let a11 ← rd v p0
      let (_, v) ← forUp (i + 1) A.rows 1 (fun k v => csrIluRow A i p0 a11 k v) v
      pure v) A.v
  pure { A with v := v }

/-- Body of the loop over `k` in `csc_iluz` (`src/sparse/iluz.c:116-134`). -/
def cscIluCol [Mul α] [Sub α] (A : Sp α) (i p0 : Nat) (k : Nat) (v : Mem α) : Res (Mem α) := do
  let q0 ← rd A.ptr k
  let q1 ← rd A.ptr (k + 1)
  match ← spNz A i q1 (A.nnz - q0) q0 with
  | none => pure v
  | some p1 => do
    let ue ← rd A.ptr (i + 1)
    iluMerge A.ix p1 q1 ue ((q1 - (p1 + 1)) + (ue - (p0 + 1))) (p1 + 1) (p0 + 1) v

/-- `csc_iluz` (`src/sparse/iluz.c:95-137`). -/
def cscIluz [Mul α] [Sub α] [Div α] (A : Sp α) : Res (Sp α) := do
  let (_, v) ← forUp 0 A.cols 1 (fun i v => do
    let q ← rd A.ptr i
    let p0 ← skipUp A.ix i (A.nnz - q) q
    let c ← rd A.ix p0
    if c ≠ i then .ub
    else do
      let a11 ← rd v p0
      let ue ← rd A.ptr (i + 1)
      let (_, v) ← forUp (p0 + 1) ue 1 (fun p v => do
        let t ← rd v p
        wr v p (t / a11)) v
      let (_, v) ← forUp (i + 1) A.cols 1 (fun k v => cscIluCol A i p0 k v) v
      pure v) A.v
  pure { A with v := v }

/-- `armassp_iluz` (`src/sparse/iluz.c:139-148`). -/
def spIluz [Mul α] [Sub α] [Div α] (A : Sp α) : Res (Option (Sp α)) :=
  match A.kind with
  | .csr => do pure (some (← csrIluz A))
  | .csc => do pure (some (← cscIluz A))
  | .coo => pure none

/-- The copy in `precond_ilu` (`src/sparse/iluz.c:155-156`). -/
def precondCopy (Z X : View) (same : Bool) (m : Mem α) : Res (Int × Mem α) :=
  if same then pure (0, m) else mcopy m Z X false

/-- `precond_ilu` (`src/sparse/iluz.c:151-161`).  `same` is the test `z == x` of the two pointers; the return codes of copy and solve are
ignored. -/
def precondIlu [Mul α] [Add α] [Sub α] [Div α] [Zero α] [One α] (Z : View) (M : Sp α) (X : View) (same : Bool) (m : Mem α) :
    Res (Int × Mem α) := do
  let (_, m) ← precondCopy Z X same m
  let (_, m) ← spMvsolveTrm Z 1 M true false false false m
  let (_, m) ← spMvsolveTrm Z 1 M false true false true m
  pure (0, m)

end Armas
