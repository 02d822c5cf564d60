import Verif.Blas2

/-!
# Element-wise matrix operations

Model of `src/blas/{mscale,madd,mplus,mset}.c`, `armas_intolerance` of `src/base/matrix.c` and
`src/lapack/diag.c`.
-/

namespace Armas

variable {α : Type}

/-- Selection made by `flags & (ARMAS_SYMM|ARMAS_UPPER|ARMAS_LOWER)`; `all` stands for every
combination that has no `case` of its own. -/
inductive Part where
  | upper
  | lower
  | symm
  | all
deriving DecidableEq

/-- `n = (flags & ARMAS_UNIT) ? 1 : 0` -/
def uno (unit : Bool) : Nat := if unit then 1 else 0

/-- `armas_mscale` (`src/blas/mscale.c:126-170`).  A negative row count of a sub-matrix makes `vec_scale`
do nothing (its loop and its `switch` are not entered), as does zero here. -/
def mscale [Mul α] [Zero α] [One α] [DecidableEq α] (m : Mem α) (A : View) (alpha : α) (part : Part)
    (unit : Bool) : Res (Int × Mem α) :=
  match part with
  | .upper => do
    let (_, m) ← forUp (uno unit) A.rows 1 (fun c m =>
      vecScale m (A.sub c (c + uno unit) 1 (A.rows - c - uno unit)) alpha 1) m
    pure (0, m)
  | .lower => do
    let (_, m) ← forUp 0 (A.cols - uno unit) 1 (fun c m =>
      vecScale m (A.sub (c + uno unit) c (A.rows - c - uno unit) 1) alpha (A.rows - c - uno unit)) m
    pure (0, m)
  | .symm =>
    if A.rows ≠ A.cols then .ok (-1, m)
    else do
      let m ← scaleUnsafe m A alpha
      pure (0, m)
  | .all => do
    let m ← scaleUnsafe m A alpha
    pure (0, m)

/-- `vec_add` (`src/blas/madd.c:24-51`). -/
def vecAdd [Add α] (m : Mem α) (X : View) (alpha : α) (N : Nat) : Res (Mem α) := do
  let (i, m) ← forUp 0 (N - 3) 4 (fun i m => do
    let x ← rd m (X.vat (i + 0))
    let m ← wr m (X.vat (i + 0)) (x + alpha)
    let x ← rd m (X.vat (i + 1))
    let m ← wr m (X.vat (i + 1)) (x + alpha)
    let x ← rd m (X.vat (i + 2))
    let m ← wr m (X.vat (i + 2)) (x + alpha)
    let x ← rd m (X.vat (i + 3))
    wr m (X.vat (i + 3)) (x + alpha)) m
  switchTail (N - i) i (fun i m => do
    let x ← rd m (X.vat i)
    wr m (X.vat i) (x + alpha)) m

/-- `armas_madd` (`src/blas/madd.c:69-117`).  Same remark on negative row counts as for `mscale`. -/
def madd [Add α] (m : Mem α) (A : View) (alpha : α) (part : Part) (unit : Bool) : Res (Int × Mem α) :=
  if A.isVec then do
    let m ← vecAdd m A alpha A.size
    pure (0, m)
  else
  match part with
  | .upper => do
    let (_, m) ← forUp (uno unit) A.cols 1 (fun c m =>
      vecAdd m (A.sub 0 (c + uno unit) (c + 1 - uno unit) 1) alpha (c + 1 - uno unit)) m
    pure (0, m)
  | .lower => do
    let (_, m) ← forUp 0 (A.cols - uno unit) 1 (fun c m =>
      vecAdd m (A.sub (c + uno unit) c (A.rows - c - uno unit) 1) alpha (A.rows - c - uno unit)) m
    pure (0, m)
  | .symm =>
    if A.rows ≠ A.cols then .ok (-ESIZE, m)
    else do
      let (_, m) ← forUp 0 A.cols 1 (fun c m => vecAdd m (A.sub 0 c A.rows 1) alpha A.rows) m
      pure (0, m)
  | .all => do
    let (_, m) ← forUp 0 A.cols 1 (fun c m => vecAdd m (A.sub 0 c A.rows 1) alpha A.rows) m
    pure (0, m)

/-- The statement `a[i+j*lda] = alpha*a[i+j*lda] + beta*b[…]` of the loops in `src/blas/mplus.c`; `trans`
selects `b[j+i*ldb]`, `ab` is the absolute value in the functions with `_abs` in their name and the
identity in the other ones. -/
def plusAt [Mul α] [Add α] (ab : α → α) (trans : Bool) (alpha : α) (A : View) (beta : α) (B : View)
    (i j : Nat) (m : Mem α) : Res (Mem α) := do
  let x ← rd m (A.at' i j)
  let y ← rd m (if trans then B.at' j i else B.at' i j)
  wr m (A.at' i j) (alpha * ab x + beta * ab y)

/-- The loop body `i` of the four-column blocks: columns `j..j+3`. -/
def plusRow4 (f : Nat → Nat → Mem α → Res (Mem α)) (j i : Nat) (m : Mem α) : Res (Mem α) := do
  let m ← f i (j + 0) m
  let m ← f i (j + 1) m
  let m ← f i (j + 2) m
  f i (j + 3) m

/-- `madd_lower` (`src/blas/mplus.c:28-60`) and `madd_lower_abs` (`src/blas/mplus.c:62-94`). -/
def maddLower (f : Nat → Nat → Mem α → Res (Mem α)) (m : Mem α) (nR nC : Nat) : Res (Mem α) := do
  let (j, m) ← forUp 0 (nC - 3) 4 (fun j m => do
    let (_, m) ← forUp j (j + 3) 1 (fun k m => do
      let (_, m) ← forUp k (min (j + 3) nR) 1 (fun i m => f i k m) m
      pure m) m
    let (_, m) ← forUp (j + 3) nR 1 (plusRow4 f j) m
    pure m) m
  let (_, m) ← forUp j nC 1 (fun j m => do
    let (_, m) ← forUp j nR 1 (fun i m => f i j m) m
    pure m) m
  pure m

/-- `madd_upper` (`src/blas/mplus.c:96-129`) and `madd_upper_abs` (`src/blas/mplus.c:131-164`). -/
def maddUpper (f : Nat → Nat → Mem α → Res (Mem α)) (m : Mem α) (nR nC : Nat) : Res (Mem α) := do
  let (j, m) ← forUp 0 (nC - 3) 4 (fun j m => do
    let (_, m) ← forUp 0 (min (j + 1) nR) 1 (plusRow4 f j) m
    let (_, m) ← forUp (j + 1) (min (j + 4) nR) 1 (fun i m => do
      let (_, m) ← forUp i (j + 4) 1 (fun k m => f i k m) m
      pure m) m
    pure m) m
  let (_, m) ← forUp j nC 1 (fun j m => do
    let (_, m) ← forUp 0 (min (j + 1) nR) 1 (fun i m => f i j m) m
    pure m) m
  pure m

/-- `madd` (`src/blas/mplus.c:167-212`) and `madd_abs` (`src/blas/mplus.c:214-259`): the transposed and the
plain version of the loops differ in the statement only. -/
def maddAll (f : Nat → Nat → Mem α → Res (Mem α)) (m : Mem α) (nR nC : Nat) : Res (Mem α) := do
  let (j, m) ← forUp 0 (nC - 3) 4 (fun j m => do
    let (_, m) ← forUp 0 nR 1 (plusRow4 f j) m
    pure m) m
  let (_, m) ← forUp j nC 1 (fun j m => do
    let (_, m) ← forUp 0 nR 1 (fun i m => f i j m) m
    pure m) m
  pure m

/-- `armas_mplus` (`src/blas/mplus.c:286-346`).  `part` as selected by `ARMAS_LOWER|ARMAS_UPPER` (`symm`
stands for `ARMAS_SYMM` without these; it matters only for the call of `armas_madd`), `trans` is
`flags & (ARMAS_TRANS|ARMAS_TRANSB)`, `abs` is `ARMAS_ABS`. -/
def mplus [Mul α] [Add α] (absf : α → α) (m : Mem α) (alpha : α) (A : View) (beta : α) (B : View)
    (part : Part) (unit trans abs : Bool) : Res (Int × Mem α) :=
  if A.size = 0 ∨ B.size = 0 then .ok (0, m)
  else if B.size = 1 then do
    let b ← rd m (B.at' 0 0)
    madd m A (beta * b) part unit
  else if A.isVec ∧ B.isVec then axpby m alpha A beta B
  else if trans ∧ (A.rows ≠ B.cols ∨ A.cols ≠ B.rows) then .ok (-ESIZE, m)
  else if ¬ trans ∧ (A.rows ≠ B.rows ∨ A.cols ≠ B.cols) then .ok (-ESIZE, m)
  else do
    let ab := if abs then absf else id
    let m ← (match part with
      | .lower => maddLower (plusAt ab false alpha A beta B) m A.rows A.cols
      | .upper => maddUpper (plusAt ab false alpha A beta B) m A.rows A.cols
      | _ => maddAll (plusAt ab trans alpha A beta B) m A.rows A.cols)
    pure (0, m)

/-- `armas_set_unsafe(A, i, j, value(…))` with the number of calls of the generator so far in `s.2`. -/
def setGen (gen : Nat → Nat → Nat → α) (A : View) (i j : Nat) (s : Mem α × Nat) : Res (Mem α × Nat) := do
  let m ← wr s.1 (A.at' i j) (gen i j s.2)
  pure (m, s.2 + 1)

/-- `armas_set_values` (`src/blas/mset.c:53-95`) and `armas_set_all` (`src/blas/mset.c:114-156`), which
differ only in the arguments given to the value function: `gen i j k` is the value returned by call number
`k`, made for element `(i,j)`.  A function with internal state is a function of the call number. -/
def setElems [One α] (gen : Nat → Nat → Nat → α) (m : Mem α) (A : View) (part : Part) (unit : Bool) :
    Res (Int × Mem α × Nat) :=
  match part with
  | .upper => do
    let (_, s) ← forUp 0 A.cols 1 (fun j s => do
      let (_, s) ← forUp 0 (min j A.rows) 1 (fun i s => setGen gen A i j s) s
      if j < A.rows ∧ ¬ unit then setGen gen A j j s else pure s) (m, 0)
    pure (0, s)
  | .lower => do
    let (_, s) ← forUp 0 A.cols 1 (fun j s => do
      let s ← (if j < A.rows ∧ ¬ unit then setGen gen A j j s else pure s)
      let (_, s) ← forUp (j + 1) A.rows 1 (fun i s => setGen gen A i j s) s
      pure s) (m, 0)
    pure (0, s)
  | .symm =>
    if A.rows ≠ A.cols then .ok (-1, m, 0)
    else do
      let (_, s) ← forUp 0 A.cols 1 (fun j s => do
        let s ← (if unit then do
            let m ← wr s.1 (A.at' j j) 1
            pure (m, s.2)
          else setGen gen A j j s)
        let (_, s) ← forUp (j + 1) A.rows 1 (fun i s => do
          let s ← setGen gen A i j s
          let x ← rd s.1 (A.at' i j)
          let m ← wr s.1 (A.at' j i) x
          pure (m, s.2)) s
        pure s) (m, 0)
      pure (0, s)
  | .all => do
    let (_, s) ← forUp 0 A.cols 1 (fun j s => do
      let (_, s) ← forUp 0 A.rows 1 (fun i s => setGen gen A i j s) s
      pure s) (m, 0)
    pure (0, s)

/-- `armas_make_trm` (`src/blas/mset.c:173-197`); `.upper` has precedence, other values of `part` have no
effect. -/
def makeTrm [Zero α] [One α] (m : Mem α) (A : View) (part : Part) (unit : Bool) : Res (Mem α) :=
  match part with
  | .upper => do
    let (_, m) ← forUp 0 A.cols 1 (fun j (m : Mem α) => do
      let m ← (if unit then wr m (A.at' j j) 1 else pure m)
      let (_, m) ← forUp (j + 1) A.rows 1 (fun i m => wr m (A.at' i j) 0) m
      pure m) m
    pure m
  | .lower => do
    let (_, m) ← forUp 0 A.cols 1 (fun j (m : Mem α) => do
      let (_, m) ← forUp 0 (min A.rows j) 1 (fun i m => wr m (A.at' i j) 0) m
      if unit ∧ j < A.rows then wr m (A.at' j j) 1 else pure m) m
    pure m
  | _ => pure m

/-- `armas_intolerance` (`src/base/matrix.c:121-138`): the state is true until an element out of tolerance
has been found; from then on nothing is executed (`return 0`). -/
def intolerance [Sub α] [Mul α] [Add α] [LT α] [DecidableLT α] (absf : α → α) (m : Mem α) (A B : View)
    (atol rtol : α) : Res Bool :=
  if A.rows ≠ B.rows ∨ A.cols ≠ B.cols then .ok false
  else do
    let (_, r) ← forUp 0 A.cols 1 (fun j r => do
      let (_, r) ← forUp 0 A.rows 1 (fun i (r : Bool) =>
        if ¬ r then .ok r
        else do
          let x ← rd m (A.at' i j)
          let y ← rd m (B.at' i j)
          let df := absf (x - y)
          let ref := atol + rtol * absf y
          if df > ref then pure false else pure true) r
      pure r) true
    pure r

/-- The vector `d` used by `armas_mult_diag` and `armas_solve_diag` (`src/lapack/diag.c:60-64,142-146`): `D`
itself if it is a vector, otherwise `armas_diag(D, 0)` (`src/include/matrix.h:390-408`), a row view with
step `D->step + 1`. -/
def diagOf (D : View) : View :=
  if D.isVec then D else ⟨D.base, D.step + 1, 1, min D.rows D.cols⟩

/-- The common shape of `armas_mult_diag` (`src/lapack/diag.c:51-108`) and `armas_solve_diag`
(`src/lapack/diag.c:133-192`): `fv a d` is the new value in the vector case, `fm d` the factor given to
`armas_scale` in the matrix case. -/
def diagOp [Mul α] (fv : α → α → α) (fm : α → α) (m : Mem α) (A D : View) (right : Bool) :
    Res (Int × Mem α) :=
  let d := diagOf D
  if A.isVec then
    if d.size ≠ A.size then .ok (-ESIZE, m)
    else if A.size = 0 then .ok (0, m)
    else do
      let (_, m) ← forUp 0 d.size 1 (fun k m => do
        let x ← rd m (A.vat k)
        let y ← rd m (d.vat k)
        wr m (A.vat k) (fv x y)) m
      pure (0, m)
  else if right then
    if d.size ≠ A.cols then .ok (-ESIZE, m)
    else if A.size = 0 then .ok (0, m)
    else do
      let (_, m) ← forUp 0 d.size 1 (fun k m => do
        let y ← rd m (d.vat k)
        let r ← scale m (A.col k) (fm y)
        pure r.2) m
      pure (0, m)
  else
    if d.size ≠ A.rows then .ok (-ESIZE, m)
    else if A.size = 0 then .ok (0, m)
    else do
      let (_, m) ← forUp 0 d.size 1 (fun k m => do
        let y ← rd m (d.vat k)
        let r ← scale m (A.row k) (fm y)
        pure r.2) m
      pure (0, m)

/-- `armas_mult_diag` (`src/lapack/diag.c:51-108`); `right` is `ARMAS_RIGHT` without `ARMAS_LEFT`. -/
def multDiag [Mul α] (m : Mem α) (A : View) (alpha : α) (D : View) (right : Bool) : Res (Int × Mem α) :=
  diagOp (fun x y => alpha * (x * y)) (fun y => alpha * y) m A D right

/-- `armas_solve_diag` (`src/lapack/diag.c:133-192`). -/
def solveDiag [Mul α] [Div α] [One α] (m : Mem α) (A : View) (alpha : α) (D : View) (right : Bool) :
    Res (Int × Mem α) :=
  diagOp (fun x y => alpha * (x / y)) (fun y => 1 / (alpha * y)) m A D right

end Armas
