import Verif.Blas1
import Verif.Views

/-!
# BLAS level 2

Model of `src/include/nosimd/mvec.h` and `src/blas/{gemv,ger,trmv,trsv,symv,syr,syr2,updtrmv}.c`.
Recursive functions carry a `fuel` argument that bounds the recursion depth; running out of it is
the outcome `diverge`.  A function that calls another recursive function hands over its own bound.
-/

namespace Armas

variable {α : Type}

/-- Operand flag bits (`src/include/armas.h:48-82`); every field is one bit of `int flags`.
`ARMAS_TRANS` and `ARMAS_ABS` are the same bits as `ARMAS_TRANSA`, `ARMAS_ABSA`. -/
structure Flags where
  lower : Bool := false
  upper : Bool := false
  unit : Bool := false
  left : Bool := false
  right : Bool := false
  transA : Bool := false
  transB : Bool := false
  absA : Bool := false
  absB : Bool := false
deriving DecidableEq, Repr

/-- Environment thresholds used here (`struct armas_env`, `src/include/armas.h` and
`src/base/env.c:27-37`) and the option bit `ARMAS_ONAIVE` / `ARMAS_ORECURSIVE` of the configuration
block (`src/include/armas.h:107-126`). -/
structure Env where
  blas1min : Nat
  blas2min : Nat
  naive : Bool := false
  recursive : Bool := false
deriving DecidableEq, Repr

/-- Result of the unscaled accumulation of `vmult1axpy`: one row update. -/
def axpyRow1 [Mul α] [Add α] (ab : α → α) (y incy a0 : Nat) (cf : α) (k : Nat) (m : Mem α) :
    Res (Mem α) := do
  let u ← rd m (a0 + k)
  let v ← rd m (y + k * incy)
  wr m (y + k * incy) (v + ab u * cf)

/-- `vmult1axpy` and `vmult1axpy_abs` (`src/include/nosimd/mvec.h:48-108`); `ab` is the identity or
the absolute value. -/
def vmult1axpy [Mul α] [Add α] (ab : α → α) (m : Mem α) (y incy a0 x : Nat) (alpha : α) (nR : Nat) :
    Res (Mem α) := do
  let x0 ← rd m x
  let cf := alpha * ab x0
  let (k, m) ← forUp 0 (nR - 3) 4 (fun k m => do
    let m ← axpyRow1 ab y incy a0 cf (k + 0) m
    let m ← axpyRow1 ab y incy a0 cf (k + 1) m
    let m ← axpyRow1 ab y incy a0 cf (k + 2) m
    axpyRow1 ab y incy a0 cf (k + 3) m) m
  switchTail (nR - k) k (axpyRow1 ab y incy a0 cf) m

/-- Update of one element of `y` by a given amount (`y[k*incy] += t`). -/
def incAt [Add α] (y incy k : Nat) (t : α) (m : Mem α) : Res (Mem α) := do
  let v ← rd m (y + k * incy)
  wr m (y + k * incy) (v + t)

/-- `vmult2axpy` and `vmult2axpy_abs` (`src/include/nosimd/mvec.h:110-189`). -/
def vmult2axpy [Mul α] [Add α] (ab : α → α) (m : Mem α) (y incy a0 a1 x incx : Nat) (alpha : α)
    (nR : Nat) : Res (Mem α) := do
  let x0 ← rd m x
  let x1 ← rd m (x + incx)
  let cf0 := alpha * ab x0
  let cf1 := alpha * ab x1
  let (k, m) ← forUp 0 (nR - 3) 4 (fun k m => do
    let t0 ← rd m (a0 + (k + 0))
    let t1 ← rd m (a0 + (k + 1))
    let t2 ← rd m (a0 + (k + 2))
    let t3 ← rd m (a0 + (k + 3))
    let t4 ← rd m (a1 + (k + 0))
    let t5 ← rd m (a1 + (k + 1))
    let t6 ← rd m (a1 + (k + 2))
    let t7 ← rd m (a1 + (k + 3))
    let m ← incAt y incy (k + 0) (ab t0 * cf0 + ab t4 * cf1) m
    let m ← incAt y incy (k + 1) (ab t1 * cf0 + ab t5 * cf1) m
    let m ← incAt y incy (k + 2) (ab t2 * cf0 + ab t6 * cf1) m
    incAt y incy (k + 3) (ab t3 * cf0 + ab t7 * cf1) m) m
  switchTail (nR - k) k (fun k m => do
    let t0 ← rd m (a0 + k)
    let t4 ← rd m (a1 + k)
    incAt y incy k (ab t0 * cf0 + ab t4 * cf1) m) m

/-- `vmult4axpy` and `vmult4axpy_abs` (`src/include/nosimd/mvec.h:191-269`). -/
def vmult4axpy [Mul α] [Add α] (ab : α → α) (m : Mem α) (y incy a0 a1 a2 a3 x incx : Nat) (alpha : α)
    (nR : Nat) : Res (Mem α) := do
  let x0 ← rd m x
  let x1 ← rd m (x + incx)
  let x2 ← rd m (x + 2 * incx)
  let x3 ← rd m (x + 3 * incx)
  let cf0 := alpha * ab x0
  let cf1 := alpha * ab x1
  let cf2 := alpha * ab x2
  let cf3 := alpha * ab x3
  let (k, m) ← forUp 0 (nR - 1) 2 (fun k m => do
    let t0 ← rd m (a0 + (k + 0))
    let t1 ← rd m (a0 + (k + 1))
    let t2 ← rd m (a1 + (k + 0))
    let t3 ← rd m (a1 + (k + 1))
    let t4 ← rd m (a2 + (k + 0))
    let t5 ← rd m (a2 + (k + 1))
    let t6 ← rd m (a3 + (k + 0))
    let t7 ← rd m (a3 + (k + 1))
    let m ← incAt y incy (k + 0) (ab t0 * cf0 + ab t2 * cf1 + ab t4 * cf2 + ab t6 * cf3) m
    incAt y incy (k + 1) (ab t1 * cf0 + ab t3 * cf1 + ab t5 * cf2 + ab t7 * cf3) m) m
  if k = nR then pure m
  else do
    let t0 ← rd m (a0 + k)
    let t2 ← rd m (a1 + k)
    let t4 ← rd m (a2 + k)
    let t6 ← rd m (a3 + k)
    incAt y incy k (ab t0 * cf0 + ab t2 * cf1 + ab t4 * cf2 + ab t6 * cf3) m

/-- One term of the running sums of the dot kernels: `pr a0[k] x[k*incx]`, `pr` is the product or
the product of absolute values (`ABS(a*x)` in `vmult1dot_abs`, `ABS(a)*ABS(x)` in the others). -/
def dotTerm (pr : α → α → α) (m : Mem α) (a x incx k : Nat) : Res α := do
  let u ← rd m (a + k)
  let v ← rd m (x + k * incx)
  pure (pr u v)

/-- `vmult1dot` and `vmult1dot_abs` (`src/include/nosimd/mvec.h:271-335`). -/
def vmult1dot [Mul α] [Add α] [Zero α] (pr : α → α → α) (m : Mem α) (y a0 x incx : Nat) (alpha : α)
    (nR : Nat) : Res (Mem α) := do
  let (k, t) ← forUp 0 (nR - 3) 4 (fun k (t : α × α × α × α) => do
    let u0 ← dotTerm pr m a0 x incx (k + 0)
    let u1 ← dotTerm pr m a0 x incx (k + 1)
    let u2 ← dotTerm pr m a0 x incx (k + 2)
    let u3 ← dotTerm pr m a0 x incx (k + 3)
    pure (t.1 + u0, t.2.1 + u1, t.2.2.1 + u2, t.2.2.2 + u3)) (0, 0, 0, 0)
  let t ← (match nR - k with
    | 3 => do
      let u0 ← dotTerm pr m a0 x incx k
      let u1 ← dotTerm pr m a0 x incx (k + 1)
      let u2 ← dotTerm pr m a0 x incx (k + 2)
      pure (t.1 + u0, t.2.1 + u1, t.2.2.1 + u2, t.2.2.2)
    | 2 => do
      let u1 ← dotTerm pr m a0 x incx k
      let u2 ← dotTerm pr m a0 x incx (k + 1)
      pure (t.1, t.2.1 + u1, t.2.2.1 + u2, t.2.2.2)
    | 1 => do
      let u2 ← dotTerm pr m a0 x incx k
      pure (t.1, t.2.1, t.2.2.1 + u2, t.2.2.2)
    | _ => pure t)
  incAt y 0 0 (((t.1 + t.2.1) + (t.2.2.1 + t.2.2.2)) * alpha) m

/-- `vmult2dot` and `vmult2dot_abs` (`src/include/nosimd/mvec.h:337-423`). -/
def vmult2dot [Mul α] [Add α] [Zero α] (pr : α → α → α) (m : Mem α) (y incy a0 a1 x incx : Nat)
    (alpha : α) (nR : Nat) : Res (Mem α) := do
  let (k, t, s) ← forUp 0 (nR - 3) 4 (fun k (ts : (α × α × α × α) × (α × α × α × α)) => do
    let u0 ← dotTerm pr m a0 x incx (k + 0)
    let u1 ← dotTerm pr m a0 x incx (k + 1)
    let u2 ← dotTerm pr m a0 x incx (k + 2)
    let u3 ← dotTerm pr m a0 x incx (k + 3)
    let u4 ← dotTerm pr m a1 x incx (k + 0)
    let u5 ← dotTerm pr m a1 x incx (k + 1)
    let u6 ← dotTerm pr m a1 x incx (k + 2)
    let u7 ← dotTerm pr m a1 x incx (k + 3)
    pure ((ts.1.1 + u0, ts.1.2.1 + u1, ts.1.2.2.1 + u2, ts.1.2.2.2 + u3),
      (ts.2.1 + u4, ts.2.2.1 + u5, ts.2.2.2.1 + u6, ts.2.2.2.2 + u7))) ((0, 0, 0, 0), (0, 0, 0, 0))
  let (t, s) ← (match nR - k with
    | 3 => do
      let u0 ← dotTerm pr m a0 x incx k
      let u4 ← dotTerm pr m a1 x incx k
      let u1 ← dotTerm pr m a0 x incx (k + 1)
      let u5 ← dotTerm pr m a1 x incx (k + 1)
      let u2 ← dotTerm pr m a0 x incx (k + 2)
      let u6 ← dotTerm pr m a1 x incx (k + 2)
      pure ((t.1 + u0, t.2.1 + u1, t.2.2.1 + u2, t.2.2.2),
        (s.1 + u4, s.2.1 + u5, s.2.2.1 + u6, s.2.2.2))
    | 2 => do
      let u1 ← dotTerm pr m a0 x incx k
      let u5 ← dotTerm pr m a1 x incx k
      let u2 ← dotTerm pr m a0 x incx (k + 1)
      let u6 ← dotTerm pr m a1 x incx (k + 1)
      pure ((t.1, t.2.1 + u1, t.2.2.1 + u2, t.2.2.2), (s.1, s.2.1 + u5, s.2.2.1 + u6, s.2.2.2))
    | 1 => do
      let u2 ← dotTerm pr m a0 x incx k
      let u6 ← dotTerm pr m a1 x incx k
      pure ((t.1, t.2.1, t.2.2.1 + u2, t.2.2.2), (s.1, s.2.1, s.2.2.1 + u6, s.2.2.2))
    | _ => pure (t, s))
  let m ← incAt y incy 0 (((t.1 + t.2.1) + (t.2.2.1 + t.2.2.2)) * alpha) m
  incAt y incy 1 (((s.1 + s.2.1) + (s.2.2.1 + s.2.2.2)) * alpha) m

/-- `vmult4dot` and `vmult4dot_abs` (`src/include/nosimd/mvec.h:425-507`). -/
def vmult4dot [Mul α] [Add α] [Zero α] (pr : α → α → α) (m : Mem α)
    (y incy a0 a1 a2 a3 x incx : Nat) (alpha : α) (nR : Nat) : Res (Mem α) := do
  let (k, t, s) ← forUp 0 (nR - 1) 2 (fun k (ts : (α × α × α × α) × (α × α × α × α)) => do
    let u0 ← dotTerm pr m a0 x incx (k + 0)
    let u1 ← dotTerm pr m a0 x incx (k + 1)
    let u2 ← dotTerm pr m a1 x incx (k + 0)
    let u3 ← dotTerm pr m a1 x incx (k + 1)
    let u4 ← dotTerm pr m a2 x incx (k + 0)
    let u5 ← dotTerm pr m a2 x incx (k + 1)
    let u6 ← dotTerm pr m a3 x incx (k + 0)
    let u7 ← dotTerm pr m a3 x incx (k + 1)
    pure ((ts.1.1 + u0, ts.1.2.1 + u1, ts.1.2.2.1 + u2, ts.1.2.2.2 + u3),
      (ts.2.1 + u4, ts.2.2.1 + u5, ts.2.2.2.1 + u6, ts.2.2.2.2 + u7))) ((0, 0, 0, 0), (0, 0, 0, 0))
  let (t, s) ← (if k = nR then pure (t, s)
    else do
      let u0 ← dotTerm pr m a0 x incx k
      let u2 ← dotTerm pr m a1 x incx k
      let u4 ← dotTerm pr m a2 x incx k
      let u6 ← dotTerm pr m a3 x incx k
      pure ((t.1 + u0, t.2.1, t.2.2.1 + u2, t.2.2.2), (s.1 + u4, s.2.1, s.2.2.1 + u6, s.2.2.2)))
  let m ← incAt y incy 0 ((t.1 + t.2.1) * alpha) m
  let m ← incAt y incy 1 ((t.2.2.1 + t.2.2.2) * alpha) m
  let m ← incAt y incy 2 ((s.1 + s.2.1) * alpha) m
  incAt y incy 3 ((s.2.2.1 + s.2.2.2) * alpha) m

/-! ## gemv -/

/-- Transposed half shared by `gemv_unb` and `gemv_unb_abs` (`src/blas/gemv.c:50-79,128-159`): dot
products of the columns of `A` with `x`. -/
def gemvDots [Mul α] [Add α] [Zero α] (pr : α → α → α) (m : Mem α) (Y : View) (alpha : α)
    (A X : View) : Res (Mem α) := do
  let (i, m) ← forUp 0 (A.cols - 3) 4 (fun i m =>
    vmult4dot pr m (Y.base + i * Y.inc) Y.inc (A.base + (i + 0) * A.step)
      (A.base + (i + 1) * A.step) (A.base + (i + 2) * A.step) (A.base + (i + 3) * A.step)
      X.base X.inc alpha A.rows) m
  if i = A.cols then pure m
  else do
    let (i, m) ← (if A.cols - i = 3 ∨ A.cols - i = 2 then do
        let m ← vmult2dot pr m (Y.base + i * Y.inc) Y.inc (A.base + (i + 0) * A.step)
          (A.base + (i + 1) * A.step) X.base X.inc alpha A.rows
        pure (i + 2, m)
      else pure (i, m))
    if i < A.cols then
      vmult1dot pr m (Y.base + i * Y.inc) (A.base + (i + 0) * A.step) X.base X.inc alpha A.rows
    else pure m

/-- Non-transposed half shared by `gemv_unb` and `gemv_unb_abs` (`src/blas/gemv.c:82-108,163-189`):
`y0` is the start address of the target, `nlast` the length given to the final `vmult1axpy`. -/
def gemvAxpys [Mul α] [Add α] (ab : α → α) (m : Mem α) (y0 yinc : Nat) (alpha : α) (A X : View)
    (nlast : Nat) : Res (Mem α) := do
  let (j, m) ← forUp 0 (A.cols - 3) 4 (fun j m =>
    vmult4axpy ab m y0 yinc (A.base + (j + 0) * A.step) (A.base + (j + 1) * A.step)
      (A.base + (j + 2) * A.step) (A.base + (j + 3) * A.step) (X.base + j * X.inc) X.inc alpha
      A.rows) m
  if j = A.cols then pure m
  else do
    let (j, m) ← (if A.cols - j = 3 ∨ A.cols - j = 2 then do
        let m ← vmult2axpy ab m y0 yinc (A.base + (j + 0) * A.step) (A.base + (j + 1) * A.step)
          (X.base + j * X.inc) X.inc alpha A.rows
        pure (j + 2, m)
      else pure (j, m))
    if j < A.cols then
      vmult1axpy ab m y0 yinc (A.base + (j + 0) * A.step) (X.base + j * X.inc) alpha nlast
    else pure m

/-- `gemv_unb_abs` (`src/blas/gemv.c:33-109`): note the start address `&Y->elems[yinc]` (line 82)
and the length `A->cols` of the last column (line 107) as in the code. -/
def gemvUnbAbs [Mul α] [Add α] [Zero α] (ab : α → α) (m : Mem α) (Y : View) (alpha : α) (A X : View)
    (fl : Flags) : Res (Mem α) :=
  if fl.transA then gemvDots (fun a x => ab a * ab x) m Y alpha A X
  else gemvAxpys ab m (Y.base + Y.inc) Y.inc alpha A X A.cols

/-- `gemv_unb` (`src/blas/gemv.c:111-190`). -/
def gemvUnb [Mul α] [Add α] [Zero α] (ab : α → α) (m : Mem α) (Y : View) (alpha : α) (A X : View)
    (fl : Flags) : Res (Mem α) :=
  if fl.absA then gemvUnbAbs ab m Y alpha A X fl
  else if fl.transA then gemvDots (fun a x => a * x) m Y alpha A X
  else gemvAxpys (fun a => a) m (Y.base + 0 * Y.inc) Y.inc alpha A X A.rows

/-- `vec_partition_2x1` with `ARMAS_PTOP` (`src/include/partition.h:572-590`). -/
def vecPartTop (x : View) (nb : Nat) : View × View :=
  let nb := if nb > x.size then x.size else nb
  (x.subvec 0 nb, x.subvec nb (x.size - nb))

/-- `gemv_recursive` (`src/blas/gemv.c:192-231`). -/
def gemvRec [Mul α] [Add α] [Zero α] (ab : α → α) (minv : Nat) (alpha : α) (fl : Flags) :
    Nat → Mem α → View → View → View → Res (Mem α)
  | 0, _, _, _, _ => .diverge
  | fuel + 1, m, Y, A, X =>
    if minv = 0 ∨ Y.size < minv ∨ X.size < minv then gemvUnb ab m Y alpha A X fl
    else
      let q := partition2x2 A (A.rows / 2) (A.cols / 2) .fwd
      let x := vecPartTop X (X.size / 2)
      let y := vecPartTop Y (Y.size / 2)
      do
      let m ← gemvRec ab minv alpha fl fuel m y.1 q.tl x.1
      let m ← (if fl.transA then do
          let m ← gemvRec ab minv alpha fl fuel m y.1 q.bl x.2
          gemvRec ab minv alpha fl fuel m y.2 q.tr x.1
        else do
          let m ← gemvRec ab minv alpha fl fuel m y.1 q.tr x.2
          gemvRec ab minv alpha fl fuel m y.2 q.bl x.1)
      gemvRec ab minv alpha fl fuel m y.2 q.br x.2

/-- `armas_scale_unsafe` (`src/blas/mscale.c:63-71`). -/
def scaleUnsafe [Mul α] [Zero α] [One α] [DecidableEq α] (m : Mem α) (X : View) (alpha : α) :
    Res (Mem α) :=
  if X.isVec then vecScale m X alpha X.size else blkScale m X alpha X.rows X.cols

/-- `armas_mvmult_unsafe` (`src/blas/gemv.c:236-251`). -/
def mvmultUnsafe [Mul α] [Add α] [Zero α] [One α] [DecidableEq α] (ab : α → α) (env : Env)
    (fuel : Nat) (m : Mem α) (beta : α) (Y : View) (alpha : α) (A X : View) (fl : Flags) :
    Res (Mem α) :=
  if A.size = 0 then .ok m
  else do
    let m ← (if beta ≠ 1 then scaleUnsafe m Y beta else pure m)
    gemvRec ab env.blas2min alpha fl fuel m Y A X

/-- `armas_mvmult` (`src/blas/gemv.c:274-321`). -/
def mvmult [Mul α] [Add α] [Zero α] [One α] [DecidableEq α] (ab : α → α) (env : Env) (fuel : Nat)
    (m : Mem α) (beta : α) (Y : View) (alpha : α) (A X : View) (fl : Flags) : Res (Int × Mem α) :=
  if A.size = 0 ∨ X.size = 0 ∨ Y.size = 0 then .ok (0, m)
  else if ¬ (X.isVec ∧ Y.isVec) then .ok (-ENEED_VECTOR, m)
  else if ¬ (if fl.transA then A.cols = Y.size ∧ A.rows = X.size
      else A.rows = Y.size ∧ A.cols = X.size) then .ok (-ESIZE, m)
  else do
    let m ← (if beta ≠ 1 then scaleUnsafe m Y beta else pure m)
    let m ← (if env.naive then gemvUnb ab m Y alpha A X fl
      else gemvRec ab env.blas2min alpha fl fuel m Y A X)
    pure (0, m)

/-! ## ger -/

/-- One statement of the rank-1 kernels: `a[i] = beta*a[i] + x*y0`. -/
def gerElem [Mul α] [Add α] (beta : α) (a : Nat) (X : View) (y0 : α) (i : Nat) (m : Mem α) :
    Res (Mem α) := do
  let v ← rd m (a + i)
  let x ← rd m (X.base + i * X.inc)
  wr m (a + i) (beta * v + x * y0)

/-- `update4axpy` (`src/blas/ger.c:29-94`). -/
def update4axpy [Mul α] [Add α] (m : Mem α) (beta : α) (A : View) (alpha : α) (X Y : View) (M : Nat) :
    Res (Mem α) := do
  let y0 ← rd m (Y.base + 0 * Y.inc)
  let y1 ← rd m (Y.base + 1 * Y.inc)
  let y2 ← rd m (Y.base + 2 * Y.inc)
  let y3 ← rd m (Y.base + 3 * Y.inc)
  let row := fun (i : Nat) (m : Mem α) => do
    let m ← gerElem beta (A.base + 0 * A.step) X (alpha * y0) i m
    let m ← gerElem beta (A.base + 1 * A.step) X (alpha * y1) i m
    let m ← gerElem beta (A.base + 2 * A.step) X (alpha * y2) i m
    gerElem beta (A.base + 3 * A.step) X (alpha * y3) i m
  let (i, m) ← forUp 0 (M - 3) 4 (fun i m => do
    let m ← row (i + 0) m
    let m ← row (i + 1) m
    let m ← row (i + 2) m
    row (i + 3) m) m
  switchTail (M - i) i row m

/-- `update1axpy` (`src/blas/ger.c:96-130`). -/
def update1axpy [Mul α] [Add α] (m : Mem α) (beta : α) (A : View) (alpha : α) (X Y : View) (M : Nat) :
    Res (Mem α) := do
  let y0 ← rd m (Y.base + 0 * Y.inc)
  let row := gerElem beta A.base X (alpha * y0)
  let (i, m) ← forUp 0 (M - 3) 4 (fun i m => do
    let m ← row (i + 0) m
    let m ← row (i + 1) m
    let m ← row (i + 2) m
    row (i + 3) m) m
  switchTail (M - i) i row m

/-- `update_ger_unb` (`src/blas/ger.c:135-159`). -/
def gerUnb [Mul α] [Add α] (m : Mem α) (beta : α) (A : View) (alpha : α) (X Y : View) :
    Res (Mem α) := do
  let (j, m) ← forUp 0 (A.cols - 3) 4 (fun j m =>
    update4axpy m beta (A.sub 0 j A.rows 4) alpha X (Y.subvec j 4) A.rows) m
  let (_, m) ← forUp j A.cols 1 (fun j m =>
    update1axpy m beta (A.sub 0 j A.rows 1) alpha X (Y.subvec j 1) A.rows) m
  pure m

/-- `update_ger_recursive` (`src/blas/ger.c:161-192`). -/
def gerRec [Mul α] [Add α] (minv : Nat) (beta alpha : α) :
    Nat → Mem α → View → View → View → Res (Mem α)
  | 0, _, _, _, _ => .diverge
  | fuel + 1, m, A, X, Y =>
    if A.rows < minv ∨ A.cols < minv then gerUnb m beta A alpha X Y
    else
      let q := partition2x2 A (A.rows / 2) (A.cols / 2) .fwd
      let x := vecPartTop X (A.rows / 2)
      let y := vecPartTop Y (A.cols / 2)
      do
      let m ← gerRec minv beta alpha fuel m q.tl x.1 y.1
      let m ← gerRec minv beta alpha fuel m q.tr x.1 y.2
      let m ← gerRec minv beta alpha fuel m q.bl x.2 y.1
      gerRec minv beta alpha fuel m q.br x.2 y.2

/-- `armas_mvupdate_unsafe` (`src/blas/ger.c:194-203`). -/
def mvupdateUnsafe [Mul α] [Add α] (env : Env) (fuel : Nat) (m : Mem α) (beta : α) (A : View)
    (alpha : α) (X Y : View) : Res (Mem α) := gerRec env.blas2min beta alpha fuel m A X Y

/-- `armas_mvupdate` (`src/blas/ger.c:219-262`); the `switch (conf->optflags)` selects the unblocked
code only if `ARMAS_ONAIVE` is the only option bit. -/
def mvupdate [Mul α] [Add α] (env : Env) (fuel : Nat) (m : Mem α) (beta : α) (A : View)
    (alpha : α) (X Y : View) : Res (Int × Mem α) :=
  if A.size = 0 ∨ X.size = 0 ∨ Y.size = 0 then .ok (0, m)
  else if ¬ X.isVec then .ok (-ENEED_VECTOR, m)
  else if ¬ Y.isVec then .ok (-ENEED_VECTOR, m)
  else if A.cols ≠ Y.size ∨ A.rows ≠ X.size then .ok (-ESIZE, m)
  else do
    let m ← (if env.naive ∧ ¬ env.recursive then gerUnb m beta A alpha X Y
      else gerRec env.blas2min beta alpha fuel m A X Y)
    pure (0, m)

/-! ## trmv -/

/-- `armas_dot_unsafe` (`src/blas/dot.c:117-122`). -/
def dotUnsafe [Mul α] [Add α] [Zero α] [One α] (env : Env) (fuel : Nat) (m : Mem α) (X Y : View) :
    Res α := adotUnsafe fuel m env.blas1min 0 1 X Y

/-- Loop body shared by the four `trmv_*` functions (`src/blas/trmv.c:52-57,84-89,116-121,148-153`):
`a0`, `x0` the operands of the inner product, in the order of the call. -/
def trmvStep [Mul α] [Add α] [Zero α] [One α] (env : Env) (fuel : Nat) (x : View) (alpha : α)
    (unit : Bool) (p q : View) (i : Nat) (m : Mem α) : Res (Mem α) := do
  let xk ← rd m (x.vat i)
  let dot ← dotUnsafe env fuel m p q
  wr m (x.vat i) (alpha * (if unit then xk + dot else dot))

/-- `int unit = flags & ARMAS_UNIT ? 1 : 0` (`src/blas/trmv.c:47`). -/
def Flags.unitN (fl : Flags) : Nat := if fl.unit then 1 else 0

/-- `trmv_lu` (`src/blas/trmv.c:40-59`). -/
def trmvLu [Mul α] [Add α] [Zero α] [One α] (env : Env) (fuel : Nat) (m : Mem α) (x : View) (alpha : α)
    (A : View) (fl : Flags) : Res (Mem α) := do
  let u := fl.unitN
  let (_, m) ← forUp 0 A.cols 1 (fun i m =>
    trmvStep env fuel x alpha fl.unit (A.sub i (i + u) 1 (A.cols - i - u))
      (x.subvec (i + u) (A.cols - i - u)) i m) m
  pure m

/-- `trmv_lut` (`src/blas/trmv.c:72-91`). -/
def trmvLut [Mul α] [Add α] [Zero α] [One α] (env : Env) (fuel : Nat) (m : Mem α) (x : View) (alpha : α)
    (A : View) (fl : Flags) : Res (Mem α) := do
  let u := fl.unitN
  forDown A.cols (fun i m =>
    trmvStep env fuel x alpha fl.unit (x.subvec 0 (i + 1 - u)) (A.sub 0 i (i + 1 - u) 1) i m) m

/-- `trmv_ll` (`src/blas/trmv.c:104-123`). -/
def trmvLl [Mul α] [Add α] [Zero α] [One α] (env : Env) (fuel : Nat) (m : Mem α) (x : View) (alpha : α)
    (A : View) (fl : Flags) : Res (Mem α) := do
  let u := fl.unitN
  forDown A.cols (fun i m =>
    trmvStep env fuel x alpha fl.unit (x.subvec 0 (i + 1 - u)) (A.sub i 0 1 (i + 1 - u)) i m) m

/-- `trmv_llt` (`src/blas/trmv.c:136-155`). -/
def trmvLlt [Mul α] [Add α] [Zero α] [One α] (env : Env) (fuel : Nat) (m : Mem α) (x : View) (alpha : α)
    (A : View) (fl : Flags) : Res (Mem α) := do
  let u := fl.unitN
  let (_, m) ← forUp 0 A.cols 1 (fun i m =>
    trmvStep env fuel x alpha fl.unit (A.sub (i + u) i (A.cols - i - u) 1)
      (x.subvec (i + u) (A.cols - i - u)) i m) m
  pure m

/-- `trmv_unb` (`src/blas/trmv.c:157-179`): dispatch on the exact combination of the three bits. -/
def trmvUnb [Mul α] [Add α] [Zero α] [One α] (env : Env) (fuel : Nat) (m : Mem α) (x : View) (alpha : α)
    (A : View) (fl : Flags) : Res (Mem α) :=
  match fl.upper, fl.lower, fl.transA with
  | true, false, true => trmvLut env fuel m x alpha A fl
  | true, false, false => trmvLu env fuel m x alpha A fl
  | false, true, true => trmvLlt env fuel m x alpha A fl
  | _, _, _ => trmvLl env fuel m x alpha A fl

/-- `trmv_forward_recursive` (`src/blas/trmv.c:190-221`). -/
def trmvFwdRec [Mul α] [Add α] [Zero α] [One α] [DecidableEq α] (ab : α → α) (env : Env) (alpha : α)
    (fl : Flags) : Nat → Mem α → View → View → Res (Mem α)
  | 0, _, _, _ => .diverge
  | fuel + 1, m, X, A =>
    if A.cols < env.blas2min then trmvUnb env fuel m X alpha A fl
    else
      let q := partition2x2 A (A.rows / 2) (A.rows / 2) .fwd
      let x := vecPartTop X (A.rows / 2)
      do
      let m ← trmvFwdRec ab env alpha fl fuel m x.1 q.tl
      let m ← (if fl.upper then mvmultUnsafe ab env fuel m 1 x.1 alpha q.tr x.2 {}
        else mvmultUnsafe ab env fuel m 1 x.1 alpha q.bl x.2 {transA := true})
      trmvFwdRec ab env alpha fl fuel m x.2 q.br

/-- `trmv_backward_recursive` (`src/blas/trmv.c:232-263`). -/
def trmvBwdRec [Mul α] [Add α] [Zero α] [One α] [DecidableEq α] (ab : α → α) (env : Env) (alpha : α)
    (fl : Flags) : Nat → Mem α → View → View → Res (Mem α)
  | 0, _, _, _ => .diverge
  | fuel + 1, m, X, A =>
    if A.cols < env.blas2min then trmvUnb env fuel m X alpha A fl
    else
      let q := partition2x2 A (A.rows / 2) (A.rows / 2) .fwd
      let x := vecPartTop X (A.rows / 2)
      do
      let m ← trmvBwdRec ab env alpha fl fuel m x.2 q.br
      let m ← (if fl.upper then mvmultUnsafe ab env fuel m 1 x.2 alpha q.tr x.1 {transA := true}
        else mvmultUnsafe ab env fuel m 1 x.2 alpha q.bl x.1 {})
      trmvBwdRec ab env alpha fl fuel m x.1 q.tl

/-- The `switch` choosing the direction (`src/blas/trmv.c:279-290,345-355`, the same condition with
exchanged directions in `src/blas/trsv.c:330-341,396-406`). -/
def Flags.trFwd (fl : Flags) : Bool :=
  match fl.upper, fl.lower, fl.transA with
  | false, true, true => true
  | true, false, false => true
  | _, _, _ => false

/-- `armas_mvmult_trm_unsafe` (`src/blas/trmv.c:266-291`). -/
def mvmultTrmUnsafe [Mul α] [Add α] [Zero α] [One α] [DecidableEq α] (ab : α → α) (env : Env)
    (fuel : Nat) (m : Mem α) (X : View) (alpha : α) (A : View) (fl : Flags) : Res (Mem α) :=
  if A.cols < env.blas2min ∨ env.blas2min = 0 then trmvUnb env fuel m X alpha A fl
  else if fl.trFwd then trmvFwdRec ab env alpha fl fuel m X A
  else trmvBwdRec ab env alpha fl fuel m X A

/-- `armas_mvmult_trm` (`src/blas/trmv.c:315-358`). -/
def mvmultTrm [Mul α] [Add α] [Zero α] [One α] [DecidableEq α] (ab : α → α) (env : Env)
    (fuel : Nat) (m : Mem α) (X : View) (alpha : α) (A : View) (fl : Flags) : Res (Int × Mem α) :=
  if A.size = 0 ∨ X.size = 0 then .ok (0, m)
  else if ¬ X.isVec then .ok (-ENEED_VECTOR, m)
  else if A.cols ≠ X.size ∨ A.rows ≠ A.cols then .ok (-ESIZE, m)
  else do
    let m ← (if env.naive ∨ env.blas2min = 0 then trmvUnb env fuel m X alpha A fl
      else if fl.trFwd then trmvFwdRec ab env alpha fl fuel m X A
      else trmvBwdRec ab env alpha fl fuel m X A)
    pure (0, m)

/-! ## trsv -/

/-- Final division of the `trsv_*` functions: `if (!unit) xk /= A[i,i]; x[i] = xk`
(`src/blas/trsv.c:53-57,65-68`).  A zero diagonal element is not undefined for IEEE floats; over a
field the model divides too, and the theorems assume a non-zero diagonal. -/
def trsvStore [Div α] (x : View) (A : View) (unit : Bool) (i : Nat) (xk : α) (m : Mem α) :
    Res (Mem α) := do
  let xk ← (if unit then pure xk else do
    let d ← rd m (A.at' i i)
    pure (xk / d))
  wr m (x.vat i) xk

/-- First statements of the `trsv_*` functions (`src/blas/trsv.c:53-57,94-97,134-137,174-178`):
`i` is the first index handled. -/
def trsvFirst [Mul α] [Div α] (x : View) (alpha : α) (A : View) (unit : Bool) (i : Nat) (m : Mem α) :
    Res (Mem α) := do
  let xk ← rd m (x.vat i)
  trsvStore x A unit i (alpha * xk) m

/-- Loop body of the `trsv_*` functions (`src/blas/trsv.c:60-68,100-108,140-148,181-189`). -/
def trsvStep [Mul α] [Add α] [Sub α] [Div α] [Zero α] [One α] (env : Env) (fuel : Nat) (x : View)
    (alpha : α) (A : View) (unit : Bool) (a0 x0 : View) (i : Nat) (m : Mem α) : Res (Mem α) := do
  let xk ← rd m (x.vat i)
  let dot ← dotUnsafe env fuel m a0 x0
  trsvStore x A unit i (alpha * xk - dot) m

/-- `trsv_lu` (`src/blas/trsv.c:42-70`); index `A->cols-1` of an empty matrix is out of range. -/
def trsvLu [Mul α] [Add α] [Sub α] [Div α] [Zero α] [One α] (env : Env) (fuel : Nat) (m : Mem α)
    (x : View) (alpha : α) (A : View) (fl : Flags) : Res (Mem α) :=
  if A.cols = 0 then .ub
  else do
    let m ← trsvFirst x alpha A fl.unit (A.cols - 1) m
    forDown (A.cols - 1) (fun i m =>
      trsvStep env fuel x alpha A fl.unit (A.sub i (i + 1) 1 (A.cols - 1 - i))
        (x.subvec (i + 1) (A.cols - 1 - i)) i m) m

/-- `trsv_lut` (`src/blas/trsv.c:83-110`). -/
def trsvLut [Mul α] [Add α] [Sub α] [Div α] [Zero α] [One α] (env : Env) (fuel : Nat) (m : Mem α)
    (x : View) (alpha : α) (A : View) (fl : Flags) : Res (Mem α) := do
  let m ← trsvFirst x alpha A fl.unit 0 m
  let (_, m) ← forUp 1 A.cols 1 (fun i m =>
    trsvStep env fuel x alpha A fl.unit (A.sub 0 i i 1) (x.subvec 0 i) i m) m
  pure m

/-- `trsv_ll` (`src/blas/trsv.c:123-150`). -/
def trsvLl [Mul α] [Add α] [Sub α] [Div α] [Zero α] [One α] (env : Env) (fuel : Nat) (m : Mem α)
    (x : View) (alpha : α) (A : View) (fl : Flags) : Res (Mem α) := do
  let m ← trsvFirst x alpha A fl.unit 0 m
  let (_, m) ← forUp 1 A.cols 1 (fun i m =>
    trsvStep env fuel x alpha A fl.unit (A.sub i 0 1 i) (x.subvec 0 i) i m) m
  pure m

/-- `trsv_llt` (`src/blas/trsv.c:163-191`). -/
def trsvLlt [Mul α] [Add α] [Sub α] [Div α] [Zero α] [One α] (env : Env) (fuel : Nat) (m : Mem α)
    (x : View) (alpha : α) (A : View) (fl : Flags) : Res (Mem α) :=
  if A.cols = 0 then .ub
  else do
    let m ← trsvFirst x alpha A fl.unit (A.cols - 1) m
    forDown (A.cols - 1) (fun i m =>
      trsvStep env fuel x alpha A fl.unit (A.sub (i + 1) i (A.cols - 1 - i) 1)
        (x.subvec (i + 1) (A.cols - 1 - i)) i m) m

/-- `trsv_unb` (`src/blas/trsv.c:193-215`). -/
def trsvUnb [Mul α] [Add α] [Sub α] [Div α] [Zero α] [One α] (env : Env) (fuel : Nat) (m : Mem α)
    (x : View) (alpha : α) (A : View) (fl : Flags) : Res (Mem α) :=
  match fl.upper, fl.lower, fl.transA with
  | true, false, true => trsvLut env fuel m x alpha A fl
  | true, false, false => trsvLu env fuel m x alpha A fl
  | false, true, true => trsvLlt env fuel m x alpha A fl
  | _, _, _ => trsvLl env fuel m x alpha A fl

/-- `trsv_forward_recursive` (`src/blas/trsv.c:233-265`). -/
def trsvFwdRec [Field α] [DecidableEq α] (ab : α → α) (env : Env) (fl : Flags) :
    Nat → Mem α → View → α → View → Res (Mem α)
  | 0, _, _, _, _ => .diverge
  | fuel + 1, m, X, alpha, A =>
    if A.cols < env.blas2min then trsvUnb env fuel m X alpha A fl
    else
      let q := partition2x2 A (A.rows / 2) (A.rows / 2) .fwd
      let x := vecPartTop X (A.rows / 2)
      do
      let m ← trsvFwdRec ab env fl fuel m x.1 alpha q.tl
      let m ← (if fl.upper then mvmultUnsafe ab env fuel m alpha x.2 (-1) q.tr x.1 {transA := true}
        else mvmultUnsafe ab env fuel m alpha x.2 (-1) q.bl x.1 {})
      trsvFwdRec ab env fl fuel m x.2 1 q.br

/-- `trsv_backward_recursive` (`src/blas/trsv.c:283-315`). -/
def trsvBwdRec [Field α] [DecidableEq α] (ab : α → α) (env : Env) (fl : Flags) :
    Nat → Mem α → View → α → View → Res (Mem α)
  | 0, _, _, _, _ => .diverge
  | fuel + 1, m, X, alpha, A =>
    if A.cols < env.blas2min then trsvUnb env fuel m X alpha A fl
    else
      let q := partition2x2 A (A.rows / 2) (A.rows / 2) .fwd
      let x := vecPartTop X (A.rows / 2)
      do
      let m ← trsvBwdRec ab env fl fuel m x.2 alpha q.br
      let m ← (if fl.upper then mvmultUnsafe ab env fuel m alpha x.1 (-1) q.tr x.2 {}
        else mvmultUnsafe ab env fuel m alpha x.1 (-1) q.bl x.2 {transA := true})
      trsvBwdRec ab env fl fuel m x.1 1 q.tl

/-- `armas_mvsolve_trm_unsafe` (`src/blas/trsv.c:317-342`). -/
def mvsolveTrmUnsafe [Field α] [DecidableEq α] (ab : α → α) (env : Env) (fuel : Nat) (m : Mem α)
    (X : View) (alpha : α) (A : View) (fl : Flags) : Res (Mem α) :=
  if A.cols < env.blas2min ∨ env.blas2min = 0 then trsvUnb env fuel m X alpha A fl
  else if fl.trFwd then trsvBwdRec ab env fl fuel m X alpha A
  else trsvFwdRec ab env fl fuel m X alpha A

/-- `armas_mvsolve_trm` (`src/blas/trsv.c:366-408`). -/
def mvsolveTrm [Field α] [DecidableEq α] (ab : α → α) (env : Env) (fuel : Nat) (m : Mem α) (X : View)
    (alpha : α) (A : View) (fl : Flags) : Res (Int × Mem α) :=
  if A.size = 0 ∨ X.size = 0 then .ok (0, m)
  else if ¬ X.isVec then .ok (-ENEED_VECTOR, m)
  else if A.cols ≠ X.size ∨ A.rows ≠ A.cols then .ok (-ESIZE, m)
  else do
    let m ← (if env.naive ∨ env.blas2min = 0 then trsvUnb env fuel m X alpha A fl
      else if fl.trFwd then trsvBwdRec ab env fl fuel m X alpha A
      else trsvFwdRec ab env fl fuel m X alpha A)
    pure (0, m)

/-! ## symv -/

/-- `symv_unb` (`src/blas/symv.c:54-90`). -/
def symvUnb [CommRing α] (env : Env) (fuel : Nat) (m : Mem α) (Y : View) (alpha : α) (A X : View)
    (fl : Flags) : Res (Mem α) := do
  let (_, m) ← forUp 0 A.cols 1 (fun j m => do
    let a01 := if fl.lower then A.sub (j + 1) j (A.rows - j - 1) 1
      else A.sub j (j + 1) 1 (A.cols - j - 1)
    let x1 := X.subvec (j + 1) (A.rows - j - 1)
    let y1 := Y.subvec (j + 1) (A.rows - j - 1)
    let y0 ← rd m (Y.vat j)
    let x0 ← rd m (X.vat j)
    let a00 ← rd m (A.at' j j)
    let y0 ← adotUnsafe fuel m env.blas1min (y0 + alpha * x0 * a00) alpha x1 a01
    let m ← wr m (Y.vat j) y0
    axpbyUnsafe m 1 y1 (alpha * x0) a01) m
  pure m

/-- `symv_recursive` (`src/blas/symv.c:108-150`). -/
def symvRec [CommRing α] [DecidableEq α] (ab : α → α) (env : Env) (alpha : α) (fl : Flags) :
    Nat → Mem α → View → View → View → Res (Mem α)
  | 0, _, _, _, _ => .diverge
  | fuel + 1, m, Y, A, X =>
    let N := Y.size
    if N < env.blas2min then symvUnb env fuel m Y alpha A X fl
    else
      let q := partition2x2 A (N / 2) (N / 2) .fwd
      let x := vecPartTop X (N / 2)
      let y := vecPartTop Y (N / 2)
      if fl.upper then do
        let m ← symvRec ab env alpha fl fuel m y.1 q.tl x.1
        let m ← mvmultUnsafe ab env fuel m 1 y.1 alpha q.tr x.2 {}
        let m ← symvRec ab env alpha fl fuel m y.2 q.br x.2
        mvmultUnsafe ab env fuel m 1 y.2 alpha q.tr x.1 {transA := true}
      else do
        let m ← symvRec ab env alpha fl fuel m y.1 q.tl x.1
        let m ← mvmultUnsafe ab env fuel m 1 y.1 alpha q.bl x.2 {transA := true}
        let m ← symvRec ab env alpha fl fuel m y.2 q.br x.2
        mvmultUnsafe ab env fuel m 1 y.2 alpha q.bl x.1 {}

/-- `armas_mvmult_sym_unsafe` (`src/blas/symv.c:152-161`). -/
def mvmultSymUnsafe [CommRing α] [DecidableEq α] (ab : α → α) (env : Env) (fuel : Nat) (m : Mem α)
    (beta : α) (Y : View) (alpha : α) (A X : View) (fl : Flags) : Res (Mem α) := do
  let m ← (if beta ≠ 1 then scaleUnsafe m Y beta else pure m)
  symvRec ab env alpha fl fuel m Y A X

/-- `armas_mvmult_sym` (`src/blas/symv.c:184-223`). -/
def mvmultSym [CommRing α] [DecidableEq α] (ab : α → α) (env : Env) (fuel : Nat) (m : Mem α)
    (beta : α) (Y : View) (alpha : α) (A X : View) (fl : Flags) : Res (Int × Mem α) :=
  if A.size = 0 ∨ X.size = 0 ∨ Y.size = 0 then .ok (0, m)
  else if ¬ X.isVec then .ok (-ENEED_VECTOR, m)
  else if ¬ Y.isVec then .ok (-ENEED_VECTOR, m)
  else if ¬ (A.cols = A.rows ∧ X.size = Y.size ∧ X.size = A.cols) then .ok (-ESIZE, m)
  else do
    let m ← (if beta ≠ 1 then scaleUnsafe m Y beta else pure m)
    let m ← symvRec ab env alpha fl fuel m Y A X
    pure (0, m)

/-! ## syr2, updtrmv, syr -/

/-- `update_syr2_unb` (`src/blas/syr2.c:38-65`). -/
def syr2Unb [CommRing α] (m : Mem α) (beta : α) (A : View) (alpha : α) (X Y : View) (fl : Flags) :
    Res (Mem α) := do
  let (_, m) ← forUp 0 A.cols 1 (fun j m => do
    let a10 := if fl.upper then A.sub j j 1 (A.cols - j) else A.sub j j (A.cols - j) 1
    let y1 := Y.subvec j (A.cols - j)
    let x1 := X.subvec j (A.cols - j)
    let x0 ← rd m (x1.vat 0)
    let y0 ← rd m (y1.vat 0)
    let m ← axpbyUnsafe m beta a10 (alpha * y0) x1
    axpbyUnsafe m 1 a10 (alpha * x0) y1) m
  pure m

/-- `update_syr2_recursive` (`src/blas/syr2.c:67-104`). -/
def syr2Rec [CommRing α] (env : Env) (beta alpha : α) (fl : Flags) :
    Nat → Mem α → View → View → View → Res (Mem α)
  | 0, _, _, _, _ => .diverge
  | fuel + 1, m, A, X, Y =>
    if A.rows < env.blas2min then syr2Unb m beta A alpha X Y fl
    else
      let q := partition2x2 A (A.rows / 2) (A.rows / 2) .fwd
      let x := vecPartTop X (A.rows / 2)
      let y := vecPartTop Y (A.rows / 2)
      do
      let m ← syr2Rec env beta alpha fl fuel m q.tl x.1 y.1
      let m ← (if fl.upper then do
          let m ← mvupdateUnsafe env fuel m beta q.tr alpha x.1 y.2
          mvupdateUnsafe env fuel m 1 q.tr alpha y.1 x.2
        else do
          let m ← mvupdateUnsafe env fuel m beta q.bl alpha x.2 y.1
          mvupdateUnsafe env fuel m 1 q.bl alpha y.2 x.1)
      syr2Rec env beta alpha fl fuel m q.br x.2 y.2

/-- `armas_mvupdate2_sym` (`src/blas/syr2.c:128-173`): the size check does not compare the vectors
with the matrix. -/
def mvupdate2Sym [CommRing α] (env : Env) (fuel : Nat) (m : Mem α) (beta : α) (A : View) (alpha : α)
    (X Y : View) (fl : Flags) : Res (Int × Mem α) :=
  if A.size = 0 ∨ X.size = 0 ∨ Y.size = 0 then .ok (0, m)
  else if ¬ X.isVec then .ok (-ENEED_VECTOR, m)
  else if ¬ Y.isVec then .ok (-ENEED_VECTOR, m)
  else if A.cols ≠ A.rows ∨ Y.size ≠ X.size then .ok (-ESIZE, m)
  else do
    let m ← (if env.naive ∧ ¬ env.recursive then syr2Unb m beta A alpha X Y fl
      else syr2Rec env beta alpha fl fuel m A X Y)
    pure (0, m)

/-- `update_trmv_unb` (`src/blas/updtrmv.c:35-65`).  The C sizes `A->cols-j`, `A->rows-j` are
negative for `j` beyond the shorter dimension and the row/column length is then used as a loop bound
by `axpby`, which does nothing; truncated subtraction gives the same. -/
def updtrmvUnb [CommRing α] (m : Mem α) (beta : α) (A : View) (alpha : α) (X Y : View) (fl : Flags) :
    Res (Mem α) :=
  if fl.upper ∧ ¬ fl.lower then do
    let (_, m) ← forUp 0 A.rows 1 (fun j m => do
      let dk ← rd m (X.vat j)
      axpbyUnsafe m beta (A.sub j j 1 (A.cols - j)) (alpha * dk) (Y.subvec j (A.cols - j))) m
    pure m
  else do
    let (_, m) ← forUp 0 A.cols 1 (fun j m => do
      let dk ← rd m (Y.vat j)
      axpbyUnsafe m beta (A.sub j j (A.rows - j) 1) (alpha * dk) (X.subvec j (A.rows - j))) m
    pure m

/-- `update_trmv_recursive` (`src/blas/updtrmv.c:67-103`). -/
def updtrmvRec [CommRing α] (env : Env) (beta alpha : α) (fl : Flags) :
    Nat → Mem α → View → View → View → Res (Mem α)
  | 0, _, _, _, _ => .diverge
  | fuel + 1, m, A, X, Y =>
    if env.blas2min = 0 ∨ A.rows < env.blas2min ∨ A.cols < env.blas2min then
      updtrmvUnb m beta A alpha X Y fl
    else
      let q := partition2x2 A (A.rows / 2) (A.cols / 2) .fwd
      let x := vecPartTop X (A.rows / 2)
      let y := vecPartTop Y (A.cols / 2)
      do
      let m ← updtrmvRec env beta alpha fl fuel m q.tl x.1 y.1
      let m ← (if fl.upper then mvupdateUnsafe env fuel m beta q.tr alpha x.1 y.2
        else mvupdateUnsafe env fuel m beta q.bl alpha x.2 y.1)
      updtrmvRec env beta alpha fl fuel m q.br x.2 y.2

/-- `armas_mvupdate_trm_unsafe` (`src/blas/updtrmv.c:105-115`). -/
def mvupdateTrmUnsafe [CommRing α] (env : Env) (fuel : Nat) (m : Mem α) (beta : α) (A : View)
    (alpha : α) (X Y : View) (fl : Flags) : Res (Mem α) :=
  updtrmvRec env beta alpha fl fuel m A X Y

/-- `armas_mvupdate_trm` (`src/blas/updtrmv.c:139-183`): the recursive code runs only if
`ARMAS_ORECURSIVE` is set and `ARMAS_ONAIVE` is not. -/
def mvupdateTrm [CommRing α] (env : Env) (fuel : Nat) (m : Mem α) (beta : α) (A : View) (alpha : α)
    (X Y : View) (fl : Flags) : Res (Int × Mem α) :=
  if A.size = 0 ∨ X.size = 0 ∨ Y.size = 0 then .ok (0, m)
  else if ¬ X.isVec then .ok (-ENEED_VECTOR, m)
  else if ¬ Y.isVec then .ok (-ENEED_VECTOR, m)
  else if A.cols ≠ Y.size ∨ A.rows ≠ X.size then .ok (-ESIZE, m)
  else do
    let m ← (if env.recursive ∧ ¬ env.naive then updtrmvRec env beta alpha fl fuel m A X Y
      else updtrmvUnb m beta A alpha X Y fl)
    pure (0, m)

/-- `armas_mvupdate_sym` (`src/blas/syr.c:58-67`). -/
def mvupdateSym [CommRing α] (env : Env) (fuel : Nat) (m : Mem α) (beta : α) (A : View) (alpha : α)
    (X : View) (fl : Flags) : Res (Int × Mem α) := mvupdateTrm env fuel m beta A alpha X X fl

end Armas
