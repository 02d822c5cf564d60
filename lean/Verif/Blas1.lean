import Verif.Logic
import Mathlib.Algebra.Order.Field.Basic
import Mathlib.Algebra.Order.Ring.Abs

/-!
# BLAS level 1

Model of `src/blas/{axpy,dot,asum,iamax,nrm2,swap,mscale,mcopy}.c`, plain precision.
Public functions return the C return value together with the final memory; `0` is success.
The configuration block is assumed present; `conf->error` equals the negated return value and is
not modelled separately.
-/

namespace Armas

variable {α : Type}

/-- `enum armas_errors` (`src/include/armas.h:131-145`). -/
def ESIZE : Int := 1
/-- `src/include/armas.h:133`. -/
def ENEED_VECTOR : Int := 2
/-- `src/include/armas.h:134`. -/
def EINVAL : Int := 3
/-- `src/include/armas.h:137`. -/
def ESINGULAR : Int := 6
/-- `src/include/armas.h:138`. -/
def ENEGATIVE : Int := 7

/-- `armas_axpby_unsafe` (`src/blas/axpy.c:30-69`): loop unrolled by four, then the tail switch.
`kx`, `ky` of the tail are `X.vat`/`Y.vat` of the running index. -/
def axpbyUnsafe [Mul α] [Add α] (m : Mem α) (beta : α) (Y : View) (alpha : α) (X : View) :
    Res (Mem α) := do
  let N := Y.size
  let (i, m) ← forUp 0 (N - 3) 4 (fun i m => do
    let y0 ← rd m (Y.vat (i + 0))
    let y1 ← rd m (Y.vat (i + 1))
    let y2 ← rd m (Y.vat (i + 2))
    let y3 ← rd m (Y.vat (i + 3))
    let x0 ← rd m (X.vat (i + 0))
    let m ← wr m (Y.vat (i + 0)) (y0 * beta + alpha * x0)
    let x1 ← rd m (X.vat (i + 1))
    let m ← wr m (Y.vat (i + 1)) (y1 * beta + alpha * x1)
    let x2 ← rd m (X.vat (i + 2))
    let m ← wr m (Y.vat (i + 2)) (y2 * beta + alpha * x2)
    let x3 ← rd m (X.vat (i + 3))
    wr m (Y.vat (i + 3)) (y3 * beta + alpha * x3)) m
  switchTail (N - i) i (fun i m => do
    let y0 ← rd m (Y.vat i)
    let x0 ← rd m (X.vat i)
    wr m (Y.vat i) (y0 * beta + alpha * x0)) m

/-- `armas_axpby` (`src/blas/axpy.c:83-106`). -/
def axpby [Mul α] [Add α] (m : Mem α) (beta : α) (Y : View) (alpha : α) (X : View) :
    Res (Int × Mem α) :=
  if ¬ (X.isVec ∧ Y.isVec) then .ok (-ENEED_VECTOR, m)
  else if X.size ≠ Y.size then .ok (-ESIZE, m)
  else do
    let m ← axpbyUnsafe m beta Y alpha X
    pure (0, m)

/-- `armas_axpy` (`src/blas/axpy.c:118-125`). -/
def axpy [Mul α] [Add α] [One α] (m : Mem α) (Y : View) (alpha : α) (X : View) :
    Res (Int × Mem α) := axpby m 1 Y alpha X

/-- `vec_scale` (`src/blas/mscale.c:30-57`). -/
def vecScale [Mul α] (m : Mem α) (X : View) (alpha : α) (N : Nat) : Res (Mem α) := do
  let (i, m) ← forUp 0 (N - 3) 4 (fun i m => do
    let x ← rd m (X.vat (i + 0))
    let m ← wr m (X.vat (i + 0)) (x * alpha)
    let x ← rd m (X.vat (i + 1))
    let m ← wr m (X.vat (i + 1)) (x * alpha)
    let x ← rd m (X.vat (i + 2))
    let m ← wr m (X.vat (i + 2)) (x * alpha)
    let x ← rd m (X.vat (i + 3))
    wr m (X.vat (i + 3)) (x * alpha)) m
  switchTail (N - i) i (fun i m => do
    let x ← rd m (X.vat i)
    wr m (X.vat i) (x * alpha)) m

/-- `armas_scale` (`src/blas/mscale.c:85-101`). -/
def scale [Mul α] (m : Mem α) (X : View) (alpha : α) : Res (Int × Mem α) :=
  if X.size = 0 then .ok (0, m)
  else if ¬ X.isVec then .ok (-ENEED_VECTOR, m)
  else do
    let m ← vecScale m X alpha X.size
    pure (0, m)

/-- `vec_swap` (`src/blas/swap.c:29-77`). -/
def vecSwap (m : Mem α) (X Y : View) (N : Nat) : Res (Mem α) := do
  let (i, m) ← forUp 0 (N - 3) 4 (fun i m => do
    let y0 ← rd m (Y.vat (i + 0))
    let y1 ← rd m (Y.vat (i + 1))
    let y2 ← rd m (Y.vat (i + 2))
    let y3 ← rd m (Y.vat (i + 3))
    let x0 ← rd m (X.vat (i + 0))
    let x1 ← rd m (X.vat (i + 1))
    let x2 ← rd m (X.vat (i + 2))
    let x3 ← rd m (X.vat (i + 3))
    let m ← wr m (X.vat (i + 0)) y0
    let m ← wr m (X.vat (i + 1)) y1
    let m ← wr m (X.vat (i + 2)) y2
    let m ← wr m (X.vat (i + 3)) y3
    let m ← wr m (Y.vat (i + 0)) x0
    let m ← wr m (Y.vat (i + 1)) x1
    let m ← wr m (Y.vat (i + 2)) x2
    wr m (Y.vat (i + 3)) x3) m
  switchTail (N - i) i (fun i m => do
    let y0 ← rd m (Y.vat i)
    let x0 ← rd m (X.vat i)
    let m ← wr m (Y.vat i) x0
    wr m (X.vat i) y0) m

/-- `armas_swap` (`src/blas/swap.c:91-117`); note the exchanged argument names of the C code. -/
def swap (m : Mem α) (Y X : View) : Res (Int × Mem α) :=
  if ¬ X.isVec then .ok (-ENEED_VECTOR, m)
  else if ¬ Y.isVec then .ok (-ENEED_VECTOR, m)
  else if X.size ≠ Y.size then .ok (-ESIZE, m)
  else if X.size = 0 ∨ Y.size = 0 then .ok (0, m)
  else do
    let m ← vecSwap m Y X Y.size
    pure (0, m)

/-- `vector_copy` (`src/blas/mcopy.c:30-63`): `X := Y`. -/
def vectorCopy (m : Mem α) (X Y : View) (N : Nat) : Res (Mem α) := do
  let (i, m) ← forUp 0 (N - 3) 4 (fun i m => do
    let f0 ← rd m (Y.vat (i + 0))
    let f1 ← rd m (Y.vat (i + 1))
    let f2 ← rd m (Y.vat (i + 2))
    let f3 ← rd m (Y.vat (i + 3))
    let m ← wr m (X.vat (i + 0)) f0
    let m ← wr m (X.vat (i + 1)) f1
    let m ← wr m (X.vat (i + 2)) f2
    wr m (X.vat (i + 3)) f3) m
  switchTail (N - i) i (fun i m => do
    let y ← rd m (Y.vat i)
    wr m (X.vat i) y) m

/-- `armas_copy` (`src/blas/mcopy.c:78-94`). -/
def copyVec (m : Mem α) (Y X : View) : Res (Int × Mem α) :=
  if X.size = 0 ∨ Y.size = 0 then .ok (0, m)
  else if ¬ (X.isVec ∧ Y.isVec) then .ok (-ENEED_VECTOR, m)
  else do
    let N := if X.size < Y.size then X.size else Y.size
    let m ← vectorCopy m Y X N
    pure (0, m)

/-- `memcpy(&d[..], &s[..], n*sizeof(DTYPE))` as used by `copy_plain_mcpy1`
(`src/include/matcpy.h:19`): overlapping ranges are undefined behaviour. -/
def memcpyElems (m : Mem α) (d s n : Nat) : Res (Mem α) :=
  if 0 < n ∧ s < d + n ∧ d < s + n then .ub
  else do
    let (_, m) ← forUp 0 n 1 (fun i m => do
      let v ← rd m (s + i)
      wr m (d + i) v) m
    pure m

/-- `copy_plain_mcpy1` (`src/include/matcpy.h:15-21`), `CP` (`:345-348`).  The pointer/stride pairs
are passed as views. -/
def copyPlain (m : Mem α) (D S : View) (nR nC : Nat) : Res (Mem α) := do
  let (_, m) ← forUp 0 nC 1 (fun j m => memcpyElems m (D.at' 0 j) (S.at' 0 j) nR) m
  pure m

/-- `copy_trans1x4` (`src/include/matcpy.h:44-66`): one source column at a time, four rows
unrolled. -/
def copyTrans1x4 (m : Mem α) (D S : View) (nR nC : Nat) : Res (Mem α) := do
  let (_, m) ← forUp 0 nC 1 (fun j m => do
    let (i, m) ← forUp 0 (nR - 3) 4 (fun i m => do
      let v ← rd m (S.at' (i + 0) j)
      let m ← wr m (D.at' j (i + 0)) v
      let v ← rd m (S.at' (i + 1) j)
      let m ← wr m (D.at' j (i + 1)) v
      let v ← rd m (S.at' (i + 2) j)
      let m ← wr m (D.at' j (i + 2)) v
      let v ← rd m (S.at' (i + 3) j)
      wr m (D.at' j (i + 3)) v) m
    switchTail (nR - i) i (fun i m => do
      let v ← rd m (S.at' i j)
      wr m (D.at' j i) v) m) m
  pure m

/-- `copy_trans4x1` (`src/include/matcpy.h:68-83`), `CPTRANS` (`:339-342`): four source columns at
a time, the remaining columns by `copy_trans1x4`. -/
def copyTrans4x1 (m : Mem α) (D S : View) (nR nC : Nat) : Res (Mem α) := do
  let (j, m) ← forUp 0 (nC - 3) 4 (fun j m => do
    let (_, m) ← forUp 0 nR 1 (fun i m => do
      let v ← rd m (S.at' i (j + 0))
      let m ← wr m (D.at' (j + 0) i) v
      let v ← rd m (S.at' i (j + 1))
      let m ← wr m (D.at' (j + 1) i) v
      let v ← rd m (S.at' i (j + 2))
      let m ← wr m (D.at' (j + 2) i) v
      let v ← rd m (S.at' i (j + 3))
      wr m (D.at' (j + 3) i) v) m
    pure m) m
  if j = nC then pure m
  else copyTrans1x4 m (D.sub j 0 (nC - j) nR) (S.sub 0 j nR (nC - j)) nR (nC - j)

/-- `armas_mcopy` (`src/blas/mcopy.c:117-156`), `trans` is the flag `ARMAS_TRANS`. -/
def mcopy (m : Mem α) (A B : View) (trans : Bool) : Res (Int × Mem α) :=
  if A.isVec ∧ B.isVec then
    if A.size ≠ B.size then .ok (-ESIZE, m)
    else do
      let m ← vectorCopy m A B A.size
      pure (0, m)
  else if trans then
    if ¬ (A.rows = B.cols ∧ A.cols = B.rows) then .ok (-ESIZE, m)
    else do
      let m ← copyTrans4x1 m A B B.rows B.cols
      pure (0, m)
  else
    if ¬ (A.rows = B.rows ∧ A.cols = B.cols) then .ok (-ESIZE, m)
    else do
      let m ← copyPlain m A B B.rows B.cols
      pure (0, m)

/-- `blk_scale` (`src/include/matcpy.h:405-450`): four columns at a time. -/
def blkScale [Mul α] [Zero α] [One α] [DecidableEq α] (m : Mem α) (X : View) (beta : α) (M N : Nat) :
    Res (Mem α) :=
  if beta = 1 then .ok m
  else if beta = 0 then do
    let (j, m) ← forUp 0 (N - 3) 4 (fun j m => do
      let (_, m) ← forUp 0 M 1 (fun i m => do
        let m ← wr m (X.at' i (j + 0)) (0 : α)
        let m ← wr m (X.at' i (j + 1)) (0 : α)
        let m ← wr m (X.at' i (j + 2)) (0 : α)
        wr m (X.at' i (j + 3)) (0 : α)) m
      pure m) m
    let (_, m) ← forUp j N 1 (fun j m => do
      let (_, m) ← forUp 0 M 1 (fun i m => wr m (X.at' i j) (0 : α)) m
      pure m) m
    pure m
  else do
    let (j, m) ← forUp 0 (N - 3) 4 (fun j m => do
      let (_, m) ← forUp 0 M 1 (fun i m => do
        let v ← rd m (X.at' i (j + 0))
        let m ← wr m (X.at' i (j + 0)) (v * beta)
        let v ← rd m (X.at' i (j + 1))
        let m ← wr m (X.at' i (j + 1)) (v * beta)
        let v ← rd m (X.at' i (j + 2))
        let m ← wr m (X.at' i (j + 2)) (v * beta)
        let v ← rd m (X.at' i (j + 3))
        wr m (X.at' i (j + 3)) (v * beta)) m
      pure m) m
    let (_, m) ← forUp j N 1 (fun j m => do
      let (_, m) ← forUp 0 M 1 (fun i m => do
        let v ← rd m (X.at' i j)
        wr m (X.at' i j) (v * beta)) m
      pure m) m
    pure m

/-- `vec_dot` (`src/blas/dot.c:28-63`): four partial sums. -/
def vecDot [Mul α] [Add α] [Zero α] (m : Mem α) (X Y : View) (N : Nat) : Res α := do
  let (i, c) ← forUp 0 (N - 3) 4 (fun i (c : α × α × α × α) => do
    let x0 ← rd m (X.vat (i + 0))
    let x1 ← rd m (X.vat (i + 1))
    let x2 ← rd m (X.vat (i + 2))
    let x3 ← rd m (X.vat (i + 3))
    let y0 ← rd m (Y.vat (i + 0))
    let y1 ← rd m (Y.vat (i + 1))
    let y2 ← rd m (Y.vat (i + 2))
    let y3 ← rd m (Y.vat (i + 3))
    pure (c.1 + x0 * y0, c.2.1 + x1 * y1, c.2.2.1 + x2 * y2, c.2.2.2 + x3 * y3)) (0, 0, 0, 0)
  let (c0, c1, c2, c3) := c
  match N - i with
  | 3 => do
    let x ← rd m (X.vat i)
    let y ← rd m (Y.vat i)
    let c0 := c0 + x * y
    let x ← rd m (X.vat (i + 1))
    let y ← rd m (Y.vat (i + 1))
    let c1 := c1 + x * y
    let x ← rd m (X.vat (i + 2))
    let y ← rd m (Y.vat (i + 2))
    let c2 := c2 + x * y
    pure (c0 + c1 + c2 + c3)
  | 2 => do
    let x ← rd m (X.vat i)
    let y ← rd m (Y.vat i)
    let c1 := c1 + x * y
    let x ← rd m (X.vat (i + 1))
    let y ← rd m (Y.vat (i + 1))
    let c2 := c2 + x * y
    pure (c0 + c1 + c2 + c3)
  | 1 => do
    let x ← rd m (X.vat i)
    let y ← rd m (Y.vat i)
    let c2 := c2 + x * y
    pure (c0 + c1 + c2 + c3)
  | _ => pure (c0 + c1 + c2 + c3)

/-- `vec_dot_recursive` (`src/blas/dot.c:72-104`).  `fuel` bounds the recursion depth; running out
of it is `diverge`. -/
def vecDotRec [Mul α] [Add α] [Zero α] (m : Mem α) (minv : Nat) :
    Nat → View → View → Nat → Res α
  | 0, _, _, _ => .diverge
  | fuel + 1, X, Y, n =>
    let n2 := n / 2
    let n4 := n / 4
    let nn := n - n2 - n4
    if n < minv then vecDot m X Y n
    else if n / 2 < minv then do
      let c0 ← vecDot m (X.subvec 0 n2) (Y.subvec 0 n2) n2
      let c1 ← vecDot m (X.subvec n2 (n - n2)) (Y.subvec n2 (n - n2)) (n - n2)
      pure (c0 + c1)
    else if n / 4 < minv then do
      let c0 ← vecDot m (X.subvec 0 n4) (Y.subvec 0 n4) n4
      let c1 ← vecDot m (X.subvec n4 (n2 - n4)) (Y.subvec n4 (n2 - n4)) (n2 - n4)
      let c2 ← vecDot m (X.subvec n2 n4) (Y.subvec n2 n4) n4
      let c3 ← vecDot m (X.subvec (n2 + n4) nn) (Y.subvec (n2 + n4) nn) nn
      pure (c0 + c1 + c2 + c3)
    else do
      let c0 ← vecDotRec m minv fuel (X.subvec 0 n4) (Y.subvec 0 n4) n4
      let c1 ← vecDotRec m minv fuel (X.subvec n4 (n2 - n4)) (Y.subvec n4 (n2 - n4)) (n2 - n4)
      let c2 ← vecDotRec m minv fuel (X.subvec n2 n4) (Y.subvec n2 n4) n4
      let c3 ← vecDotRec m minv fuel (X.subvec (n2 + n4) nn) (Y.subvec (n2 + n4) nn) nn
      pure (c0 + c1 + c2 + c3)

/-- `armas_adot` (`src/blas/dot.c:139-174`): returns the error code and the new `*value`; `naive`
is the `ARMAS_ONAIVE` option, `blas1min` the environment threshold.  `value == NULL` not modelled. -/
def adot [Mul α] [Add α] [Zero α] (fuel : Nat) (m : Mem α) (blas1min : Nat) (naive : Bool)
    (value alpha : α) (X Y : View) : Res (Int × α) :=
  if ¬ X.isVec then .ok (-1, value)
  else if ¬ Y.isVec then .ok (-1, value)
  else if X.size ≠ Y.size then .ok (-1, value)
  else do
    let dval ← if naive ∨ blas1min = 0 then vecDot m Y X Y.size
      else vecDotRec m blas1min fuel Y X Y.size
    pure (0, value + alpha * dval)

/-- `armas_dot` (`src/blas/dot.c:184-191`). -/
def dot [Mul α] [Add α] [Zero α] [One α] (fuel : Nat) (m : Mem α) (blas1min : Nat) (naive : Bool)
    (X Y : View) : Res α := do
  let (err, v) ← adot fuel m blas1min naive 0 1 X Y
  if err < 0 then pure 0 else pure v

/-- `armas_adot_unsafe` (`src/blas/dot.c:105-115`). -/
def adotUnsafe [Mul α] [Add α] [Zero α] (fuel : Nat) (m : Mem α) (blas1min : Nat)
    (value alpha : α) (X Y : View) : Res α := do
  let dval ← if blas1min = 0 then vecDot m X Y Y.size else vecDotRec m blas1min fuel Y X Y.size
  pure (value + dval * alpha)

section Ordered

variable [Field α] [LinearOrder α]

/-- `vec_asum` (`src/blas/asum.c:32-67`). -/
def vecAsum (m : Mem α) (X : View) (N : Nat) : Res α := do
  let (i, c) ← forUp 0 (N - 3) 4 (fun i (c : α × α × α × α) => do
    let z0 ← rd m (X.vat (i + 0))
    let z1 ← rd m (X.vat (i + 1))
    let z2 ← rd m (X.vat (i + 2))
    let z3 ← rd m (X.vat (i + 3))
    pure (c.1 + |z0|, c.2.1 + |z1|, c.2.2.1 + |z2|, c.2.2.2 + |z3|)) (0, 0, 0, 0)
  let (c0, c1, c2, c3) := c
  match N - i with
  | 3 => do
    let x0 ← rd m (X.vat i)
    let x1 ← rd m (X.vat (i + 1))
    let x2 ← rd m (X.vat (i + 2))
    pure (c0 + |x0| + (c1 + |x1|) + (c2 + |x2|) + c3)
  | 2 => do
    let x1 ← rd m (X.vat i)
    let x2 ← rd m (X.vat (i + 1))
    pure (c0 + (c1 + |x1|) + (c2 + |x2|) + c3)
  | 1 => do
    let x2 ← rd m (X.vat i)
    pure (c0 + c1 + (c2 + |x2|) + c3)
  | _ => pure (c0 + c1 + c2 + c3)

/-- One compensated step of `vec_asum_kahan` (`src/blas/asum.c:80-83`): `(s, c)` from `(s, c)`. -/
def kahanStep (x : α) (s c : α) : α × α :=
  let y := |x| - c
  let t := s + y
  (t, (t - s) - y)

/-- `vec_asum_kahan` (`src/blas/asum.c:69-100`). -/
def vecAsumKahan (m : Mem α) (X : View) (N : Nat) : Res α := do
  let (k, st) ← forUp 0 (N - 1) 2 (fun k (st : (α × α) × (α × α)) => do
    let x0 ← rd m (X.vat (k + 0))
    let x1 ← rd m (X.vat (k + 1))
    pure (kahanStep x0 st.1.1 st.1.2, kahanStep x1 st.2.1 st.2.2)) ((0, 0), (0, 0))
  if k = N then pure (st.1.1 + st.2.1)
  else do
    let x0 ← rd m (X.vat k)
    pure ((kahanStep x0 st.1.1 st.1.2).1 + st.2.1)

/-- `vec_asum_recursive` (`src/blas/asum.c:108-137`). -/
def vecAsumRec (m : Mem α) (minv : Nat) : Nat → View → Nat → Res α
  | 0, _, _ => .diverge
  | fuel + 1, X, n =>
    let n2 := n / 2
    let n4 := n / 4
    let nn := n - n2 - n4
    if n < minv then vecAsum m X n
    else if n / 2 < minv then do
      let c0 ← vecAsum m (X.subvec 0 n2) n2
      let c1 ← vecAsum m (X.subvec n2 (n - n2)) (n - n2)
      pure (c0 + c1)
    else if n / 4 < minv then do
      let c0 ← vecAsum m (X.subvec 0 n4) n4
      let c1 ← vecAsum m (X.subvec n4 (n2 - n4)) (n2 - n4)
      let c2 ← vecAsum m (X.subvec n2 n4) n4
      let c3 ← vecAsum m (X.subvec (n2 + n4) nn) nn
      pure (c0 + c1 + c2 + c3)
    else do
      let c0 ← vecAsumRec m minv fuel (X.subvec 0 n4) n4
      let c1 ← vecAsumRec m minv fuel (X.subvec n4 (n2 - n4)) (n2 - n4)
      let c2 ← vecAsumRec m minv fuel (X.subvec n2 n4) n4
      let c3 ← vecAsumRec m minv fuel (X.subvec (n2 + n4) nn) nn
      pure (c0 + c1 + c2 + c3)

/-- Summation option of `armas_asum` (`conf->optflags`, `src/blas/asum.c:157-163`). -/
inductive SumOpt where
  | naive
  | kahan
  | recursive
deriving DecidableEq

/-- `armas_asum` (`src/blas/asum.c:144-165`). -/
def asum (fuel : Nat) (m : Mem α) (blas1min : Nat) (opt : SumOpt) (X : View) : Res α :=
  if ¬ X.isVec then .ok 0
  else match opt with
    | .kahan => vecAsumKahan m X X.size
    | .naive => vecAsum m X X.size
    | .recursive => vecAsumRec m blas1min fuel X X.size

/-- `vec_iamax2` (`src/blas/iamax.c:91-113`): pointer walk with increment `xinc`. -/
def vecIamax2 (m : Mem α) (X : View) (N : Nat) : Res Nat :=
  if N ≤ 1 then .ok 0
  else do
    let (_, st) ← forUp 0 N 1 (fun i (st : Nat × α) => do
      let x ← rd m (X.base + i * X.inc)
      if |x| > st.2 then pure (i, |x|) else pure st) (0, 0)
    pure st.1

/-- `armas_iamax` (`src/blas/iamax.c:152-167`); negative return value is an error code. -/
def iamax (m : Mem α) (X : View) : Res Int :=
  if ¬ X.isVec then .ok (-ENEED_VECTOR)
  else if X.size = 0 then .ok (-ESIZE)
  else do
    let i ← vecIamax2 m X X.size
    pure i

/-- `armas_amax` (`src/blas/iamax.c:172-182`). -/
def amax (m : Mem α) (X : View) : Res α := do
  let imax ← iamax m X
  if imax ≥ 0 then do
    let x ← rd m (X.vat imax.toNat)
    pure |x|
  else pure 0

/-- `vec_iamin2` (`src/blas/iamax.c:116-139`), as written: the pointer is first advanced by one
element (`*ep++`), afterwards by `xinc`, so iteration `i` reads offset `1 + (i-1)*xinc`. -/
def vecIamin2 (m : Mem α) (X : View) (N : Nat) : Res Nat :=
  if N ≤ 1 then .ok 0
  else do
    let x0 ← rd m X.base
    let (_, st) ← forUp 1 N 1 (fun i (st : Nat × α) => do
      let x ← rd m (X.base + (1 + (i - 1) * X.inc))
      if |x| < st.2 then pure (i, |x|) else pure st) (0, |x0|)
    pure st.1

/-- `armas_iamin` (`src/blas/iamax.c:196-211`). -/
def iamin (m : Mem α) (X : View) : Res Int :=
  if ¬ X.isVec then .ok (-1)
  else if X.size = 0 then .ok (-1)
  else do
    let i ← vecIamin2 m X X.size
    pure i

/-- `armas_nrm2` (`src/blas/nrm2.c:81-120`), with `sqrt` a parameter. -/
def nrm2 (sqrt : α → α) (m : Mem α) (X : View) : Res α :=
  if X.cols ≠ 1 ∧ X.rows ≠ 1 then .ok 0
  else if X.size = 0 then .ok 0
  else if X.size = 1 then do
    let x ← rd m X.base
    pure |x|
  else do
    let (_, st) ← forUp 0 X.size 1 (fun i (st : α × α) => do
      let x ← rd m (X.vat i)
      if x ≠ 0 then
        let a0 := |x|
        if a0 > st.1 then
          pure (a0, 1 + st.2 * ((st.1 / a0) * (st.1 / a0)))
        else pure (st.1, st.2 + (a0 / st.1) * (a0 / st.1))
      else pure st) (0, 1)
    pure (st.1 * sqrt st.2)

end Ordered

end Armas
