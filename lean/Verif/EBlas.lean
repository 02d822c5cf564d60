import Verif.Eft
import Verif.Mem

/-!
# Model of the extended-precision vector functions (`src/eblas/{dot,asum,axpy}_ext.c`)

Numbers, rounding (`rn`) and the error-free transformations are those of `Verif/Eft.lean`: every
`+`, `-`, `*` of the C text on `DTYPE` is rounded once, in the order the C text has.  `tp` is the
`twoprod` of the build (`twoprodFma`, or `twoprod` with the factor of the type).
`AM_CFLAGS` has `-ffast-math` (`src/Makefile.am:12`), which permits the compiler to evaluate the
sums of corrections in another order; the model has the order of the text.
-/

namespace Armas

section
variable (rn : ℚ → ℚ) (tp : ℚ → ℚ → ℚ × ℚ)

/-- One term of the loops of `armas_ext_dot_unsafe` and `armas_ext_adot_unsafe`
(`src/eblas/dot_ext.c:41-46,53-55` and `96-98`): `twoprod(&h,&p,x,y); twosum(&s,&z,s,h); c += z + p`. -/
def dotStep (x y : ℚ) (sc : ℚ × ℚ) : ℚ × ℚ :=
  let (h, p) := tp x y
  let (s, z) := twosum rn sc.1 h
  (s, rn (sc.2 + rn (z + p)))

/-- `armas_ext_dot_unsafe` (`src/eblas/dot_ext.c:28-61`).  State of the loop: `(s0, c0)`, `(s1, c1)`. -/
def extDot (m : Mem ℚ) (X Y : View) : Res ℚ := do
  let N := X.size
  let (i, st) ← forUp 0 (N - 1) 2 (fun i (st : (ℚ × ℚ) × (ℚ × ℚ)) => do
    let x0 ← rd m (X.vat (i + 0))
    let y0 ← rd m (Y.vat (i + 0))
    let x1 ← rd m (X.vat (i + 1))
    let y1 ← rd m (Y.vat (i + 1))
    pure (dotStep rn tp x0 y0 st.1, dotStep rn tp x1 y1 st.2)) ((0, 0), (0, 0))
  let sc ← (if i = N then pure st.1 else do
    let x0 ← rd m (X.vat i)
    let y0 ← rd m (Y.vat i)
    pure (dotStep rn tp x0 y0 st.1))
  let (s0, z0) := twosum rn sc.1 st.2.1
  let c0 := rn (sc.2 + z0)
  pure (rn (s0 + rn (c0 + st.2.2)))

/-- `armas_ext_adot_unsafe` (`src/eblas/dot_ext.c:77-106`).  Result: the new `*h`, `*l`. -/
def extAdotUnsafe (m : Mem ℚ) (h l alpha : ℚ) (X Y : View) : Res (ℚ × ℚ) :=
  if alpha = 0 then pure (h, l) else do
    let (_, sc) ← forUp 0 X.size 1 (fun i (sc : ℚ × ℚ) => do
      let x ← rd m (X.vat i)
      let y ← rd m (Y.vat i)
      pure (dotStep rn tp x y sc)) (0, 0)
    let (h0, p0) := tp sc.1 alpha
    let (s0, z0) := fastsum rn h h0
    let c0 := rn (rn (rn (l + p0) + rn (alpha * sc.2)) + z0)
    pure (fastsum rn s0 c0)

/-- `armas_ext_adot_dx_unsafe` (`src/eblas/dot_ext.c:122-154`). -/
def extAdotDxUnsafe (m : Mem ℚ) (h l alpha : ℚ) (X dX Y : View) : Res (ℚ × ℚ) :=
  if alpha = 0 then pure (h, l) else do
    let (_, sc) ← forUp 0 X.size 1 (fun i (sc : ℚ × ℚ) => do
      let x ← rd m (X.vat i)
      let y ← rd m (Y.vat i)
      let dx ← rd m (dX.vat i)
      let (p, q) := tp x y
      let r := rn (dx * y)
      let (s, z) := twosum rn sc.1 p
      pure (s, rn (sc.2 + rn (rn (z + q) + r)))) (0, 0)
    let (p, q) := tp sc.1 alpha
    let (s, z) := twosum rn h p
    let c := rn (rn (rn (l + q) + rn (alpha * sc.2)) + z)
    pure (fastsum rn s c)

/-- `armas_ext_adot` (`src/eblas/dot_ext.c:171-193`).  Result: error code and `*result`; `cf->error`
is not modelled. -/
def extAdot (m : Mem ℚ) (result alpha : ℚ) (X Y : View) : Res (Int × ℚ) :=
  if ¬ X.isVec ∨ ¬ Y.isVec then pure (-1, result)
  else if X.size ≠ Y.size then pure (-1, result)
  else do
    let (s, u) ← extAdotUnsafe rn tp m 0 0 alpha X Y
    pure (0, rn (s + u))

/-- One term of the loops of `ext_sum2s` and `ext_asum2s` (`src/eblas/asum_ext.c:37-39,65-69`):
`twosum(&c,&z,c,x); a += z`. -/
def sumStep (x : ℚ) (ca : ℚ × ℚ) : ℚ × ℚ :=
  let (c, z) := twosum rn ca.1 x
  (c, rn (ca.2 + z))

/-- `ext_asum2s` (`src/eblas/asum_ext.c:26-52`).  Result: `*h`, `*l`. -/
def extAsum2s (m : Mem ℚ) (X : View) (N : Nat) : Res (ℚ × ℚ) := do
  let (i, st) ← forUp 0 (N - 1) 2 (fun i (st : (ℚ × ℚ) × (ℚ × ℚ)) => do
    let x0 ← rd m (X.vat (i + 0))
    let x1 ← rd m (X.vat (i + 1))
    pure (sumStep rn |x0| st.1, sumStep rn |x1| st.2)) ((0, 0), (0, 0))
  let ca ← (if i = N then pure st.1 else do
    let x0 ← rd m (X.vat i)
    pure (sumStep rn |x0| st.1))
  let (c0, z0) := twosum rn ca.1 st.2.1
  pure (c0, rn (ca.2 + rn (st.2.2 + z0)))

/-- `ext_sum2s` (`src/eblas/asum_ext.c:54-100`). -/
def extSum2s (m : Mem ℚ) (X : View) (N : Nat) : Res (ℚ × ℚ) := do
  let (i, st) ← forUp 0 (N - 3) 4 (fun i (st : ((ℚ × ℚ) × (ℚ × ℚ)) × ((ℚ × ℚ) × (ℚ × ℚ))) => do
    let x0 ← rd m (X.vat (i + 0))
    let x1 ← rd m (X.vat (i + 1))
    let x2 ← rd m (X.vat (i + 2))
    let x3 ← rd m (X.vat (i + 3))
    pure ((sumStep rn x0 st.1.1, sumStep rn x1 st.1.2),
      (sumStep rn x2 st.2.1, sumStep rn x3 st.2.2))) (((0, 0), (0, 0)), ((0, 0), (0, 0)))
  let st ← (match N - i with
    | 3 => do
      let x0 ← rd m (X.vat i)
      let x1 ← rd m (X.vat (i + 1))
      let x2 ← rd m (X.vat (i + 2))
      pure ((sumStep rn x0 st.1.1, sumStep rn x1 st.1.2), (sumStep rn x2 st.2.1, st.2.2))
    | 2 => do
      let x1 ← rd m (X.vat i)
      let x2 ← rd m (X.vat (i + 1))
      pure ((st.1.1, sumStep rn x1 st.1.2), (sumStep rn x2 st.2.1, st.2.2))
    | 1 => do
      let x2 ← rd m (X.vat i)
      pure ((st.1.1, st.1.2), (sumStep rn x2 st.2.1, st.2.2))
    | _ => pure st)
  let a0 := rn (st.1.1.2 + rn (rn (st.1.2.2 + st.2.1.2) + st.2.2.2))
  let (c0, z1) := twosum rn st.1.1.1 st.1.2.1
  let a0 := rn (a0 + z1)
  let (c0, z1) := twosum rn c0 st.2.1.1
  let a0 := rn (a0 + z1)
  let (c0, z1) := twosum rn c0 st.2.2.1
  let a0 := rn (a0 + z1)
  pure (c0, a0)

/-- `armas_ext_sum_unsafe` (`src/eblas/asum_ext.c:109-114`). -/
def extSumUnsafe (m : Mem ℚ) (X : View) : Res ℚ := do
  let (h, l) ← extSum2s rn m X X.size
  pure (rn (h + l))

/-- `armas_ext_sum` (`src/eblas/asum_ext.c:135-163`).  `absf`: flag `ARMAS_ABS`; `result` is a valid
pointer (the test for `NULL` is left out).  Result: error code and `*result`. -/
def extSum (m : Mem ℚ) (result alpha : ℚ) (X : View) (absf : Bool) : Res (Int × ℚ) :=
  if ¬ X.isVec then pure (-2, result)
  else do
    let (h, l) ← (if absf then extAsum2s rn m X X.size else extSum2s rn m X X.size)
    if alpha ≠ 1 then
      let (_, q) := tp alpha h
      pure (0, rn (q + rn (alpha * l)))
    else pure (0, rn (h + l))

/-- The element written by `armas_ext_axpy_unsafe` (`src/eblas/axpy_ext.c:40,43,46,53-55`). -/
def axpyVal (x alpha y : ℚ) : ℚ :=
  let (x0, p0) := tp x alpha
  let (y0, c0) := twosum rn x0 y
  rn (rn (p0 + c0) + y0)

/-- `armas_ext_axpy_unsafe` (`src/eblas/axpy_ext.c:27-57`). -/
def extAxpyUnsafe (m : Mem ℚ) (Y : View) (alpha : ℚ) (X : View) : Res (Mem ℚ) := do
  let N := X.size
  let (i, m) ← forUp 0 (N - 1) 2 (fun i (m : Mem ℚ) => do
    let x0 ← rd m (X.vat (i + 0))
    let x1 ← rd m (X.vat (i + 1))
    let y0 ← rd m (Y.vat (i + 0))
    let y1 ← rd m (Y.vat (i + 1))
    let m ← wr m (Y.vat (i + 0)) (axpyVal rn tp x0 alpha y0)
    wr m (Y.vat (i + 1)) (axpyVal rn tp x1 alpha y1)) m
  if i = N then pure m else do
    let x0 ← rd m (X.vat i)
    let y0 ← rd m (Y.vat i)
    wr m (Y.vat i) (axpyVal rn tp x0 alpha y0)

/-- The element written by `armas_ext_axpby_unsafe` (`src/eblas/axpy_ext.c:76-88,94-98`). -/
def axpbyVal (beta x alpha y : ℚ) : ℚ :=
  let (x0, p0) := tp x alpha
  let (y0, c0) := tp y beta
  let p0 := rn (p0 + c0)
  let (y0, c0) := twosum rn x0 y0
  rn (rn (p0 + c0) + y0)

/-- `armas_ext_axpby_unsafe` (`src/eblas/axpy_ext.c:59-100`). -/
def extAxpbyUnsafe (m : Mem ℚ) (beta : ℚ) (Y : View) (alpha : ℚ) (X : View) : Res (Mem ℚ) :=
  if beta = 1 then extAxpyUnsafe rn tp m Y alpha X else do
    let N := X.size
    let (i, m) ← forUp 0 (N - 1) 2 (fun i (m : Mem ℚ) => do
      let x0 ← rd m (X.vat (i + 0))
      let x1 ← rd m (X.vat (i + 1))
      let y0 ← rd m (Y.vat (i + 0))
      let y1 ← rd m (Y.vat (i + 1))
      let m ← wr m (Y.vat (i + 0)) (axpbyVal rn tp beta x0 alpha y0)
      wr m (Y.vat (i + 1)) (axpbyVal rn tp beta x1 alpha y1)) m
    if i = N then pure m else do
      let x0 ← rd m (X.vat i)
      let y0 ← rd m (Y.vat i)
      wr m (Y.vat i) (axpbyVal rn tp beta x0 alpha y0)

/-- The element written by `armas_ext_axpby_dx_unsafe` (`src/eblas/axpy_ext.c:118-124`). -/
def axpbyDxVal (beta x alpha dx y : ℚ) : ℚ :=
  let (y0, c0) := tp y beta
  let (x0, p0) := tp x alpha
  let z0 := rn (dx * x)
  let p0 := rn (p0 + c0)
  let (y1, c1) := twosum rn x0 y0
  rn (rn (rn (y1 + z0) + c1) + p0)

/-- `armas_ext_axpby_dx_unsafe` (`src/eblas/axpy_ext.c:103-127`). -/
def extAxpbyDxUnsafe (m : Mem ℚ) (beta : ℚ) (Y : View) (alpha dx : ℚ) (X : View) :
    Res (Mem ℚ) := do
  let (_, m) ← forUp 0 X.size 1 (fun i (m : Mem ℚ) => do
    let y ← rd m (Y.vat i)
    let x ← rd m (X.vat i)
    wr m (Y.vat i) (axpbyDxVal rn tp beta x alpha dx y)) m
  pure m

/-- `armas_ext_axpby` (`src/eblas/axpy_ext.c:143-165`). -/
def extAxpby (m : Mem ℚ) (beta : ℚ) (Y : View) (alpha : ℚ) (X : View) : Res (Int × Mem ℚ) :=
  if ¬ (X.isVec ∧ Y.isVec) then pure (-1, m)
  else if X.size ≠ Y.size then pure (-1, m)
  else do
    let m ← extAxpbyUnsafe rn tp m beta Y alpha X
    pure (0, m)

/-- `armas_ext_mvmult_unsafe` (`src/eblas/gemv_ext.c:27-59`).  `armas_row` and `armas_column`
(`src/include/matrix.h`) are the one-row and one-column views. -/
def extMvmultUnsafe (m : Mem ℚ) (beta : ℚ) (Y : View) (alpha : ℚ) (A X : View) (trans : Bool) :
    Res (Mem ℚ) := do
  let (_, m) ← forUp 0 Y.size 1 (fun i (m : Mem ℚ) => do
    let a0 := if trans then A.sub 0 i A.rows 1 else A.sub i 0 1 A.cols
    let y ← rd m (Y.vat i)
    let (y0, c0) := tp beta y
    let (y0, c0) ← extAdotUnsafe rn tp m y0 c0 alpha a0 X
    wr m (Y.vat i) (rn (y0 + c0))) m
  pure m

/-- `armas_ext_mvmult` (`src/eblas/gemv_ext.c:122-161`). -/
def extMvmult (m : Mem ℚ) (beta : ℚ) (Y : View) (alpha : ℚ) (A X : View) (trans : Bool) :
    Res (Int × Mem ℚ) :=
  if A.rows * A.cols = 0 ∨ X.size = 0 ∨ Y.size = 0 then pure (0, m)
  else if ¬ (X.isVec ∧ Y.isVec) then pure (-2, m)
  else if ¬ (if trans then A.cols = Y.size ∧ A.rows = X.size
      else A.rows = Y.size ∧ A.cols = X.size) then pure (-1, m)
  else do
    let m ← extMvmultUnsafe rn tp m beta Y alpha A X trans
    pure (0, m)

/-- `armas_ext_mvupdate_unsafe` (`src/eblas/ger_ext.c:31-48`). -/
def extMvupdateUnsafe (m : Mem ℚ) (beta : ℚ) (A : View) (alpha : ℚ) (X Y : View) :
    Res (Mem ℚ) := do
  let (_, m) ← forUp 0 A.cols 1 (fun j (m : Mem ℚ) => do
    let yk ← rd m (Y.vat j)
    let (ah, dx) := tp alpha yk
    extAxpbyDxUnsafe rn tp m beta (A.sub 0 j A.rows 1) ah dx X) m
  pure m

/-- `armas_ext_mvupdate` (`src/eblas/ger_ext.c:65-97`). -/
def extMvupdate (m : Mem ℚ) (beta : ℚ) (A : View) (alpha : ℚ) (X Y : View) : Res (Int × Mem ℚ) :=
  if A.rows * A.cols = 0 ∨ X.size = 0 ∨ Y.size = 0 then pure (0, m)
  else if ¬ X.isVec then pure (-2, m)
  else if ¬ Y.isVec then pure (-2, m)
  else if A.cols ≠ Y.size ∨ A.rows ≠ X.size then pure (-1, m)
  else do
    let m ← extMvupdateUnsafe rn tp m beta A alpha X Y
    pure (0, m)

end
end Armas
