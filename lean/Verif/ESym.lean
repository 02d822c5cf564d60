import Verif.EBlas
import Verif.Blas2

/-!
# Model of the extended-precision triangular and symmetric matrix-vector functions
(`src/eblas/{trmv,symv,syr,syr2}_ext.c`)

Rounding and error-free transformations as in `Verif/EBlas.lean`.
-/

namespace Armas

section
variable (rn : ℚ → ℚ) (tp : ℚ → ℚ → ℚ × ℚ)

/-- Inner loops of `trmv_ext.c` and `symv_ext.c` (`src/eblas/trmv_ext.c:52-58`, `src/eblas/symv_ext.c:71-75`): `twoprod(&p0,&r0,a,x);
twosum(&s0,&c0,s0,p0); u0 += c0 + r0` for `j` from `lo` below `hi`; `at j` is the address of the matrix element. -/
def edotLoop (m : Mem ℚ) (at' : Nat → Nat) (X : View) (lo hi : Nat) (st : ℚ × ℚ) : Res (ℚ × ℚ) := do
  let (_, st) ← forUp lo hi 1 (fun j (sc : ℚ × ℚ) => do
    let a ← rd m (at' j)
    let x ← rd m (X.vat j)
    pure (dotStep rn tp a x sc)) st
  pure st

/-- The value stored by the `trmv` loops (`src/eblas/trmv_ext.c:60-62`): `twoprod(&s0,&c0,s0,alpha); u0 *= alpha;
s0 + u0 + c0`. -/
def etrmvVal (alpha : ℚ) (su : ℚ × ℚ) : ℚ :=
  let (s0, c0) := tp su.1 alpha
  rn (rn (s0 + rn (su.2 * alpha)) + c0)

/-- Body of the outer loops of `trmv_ext.c` (`src/eblas/trmv_ext.c:50-63,91-104,131-144,170-183`). -/
def etrmvStep (X : View) (alpha : ℚ) (unit : Bool) (at' : Nat → Nat) (lo hi i : Nat) (m : Mem ℚ) :
    Res (Mem ℚ) := do
  let x ← rd m (X.vat i)
  let su ← edotLoop rn tp m at' X lo hi (if unit then x else 0, 0)
  wr m (X.vat i) (etrmvVal rn tp alpha su)

/-- `armas_ext_mvmult_trm_unsafe` (`src/eblas/trmv_ext.c:187-212`) with the four loops (lines 37-184).  The
read of `X[i]` at the start of the body, made for a unit diagonal only, is made always here. -/
def extMvmultTrmUnsafe (m : Mem ℚ) (X : View) (alpha : ℚ) (A : View) (fl : Flags) : Res (Mem ℚ) :=
  let N := X.size
  let u := if fl.unit then 1 else 0
  match fl.transA, fl.upper, fl.lower with
  | true, true, false => forDown N (fun i m =>
      etrmvStep rn tp X alpha fl.unit (fun j => A.at' j i) 0 (i + (1 - u)) i m) m
  | true, false, true => do
      let (_, m) ← forUp 0 N 1 (fun i m =>
        etrmvStep rn tp X alpha fl.unit (fun j => A.at' j i) (i + u) N i m) m
      pure m
  | false, true, false => do
      let (_, m) ← forUp 0 N 1 (fun i m =>
        etrmvStep rn tp X alpha fl.unit (fun j => A.at' i j) (i + u) N i m) m
      pure m
  | _, _, _ => forDown N (fun i m =>
      etrmvStep rn tp X alpha fl.unit (fun j => A.at' i j) 0 (i + (1 - u)) i m) m

/-- `armas_ext_mvmult_trm` (`src/eblas/trmv_ext.c:237-262`).  `cf->error` is not modelled. -/
def extMvmultTrm (m : Mem ℚ) (X : View) (alpha : ℚ) (A : View) (fl : Flags) : Res (Int × Mem ℚ) :=
  if A.rows * A.cols = 0 ∨ X.size = 0 then pure (0, m)
  else if ¬ X.isVec then pure (-2, m)
  else if A.cols ≠ X.size ∨ A.rows ≠ A.cols then pure (-1, m)
  else do
    let m ← extMvmultTrmUnsafe rn tp m X alpha A fl
    pure (0, m)

/-- The value stored by `armas_ext_mvmult_sym_unsafe` (`src/eblas/symv_ext.c:82-89`): the error of the last
`twosum` is not used. -/
def esymvVal (beta y alpha : ℚ) (ys : ℚ × ℚ) : ℚ :=
  let (y0, p0) := tp (rn (ys.1 + ys.2)) alpha
  let (x0, s0) := tp y beta
  let p0 := rn (p0 + s0)
  let (y0, _) := twosum rn x0 y0
  rn (y0 + p0)

/-- `armas_ext_mvmult_sym_unsafe` (`src/eblas/symv_ext.c:50-121`): `LOWER` reads row `i` left of the diagonal and
column `i` below it; otherwise column `i` above and row `i` right of it. -/
def extMvmultSymUnsafe (m : Mem ℚ) (beta : ℚ) (Y : View) (alpha : ℚ) (A X : View) (fl : Flags) :
    Res (Mem ℚ) := do
  let N := Y.size
  let (_, m) ← forUp 0 N 1 (fun i m => do
    let ys ← edotLoop rn tp m (fun j => if fl.lower then A.at' i j else A.at' j i) X 0 i (0, 0)
    let ys ← edotLoop rn tp m (fun j => if fl.lower then A.at' j i else A.at' i j) X i N ys
    let y ← rd m (Y.vat i)
    wr m (Y.vat i) (esymvVal rn tp beta y alpha ys)) m
  pure m

/-- `armas_ext_mvmult_sym` (`src/eblas/symv_ext.c:146-181`). -/
def extMvmultSym (m : Mem ℚ) (beta : ℚ) (Y : View) (alpha : ℚ) (A X : View) (fl : Flags) :
    Res (Int × Mem ℚ) :=
  if A.rows * A.cols = 0 ∨ X.size = 0 ∨ Y.size = 0 then pure (0, m)
  else if ¬ X.isVec then pure (-2, m)
  else if ¬ Y.isVec then pure (-2, m)
  else if ¬ (A.cols = A.rows ∧ X.size = Y.size ∧ X.size = A.cols) then pure (-1, m)
  else do
    let m ← extMvmultSymUnsafe rn tp m beta Y alpha A X fl
    pure (0, m)

/-- `armas_ext_mvupdate_trm_unsafe` (`src/eblas/syr_ext.c:32-63`).  The vector handed to
`armas_ext_axpby_dx_unsafe` is the whole of `Y` (`X`), not its part from `i` on. -/
def extMvupdateTrmUnsafe (m : Mem ℚ) (beta : ℚ) (A : View) (alpha : ℚ) (X Y : View) (fl : Flags) :
    Res (Mem ℚ) := do
  let (_, m) ← (if fl.upper ∧ ¬ fl.lower then
      forUp 0 A.rows 1 (fun i m => do
        let xk ← rd m (X.vat i)
        let (p, r) := tp alpha xk
        extAxpbyDxUnsafe rn tp m beta (A.sub i i 1 (A.cols - i)) p r Y) m
    else
      forUp 0 A.cols 1 (fun j m => do
        let xk ← rd m (Y.vat j)
        let (p, r) := tp alpha xk
        extAxpbyDxUnsafe rn tp m beta (A.sub j j (A.rows - j) 1) p r X) m)
  pure m

/-- `armas_ext_mvupdate_sym` (`src/eblas/syr_ext.c:87-114`). -/
def extMvupdateSym (m : Mem ℚ) (beta : ℚ) (A : View) (alpha : ℚ) (X : View) (fl : Flags) :
    Res (Int × Mem ℚ) :=
  if A.rows * A.cols = 0 ∨ X.size = 0 then pure (0, m)
  else if ¬ X.isVec then pure (-1, m)
  else if A.cols ≠ X.size ∨ A.rows ≠ X.size then pure (-1, m)
  else do
    let m ← extMvupdateTrmUnsafe rn tp m beta A alpha X X fl
    pure (0, m)

/-- The value stored by `armas_ext_mvupdate2_sym_unsafe` (`src/eblas/syr2_ext.c:42-64,73-95`).  The low part `c1`
of the second product with `alpha` is not used. -/
def esyr2Val (beta a alpha xi yj xj yi : ℚ) : ℚ :=
  let (p0, r) := tp xi yj
  let (p0, c0) := tp alpha p0
  let c0 := rn (c0 + rn (alpha * r))
  let (p1, r) := tp xj yi
  let (p1, _) := tp alpha p1
  let c0 := rn (c0 + rn (alpha * r))
  let (p0, q0) := twosum rn p0 p1
  let q0 := rn (q0 + c0)
  let (p1, q1) := tp beta a
  let (s, c0) := twosum rn p1 p0
  rn (s + rn (rn (c0 + q0) + q1))

/-- Body of the loops of `armas_ext_mvupdate2_sym_unsafe`. (`src/eblas/syr2_ext.c:42-64,73-95`) -/
def esyr2Step (beta : ℚ) (A : View) (alpha : ℚ) (X Y : View) (i j : Nat) (m : Mem ℚ) : Res (Mem ℚ) := do
  let xi ← rd m (X.vat i)
  let yj ← rd m (Y.vat j)
  let xj ← rd m (X.vat j)
  let yi ← rd m (Y.vat i)
  let a ← rd m (A.at' i j)
  wr m (A.at' i j) (esyr2Val rn tp beta a alpha xi yj xj yi)

/-- `armas_ext_mvupdate2_sym_unsafe` (`src/eblas/syr2_ext.c:27-100`).  The loop for `LOWER` has the rows
`0 ... j` of column `j`. -/
def extMvupdate2SymUnsafe (m : Mem ℚ) (beta : ℚ) (A : View) (alpha : ℚ) (X Y : View) (fl : Flags) :
    Res (Mem ℚ) := do
  let (_, m) ← (if fl.upper ∧ ¬ fl.lower then
      forUp 0 A.rows 1 (fun i m => do
        let (_, m) ← forUp i A.cols 1 (fun j m => esyr2Step rn tp beta A alpha X Y i j m) m
        pure m) m
    else
      forUp 0 A.cols 1 (fun j m => do
        let (_, m) ← forUp 0 (j + 1) 1 (fun i m => esyr2Step rn tp beta A alpha X Y i j m) m
        pure m) m)
  pure m

/-- `armas_ext_mvupdate2_sym` (`src/eblas/syr2_ext.c:125-158`): the sizes of `A` and `x` are not compared. -/
def extMvupdate2Sym (m : Mem ℚ) (beta : ℚ) (A : View) (alpha : ℚ) (X Y : View) (fl : Flags) :
    Res (Int × Mem ℚ) :=
  if A.rows * A.cols = 0 ∨ X.size = 0 ∨ Y.size = 0 then pure (0, m)
  else if ¬ X.isVec then pure (-2, m)
  else if ¬ Y.isVec then pure (-2, m)
  else if A.cols ≠ A.rows ∨ Y.size ≠ X.size then pure (-1, m)
  else do
    let m ← extMvupdate2SymUnsafe rn tp m beta A alpha X Y fl
    pure (0, m)

end
end Armas
