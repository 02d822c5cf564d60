import Verif.Blas1

/-!
# Pivot vectors

Model of `src/base/pivot.c`.
-/

namespace Armas

variable {α : Type}

/-- `armas_pivot_t` (`src/include/armas.h:393-397`): `npivots` and `indexes`.  Only the values
`ix k` with `k < n` exist. -/
structure Piv where
  n : Nat
  ix : Nat → Int

/-- `armas_pivot_get` (`src/include/armas.h:505-509`) for `k ≥ 0`. -/
def Piv.get (P : Piv) (k : Nat) : Int := if k < P.n then P.ix k else 0

/-- `armas_pivot_set` (`src/include/armas.h:520-525`) for `k ≥ 0`. -/
def Piv.set (P : Piv) (k : Nat) (v : Int) : Piv :=
  if k < P.n then { P with ix := fun l => if l = k then v else P.ix l } else P

/-- A row (`col = false`) or a column of `A` as taken by `swap_rows` and `swap_cols`
(`src/base/pivot.c:143-144,160-161`). -/
def lineOf (col : Bool) (A : View) (p : Nat) : View :=
  if col then A.sub 0 p A.rows 1 else A.sub p 0 1 A.cols

/-- Number of rows or columns. -/
def nLines (col : Bool) (A : View) : Nat := if col then A.cols else A.rows
/-- Length of a row or column. -/
def lenLines (col : Bool) (A : View) : Nat := if col then A.rows else A.cols

/-- `swap_rows` (`src/base/pivot.c:135-147`) and `swap_cols` (`src/base/pivot.c:152-164`).  The result
of `armas_swap` is not looked at. -/
def swapLines (col : Bool) (m : Mem α) (A : View) (src dst : Nat) : Res (Mem α) :=
  if src = dst ∨ lenLines col A = 0 then pure m
  else if src ≥ nLines col A ∨ dst ≥ nLines col A then pure m
  else do
    let r ← swap m (lineOf col A src) (lineOf col A dst)
    pure r.2

/-- One step of the loops of `apply_row_pivots` and `apply_col_pivots`
(`src/base/pivot.c:181-184,189-192`): pivot value `n`, row or column number `nk`. -/
def pivotStep (col : Bool) (m : Mem α) (A : View) (n : Int) (nk : Nat) : Res (Mem α) :=
  if n > 0 ∧ n - 1 ≠ nk then swapLines col m A (n - 1).toNat nk else pure m

/-- `apply_row_pivots` (`src/base/pivot.c:169-195`) and `apply_col_pivots`
(`src/base/pivot.c:200-226`).  In the backward direction the row number is `A->rows-1` for the last
pivot and decreases together with `k`; it is not negative as the callers check
`npivots <= A->rows`. -/
def applyPivots (col : Bool) (m : Mem α) (A : View) (P : Piv) (fwd : Bool) : Res (Mem α) :=
  if lenLines col A = 0 then pure m
  else if fwd then do
    let (_, m) ← forUp 0 P.n 1 (fun k m => pivotStep col m A (P.ix k) k) m
    pure m
  else forDown P.n (fun k m => pivotStep col m A (P.ix k) (nLines col A - (P.n - k))) m

/-- `armas_pivot_rows` (`src/base/pivot.c:233-244`) and `armas_pivot_cols` (`src/base/pivot.c:251-262`). -/
def pivotLines (col : Bool) (m : Mem α) (A : View) (P : Piv) (fwd : Bool) : Res (Int × Mem α) :=
  if nLines col A < P.n then .ok (-1, m)
  else do
    let m ← applyPivots col m A P fwd
    pure (0, m)

/-- The common end of `apply_pivot_lower` and `apply_pivot_upper`: exchange the diagonal elements
(`src/base/pivot.c:77-80,127-130`). -/
def swapDiag (m : Mem α) (A : View) (p q : Nat) : Res (Mem α) := do
  let p1 ← rd m (A.at' p p)
  let p3 ← rd m (A.at' q q)
  let m ← wr m (A.at' p p) p3
  wr m (A.at' q q) p1

/-- `apply_pivot_lower` (`src/base/pivot.c:46-81`) for `srcix = p < dstix = q`. -/
def pivotLower (m : Mem α) (A : View) (p q : Nat) : Res (Mem α) := do
  let m ← (if p > 0 then do
      let r ← swap m (A.sub p 0 1 p) (A.sub q 0 1 p)
      pure r.2
    else pure m)
  let r ← swap m (A.sub (p + 1) p (q - p - 1) 1) (A.sub q (p + 1) 1 (q - p - 1))
  let r ← swap r.2 (A.sub (q + 1) p (A.rows - q - 1) 1) (A.sub (q + 1) q (A.rows - q - 1) 1)
  swapDiag r.2 A p q

/-- `apply_pivot_upper` (`src/base/pivot.c:98-131`) for `srcix = q > dstix = p`. -/
def pivotUpper (m : Mem α) (A : View) (p q : Nat) : Res (Mem α) := do
  let r ← swap m (A.sub q (q + 1) 1 (A.cols - q - 1)) (A.sub p (q + 1) 1 (A.cols - q - 1))
  let r ← swap r.2 (A.sub (p + 1) q (q - p - 1) 1) (A.sub p (p + 1) 1 (q - p - 1))
  let r ← swap r.2 (A.sub 0 q p 1) (A.sub 0 p p 1)
  swapDiag r.2 A q p

/-- `apply_pivot_lower` and `apply_pivot_upper` with the exchange of their arguments
(`src/base/pivot.c:52-58,103-109`).  A negative index makes both functions access element
`(-1,-1)` at `:77,:127`, in front of the first element of the matrix, and an index beyond the last row
one behind the matrix: undefined. -/
def pivotSymOne (upper : Bool) (m : Mem α) (A : View) (i j : Int) : Res (Mem α) :=
  if i = j then pure m
  else if i < 0 ∨ j < 0 ∨ A.rows ≤ i ∨ A.rows ≤ j then .ub
  else if upper then pivotUpper m A (min i j).toNat (max i j).toNat
  else pivotLower m A (min i j).toNat (max i j).toNat

/-- The loops of `armas_pivot` for `ARMAS_PIVOT_UPPER` and `ARMAS_PIVOT_LOWER`
(`src/base/pivot.c:306-321,331-347`). -/
def applySym (upper : Bool) (m : Mem α) (A : View) (P : Piv) (fwd : Bool) : Res (Mem α) :=
  if fwd then do
    let (_, m) ← forUp 0 P.n 1 (fun k m => pivotSymOne upper m A k (P.get k - 1)) m
    pure m
  else forDown P.n (fun k m => pivotSymOne upper m A (P.get k - 1) ((A.rows - (P.n - k) : Nat) : Int)) m

/-- Pivot type bits of `armas_pivot` (`src/include/armas.h:95-102`); every other combination is treated
like `rows` (`src/base/pivot.c:357-358`). -/
inductive PivKind where
  | upper
  | lower
  | cols
  | rows
deriving DecidableEq

/-- `armas_pivot` (`src/base/pivot.c:290-367`). -/
def pivot (m : Mem α) (A : View) (P : Piv) (kind : PivKind) (fwd : Bool) : Res (Int × Mem α) :=
  if (if kind = .cols then A.cols else A.rows) < P.n then .ok (-1, m)
  else do
    let m ← (match kind with
      | .upper => applySym true m A P fwd
      | .lower => applySym false m A P fwd
      | .cols => applyPivots true m A P fwd
      | .rows => applyPivots false m A P fwd)
    pure (0, m)

section sort
variable [AddGroup α] [LinearOrder α]

/-- `ABS(armas_get_at_unsafe(D, ix))`; a negative index is outside of the vector. -/
def absAt (m : Mem α) (D : View) (ix : Int) : Res α :=
  if ix < 0 then .ub else do
    let x ← rd m (D.vat ix.toNat)
    pure |x|

/-- The inner loop of `armas_pivot_sort` (`src/base/pivot.c:412-422`); returns the final `j`. -/
def pivotShift (m : Mem α) (D : View) (direction : Int) (cval : α) : Nat → Piv → Res (Nat × Piv)
  | 0, P => .ok (0, P)
  | j + 1, P => do
    let pj := P.get j - 1
    let tmpval ← absAt m D pj
    if direction < 0 ∧ tmpval ≥ cval then pure (j + 1, P)
    else if direction > 0 ∧ tmpval ≤ cval then pure (j + 1, P)
    else pivotShift m D direction cval j (P.set (j + 1) (pj + 1))

/-- `armas_pivot_sort` (`src/base/pivot.c:397-426`). -/
def pivotSort (m : Mem α) (D : View) (P : Piv) (direction : Int) : Res (Int × Piv) :=
  if ¬ D.isVec then .ok (-1, P)
  else do
    let (_, P) ← forUp 0 D.size 1 (fun k P => .ok (P.set k (k + 1))) P
    let (_, P) ← forUp 1 D.size 1 (fun k P => do
      let pk := P.get k - 1
      let cval ← absAt m D pk
      let (j, P) ← pivotShift m D direction cval k P
      pure (P.set j (pk + 1))) P
    pure (0, P)

end sort

end Armas
