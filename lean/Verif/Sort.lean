import Verif.Pivot

/-!
# Sorting of vectors

Model of `src/lapack/sort.c` and `src/lapack/qsort.c`.  Elements are of a linear order (no NaN).  The two
branches of the routines, for ascending and descending order, are the same text with the comparisons
exchanged; they appear as one definition with the comparison `before asc`.
-/

namespace Armas

variable {α : Type} [LinearOrder α]

/-- `a < b` in the ascending, `a > b` in the descending branch. -/
def before (asc : Bool) (a b : α) : Bool := if asc then a < b else b < a

/-- The inner loop of the insertion sorts with the store that follows it
(`src/lapack/sort.c:51-57,62-68,93-99,104-110`, `src/lapack/qsort.c:37-43,54-60`) started at `j`; `key` is the
absolute value in `armas_abs_sort_vec` and the identity in the others. -/
def isortShift (asc : Bool) (key : α → α) (X : View) (cval : α) : Nat → Mem α → Res (Mem α)
  | 0, m => wr m (X.vat 0) cval
  | j + 1, m => do
    let x ← rd m (X.vat j)
    if before asc cval (key x) then do
      let m ← wr m (X.vat (j + 1)) (key x)
      isortShift asc key X cval j m
    else wr m (X.vat (j + 1)) cval

/-- The insertion sorts: `armas_isort_asc` and `armas_isort_desc` (`src/lapack/qsort.c:30-62`), `armas_sort_vec`
(`src/lapack/sort.c:84-113`) and, with the absolute value as `key`, `armas_abs_sort_vec`
(`src/lapack/sort.c:42-71`).  The routines do not check that `X` is a vector. -/
def isort (asc : Bool) (key : α → α) (m : Mem α) (X : View) : Res (Mem α) := do
  let (_, m) ← forUp 1 X.size 1 (fun k m => do
    let c ← rd m (X.vat k)
    isortShift asc key X (key c) k m) m
  pure m

/-- `armas_sort_vec` (`src/lapack/sort.c:84-113`). -/
def sortVec (m : Mem α) (X : View) (updown : Int) : Res (Mem α) := isort (decide (updown > 0)) id m X

/-- `armas_abs_sort_vec` (`src/lapack/sort.c:42-71`). -/
def absSortVec (ab : α → α) (m : Mem α) (X : View) (updown : Int) : Res (Mem α) :=
  isort (decide (updown > 0)) ab m X

/-- The first scan of the partition (`src/lapack/qsort.c:81,116`) from `i` with `d = n - i`; element `i` is read
before `i < n` is tested. -/
def scanUp (asc : Bool) (m : Mem α) (X : View) (pivot : α) : Nat → Nat → Res Nat
  | 0, i => do
    let _ ← rd m (X.vat i)
    pure i
  | d + 1, i => do
    let x ← rd m (X.vat i)
    if before asc x pivot then scanUp asc m X pivot d (i + 1) else pure i

/-- The second scan (`src/lapack/qsort.c:82,117`); going below the first element is undefined. -/
def scanDown (asc : Bool) (m : Mem α) (X : View) (pivot : α) : Nat → Res Nat
  | 0 => do
    let x ← rd m (X.vat 0)
    if before asc pivot x then .ub else pure 0
  | j + 1 => do
    let x ← rd m (X.vat (j + 1))
    if before asc pivot x then scanDown asc m X pivot j else pure (j + 1)

/-- The loop of the partition (`src/lapack/qsort.c:80-88,115-123`) with `n` elements; the result is the last `j`. -/
def partLoop (asc : Bool) (X : View) (n : Nat) (pivot : α) : Nat → Nat → Nat → Mem α → Res (Nat × Mem α)
  | 0, _, _, _ => .diverge
  | fuel + 1, i, j, m => do
    let i ← scanUp asc m X pivot (n - i) i
    let j ← scanDown asc m X pivot j
    if i ≥ j then pure (j, m)
    else do
      let x ← rd m (X.vat i)
      let y ← rd m (X.vat j)
      let m ← wr m (X.vat i) y
      let m ← wr m (X.vat j) x
      partLoop asc X n pivot fuel i j m

/-- `armas_qsort_asc` and `armas_qsort_desc` (`src/lapack/qsort.c:64-131`), `CUTOFF` is 8. -/
def qsort (asc : Bool) : Nat → Mem α → View → Res (Mem α)
  | 0, _, _ => .diverge
  | fuel + 1, m, X =>
    if X.size < 8 then isort asc id m X
    else do
      let n := X.size
      let pivot ← rd m (X.vat (n / 2))
      let x ← rd m (X.vat 0)
      let m ← wr m (X.vat (n / 2)) x
      let m ← wr m (X.vat 0) pivot
      let (j, m) ← partLoop asc X n pivot (fuel + 1) 1 (n - 1) m
      let x ← rd m (X.vat j)
      let m ← wr m (X.vat 0) x
      let m ← wr m (X.vat j) pivot
      let m ← qsort asc fuel m (X.subvec 0 j)
      qsort asc fuel m (X.subvec (j + 1) (n - j - 1))

/-- `armas_qsort_vec` (`src/lapack/qsort.c:146-158`). -/
def qsortVec (fuel : Nat) (m : Mem α) (X : View) (updown : Int) : Res (Int × Mem α) :=
  if ¬ X.isVec then .ok (-ENEED_VECTOR, m)
  else do
    let m ← qsort (decide (updown > 0)) fuel m X
    pure (0, m)

/-- `vec_minmax` (`src/lapack/sort.c:119-145`): index of the first element that comes before no other, `asc` for
`updown <= 0`.  The loop runs from element 1; `(k, c, ix)` are the counter, `cval` and `ix`. -/
def vecMinmax (asc : Bool) (m : Mem α) (X : View) : Res Nat := do
  let c ← rd m (X.vat 0)
  let (_, _, ix) ← forUp 1 X.size 1 (fun k (st : α × Nat) => do
    let t ← rd m (X.vat k)
    pure (if before asc t st.1 then (t, k) else st)) (c, 0)
  pure ix

/-- Exchange of two elements of a vector (`src/lapack/sort.c:222-224,237-240`). -/
def swapAt (m : Mem α) (X : View) (p q : Nat) : Res (Mem α) := do
  let t ← rd m (X.vat p)
  let u ← rd m (X.vat q)
  let m ← wr m (X.vat p) u
  wr m (X.vat q) t

/-- `armas_column` (`armas_row` if not `col`) of both lines and `armas_swap`
(`src/lapack/sort.c:225-234,243-245`, `src/include/matrix.h:245-262,279-296`); of an empty matrix the lines are
empty and nothing is exchanged. -/
def swapLine (col : Bool) (m : Mem α) (U : View) (p q : Nat) : Res (Mem α) :=
  if U.size = 0 then pure m
  else do
    let r ← swap m (lineOf col U p) (lineOf col U q)
    pure r.2

/-- One pass of the loop in `armas_sort_eigenvec` (`src/lapack/sort.c:219-248`); `asc` is `updown >= 0`. -/
def sortEigenStep (asc : Bool) (D : View) (U V C : Option View) (k : Nat) (m : Mem α) : Res (Mem α) := do
  let pk ← vecMinmax asc m (D.subvec k (D.size - k))
  if pk ≠ 0 then do
    let m ← swapAt m D k (k + pk)
    let m ← (match U with | some U => swapLine true m U (k + pk) k | none => pure m)
    let m ← (match V with | some V => swapLine false m V (k + pk) k | none => pure m)
    match C with
    | some C => if C.isVec then swapAt m C k (k + pk) else swapLine true m C (k + pk) k
    | none => pure m
  else pure m

/-- `armas_sort_eigenvec` (`src/lapack/sort.c:200-251`).  For `updown = 0` the branch with matrices sorts to
ascending, `armas_sort_vec` to descending order. -/
def sortEigenvec (m : Mem α) (D : View) (U V C : Option View) (updown : Int) : Res (Int × Mem α) :=
  if ¬ D.isVec then .ok (-ENEED_VECTOR, m)
  else if U.isNone ∧ V.isNone ∧ C.isNone then do
    let m ← sortVec m D updown
    pure (0, m)
  else do
    let (_, m) ← forUp 0 (D.size - 1) 1 (sortEigenStep (decide (0 ≤ updown)) D U V C) m
    pure (0, m)

end Armas
