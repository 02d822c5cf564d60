import Verif.Blas1
import Verif.Views
import Verif.SparseMv

/-!
# Element wise operators, norms of matrices, dense copies of sparse matrices

Models of `src/blas/mapply.c`, `src/blas/mnorm.c` and `src/sparse/dense.c`.
-/

namespace Armas

variable {α : Type}

/-- First row visited in column `j` (`src/blas/mapply.c:52`, `59`, `66`). -/
def applyFrom (lower upper : Bool) (j : Nat) : Nat := if lower && !upper then j else 0

/-- One more than the last row visited in column `j` (`src/blas/mapply.c:52`, `59`, `66`); for `ARMAS_UPPER` that is `j + 1`, whatever
the number of rows. -/
def applyTo (lower upper : Bool) (A : View) (j : Nat) : Nat := if upper && !lower then j + 1 else A.rows

/-- `armas_apply` (`src/blas/mapply.c:42-73`) and, with `oper` applied to its second argument, `armas_apply2` (`src/blas/mapply.c:94-125`).
The operator is a function without side effects. -/
def apply (oper : α → α) (A : View) (lower upper : Bool) (m : Mem α) : Res (Int × Mem α) :=
  if A.size = 0 then pure (0, m)
  else do
    let (_, m) ← forUp 0 A.cols 1 (fun j m => do
      let (_, m) ← forUp (applyFrom lower upper j) (applyTo lower upper A j) 1 (fun i m => do
        let t ← rd m (A.at' i j)
        wr m (A.at' i j) (oper t)) m
      pure m) m
    pure (0, m)

/-- A loop `for (i = i0; i < i0 + c; i++)` left early if the body says so (the `return -1` at `src/blas/mapply.c:157`, `165`, `173`). -/
def loopUntil {σ : Type} (body : Nat → σ → Res (Bool × σ)) : Nat → Nat → σ → Res (Bool × σ)
  | 0, _, s => pure (false, s)
  | c + 1, i, s => do
    let (t, s) ← body i s
    if t then pure (true, s) else loopUntil body c (i + 1) s

/-- `armas_iterate` (`src/blas/mapply.c:145-179`); `s` is what the operator keeps behind its pointer argument, the first component of its
result is what it returns. -/
def iterate {σ : Type} (oper : α → σ → Int × σ) (A : View) (lower upper : Bool) (m : Mem α) (s : σ) : Res (Int × σ) :=
  if A.size = 0 then pure (0, s)
  else do
    let (t, s) ← loopUntil (fun j s =>
      loopUntil (fun i s => do
        let x ← rd m (A.at' i j)
        let (r, s) := oper x s
        pure (decide (r < 0), s)) (applyTo lower upper A j - applyFrom lower upper j) (applyFrom lower upper j) s) A.cols 0 s
    pure (if t then -1 else 0, s)

/-- Norms (`ARMAS_NORM_*`); `other` is any other value of `which`. -/
inductive NormKind where
  | one
  | two
  | inf
  | frb
  | other
deriving DecidableEq

section Ordered
variable [Field α] [LinearOrder α]

/-- `sum_of_sq` (`src/blas/mnorm.c:30-50`); the state is (`scl`, `sum`). -/
def sumOfSq (m : Mem α) (X : View) (st : α × α) : Res (α × α) := do
  let (_, st) ← forUp 0 X.size 1 (fun i (st : α × α) => do
    let x ← rd m (X.vat i)
    if x ≠ 0 then
      let a0 := |x|
      if a0 > st.1 then
        pure (a0, 1 + st.2 * ((st.1 / a0) * (st.1 / a0)))
      else pure (st.1, st.2 + (a0 / st.1) * (a0 / st.1))
    else pure st) st
  pure st

/-- `matrix_norm_frb` (`src/blas/mnorm.c:55-69`), with `sqrt` a parameter. -/
def matrixNormFrb (sqrt : α → α) (m : Mem α) (X : View) : Res α := do
  let (_, st) ← forUp 0 X.cols 1 (fun k st => sumOfSq m (X.sub 0 k X.rows 1) st) (0, 1)
  pure (st.1 * sqrt st.2)

/-- `matrix_norm_one` (`src/blas/mnorm.c:74-89`). -/
def matrixNormOne (fuel blas1min : Nat) (opt : SumOpt) (m : Mem α) (X : View) : Res α := do
  let (_, v) ← forUp 0 X.cols 1 (fun k (v : α) => do
    let s ← asum fuel m blas1min opt (X.sub 0 k X.rows 1)
    if |s| > v then pure |s| else pure v) 0
  pure v

/-- `matrix_norm_inf` (`src/blas/mnorm.c:94-109`). -/
def matrixNormInf (fuel blas1min : Nat) (opt : SumOpt) (m : Mem α) (X : View) : Res α := do
  let (_, v) ← forUp 0 X.rows 1 (fun k (v : α) => do
    let s ← asum fuel m blas1min opt (X.sub k 0 1 X.cols)
    if |s| > v then pure |s| else pure v) 0
  pure v

/-- `armas_mnorm` (`src/blas/mnorm.c:126-171`) of a matrix that is not null; the first component of the result is the error code stored
in the configuration (0: none). -/
def mnorm (sqrt : α → α) (fuel blas1min : Nat) (opt : SumOpt) (m : Mem α) (A : View) (which : NormKind) : Res (Nat × α) :=
  if A.size = 0 then pure (0, 0)
  else
    let isVector := A.rows = 1 ∨ A.cols = 1
    match which with
    | .one => do
      let v ← if isVector then asum fuel m blas1min opt A else matrixNormOne fuel blas1min opt m A
      pure (0, v)
    | .two =>
      if isVector then do
        let v ← nrm2 sqrt m A
        pure (0, v)
      else pure (4, 0)
    | .inf => do
      let v ← if isVector then amax m A else matrixNormInf fuel blas1min opt m A
      pure (0, v)
    | .frb => do
      let v ← if isVector then nrm2 sqrt m A else matrixNormFrb sqrt m A
      pure (0, v)
    | .other => pure (3, 0)

end Ordered

/-- `armassp_todense` (`src/sparse/dense.c:26-64`). -/
def todense (A : View) (B : Sp α) (m : Mem α) : Res (Int × Mem α) :=
  if A.rows ≠ B.rows ∨ A.cols ≠ B.cols then pure (-1, m)
  else match B.kind with
    | .csc => do
      let (_, m) ← forUp 0 B.nptr 1 (fun j m => do
        let p0 ← rd B.ptr j
        let p1 ← rd B.ptr (j + 1)
        let (_, m) ← forUp p0 p1 1 (fun k m => do
          let i ← rd B.ix k
          let v ← rd B.v k
          setElem m A i j v) m
        pure m) m
      pure (0, m)
    | .csr => do
      let (_, m) ← forUp 0 B.nptr 1 (fun i m => do
        let p0 ← rd B.ptr i
        let p1 ← rd B.ptr (i + 1)
        let (_, m) ← forUp p0 p1 1 (fun k m => do
          let j ← rd B.ix k
          let v ← rd B.v k
          setElem m A i j v) m
        pure m) m
      pure (0, m)
    | .coo => do
      let (_, m) ← forUp 0 B.nnz 1 (fun k m => do
        let e ← rd B.ep k
        setElem m A e.1 e.2.1 e.2.2) m
      pure (0, m)

end Armas
