import Verif.Sparse

/-!
# Sparse matrices: growing a coordinate list, test for a stored diagonal

Model of the rest of `src/sparse/util.c`, with the simplifications of `Verif.Sparse`.
-/

namespace Armas

variable {α : Type}

/-- `armassp_resize` (`src/sparse/util.c:128-143`): return value and matrix.  `memcpy` from an array with fewer than `nnz` elements, or to one, is
undefined behaviour.  The block comes from `malloc`, as `free` wants (not so for a matrix made with `armassp_make` on other memory). -/
def spResize [Zero α] (A : Sp α) (newsize : Nat) : Res (Int × Sp α) :=
  if A.kind = .coo then do
    let (_, nb) ← forUp 0 A.nnz 1 (fun k nb => do
      let x ← rd A.ep k
      wr nb k x) (zeros ((0, 0, 0) : Nat × Nat × α) newsize)
    pure (0, { A with ep := nb, size := newsize })
  else pure (-1, A)

/-- The first part of `armassp_append` (`src/sparse/util.c:154-157`). -/
def spGrow [Zero α] (A : Sp α) : Res (Int × Sp α) := if A.nnz = A.size then spResize A (A.size + 64) else pure (0, A)

/-- `armassp_append` (`src/sparse/util.c:149-164`). -/
def spAppend [Zero α] (A : Sp α) (m n : Nat) (v : α) : Res (Int × Sp α) :=
  if A.kind ≠ .coo then pure (-1, A)
  else do
    let (e, A) ← spGrow A
    if e < 0 then pure (-1, A)
    else do
      let ep ← wr A.ep A.nnz (m, n, v)
      pure (0, { A with ep := ep, nnz := A.nnz + 1 })

/-- Repeated `armassp_append` (`src/sparse/util.c:149-164`): `0` if all calls succeed. -/
def spAppendAll [Zero α] (A : Sp α) : List (Nat × Nat × α) → Res (Int × Sp α)
  | [] => pure (0, A)
  | (m, n, v) :: l => do
    let (e, A) ← spAppend A m n v
    if e < 0 then pure (e, A) else spAppendAll A l

/-- Inner loops of `armassp_hasdiag` (`src/sparse/util.c:196-201`, `209-214`): is `i` among the `c` indices from position `p` on. -/
def hasIx (ix : Mem Nat) (i : Nat) : Nat → Nat → Res Bool
  | 0, _ => pure false
  | c + 1, p => do
    let k ← rd ix p
    if k = i then pure true else hasIx ix i c (p + 1)

/-- Outer loops of `armassp_hasdiag` (`src/sparse/util.c:195-202`, `208-215`): the rows (columns) `start`, `start + 1`, ... up to `stop` must contain
the indices `0`, `1`, ... -/
def hasLines (A : Sp α) (start stop : Nat) : Res Int := do
  let (_, nc) ← forUp start stop 1 (fun j (nc : Int) => do
    let p0 ← rd A.ptr j
    let p1 ← rd A.ptr (j + 1)
    let b ← hasIx A.ix (j - start) (p1 - p0) p0
    pure (if b then nc - 1 else nc)) ((stop : Int) - start)
  pure nc

/-- The three cases of `armassp_hasdiag` (`src/sparse/util.c:183-217`): the final value of `nc`. -/
def spHasCount (A : Sp α) (diag : Int) : Res Int :=
  match A.kind with
  | .coo => do
    let roff : Int := if diag < 0 then 0 else diag
    let coff : Int := if diag > 0 then 0 else diag
    let (_, nc) ← forUp 0 A.nnz 1 (fun k (nc : Int) => do
      let x ← rd A.ep k
      pure (if (x.1 : Int) + coff = x.2.1 + roff then nc - 1 else nc)) (if diag < 0 then A.rows + diag else A.cols - diag)
    pure nc
  | .csc => hasLines A diag.toNat (A.cols + (-diag).toNat)
  | .csr => hasLines A (-diag).toNat (A.rows - diag.toNat)

/-- `armassp_hasdiag` (`src/sparse/util.c:171-222`), `A` not null. -/
def spHasdiag (A : Sp α) (diag : Int) : Res Bool :=
  if A.rows ≠ A.cols then pure false
  else if diag < 0 ∧ (A.rows : Int) < -diag then pure false
  else if diag > 0 ∧ (A.cols : Int) < diag then pure false
  else do
    let nc ← spHasCount A diag
    pure (decide (nc = 0))

end Armas
