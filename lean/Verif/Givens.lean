import Verif.Blas1

/-!
# Plane rotations

Model of `src/lapack/givens.c`.  Exact arithmetic in a commutative ring.  The routines for rows (`left`) and columns
are the same text with rows and columns exchanged; they appear as one definition over lines.
-/

namespace Armas

variable {α : Type} [CommRing α] [DecidableEq α]

/-- Cell `k` of line `p`: of row `p` if `left`, else of column `p`. -/
def lineAt (left : Bool) (A : View) (p k : Nat) : Nat := if left then A.at' p k else A.at' k p

/-- `gvleft` (`src/lapack/givens.c:72-87`) and `gvright` (`src/lapack/givens.c:96-111`): lines `p` and `q`, elements
`from` up to `from + n`. -/
def gvLine (left : Bool) (m : Mem α) (A : View) (c s : α) (p q start n : Nat) : Res (Mem α) := do
  let (_, m) ← forUp 0 n 1 (fun k m => do
    let y0 ← rd m (lineAt left A p (start + k))
    let y1 ← rd m (lineAt left A q (start + k))
    let m ← wr m (lineAt left A q (start + k)) (c * y1 - s * y0)
    wr m (lineAt left A p (start + k)) (c * y0 + s * y1)) m
  pure m

/-- `armas_gvleft` (`src/lapack/givens.c:131-150`) and `armas_gvright` (`src/lapack/givens.c:171-190`).  With `p = q` the
elements are multiplied by `c`, up to the end of the line; otherwise the number of elements is not checked. -/
def gvOne (left : Bool) (m : Mem α) (A : View) (c s : α) (p q start n : Nat) : Res (Mem α) :=
  let len := if left then A.cols else A.rows
  if start ≥ len then pure m
  else if p = q then do
    let (_, m) ← forUp start (min (start + n) len) 1 (fun k m => do
      let v0 ← rd m (lineAt left A p k)
      wr m (lineAt left A p k) (c * v0)) m
    pure m
  else gvLine left m A c s p q start n

/-- The body of the loops in `armas_gvupdate` (`src/lapack/givens.c:239-242,248-251,259-262,268-271`): rotation `n` of
lines `k` and `k+1`. -/
def gvStep (left : Bool) (A C S : View) (n k : Nat) (m : Mem α) : Res (Mem α) := do
  let c ← rd m (C.vat n)
  let s ← rd m (S.vat n)
  if c ≠ 1 ∨ s ≠ 0 then gvLine left m A c s k (k + 1) 0 (if left then A.cols else A.rows) else pure m

/-- `armas_gvupdate` (`src/lapack/givens.c:228-275`) for `start ≥ 0` and `nrot ≥ 0`; `bwd` is `ARMAS_BACKWARD`.  Forward, the
loop counts `n` and `k` together, so `n` runs to the smaller of `nrot` and `end - start`; backward both decrease that often,
`n` from `nrot` and `k` from `end`. -/
def gvupdate (left bwd : Bool) (m : Mem α) (A : View) (start : Nat) (C S : View) (nrot : Nat) : Res (Int × Mem α) :=
  let e := min (if left then A.rows else A.cols) (start + nrot)
  let cnt := min nrot (e - start)
  if bwd then do
    let m ← forDown cnt (fun i m => gvStep left A C S (nrot - cnt + i) (e - cnt + i) m) m
    pure (((nrot - cnt : Nat) : Int), m)
  else do
    let (n, m) ← forUp 0 cnt 1 (fun n m => gvStep left A C S n (start + n) m) m
    pure ((n : Int), m)

end Armas
