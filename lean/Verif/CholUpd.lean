import Verif.Views
import Verif.Blas2
import Mathlib.Analysis.Real.Sqrt

/-!
# Rank-one update of a Cholesky factor

Model of `src/lapack/cholupd.c`, `src/lapack/rotate.c`, `src/lapack/gvrot.h` and `armas_gvrot_vec`
(`src/lapack/givens.c`).  Exact real arithmetic; `signbit(b)` is `b < 0` (it is only asked for `b ≠ 0`).  The partition walks
appear as loops over the position of the diagonal element, as in `Verif.Chol`.
-/

namespace Armas

open Classical

/-- `gvrotg`, plain version (`src/lapack/gvrot.h:70-98`) = `armas_gvcompute` (`src/lapack/rotate.c:36-39`); the results are
`(c, s, r)`. -/
noncomputable def gvrotg (a b : ℝ) : ℝ × ℝ × ℝ :=
  if b = 0 then (1, 0, a)
  else if a = 0 then (0, 1, b)
  else if |b| > |a| then
    let t := a / b
    let u := Real.sqrt (1 + t * t)
    let u := if b < 0 then -u else u
    let s := 1 / u
    (s * t, s, b * u)
  else
    let t := b / a
    let u := Real.sqrt (1 + t * t)
    let c := 1 / u
    (c, c * t, a * u)

/-- `gvrotg`, AVX version (`src/lapack/gvrot.h:17-65`).  A register is the list of its elements `[0]..[3]`;
`_mm256_set_pd` names them in the opposite order, `_mm256_hadd_pd` adds neighbours, mask `0x9` of the blend takes elements 0 and 3
from the second operand. -/
noncomputable def gvrotgAvx (a b : ℝ) : ℝ × ℝ × ℝ :=
  if b = 0 then (1, 0, a)
  else if a = 0 then (0, 1, b)
  else
    let x0 : Fin 4 → ℝ := ![1, b, a, 1]
    let x1 : Fin 4 → ℝ := ![1, a, b, 1]
    let t0 : Fin 4 → ℝ := fun i => x0 i / x1 i
    let x0 : Fin 4 → ℝ := fun i => t0 i * t0 i
    let t2 : Fin 4 → ℝ := ![x0 0 + x0 1, x0 0 + x0 1, x0 2 + x0 3, x0 2 + x0 3]
    let u0 : Fin 4 → ℝ := fun i => Real.sqrt (t2 i)
    let u1 : Fin 4 → ℝ := fun i => 1 / u0 i
    let b0 : Fin 4 → ℝ := ![u1 0, u0 1, u0 2, u1 3]
    let b0 : Fin 4 → ℝ := fun i => b0 i * x1 i
    let b1 : Fin 4 → ℝ := fun i => t0 i * u1 i
    if |b| > |a| then
      if b < 0 then (-(b1 2), -(b0 3), -(b0 2)) else (b1 2, b0 3, b0 2)
    else (b0 0, b1 1, b0 1)

/-- `armas_gvrotate` (`src/lapack/rotate.c:54-59`). -/
def gvrotate {α : Type} [CommRing α] (c s y0 y1 : α) : α × α := (c * y0 + s * y1, c * y1 - s * y0)

/-- `armas_gvrot_vec` (`src/lapack/givens.c:288-301`). -/
def gvrotVec {α : Type} [CommRing α] (m : Mem α) (X Y : View) (c s : α) : Res (Mem α) := do
  let (_, m) ← forUp 0 X.size 1 (fun k m => do
    let x ← rd m (X.vat k)
    let y ← rd m (Y.vat k)
    let (x, y) := gvrotate c s x y
    let m ← wr m (X.vat k) x
    wr m (Y.vat k) y) m
  pure m

/-- One pass of the loops in `unblk_cholupdate_lower` and `unblk_cholupdate_upper` (`src/lapack/cholupd.c:61-83,107-129`).
`X` is a row vector. -/
noncomputable def cholUpdStep (upper : Bool) (A X : View) (k : Nat) (m : Mem ℝ) : Res (Mem ℝ) := do
  let a ← rd m (A.at' k k)
  let x ← rd m ((X.sub 0 k X.rows 1).at' 0 0)
  let (c, s, r) := gvrotg a x
  let m ← wr m (A.at' k k) r
  gvrotVec m (if upper then A.sub k (k + 1) 1 (A.cols - k - 1) else A.sub (k + 1) k (A.rows - k - 1) 1)
    (X.sub 0 (k + 1) X.rows (X.cols - k - 1)) c s

/-- `unblk_cholupdate_lower` (`src/lapack/cholupd.c:42-85`) and `unblk_cholupdate_upper` (`src/lapack/cholupd.c:88-131`). -/
noncomputable def cholUpd (upper : Bool) (m : Mem ℝ) (A X : View) : Res (Mem ℝ) := do
  let (_, m) ← forUp 0 (min A.rows A.cols) 1 (cholUpdStep upper A X) m
  pure m

/-- `armas_cholupdate` (`src/lapack/cholupd.c:153-178`); sizes are not checked by the code. -/
noncomputable def cholupdate (m : Mem ℝ) (A X : View) (fl : Flags) : Res (Int × Mem ℝ) :=
  if A.size = 0 ∨ X.size = 0 then .ok (0, m)
  else do
    let Xrow := if X.cols = 1 then colAsRow X else X
    let m ← cholUpd fl.upper m A Xrow
    pure (0, m)

end Armas
