import Verif.House
import Verif.QrMult

/-!
# Model of `src/lapack/housem.c`

Exact arithmetic.  `tau` is a column vector and `cols(P) ≤ rows(P)`, which the code does not check.  Not modelled: `conf->error`, null arguments other than the null
pointer of a work space that is too small, the workspace query and the allocating wrapper.
-/

namespace Armas

variable {α : Type} [Field α] [DecidableEq α]

/-- The value `*tp` (`src/lapack/housem.c:96-107`): element `k` of `tau` for scaled reflectors, else 2. -/
def hmTau (unit : Bool) (m : Mem α) (tau : View) (k : Nat) : Res α := if unit then rd m (tau.at' k 0) else pure 2

/-- The value `*vp` (`src/lapack/housem.c:96-107`): 1 for scaled reflectors, else the diagonal element. -/
def hmV0 (unit : Bool) (m : Mem α) (P : View) (k : Nat) : Res α := if unit then pure 1 else rd m (P.at' k k)

/-- One pass of the loop in `hmult_left` (`src/lapack/housem.c:109-152`) or `hmult_right` (`src/lapack/housem.c:233-275`) for a matrix `X`, column `k` of `P`; `w` is the
work space. -/
def hmultStep (ab : α → α) (env : Env) (fuel : Nat) (unit right : Bool) (X tau P w : View) (k : Nat) (m : Mem α) : Res (Mem α) := do
  let p21 := P.sub (k + 1) k (P.rows - k - 1) 1
  let x1 := if right then X.sub 0 k X.rows 1 else X.sub k 0 1 X.cols
  let X2 := if right then X.sub 0 (k + 1) X.rows (X.cols - k - 1) else X.sub (k + 1) 0 (X.rows - k - 1) X.cols
  let tval ← hmTau unit m tau k
  let v0 ← hmV0 unit m P k
  let (_, m) ← axpby m 0 w v0 x1
  let (_, m) ← mvmult ab env fuel m 1 w 1 X2 p21 { transA := !right }
  let (_, m) ← axpy m x1 (-tval * v0) w
  let (_, m) ← (if right then mvupdate env fuel m 1 X2 (-tval) w p21 else mvupdate env fuel m 1 X2 (-tval) p21 w)
  pure m

/-- The same pass for a vector `X` (`src/lapack/housem.c:122-133`, `:246-256`). -/
def hmultVecStep (env : Env) (fuel : Nat) (unit right : Bool) (X tau P : View) (k : Nat) (m : Mem α) : Res (Mem α) := do
  let p21 := P.sub (k + 1) k (P.rows - k - 1) 1
  let x1 := if right then X.at' 0 k else X.at' k 0
  let X2 := if right then X.sub 0 (k + 1) X.rows (X.cols - k - 1) else X.sub (k + 1) 0 (X.rows - k - 1) X.cols
  let tval ← hmTau unit m tau k
  let v0 ← hmV0 unit m P k
  let d ← dot fuel m env.blas1min env.naive X2 p21
  let x ← rd m x1
  let w1 := d + v0 * x
  let m ← wr m x1 (x - tval * v0 * w1)
  let (_, m) ← axpy m X2 (-tval * w1) p21
  pure m

/-- `hmult_left` (`src/lapack/housem.c:50-154`) and `hmult_right` (`src/lapack/housem.c:167-276`) for `cols(P) ≤ rows(P)`: columns of `P` in ascending order from the left with
`ARMAS_TRANS` and from the right without it, else in descending order. -/
def hmult (ab : α → α) (env : Env) (fuel : Nat) (unit trans right : Bool) (m : Mem α) (X tau P w : View) : Res (Mem α) := do
  let (_, m) ← forUp 0 P.cols 1 (fun d =>
    let k := if trans = right then P.cols - 1 - d else d
    if X.isVec then hmultVecStep env fuel unit right X tau P k else hmultStep ab env fuel unit right X tau P w k) m
  pure m

/-- `armas_housemult_w` (`src/lapack/housem.c:311-361`) with a nonempty work space that has `ws` elements left at `w`; `left` is the flag `ARMAS_LEFT`.  A work space that is
too small gives a null pointer (`:349`), which is then written through if the sizes match: undefined behaviour. -/
def housemultW (ab : α → α) (env : Env) (fuel : Nat) (m : Mem α) (X tau P : View) (unit trans left right : Bool) (w ws : Nat) : Res (Int × Mem α) :=
  let n := if left then X.cols else X.rows
  if unit ∧ tau.size ≠ P.cols then .ok (-1, m)
  else if (if right then X.cols else X.rows) ≠ P.rows then .ok (-1, m)
  else if ¬ X.isVec ∧ ws < n ∧ 0 < P.cols ∧ n = (if right then X.rows else X.cols) then .ub
  else do
    let m ← hmult ab env fuel unit trans right m X tau P ⟨w, n, n, 1⟩
    pure (0, m)

end Armas
