import Verif.While
import Verif.Blas1
import Verif.Blas2
import Mathlib.Analysis.Real.Sqrt

/-!
# Householder reflectors and unblocked QR factorization

Model of `src/lapack/house.c` and of the unblocked part of `src/lapack/qr.c`.  Exact real arithmetic; `SIGN(x)` is `x < 0`,
`HYPOT(a,b)` is `sqrt(a² + b²)`, `safmin` stands for `SAFEMIN/EPS`.  The scalars `a11` and `tau` are single cells of memory.
-/

namespace Armas

open Classical

/-- `HYPOT`. -/
noncomputable def hypot (a b : ℝ) : ℝ := Real.sqrt (a * a + b * b)

/-- The `switch` of `internal_householder` (`src/lapack/house.c:130-163`): new `beta`, `delta` and `t`.  `sign` is -1 or 1. -/
noncomputable def houseSwitch (neg nonneg : Bool) (normx alpha beta sign : ℝ) : ℝ × ℝ × ℝ :=
  if neg ∧ nonneg then
    let delta := if 0 ≤ alpha then alpha + beta else -normx * (normx / (alpha - beta))
    (beta, delta, delta / beta)
  else if neg then
    let beta := sign * beta
    let delta := alpha + beta
    (beta, delta, delta / beta)
  else if nonneg then
    let delta := if alpha ≤ 0 then alpha - beta else -normx * (normx / (alpha + beta))
    (beta, delta, -delta / beta)
  else
    let beta := -sign * beta
    let delta := alpha - beta
    (beta, delta, -delta / beta)

/-- Body of the rescaling loop of `internal_householder` (`src/lapack/house.c:118-123`); the state is `nscale`, `alpha`, `beta` and
the memory. -/
noncomputable def houseRescale (safmin : ℝ) (X : View) (st : Nat × ℝ × ℝ × Mem ℝ) : Res (Nat × ℝ × ℝ × Mem ℝ) := do
  let (nscale, alpha, beta, m) := st
  let rsafmin := 1 / safmin
  let (_, m) ← scale m X rsafmin
  pure (nscale + 1, alpha * rsafmin, beta * rsafmin, m)

/-- Rescaling of small vectors in `internal_householder` (`src/lapack/house.c:115-128`).  A `while` loop whose condition holds at
the start is a `do … while` loop. -/
noncomputable def houseScaled (safmin : ℝ) (m : Mem ℝ) (X : View) (alpha normx beta : ℝ) : Res (Nat × ℝ × ℝ × ℝ × Mem ℝ) :=
  if beta < safmin then do
    let (nscale, alpha, _, m) ← whileR (fun st => st.2.2.1 < safmin) (houseRescale safmin X) (0, alpha, beta, m)
    let normx ← nrm2 Real.sqrt m X
    pure (nscale, alpha, normx, hypot alpha normx, m)
  else pure (0, alpha, normx, beta, m)

/-- `internal_householder` (`src/lapack/house.c:95-173`); `neg` is `ARMAS_HHNEGATIVE`, `nonneg` is `ARMAS_NONNEG`. -/
noncomputable def householder (safmin : ℝ) (m : Mem ℝ) (a11 : Nat) (X : View) (tau : Nat) (neg nonneg : Bool) :
    Res (Mem ℝ) := do
  let normx ← nrm2 Real.sqrt m X
  if normx = 0 then wr m tau 0
  else do
    let alpha ← rd m a11
    let sign : ℝ := if alpha < 0 then -1 else 1
    let beta := hypot alpha normx
    let (nscale, alpha, normx, beta, m) ← houseScaled safmin m X alpha normx beta
    let (beta, delta, t) := houseSwitch neg nonneg normx alpha beta sign
    let (_, m) ← scale m X (1 / delta)
    let m ← wr m tau t
    wr m a11 (beta * safmin ^ nscale)

/-- `hhcompute_unscaled` (`src/lapack/house.c:180-218`). -/
noncomputable def hhUnscaled (m : Mem ℝ) (x0 : Nat) (X : View) (tau : Nat) (nonneg : Bool) : Res (Mem ℝ) := do
  let normx ← nrm2 Real.sqrt m X
  if normx = 0 then do
    let v ← rd m x0
    wr m tau v
  else do
    let x0val ← rd m x0
    let sign : ℝ := if x0val < 0 then -1 else 1
    let beta := hypot x0val normx
    let (alpha, beta, delta) :=
      if nonneg then
        let alpha := if x0val ≤ 0 then x0val - beta else -normx * (normx / (x0val + beta))
        (alpha, beta, hypot normx alpha)
      else
        let beta := -sign * beta
        (x0val - beta, beta, hypot normx (x0val - beta))
    let m ← wr m x0 (alpha / delta)
    let (_, m) ← scale m X (1 / delta)
    wr m tau beta

/-- `armas_house` (`src/lapack/house.c:261-271`) with the flags `ARMAS_UNIT`, `ARMAS_HHNEGATIVE`, `ARMAS_NONNEG`;
`armas_compute_householder` (`src/lapack/house.c:290-295`) is `unit`, not `neg`. -/
noncomputable def house (safmin : ℝ) (m : Mem ℝ) (a11 : Nat) (X : View) (tau : Nat) (unit neg nonneg : Bool) : Res (Mem ℝ) :=
  if unit then householder safmin m a11 X tau neg nonneg else hhUnscaled m a11 X tau nonneg

/-- `armas_apply_householder2x1` (`src/lapack/house.c:361-393`); `tau = none` is the null pointer.  The return values of the BLAS
calls are not looked at. -/
def applyHH2x1 {α : Type} [CommRing α] [DecidableEq α] (ab : α → α) (env : Env) (fuel : Nat) (m : Mem α) (tau : Option Nat) (v a1 A2 w1 : View) (left : Bool) :
    Res (Mem α) := do
  let tval ← match tau with
    | some t => rd m t
    | none => pure 2
  if tval = 0 then pure m
  else do
    let (_, m) ← axpby m 0 w1 1 a1
    let (_, m) ← mvmult ab env fuel m 1 w1 1 A2 v { transA := left }
    let (_, m) ← scale m w1 tval
    let (_, m) ← axpy m a1 (-1) w1
    let (_, m) ← if left then mvupdate env fuel m 1 A2 (-1) v w1 else mvupdate env fuel m 1 A2 (-1) w1 v
    pure m

/-- One pass of the loop in `armas_unblk_qrfactor` (`src/lapack/qr.c:62-83`); `W` is the address of the work space, `tau` a column
vector. -/
noncomputable def unblkQrStep (safmin : ℝ) (nonneg : Bool) (ab : ℝ → ℝ) (env : Env) (fuel : Nat) (A tau : View) (W k : Nat) (m : Mem ℝ) :
    Res (Mem ℝ) := do
  let a21 := A.sub (k + 1) k (A.rows - k - 1) 1
  let a12 := A.sub k (k + 1) 1 (A.cols - k - 1)
  let A22 := A.sub (k + 1) (k + 1) (A.rows - k - 1) (A.cols - k - 1)
  let m ← house safmin m (A.at' k k) a21 (tau.at' k 0) true false nonneg
  applyHH2x1 ab env fuel m (some (tau.at' k 0)) a21 a12 A22 ⟨W, A.cols - k - 1, A.cols - k - 1, 1⟩ true

/-- `armas_unblk_qrfactor` (`src/lapack/qr.c:43-85`). -/
noncomputable def unblkQr (safmin : ℝ) (nonneg : Bool) (ab : ℝ → ℝ) (env : Env) (fuel : Nat) (m : Mem ℝ) (A tau : View) (W : Nat) :
    Res (Mem ℝ) := do
  let (_, m) ← forUp 0 (min A.rows A.cols) 1 (unblkQrStep safmin nonneg ab env fuel A tau W) m
  pure m

end Armas
