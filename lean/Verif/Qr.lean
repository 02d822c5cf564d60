import Verif.House
import Verif.LuInv

/-!
# Model of the blocked part of `src/lapack/qr.c`

Exact arithmetic.  `tau` is a column vector.  The return values of the BLAS calls are not looked at, as in the code.  The
assertions (`require`) on operand sizes are compiled out.  Not modelled: `conf->error`, null arguments, the workspace query
(`wb->bytes == 0`) and the allocating wrapper `armas_qrfactor`.
-/

namespace Armas

section ring

variable {α : Type} [CommRing α] [DecidableEq α]

/-- One pass of the loop in `armas_unblk_qr_reflector` (`src/lapack/qr.c:282-302`). -/
def qrReflStep (ab : α → α) (env : Env) (fuel : Nat) (T A tau : View) (k : Nat) (m : Mem α) : Res (Mem α) := do
  let t ← rd m (tau.at' k 0)
  if t = 0 then pure m
  else do
    let m ← wr m (T.at' k k) t
    let t01 := T.sub 0 k k 1
    let (_, m) ← axpby m 0 t01 1 (A.sub k 0 1 k)
    let (_, m) ← mvmult ab env fuel m (-t) t01 (-t) (A.sub (k + 1) 0 (A.rows - k - 1) k)
      (A.sub (k + 1) k (A.rows - k - 1) 1) { transA := true }
    let (_, m) ← mvmultTrm ab env fuel m t01 1 (T.sub 0 0 k k) { upper := true }
    pure m

/-- `armas_unblk_qr_reflector` (`src/lapack/qr.c:253-315`). -/
def qrReflector (ab : α → α) (env : Env) (fuel : Nat) (m : Mem α) (T A tau : View) : Res (Mem α) := do
  let (_, m) ← forUp 0 (min A.rows A.cols) 1 (qrReflStep ab env fuel T A tau) m
  pure m

/-- `armas_qrreflector` (`src/lapack/qr.c:333-346`). -/
def qrreflector (ab : α → α) (env : Env) (fuel : Nat) (m : Mem α) (T A tau : View) : Res (Int × Mem α) :=
  if T.cols < A.cols ∨ T.rows < A.cols then .ok (-1, m)
  else do
    let m ← qrReflector ab env fuel m T A tau
    pure (0, m)

/-- `armas_update_qr_left` (`src/lapack/qr.c:161-193`). -/
def updateQrLeft (ab : α → α) (env : Env) (fuel : Nat) (m : Mem α) (C1 C2 Y1 Y2 T W : View) (transpose : Bool)
    (cbuf : Option Cache) : Res (Mem α) :=
  if C1.size = 0 ∧ C2.size = 0 then .ok m
  else do
    let (_, m) ← mcopy m W C1 true
    let (_, m) ← multTrm ab env fuel m W 1 Y1 { lower := true, unit := true, right := true } cbuf
    let (_, m) ← mult ab m 1 W 1 C2 Y2 { transA := true } cbuf
    let (_, m) ← multTrm ab env fuel m W 1 T { upper := true, right := true, transA := !transpose } cbuf
    let (_, m) ← mult ab m 1 C2 (-1) Y2 W { transB := true } cbuf
    let (_, m) ← multTrm ab env fuel m W 1 Y1 { lower := true, unit := true, transA := true, right := true } cbuf
    let (_, m) ← mplus ab m 1 C1 (-1) W .all false true false
    pure m

/-- `armas_update_qr_right` (`src/lapack/qr.c:208-241`). -/
def updateQrRight (ab : α → α) (env : Env) (fuel : Nat) (m : Mem α) (C1 C2 Y1 Y2 T W : View) (transpose : Bool)
    (cbuf : Option Cache) : Res (Mem α) :=
  if C1.size = 0 ∧ C2.size = 0 then .ok m
  else do
    let (_, m) ← mcopy m W C1 false
    let (_, m) ← multTrm ab env fuel m W 1 Y1 { lower := true, unit := true, right := true } cbuf
    let (_, m) ← mult ab m 1 W 1 C2 Y2 {} cbuf
    let (_, m) ← multTrm ab env fuel m W 1 T { upper := true, right := true, transA := transpose } cbuf
    let (_, m) ← mult ab m 1 C2 (-1) W Y2 { transB := true } cbuf
    let (_, m) ← multTrm ab env fuel m W 1 Y1 { lower := true, unit := true, transA := true, right := true } cbuf
    let (_, m) ← mplus ab m 1 C1 (-1) W .all false false false
    pure m

end ring

/-- One pass of the loop in `blk_qrfactor` (`src/lapack/qr.c:111-137`), `k` the position of `A11`, `W` the address of the work
space. -/
noncomputable def blkQrStep (safmin : ℝ) (nonneg : Bool) (ab : ℝ → ℝ) (env : Env) (fuel : Nat) (A tau T : View) (W lb : Nat)
    (cbuf : Option Cache) (k : Nat) (m : Mem ℝ) : Res (Mem ℝ) := do
  let M := A.rows - k - lb
  let n := A.cols - k - lb
  let AL := A.sub k k (A.rows - k) lb
  let t1 := tau.sub k 0 lb 1
  let m ← unblkQr safmin nonneg ab env fuel m AL t1 W
  let (_, m) ← mscale m T 0 .all false
  let m ← qrReflector ab env fuel m T AL t1
  updateQrLeft ab env fuel m (A.sub k (k + lb) lb n) (A.sub (k + lb) (k + lb) M n) (A.sub k k lb lb) (A.sub (k + lb) k M lb) T
    ⟨W, n, n, lb⟩ true cbuf

/-- `blk_qrfactor` (`src/lapack/qr.c:91-148`).  The last call gets `t2` of the last repartition, which is the rest of `tau` if the
loop was entered; the only caller has `lb < cols(A) ≤ rows(A)`. -/
noncomputable def blkQr (safmin : ℝ) (nonneg : Bool) (ab : ℝ → ℝ) (env : Env) (fuel : Nat) (m : Mem ℝ) (A tau T : View) (W lb : Nat)
    (cbuf : Option Cache) : Res (Mem ℝ) := do
  let (k, m) ← forUp 0 (min A.rows A.cols - lb) lb (blkQrStep safmin nonneg ab env fuel A tau T W lb cbuf) m
  if 0 < A.rows - k ∧ 0 < A.cols - k then
    unblkQr safmin nonneg ab env fuel m (A.sub k k (A.rows - k) (A.cols - k)) (tau.sub k 0 (tau.rows - k) 1) W
  else pure m

/-- `armas_qrfactor_w` (`src/lapack/qr.c:427-492`) with a work space of `ws` elements at `w`; `elb` is the configured block size. -/
noncomputable def qrfactorW (safmin : ℝ) (nonneg : Bool) (ab : ℝ → ℝ) (env : Env) (elb fuel : Nat) (m : Mem ℝ) (A tau : View)
    (w ws : Nat) (cbuf : Option Cache) : Res (Int × Mem ℝ) :=
  if A.rows < A.cols then .ok (-ESIZE, m)
  else if ¬ tau.isVec ∨ tau.size < A.cols then .ok (-EINVAL, m)
  else if ws < A.cols then .ok (-EWORK, m)
  else do
    let lb := invBlock elb A.cols ws
    let m ← (if lb = 0 ∨ A.cols ≤ lb then unblkQr safmin nonneg ab env fuel m A tau w
      else blkQr safmin nonneg ab env fuel m A tau ⟨w, lb, lb, lb⟩ (w + lb * lb) lb cbuf)
    pure (0, m)

end Armas
