import Verif.Qr

/-!
# Model of `src/lapack/lq.c`

Exact arithmetic.  `tau` is a column vector.  The return values of the BLAS calls are not looked at, as in the code.  The
assertions (`require`) on operand sizes are compiled out.  Not modelled: `conf->error`, null arguments, the workspace query
(`wb->bytes == 0`) and the allocating wrapper `armas_lqfactor`.
-/

namespace Armas

section ring

variable {α : Type} [CommRing α] [DecidableEq α]

/-- One pass of the loop in `armas_unblk_lq_reflector` (`src/lapack/lq.c:257-278`). -/
def lqReflStep (ab : α → α) (env : Env) (fuel : Nat) (T A tau : View) (k : Nat) (m : Mem α) : Res (Mem α) := do
  let t ← rd m (tau.at' k 0)
  if t = 0 then pure m
  else do
    let m ← wr m (T.at' k k) t
    let t01 := T.sub 0 k k 1
    let (_, m) ← axpby m 0 t01 1 (A.sub 0 k k 1)
    let (_, m) ← mvmult ab env fuel m (-t) t01 (-t) (A.sub 0 (k + 1) k (A.cols - k - 1)) (A.sub k (k + 1) 1 (A.cols - k - 1)) {}
    let (_, m) ← mvmultTrm ab env fuel m t01 1 (T.sub 0 0 k k) { upper := true }
    pure m

/-- `armas_unblk_lq_reflector` (`src/lapack/lq.c:237-289`). -/
def lqReflector (ab : α → α) (env : Env) (fuel : Nat) (m : Mem α) (T A tau : View) : Res (Mem α) := do
  let (_, m) ← forUp 0 (min A.rows A.cols) 1 (lqReflStep ab env fuel T A tau) m
  pure m

/-- `armas_lqreflector` (`src/lapack/lq.c:307-319`). -/
def lqreflector (ab : α → α) (env : Env) (fuel : Nat) (m : Mem α) (T A tau : View) : Res (Int × Mem α) :=
  if T.cols < A.cols ∨ T.rows < A.cols then .ok (-ESIZE, m)
  else do
    let m ← lqReflector ab env fuel m T A tau
    pure (0, m)

/-- `armas_update_lq_left` (`src/lapack/lq.c:146-178`). -/
def updateLqLeft (ab : α → α) (env : Env) (fuel : Nat) (m : Mem α) (C1 C2 Y1 Y2 T W : View) (transpose : Bool)
    (cbuf : Option Cache) : Res (Mem α) :=
  if C1.size = 0 ∧ C2.size = 0 then .ok m
  else do
    let (_, m) ← mcopy m W C1 true
    let (_, m) ← multTrm ab env fuel m W 1 Y1 { upper := true, unit := true, right := true, transA := true } cbuf
    let (_, m) ← mult ab m 1 W 1 C2 Y2 { transA := true, transB := true } cbuf
    let (_, m) ← multTrm ab env fuel m W 1 T { upper := true, right := true, transA := !transpose } cbuf
    let (_, m) ← mult ab m 1 C2 (-1) Y2 W { transA := true, transB := true } cbuf
    let (_, m) ← multTrm ab env fuel m W 1 Y1 { upper := true, unit := true, right := true } cbuf
    let (_, m) ← mplus ab m 1 C1 (-1) W .all false true false
    pure m

/-- `armas_update_lq_right` (`src/lapack/lq.c:191-224`). -/
def updateLqRight (ab : α → α) (env : Env) (fuel : Nat) (m : Mem α) (C1 C2 Y1 Y2 T W : View) (transpose : Bool)
    (cbuf : Option Cache) : Res (Mem α) :=
  if C1.size = 0 ∧ C2.size = 0 then .ok m
  else do
    let (_, m) ← mcopy m W C1 false
    let (_, m) ← multTrm ab env fuel m W 1 Y1 { upper := true, unit := true, right := true, transA := true } cbuf
    let (_, m) ← mult ab m 1 W 1 C2 Y2 { transB := true } cbuf
    let (_, m) ← multTrm ab env fuel m W 1 T { upper := true, right := true, transA := !transpose } cbuf
    let (_, m) ← mult ab m 1 C2 (-1) W Y2 {} cbuf
    let (_, m) ← multTrm ab env fuel m W 1 Y1 { upper := true, unit := true, right := true } cbuf
    let (_, m) ← mplus ab m 1 C1 (-1) W .all false false false
    pure m

end ring

/-- One pass of the loop in `unblk_lqfactor` (`src/lapack/lq.c:55-73`); `W` is the address of the work space, `tau` a column
vector. -/
noncomputable def unblkLqStep (safmin : ℝ) (nonneg : Bool) (ab : ℝ → ℝ) (env : Env) (fuel : Nat) (A tau : View) (W k : Nat)
    (m : Mem ℝ) : Res (Mem ℝ) := do
  let a12 := A.sub k (k + 1) 1 (A.cols - k - 1)
  let a21 := A.sub (k + 1) k (A.rows - k - 1) 1
  let A22 := A.sub (k + 1) (k + 1) (A.rows - k - 1) (A.cols - k - 1)
  let m ← house safmin m (A.at' k k) a12 (tau.at' k 0) true false nonneg
  applyHH2x1 ab env fuel m (some (tau.at' k 0)) a12 a21 A22 ⟨W, A.rows - k - 1, A.rows - k - 1, 1⟩ false

/-- `unblk_lqfactor` (`src/lapack/lq.c:41-76`). -/
noncomputable def unblkLq (safmin : ℝ) (nonneg : Bool) (ab : ℝ → ℝ) (env : Env) (fuel : Nat) (m : Mem ℝ) (A tau : View) (W : Nat) :
    Res (Mem ℝ) := do
  let (_, m) ← forUp 0 (min A.rows A.cols) 1 (unblkLqStep safmin nonneg ab env fuel A tau W) m
  pure m

/-- One pass of the loop in `blk_lqfactor` (`src/lapack/lq.c:97-124`), `k` the position of `A11`, `W` the address of the work
space. -/
noncomputable def blkLqStep (safmin : ℝ) (nonneg : Bool) (ab : ℝ → ℝ) (env : Env) (fuel : Nat) (A tau T : View) (W lb : Nat)
    (cbuf : Option Cache) (k : Nat) (m : Mem ℝ) : Res (Mem ℝ) := do
  let M := A.rows - k - lb
  let n := A.cols - k - lb
  let AR := A.sub k k lb (A.cols - k)
  let t1 := tau.sub k 0 lb 1
  let m ← unblkLq safmin nonneg ab env fuel m AR t1 W
  let (_, m) ← mscale m T 0 .all false
  let m ← lqReflector ab env fuel m T AR t1
  updateLqRight ab env fuel m (A.sub (k + lb) k M lb) (A.sub (k + lb) (k + lb) M n) (A.sub k k lb lb) (A.sub k (k + lb) lb n) T
    ⟨W, M, M, lb⟩ true cbuf

/-- `blk_lqfactor` (`src/lapack/lq.c:82-133`).  The last call gets `t2` of the last repartition, which is the rest of `tau` if the
loop was entered; the only caller has `lb < rows(A) ≤ cols(A)`. -/
noncomputable def blkLq (safmin : ℝ) (nonneg : Bool) (ab : ℝ → ℝ) (env : Env) (fuel : Nat) (m : Mem ℝ) (A tau T : View) (W lb : Nat)
    (cbuf : Option Cache) : Res (Mem ℝ) := do
  let (k, m) ← forUp 0 (min A.rows A.cols - lb) lb (blkLqStep safmin nonneg ab env fuel A tau T W lb cbuf) m
  if 0 < A.rows - k ∧ 0 < A.cols - k then
    unblkLq safmin nonneg ab env fuel m (A.sub k k (A.rows - k) (A.cols - k)) (tau.sub k 0 (tau.rows - k) 1) W
  else pure m

/-- `armas_lqfactor_w` (`src/lapack/lq.c:397-463`) with a work space of `ws` elements at `w`; `elb` is the configured block size. -/
noncomputable def lqfactorW (safmin : ℝ) (nonneg : Bool) (ab : ℝ → ℝ) (env : Env) (elb fuel : Nat) (m : Mem ℝ) (A tau : View)
    (w ws : Nat) (cbuf : Option Cache) : Res (Int × Mem ℝ) :=
  if ¬ tau.isVec ∨ tau.size < A.rows then .ok (-1, m)
  else if A.cols < A.rows then .ok (-ESIZE, m)
  else if ws < A.rows then .ok (-EWORK, m)
  else do
    let lb := invBlock elb A.rows ws
    let m ← (if lb = 0 ∨ A.rows ≤ lb then unblkLq safmin nonneg ab env fuel m A tau w
      else blkLq safmin nonneg ab env fuel m A tau ⟨w, lb, lb, lb⟩ (w + lb * lb) lb cbuf)
    pure (0, m)

end Armas
