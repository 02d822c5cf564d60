import Verif.Blas1
import Verif.CholUpd
import Verif.Blocks
import Verif.Views

/-!
# Model of the BLAS compatibility layer, level 1 (`src/compat/{axpy,copy,dot,swap,rot,scal,asum,nrm2,iamax}.c`)

The functions are compiled under the Fortran names of `src/include/float64/names_compat.h:14-23` (`daxpy_`, `dcopy_`, ...); the arguments passed by
address are values here.  Counts `n` are not negative.  An array argument is the address of its first element.  Increments are signed.  A read or write
before the first element of an array is undefined behaviour.
-/

namespace Armas

/-- The vector made for `n` elements with a positive increment (`src/compat/axpy.c:38-47` and the same lines in the other files):
`inc == 1 ? armas_make(&x, n, 1, n, X) : armas_make(&x, 1, n, inc, X)`. -/
def cvec (n inc base : Nat) : View := if inc = 1 then ⟨base, n, n, 1⟩ else ⟨base, inc, 1, n⟩

/-- The loop over elements in both directions (`src/compat/axpy.c:53-61`, `src/compat/copy.c:54-60`, `src/compat/dot.c:54-62`,
`src/compat/swap.c:53-61`, `src/compat/rot.c:51-61`); `body` gets the two indexes, which `armas_get_at_unsafe` multiplies by the step.  A negative
index is undefined behaviour. -/
def twoWay {σ : Type} (n : Nat) (incx incy : Int) (body : Nat → Nat → σ → Res σ) (st : σ) : Res σ := do
  let ix : Int := if incx < 0 then (n : Int) - 1 else 0
  let iy : Int := if incy < 0 then (n : Int) - 1 else 0
  let nx : Int := if ix = 0 then 1 else -1
  let ny : Int := if iy = 0 then 1 else -1
  let (_, (_, _, st)) ← forUp 0 n 1 (fun _ (s : Int × Int × σ) => do
    let (ix, iy, st) := s
    if ix < 0 ∨ iy < 0 then .ub
    else do
      let st ← body ix.toNat iy.toNat st
      pure (ix + nx, iy + ny, st)) (ix, iy, st)
  pure st

/-- `incx * incy` in `int`: undefined behaviour on overflow. -/
def mulInc (incx incy : Int) : Res Int :=
  if incx * incy < -(INT_MAX : Int) - 1 ∨ (INT_MAX : Int) < incx * incy then .ub else .ok (incx * incy)

variable {α : Type} [CommRing α]

/-- `compat_axpy` (`src/compat/axpy.c:26-62`) = `daxpy_`. -/
def compatAxpy (m : Mem α) (n : Nat) (alpha : α) (X : Nat) (incx : Int) (Y : Nat) (incy : Int) : Res (Mem α) := do
  let x := cvec n incx.natAbs X
  let y := cvec n incy.natAbs Y
  let p ← mulInc incx incy
  if p > 0 then do
    let (_, m) ← axpy m y alpha x
    pure m
  else twoWay n incx incy (fun ix iy m => do
    let xv ← getAtUnsafe m x ix
    let yv ← getAtUnsafe m y iy
    setAtUnsafe m y iy (yv + alpha * xv)) m

omit [CommRing α] in
/-- `copy_compat` (`src/compat/copy.c:26-61`) = `dcopy_`. -/
def compatCopy (m : Mem α) (n X : Nat) (incx : Int) (Y : Nat) (incy : Int) : Res (Mem α) := do
  let x := cvec n incx.natAbs X
  let y := cvec n incy.natAbs Y
  if (incx > 0 ∧ incy > 0) ∨ (incx < 0 ∧ incy < 0) then do
    let (_, m) ← copyVec m y x
    pure m
  else twoWay n incx incy (fun ix iy m => do
    let xv ← getAtUnsafe m x ix
    setAtUnsafe m y iy xv) m

/-- `dot_compat` (`src/compat/dot.c:26-64`) = `ddot_`; `env` is used by `armas_dot`. -/
def compatDot (env : Env) (fuel : Nat) (m : Mem α) (n X : Nat) (incx : Int) (Y : Nat) (incy : Int) : Res α := do
  let x := cvec n incx.natAbs X
  let y := cvec n incy.natAbs Y
  let p ← mulInc incx incy
  if p > 0 then dot fuel m env.blas1min env.naive y x
  else twoWay n incx incy (fun ix iy dval => do
    let xv ← getAtUnsafe m x ix
    let yv ← getAtUnsafe m y iy
    pure (dval + xv * yv)) 0

omit [CommRing α] in
/-- `swap_compat` (`src/compat/swap.c:26-62`) = `dswap_`. -/
def compatSwap (m : Mem α) (n X : Nat) (incx : Int) (Y : Nat) (incy : Int) : Res (Mem α) := do
  let x := cvec n incx.natAbs X
  let y := cvec n incy.natAbs Y
  let p ← mulInc incx incy
  if p > 0 then do
    let (_, m) ← swap m y x
    pure m
  else twoWay n incx incy (fun ix iy m => do
    let yv ← getAtUnsafe m y iy
    let xv ← getAtUnsafe m x ix
    let m ← setAtUnsafe m y iy xv
    setAtUnsafe m x ix yv) m

/-- `rot_compat` (`src/compat/rot.c:29-62`) = `drot_`. -/
def compatRot (m : Mem α) (n X : Nat) (incx : Int) (Y : Nat) (incy : Int) (c s : α) : Res (Mem α) := do
  let x := cvec n incx.natAbs X
  let y := cvec n incy.natAbs Y
  twoWay n incx incy (fun ix iy m => do
    let xv ← getAtUnsafe m x ix
    let yv ← getAtUnsafe m y iy
    let (x0, y0) := gvrotate c s xv yv
    let m ← setAtUnsafe m x ix x0
    setAtUnsafe m y iy y0) m

/-- `blas_rotgf` (`src/compat/rot.c:73-77`) = `drotg_`: the four arguments are addresses; the third result of `armas_gvcompute` goes to a local
variable. -/
noncomputable def compatRotg (m : Mem ℝ) (sa sb c s : Nat) : Res (Mem ℝ) := do
  let a ← rd m sa
  let b ← rd m sb
  let (cv, sv, _) := gvrotg a b
  let m ← wr m c cv
  wr m s sv

/-- The vector for a signed increment where the code does not take the absolute value (`src/compat/scal.c:32-36` and others): a negative step has no
counterpart in a `View`; element `1` would be before the start of the array. -/
def cvecS (n : Nat) (inc : Int) (base : Nat) : Res View := if inc < 0 ∧ 1 < n then .ub else .ok (cvec n inc.natAbs base)

/-- `blas_scalf` (`src/compat/scal.c:27-39`) = `dscal_`, with the arguments in the order of the code. -/
def compatScal [DecidableEq α] (m : Mem α) (n X : Nat) (incx : Int) (alpha : α) : Res (Mem α) := do
  let x ← cvecS n incx X
  let (_, m) ← scale m x alpha
  pure m

/-- `blas_asumf` (`src/compat/asum.c:27-38`) = `dasum_`. -/
def compatAsum {α : Type} [Field α] [LinearOrder α] (env : Env) (opt : SumOpt) (fuel : Nat) (m : Mem α) (n X : Nat) (incx : Int) : Res α := do
  let x ← cvecS n incx X
  asum fuel m env.blas1min opt x

/-- `blas_nrm2f` (`src/compat/nrm2.c:27-38`) = `dnrm2_`. -/
noncomputable def compatNrm2 (m : Mem ℝ) (n X : Nat) (incx : Int) : Res ℝ := do
  let x ← cvecS n incx X
  nrm2 Real.sqrt m x

/-- `blas_iamaxf` (`src/compat/iamax.c:27-38`) = `idamax_`. -/
def compatIamax {α : Type} [Field α] [LinearOrder α] (m : Mem α) (n X : Nat) (incx : Int) : Res Int := do
  let x ← cvecS n incx X
  iamax m x

end Armas
