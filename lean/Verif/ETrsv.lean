import Verif.EBlas
import Verif.Blas2

/-!
# Model of the extended-precision triangular solve (`src/eblas/trsv_ext.c`)

Rounding and error-free transformations as in `Verif/EBlas.lean`; `td` is the `approx_twodiv` of the
build.  Division is rounded once.
-/

namespace Armas

section
variable (rn : ℚ → ℚ) (tp td : ℚ → ℚ → ℚ × ℚ)

/-- The division by a diagonal element (`src/eblas/trsv_ext.c:53-57,76-78,111-115,134-136,168-172,193-195,227-231,250-252`):
`approx_twodiv(&p0,&r0,s0,ak); fastsum(&s0,&u0,p0,u0/ak + r0)`. -/
def etrsvDiv (s u ak : ℚ) : ℚ × ℚ :=
  let (p0, r0) := td s ak
  fastsum rn p0 (rn (rn (u / ak) + r0))

/-- Common end of the loop bodies (`src/eblas/trsv_ext.c:70-80,128-138,186-197,244-254`): the division unless
the diagonal is unit, then the two stores. -/
def etrsvStore (X dX A : View) (unit : Bool) (k : Nat) (su : ℚ × ℚ) (m : Mem ℚ) : Res (Mem ℚ) := do
  let su ← (if unit then pure su else do
    let ak ← rd m (A.at' k k)
    pure (etrsvDiv rn td su.1 su.2 ak))
  let m ← wr m (X.vat k) su.1
  wr m (dX.vat k) su.2

/-- The statements before the loops (`src/eblas/trsv_ext.c:50-59,108-117,165-174,224-233`): unknown `k`
(the first or the last), whose correction is read from `dX`. -/
def etrsvFirst (X dX : View) (alpha : ℚ) (A : View) (unit : Bool) (k : Nat) (m : Mem ℚ) :
    Res (Mem ℚ) := do
  let s0 ← rd m (X.vat k)
  let (s0, u0) := tp s0 alpha
  let d0 ← rd m (dX.vat k)
  let u0 := rn (u0 + rn (alpha * d0))
  etrsvStore rn td X dX A unit k (s0, u0) m

/-- Loop body of `trsv_ext_unb_ll`, `_llt`, `_lut` (`src/eblas/trsv_ext.c:61-81,119-139,235-255`); `x0`,
`dx0`, `a0` are the parts the three sub-view statements select. -/
def etrsvStep (X dX : View) (alpha : ℚ) (A : View) (unit : Bool) (x0 dx0 a0 : View) (i : Nat)
    (m : Mem ℚ) : Res (Mem ℚ) := do
  let xk ← rd m (X.vat i)
  let (s0, u0) := tp xk alpha
  let su ← extAdotDxUnsafe rn tp m s0 u0 (-1) x0 dx0 a0
  etrsvStore rn td X dX A unit i su m

/-- Loop body of `trsv_ext_unb_lu` (`src/eblas/trsv_ext.c:176-198`): with unit diagonal the sum is
normalised once more, but the correction stored is the old one. -/
def etrsvStepLu (X dX : View) (alpha : ℚ) (A : View) (unit : Bool) (x0 dx0 a0 : View) (i : Nat)
    (m : Mem ℚ) : Res (Mem ℚ) := do
  let xk ← rd m (X.vat i)
  let (s0, u0) := tp xk alpha
  let su ← extAdotDxUnsafe rn tp m s0 u0 (-1) x0 dx0 a0
  etrsvStore rn td X dX A unit i (if unit then ((fastsum rn su.1 su.2).1, su.2) else su) m

/-- `trsv_ext_unb_ll` (`src/eblas/trsv_ext.c:38-82`). -/
def etrsvLl (m : Mem ℚ) (X dX A : View) (alpha : ℚ) (unit : Bool) : Res (Mem ℚ) := do
  let m ← etrsvFirst rn tp td X dX alpha A unit 0 m
  let (_, m) ← forUp 1 A.cols 1 (fun i m =>
    etrsvStep rn tp td X dX alpha A unit (X.subvec 0 i) (dX.subvec 0 i) (A.sub i 0 1 i) i m) m
  pure m

/-- `trsv_ext_unb_llt` (`src/eblas/trsv_ext.c:96-140`).  The sub-matrix has `i` columns where one is
meant (line 122); only its first column is read.  Index `A->cols-1` of an empty matrix is out of range. -/
def etrsvLlt (m : Mem ℚ) (X dX A : View) (alpha : ℚ) (unit : Bool) : Res (Mem ℚ) :=
  if A.cols = 0 then .ub
  else do
    let m ← etrsvFirst rn tp td X dX alpha A unit (A.cols - 1) m
    forDown (A.cols - 1) (fun i m =>
      etrsvStep rn tp td X dX alpha A unit (X.subvec (i + 1) (A.cols - 1 - i))
        (dX.subvec (i + 1) (A.cols - 1 - i)) (A.sub (i + 1) i (A.cols - 1 - i) i) i m) m

/-- `trsv_ext_unb_lu` (`src/eblas/trsv_ext.c:153-199`). -/
def etrsvLu (m : Mem ℚ) (X dX A : View) (alpha : ℚ) (unit : Bool) : Res (Mem ℚ) :=
  if A.cols = 0 then .ub
  else do
    let m ← etrsvFirst rn tp td X dX alpha A unit (A.cols - 1) m
    forDown (A.cols - 1) (fun i m =>
      etrsvStepLu rn tp td X dX alpha A unit (X.subvec (i + 1) (A.cols - 1 - i))
        (dX.subvec (i + 1) (A.cols - 1 - i)) (A.sub i (i + 1) 1 (A.cols - 1 - i)) i m) m

/-- `trsv_ext_unb_lut` (`src/eblas/trsv_ext.c:212-256`). -/
def etrsvLut (m : Mem ℚ) (X dX A : View) (alpha : ℚ) (unit : Bool) : Res (Mem ℚ) := do
  let m ← etrsvFirst rn tp td X dX alpha A unit 0 m
  let (_, m) ← forUp 1 A.cols 1 (fun i m =>
    etrsvStep rn tp td X dX alpha A unit (X.subvec 0 i) (dX.subvec 0 i) (A.sub 0 i i 1) i m) m
  pure m

/-- `armas_ext_mvsolve_trm_unsafe` (`src/eblas/trsv_ext.c:258-283`): the `switch` on the bits
`TRANS`, `UPPER`, `LOWER`; every other combination takes the default. -/
def extMvsolveTrmUnsafe (m : Mem ℚ) (X dX : View) (alpha : ℚ) (A : View) (fl : Flags) :
    Res (Mem ℚ) :=
  match fl.transA, fl.upper, fl.lower with
  | true, true, false => etrsvLut rn tp td m X dX A alpha fl.unit
  | true, false, true => etrsvLlt rn tp td m X dX A alpha fl.unit
  | false, true, false => etrsvLu rn tp td m X dX A alpha fl.unit
  | _, _, _ => etrsvLl rn tp td m X dX A alpha fl.unit

/-- `armas_ext_mvsolve_trm_w` (`src/eblas/trsv_ext.c:307-339`).  The workspace `wb` is `none` for a null
pointer, else the address and the number of elements of its free part (`none` in the second place:
`wb->bytes == 0`, the size query).  Result: error code, wanted number of elements (of a query),
memory.  `cf->error` is not modelled. -/
def extMvsolveTrmW (m : Mem ℚ) (X : View) (alpha : ℚ) (A : View) (fl : Flags)
    (wb : Option (Nat × Option Nat)) : Res (Int × Nat × Mem ℚ) :=
  let N := X.size
  if ¬ X.isVec then pure (-2, 0, m)
  else if A.cols ≠ N ∨ A.cols ≠ A.rows then pure (-1, 0, m)
  else match wb with
    | none => if N = 0 then .ub else pure (-8, 0, m)
    | some (_, none) => pure (0, N, m)
    | some (w, some n) =>
      if n < N then pure (-8, 0, m)
      else do
        let m ← extMvsolveTrmUnsafe rn tp td m X ⟨w, A.cols, A.cols, 1⟩ alpha A fl
        pure (0, 0, m)

/-- `armas_walloc` (`src/include/armas.h:555-562`): `calloc` at address `w`. -/
def callocAt (m : Mem ℚ) (w n : Nat) : Mem ℚ :=
  fun a => if w ≤ a ∧ a < w + n then some 0 else m a

/-- `armas_wrelease` (`src/include/armas.h:564-572`). -/
def freeAt (m : Mem ℚ) (w n : Nat) : Mem ℚ :=
  fun a => if w ≤ a ∧ a < w + n then none else m a

/-- `armas_ext_mvsolve_trm` (`src/eblas/trsv_ext.c:348-368`).  `w` is the address `calloc` returns, `none`
if it fails.  A block of no bytes (`A->cols == 0`) has `bytes == 0`: the call is then a size query. -/
def extMvsolveTrm (m : Mem ℚ) (X : View) (alpha : ℚ) (A : View) (fl : Flags) (w : Option Nat) :
    Res (Int × Mem ℚ) :=
  match w with
  | none => pure (-8, m)
  | some w => do
    let (e, _, m) ← extMvsolveTrmW rn tp td (callocAt m w A.cols) X alpha A fl
      (some (w, if A.cols = 0 then none else some A.cols))
    pure (e, freeAt m w A.cols)

end
end Armas
