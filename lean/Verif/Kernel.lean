import Verif.Blas2

/-!
# Model of the matrix-matrix multiplication kernels

`src/include/nosimd/mult.h` (the portable kernels; the SIMD versions are not modelled),
`src/include/kernel.h`, `src/blas/kernel.c` and `src/blas/gemm.c`.
Loop bounds such as `nR-3` are truncated at zero: in C they are negative `int`s and the loop is not
entered either.
-/

namespace Armas

variable {α : Type}

/-- `y + a[.]*b[.]`. -/
def mac [Mul α] [Add α] (m : Mem α) (a b : Nat) (y : α) : Res α := do
  let u ← rd m a
  let v ← rd m b
  pure (y + u * v)

/-- `c[.] += v`. -/
def addTo [Add α] (m : Mem α) (c : Nat) (v : α) : Res (Mem α) := do
  let u ← rd m c
  wr m c (u + v)

section kernels
variable [Mul α] [Add α] [Zero α]

/-- `__mult1c1` (`src/include/nosimd/mult.h:12-41`). -/
def mult1c1 (m : Mem α) (c a b : Nat) (alpha : α) (nR : Nat) : Res (Mem α) := do
  let (k, y) ← forUp 0 (nR - 3) 4 (fun k (y : α × α × α × α) => do
    let y0 ← mac m (a + k) (b + k) y.1
    let y1 ← mac m (a + (k + 1)) (b + (k + 1)) y.2.1
    let y2 ← mac m (a + (k + 2)) (b + (k + 2)) y.2.2.1
    let y3 ← mac m (a + (k + 3)) (b + (k + 3)) y.2.2.2
    pure (y0, y1, y2, y3)) (0, 0, 0, 0)
  let y ← (match nR - k with
    | 3 => do
      let y0 ← mac m (a + k) (b + k) y.1
      let y1 ← mac m (a + (k + 1)) (b + (k + 1)) y.2.1
      let y2 ← mac m (a + (k + 2)) (b + (k + 2)) y.2.2.1
      pure (y0, y1, y2, y.2.2.2)
    | 2 => do
      let y1 ← mac m (a + k) (b + k) y.2.1
      let y2 ← mac m (a + (k + 1)) (b + (k + 1)) y.2.2.1
      pure (y.1, y1, y2, y.2.2.2)
    | 1 => do
      let y2 ← mac m (a + k) (b + k) y.2.2.1
      pure (y.1, y.2.1, y2, y.2.2.2)
    | _ => pure y)
  addTo m c ((y.1 + y.2.1 + (y.2.2.1 + y.2.2.2)) * alpha)

/-- `__mult1c2` (`src/include/nosimd/mult.h:45-85`); the eight sums are kept as two groups of four. -/
def mult1c2 (m : Mem α) (c0 c1 a b0 b1 : Nat) (alpha : α) (nR : Nat) : Res (Mem α) := do
  let (k, y) ← forUp 0 (nR - 3) 4 (fun k (y : (α × α × α × α) × (α × α × α × α)) => do
    let y0 ← mac m (a + k) (b0 + k) y.1.1
    let y1 ← mac m (a + k) (b1 + k) y.2.1
    let y2 ← mac m (a + (k + 1)) (b0 + (k + 1)) y.1.2.1
    let y3 ← mac m (a + (k + 1)) (b1 + (k + 1)) y.2.2.1
    let y4 ← mac m (a + (k + 2)) (b0 + (k + 2)) y.1.2.2.1
    let y5 ← mac m (a + (k + 2)) (b1 + (k + 2)) y.2.2.2.1
    let y6 ← mac m (a + (k + 3)) (b0 + (k + 3)) y.1.2.2.2
    let y7 ← mac m (a + (k + 3)) (b1 + (k + 3)) y.2.2.2.2
    pure ((y0, y2, y4, y6), (y1, y3, y5, y7))) ((0, 0, 0, 0), (0, 0, 0, 0))
  let y ← (match nR - k with
    | 3 => do
      let y0 ← mac m (a + k) (b0 + k) y.1.1
      let y1 ← mac m (a + k) (b1 + k) y.2.1
      let y2 ← mac m (a + (k + 1)) (b0 + (k + 1)) y.1.2.1
      let y3 ← mac m (a + (k + 1)) (b1 + (k + 1)) y.2.2.1
      let y4 ← mac m (a + (k + 2)) (b0 + (k + 2)) y.1.2.2.1
      let y5 ← mac m (a + (k + 2)) (b1 + (k + 2)) y.2.2.2.1
      pure ((y0, y2, y4, y.1.2.2.2), (y1, y3, y5, y.2.2.2.2))
    | 2 => do
      let y2 ← mac m (a + k) (b0 + k) y.1.2.1
      let y3 ← mac m (a + k) (b1 + k) y.2.2.1
      let y4 ← mac m (a + (k + 1)) (b0 + (k + 1)) y.1.2.2.1
      let y5 ← mac m (a + (k + 1)) (b1 + (k + 1)) y.2.2.2.1
      pure ((y.1.1, y2, y4, y.1.2.2.2), (y.2.1, y3, y5, y.2.2.2.2))
    | 1 => do
      let y4 ← mac m (a + k) (b0 + k) y.1.2.2.1
      let y5 ← mac m (a + k) (b1 + k) y.2.2.2.1
      pure ((y.1.1, y.1.2.1, y4, y.1.2.2.2), (y.2.1, y.2.2.1, y5, y.2.2.2.2))
    | _ => pure y)
  let m ← addTo m c0 ((y.1.1 + (y.1.2.1 + y.1.2.2.1 + y.1.2.2.2)) * alpha)
  addTo m c1 ((y.2.1 + (y.2.2.1 + y.2.2.2.1 + y.2.2.2.2)) * alpha)

/-- `__mult2c2` (`src/include/nosimd/mult.h:88-130`); sums grouped as (c0[0], c1[0], c0[1], c1[1]). -/
def mult2c2 (m : Mem α) (c0 c1 a0 a1 b0 b1 : Nat) (alpha : α) (nR : Nat) : Res (Mem α) := do
  let (k, y) ← forUp 0 (nR - 1) 2 (fun k (y : (α × α) × (α × α) × (α × α) × (α × α)) => do
    let y0 ← mac m (a0 + k) (b0 + k) y.1.1
    let y1 ← mac m (a0 + k) (b1 + k) y.2.1.1
    let y2 ← mac m (a0 + (k + 1)) (b0 + (k + 1)) y.1.2
    let y3 ← mac m (a0 + (k + 1)) (b1 + (k + 1)) y.2.1.2
    let y4 ← mac m (a1 + k) (b0 + k) y.2.2.1.1
    let y5 ← mac m (a1 + k) (b1 + k) y.2.2.2.1
    let y6 ← mac m (a1 + (k + 1)) (b0 + (k + 1)) y.2.2.1.2
    let y7 ← mac m (a1 + (k + 1)) (b1 + (k + 1)) y.2.2.2.2
    pure ((y0, y2), (y1, y3), (y4, y6), (y5, y7))) ((0, 0), (0, 0), (0, 0), (0, 0))
  let y ← (if k = nR then pure y
    else do
      let y0 ← mac m (a0 + k) (b0 + k) y.1.1
      let y1 ← mac m (a0 + k) (b1 + k) y.2.1.1
      let y4 ← mac m (a1 + k) (b0 + k) y.2.2.1.1
      let y5 ← mac m (a1 + k) (b1 + k) y.2.2.2.1
      pure ((y0, y.1.2), (y1, y.2.1.2), (y4, y.2.2.1.2), (y5, y.2.2.2.2)))
  let m ← addTo m c0 ((y.1.1 + y.1.2) * alpha)
  let m ← addTo m c1 ((y.2.1.1 + y.2.1.2) * alpha)
  let m ← addTo m (c0 + 1) ((y.2.2.1.1 + y.2.2.1.2) * alpha)
  addTo m (c1 + 1) ((y.2.2.2.1 + y.2.2.2.2) * alpha)

/-- `__mult1c4` (`src/include/nosimd/mult.h:135-155`). -/
def mult1c4 (m : Mem α) (c0 c1 c2 c3 a b0 b1 b2 b3 : Nat) (alpha : α) (nR : Nat) : Res (Mem α) := do
  let (_, y) ← forUp 0 nR 1 (fun k (y : α × α × α × α) => do
    let y0 ← mac m (a + k) (b0 + k) y.1
    let y1 ← mac m (a + k) (b1 + k) y.2.1
    let y2 ← mac m (a + k) (b2 + k) y.2.2.1
    let y3 ← mac m (a + k) (b3 + k) y.2.2.2
    pure (y0, y1, y2, y3)) (0, 0, 0, 0)
  let m ← addTo m c0 (y.1 * alpha)
  let m ← addTo m c1 (y.2.1 * alpha)
  let m ← addTo m c2 (y.2.2.1 * alpha)
  addTo m c3 (y.2.2.2 * alpha)

/-- `__mult2c4` (`src/include/nosimd/mult.h:158-191`). -/
def mult2c4 (m : Mem α) (c0 c1 c2 c3 a0 a1 b0 b1 b2 b3 : Nat) (alpha : α) (nR : Nat) :
    Res (Mem α) := do
  let (_, y) ← forUp 0 nR 1 (fun k (y : (α × α × α × α) × (α × α × α × α)) => do
    let y0 ← mac m (a0 + k) (b0 + k) y.1.1
    let y1 ← mac m (a0 + k) (b1 + k) y.1.2.1
    let y2 ← mac m (a0 + k) (b2 + k) y.1.2.2.1
    let y3 ← mac m (a0 + k) (b3 + k) y.1.2.2.2
    let y4 ← mac m (a1 + k) (b0 + k) y.2.1
    let y5 ← mac m (a1 + k) (b1 + k) y.2.2.1
    let y6 ← mac m (a1 + k) (b2 + k) y.2.2.2.1
    let y7 ← mac m (a1 + k) (b3 + k) y.2.2.2.2
    pure ((y0, y1, y2, y3), (y4, y5, y6, y7))) ((0, 0, 0, 0), (0, 0, 0, 0))
  let m ← addTo m c0 (y.1.1 * alpha)
  let m ← addTo m c1 (y.1.2.1 * alpha)
  let m ← addTo m c2 (y.1.2.2.1 * alpha)
  let m ← addTo m c3 (y.1.2.2.2 * alpha)
  let m ← addTo m (c0 + 1) (y.2.1 * alpha)
  let m ← addTo m (c1 + 1) (y.2.2.1 * alpha)
  let m ← addTo m (c2 + 1) (y.2.2.2.1 * alpha)
  addTo m (c3 + 1) (y.2.2.2.2 * alpha)

/-- `__CMULT4` (`src/include/kernel.h:118-146`). -/
def cmult4 (m : Mem α) (C A B : View) (alpha : α) (col nI nP : Nat) : Res (Mem α) := do
  let (i, m) ← forUp 0 (nI - 1) 2 (fun i m =>
    mult2c4 m (C.at' i col) (C.at' i (col + 1)) (C.at' i (col + 2)) (C.at' i (col + 3))
      (A.at' 0 i) (A.at' 0 (i + 1)) (B.at' 0 col) (B.at' 0 (col + 1)) (B.at' 0 (col + 2))
      (B.at' 0 (col + 3)) alpha nP) m
  if i = nI then pure m
  else
    mult1c4 m (C.at' i col) (C.at' i (col + 1)) (C.at' i (col + 2)) (C.at' i (col + 3))
      (A.at' 0 i) (B.at' 0 col) (B.at' 0 (col + 1)) (B.at' 0 (col + 2)) (B.at' 0 (col + 3)) alpha nP

/-- `__CMULT2` (`src/include/kernel.h:150-170`). -/
def cmult2 (m : Mem α) (C A B : View) (alpha : α) (col nI nP : Nat) : Res (Mem α) := do
  let (i, m) ← forUp 0 (nI - 1) 2 (fun i m =>
    mult2c2 m (C.at' i col) (C.at' i (col + 1))
      (A.at' 0 i) (A.at' 0 (i + 1)) (B.at' 0 col) (B.at' 0 (col + 1)) alpha nP) m
  if i = nI then pure m
  else
    mult1c2 m (C.at' i col) (C.at' i (col + 1)) (A.at' 0 i) (B.at' 0 col) (B.at' 0 (col + 1)) alpha nP

/-- `__CMULT1` (`src/include/kernel.h:173-185`). -/
def cmult1 (m : Mem α) (C A B : View) (alpha : α) (col nI nP : Nat) : Res (Mem α) := do
  let (_, m) ← forUp 0 nI 1 (fun i m =>
    mult1c1 m (C.at' i col) (A.at' 0 i) (B.at' 0 col) alpha nP) m
  pure m

/-- `armas_mult_kernel_inner` (`src/blas/kernel.c:37-66`): `C += alpha*A^T*B` for packed blocks. -/
def kernelInner (m : Mem α) (C : View) (alpha : α) (A B : View) (rb : Nat) : Res (Mem α) := do
  let (_, m) ← forUp 0 C.rows rb (fun kp m => do
    let nK := min rb (C.rows - kp)
    let Ca := C.sub kp 0 nK C.cols
    let Ac := A.sub 0 kp A.rows nK
    let (j, m) ← forUp 0 (C.cols - 3) 4 (fun j m => cmult4 m Ca Ac B alpha j nK A.rows) m
    if j = C.cols then pure m
    else do
      let (j, m) ← (if j < C.cols - 1 then do
          let m ← cmult2 m Ca Ac B alpha j nK A.rows
          pure (j + 2, m)
        else pure (j, m))
      if j < C.cols then cmult1 m Ca Ac B alpha j nK A.rows else pure m) m
  pure m

end kernels

/-- `cache_t` (`src/include/internal.h:39-52`) without the fields used for extended precision. -/
structure Cache where
  Acpy : Nat
  Bcpy : Nat
  step : Nat
  KB : Nat
  NB : Nat
  MB : Nat
  rb : Nat

/-- The copy buffers as matrices. -/
def Cache.A (c : Cache) (nr nc : Nat) : View := ⟨c.Acpy, c.step, nr, nc⟩
/-- The copy buffers as matrices. -/
def Cache.B (c : Cache) (nr nc : Nat) : View := ⟨c.Bcpy, c.step, nr, nc⟩

/-- `copy_plain_abs` (`src/include/matcpy.h:23-40`). -/
def copyPlainAbs (ab : α → α) (m : Mem α) (D S : View) (nR nC : Nat) : Res (Mem α) := do
  let elem (i j : Nat) (m : Mem α) : Res (Mem α) := do
    let v ← rd m (S.at' i j)
    wr m (D.at' i j) (ab v)
  let (j, m) ← forUp 0 (nC - 3) 4 (fun j m => do
    let (_, m) ← forUp 0 nR 1 (fun i m => do
      let m ← elem i j m
      let m ← elem i (j + 1) m
      let m ← elem i (j + 2) m
      elem i (j + 3) m) m
    pure m) m
  let (_, m) ← forUp j nC 1 (fun j m => do
    let (_, m) ← forUp 0 nR 1 (fun i m => elem i j m) m
    pure m) m
  pure m

/-- `copy_trans4x1_abs` (`src/include/matcpy.h:108-125`), `copy_trans1x4_abs` (`:81-105`) for the
remaining columns. -/
def copyTransAbs (ab : α → α) (m : Mem α) (D S : View) (nR nC : Nat) : Res (Mem α) := do
  let elem (i j : Nat) (m : Mem α) : Res (Mem α) := do
    let v ← rd m (S.at' i j)
    wr m (D.at' j i) (ab v)
  let (j, m) ← forUp 0 (nC - 3) 4 (fun j m => do
    let (_, m) ← forUp 0 nR 1 (fun i m => do
      let m ← elem i j m
      let m ← elem i (j + 1) m
      let m ← elem i (j + 2) m
      elem i (j + 3) m) m
    pure m) m
  let (_, m) ← forUp j nC 1 (fun j m => do
    let (i, m) ← forUp 0 (nR - 3) 4 (fun i m => do
      let m ← elem i j m
      let m ← elem (i + 1) j m
      let m ← elem (i + 2) j m
      elem (i + 3) j m) m
    switchTail (nR - i) i (fun i m => elem i j m) m) m
  pure m

/-- `CPBLK` (`src/include/matcpy.h:378-386`). -/
def cpBlk (ab : α → α) (m : Mem α) (D S : View) (nR nC : Nat) (fl : Flags) : Res (Mem α) :=
  if fl.absA ∨ fl.absB then copyPlainAbs ab m D S nR nC else copyPlain m D S nR nC

/-- `CPBLK_TRANS` (`src/include/matcpy.h:367-376`). -/
def cpBlkTrans (ab : α → α) (m : Mem α) (D S : View) (nR nC : Nat) (fl : Flags) : Res (Mem α) :=
  if fl.absA ∨ fl.absB then copyTransAbs ab m D S nR nC else copyTrans4x1 m D S nR nC

section gemm
variable [Mul α] [Add α] [Zero α] [One α] [DecidableEq α]

/-- Innermost loop over the row blocks of `C` (`src/blas/kernel.c:110-123,165-178`). -/
def kernelRows (ab : α → α) (m : Mem α) (C : View) (alpha : α) (A : View) (fl : Flags) (c : Cache)
    (Bcpy : View) (jp nJ kp nP : Nat) : Res (Mem α) := do
  let (_, m) ← forUp 0 C.rows c.MB (fun ip m => do
    let nI := min c.MB (C.rows - ip)
    let Acpy := c.A nP nI
    let m ← (if fl.transA then cpBlk ab m Acpy (A.sub kp ip nP nI) nP nI fl
      else cpBlkTrans ab m Acpy (A.sub ip kp nI nP) nI nP fl)
    kernelInner m (C.sub ip jp nI nJ) alpha Acpy Bcpy c.rb) m
  pure m

/-- Loop over the inner dimension (`src/blas/kernel.c:98-124,153-179`). -/
def kernelPanel (ab : α → α) (m : Mem α) (C : View) (alpha : α) (A B : View) (fl : Flags) (c : Cache)
    (P jp nJ : Nat) : Res (Mem α) := do
  let (_, m) ← forUp 0 P c.KB (fun kp m => do
    let nP := min c.KB (P - kp)
    let Bcpy := c.B nP nJ
    let m ← (if fl.transB then cpBlkTrans ab m Bcpy (B.sub jp kp nJ nP) nJ nP fl
      else cpBlk ab m Bcpy (B.sub kp jp nP nJ) nP nJ fl)
    kernelRows ab m C alpha A fl c Bcpy jp nJ kp nP) m
  pure m

/-- `armas_mult_kernel` (`src/blas/kernel.c:69-127`).  `ARMAS_CTRANSA/B` are the same as
`ARMAS_TRANSA/B` for real types and not modelled separately. -/
def multKernel (ab : α → α) (m : Mem α) (beta : α) (C : View) (alpha : α) (A B : View) (fl : Flags)
    (c : Cache) : Res (Mem α) :=
  if alpha = 0 then (if beta ≠ 1 then scaleUnsafe m C beta else pure m)
  else do
    let P := if fl.transA then A.rows else A.cols
    let (_, m) ← forUp 0 C.cols c.NB (fun jp m => do
      let nJ := min c.NB (C.cols - jp)
      let m ← blkScale m (C.sub 0 jp C.rows nJ) beta C.rows nJ
      kernelPanel ab m C alpha A B fl c P jp nJ) m
    pure m

/-- `armas_mult_kernel_nc` (`src/blas/kernel.c:129-183`).  The correction of `rb` is stored in the
cache structure in C; here it is local to the call. -/
def multKernelNc (ab : α → α) (m : Mem α) (C : View) (alpha : α) (A B : View) (fl : Flags)
    (c : Cache) : Res (Mem α) :=
  if alpha = 0 then pure m
  else do
    let c := { c with rb := if c.rb = 0 ∨ c.rb > c.MB then c.MB / 2 else c.rb }
    let P := if fl.transA then A.rows else A.cols
    let (_, m) ← forUp 0 C.cols c.NB (fun jp m =>
      kernelPanel ab m C alpha A B fl c P jp (min c.NB (C.cols - jp))) m
    pure m

/-- `ARMAS_EMEMORY` (`src/include/armas.h:131-145`). -/
def EMEMORY : Int := 8

/-- The operand size check of `armas_mult`, gemm.c 77-98: one test per combination of the two
transpose flags. -/
def multSizes (C A B : View) (fl : Flags) : Bool :=
  match fl.transA, fl.transB with
  | true, true => decide (C.rows = A.cols ∧ C.cols = B.rows ∧ A.rows = B.cols)
  | true, false => decide (C.rows = A.cols ∧ C.cols = B.cols ∧ A.rows = B.rows)
  | false, true => decide (C.rows = A.rows ∧ C.cols = B.rows ∧ A.cols = B.cols)
  | false, false => decide (C.rows = A.rows ∧ C.cols = B.cols ∧ A.cols = B.rows)

/-- `armas_mult` (`src/blas/gemm.c:57-124`) without accelerators.  `cbuf` is the outcome of
`armas_cbuf_select` and `armas_cache_setup2`: no memory, or the cache structure (modelled in
`Verif/Cache.lean`).  The `require` on the leading dimensions is a precondition of the theorems. -/
def mult (ab : α → α) (m : Mem α) (beta : α) (C : View) (alpha : α) (A B : View) (fl : Flags)
    (cbuf : Option Cache) : Res (Int × Mem α) :=
  if A.size = 0 ∨ B.size = 0 ∨ C.size = 0 then .ok (0, m)
  else if ¬ multSizes C A B fl then .ok (-ESIZE, m)
  else match cbuf with
    | none => .ok (-EMEMORY, m)
    | some c => do
      let m ← multKernel ab m beta C alpha A B fl c
      pure (0, m)

end gemm

end Armas
