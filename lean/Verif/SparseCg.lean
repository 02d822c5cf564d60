import Verif.SparseSym
import Verif.Workspace
import Verif.Blas2

/-!
# Conjugate gradient methods

Model of `src/sparse/cgrad.c`, `src/sparse/pcgrad.c`, `src/sparse/cgne.c` and `src/sparse/cgnr.c`.

* The arithmetic is exact.  A division by zero, undefined in C and a NaN or an infinity on usual machines, is the outcome `ub`.
* The matrix pointer is not null, `cf` is given; `sq` is `SQRT`, `eps` is the constant `EPS`.
* The workspace buffer begins at cell `wb`; one element takes 8 bytes, `W->offset` is a multiple of 8.  `armas_wreserve` may return the null
  pointer, which the code does not test: the vector is used, so the outcome is `ub` (at the reservation).
* The return codes of the vector operations are ignored, as in the code.
-/

namespace Armas

variable {α : Type}

/-- The members of `armas_conf_t` that direct an iteration (`src/include/armas.h:252-256`) and the constant `EPS`. -/
structure IterConf (α : Type) where
  maxiter : Int
  stop : α
  smult : α
  eps : α

/-- `cf->numiters` and `cf->residual`. -/
structure IterOut (α : Type) where
  numiters : Nat
  residual : α

/-- Division, undefined for a zero divisor. -/
def fdiv [Div α] [Zero α] [DecidableEq α] (a b : α) : Res α := if b = 0 then .ub else pure (a / b)

/-- `t = armas_wreserve(W, cnt, sizeof(DTYPE))` and use of `t`. -/
def wtake (wb : Nat) (W : WBuf) (cnt : Nat) : Res (Nat × WBuf) :=
  match wreserve W cnt 8 with
  | (some o, W) => pure (wb + o / 8, W)
  | (none, _) => .ub

/-- `armas_make(&v, n, 1, n, t)`. -/
def colView (t n : Nat) : View := ⟨t, n, n, 1⟩

/-- The buffer of `armas_walloc`: `cnt` zeros. -/
def allocCells [Zero α] (wb cnt : Nat) (m : Mem α) : Mem α := fun p => if wb ≤ p ∧ p < wb + cnt then some 0 else m p

/-- `armas_wrelease`. -/
def freeCells (wb cnt : Nat) (m : Mem α) : Mem α := fun p => if wb ≤ p ∧ p < wb + cnt then none else m p

/-- The result of a solver: return code, workspace, `cf->numiters` and `cf->residual` if they were set, memory. -/
structure CgRes (α : Type) where
  code : Int
  work : Option WBuf
  out : Option (IterOut α)
  mem : Mem α

section
variable [Mul α] [Add α] [Sub α] [Neg α] [Div α] [Zero α] [One α] [DecidableEq α] [LT α] [DecidableLT α]

/-- `maxiter = cf->maxiter > 0 ? cf->maxiter : dflt`. -/
def IterConf.limit (cf : IterConf α) (dflt : Nat) : Nat := if 0 < cf.maxiter then cf.maxiter.toNat else dflt

/-- The square of the stopping value (`src/sparse/cgrad.c:145-146`, `156-159`; `src/sparse/pcgrad.c:162-168`; `src/sparse/cgnr.c:144-145`,
`157-161`); `d` is `armas_dot(&r, &r)`. -/
def IterConf.rstop (cf : IterConf α) (d : α) : α :=
  let rstop := if 0 < cf.stop then cf.stop else 0
  let rmult := if 0 < cf.smult then cf.smult else cf.eps
  if rstop = 0 then rmult * (rmult * d) else rstop * rstop

/-- The same in `armassp_cgne_w` (`src/sparse/cgne.c:161-162`, `173-176`), where also negative values are taken. -/
def IterConf.rstopNe (cf : IterConf α) (d : α) : α :=
  let rstop := if cf.stop ≠ 0 then cf.stop else 0
  let rmult := if cf.smult ≠ 0 then cf.smult else cf.eps
  if rstop = 0 then rmult * (rmult * d) else rstop * rstop

/-! ## Conjugate gradient -/

/-- The loop of `armassp_cgrad_w` (`src/sparse/cgrad.c:170-190`) with `maxiter - niter`, `niter` and `dot_r1` as arguments; `Q` is `Ap`. -/
def cgradLoop (env : Env) (fuel : Nat) (A : Sp α) (upper lower trans : Bool) (X R P Q : View) (rstop : α) :
    Nat → Nat → α → Mem α → Res (Nat × α × Mem α)
  | 0, niter, d1, m => pure (niter, d1, m)
  | left + 1, niter, _, m => do
    let (_, m) ← spMvmultSym 0 Q 1 A P upper lower trans m
    let dr ← dot fuel m env.blas1min env.naive R R
    let dp ← dot fuel m env.blas1min env.naive Q P
    let alpha ← fdiv dr dp
    let (_, m) ← axpy m X alpha P
    let (_, m) ← axpy m R (-alpha) Q
    let d1 ← dot fuel m env.blas1min env.naive R R
    if d1 < rstop then pure (niter, d1, m)
    else do
      let beta ← fdiv d1 dr
      let (_, m) ← axpby m beta P 1 R
      cgradLoop env fuel A upper lower trans X R P Q rstop left (niter + 1) d1 m

/-- `check_parms` of `src/sparse/cgrad.c:49-65` and `src/sparse/pcgrad.c:68-84`. -/
def cgCheck (X : View) (A : Sp α) (B : View) : Prop := X.isVec ∧ B.isVec ∧ X.size = B.size ∧ A.rows = A.cols ∧ X.size = A.rows

instance (X : View) (A : Sp α) (B : View) : Decidable (cgCheck X A B) := by unfold cgCheck; infer_instance

/-- `armassp_cgrad_w` (`src/sparse/cgrad.c:109-198`). -/
def cgradW (env : Env) (fuel : Nat) (sq : α → α) (cf : IterConf α) (X : View) (A : Sp α) (B : View) (upper lower trans : Bool)
    (wb : Nat) (W : Option WBuf) (m : Mem α) : Res (CgRes α) :=
  match W with
  | none =>
    if A.rows = 0 ∨ A.cols = 0 then pure ⟨0, none, none, m⟩
    else if ¬ cgCheck X A B then pure ⟨-3, none, none, m⟩
    else pure ⟨-5, none, none, m⟩
  | some W =>
    if W.bytes = 0 then pure ⟨0, some { W with bytes := A.rows * 3 * 8 }, none, m⟩
    else if A.rows = 0 ∨ A.cols = 0 then pure ⟨0, some W, none, m⟩
    else if ¬ cgCheck X A B then pure ⟨-3, some W, none, m⟩
    else if wbytes W < A.rows * 3 * 8 then pure ⟨-5, some W, none, m⟩
    else do
      let pos := wpos W
      let maxiter := cf.limit (4 * A.rows)
      let n := A.rows
      let (t, W) ← wtake wb W n
      let R := colView t n
      let (_, m) ← mcopy m R B false
      let (_, m) ← spMvmultSym 1 R (-1) A X upper lower trans m
      let d ← dot fuel m env.blas1min env.naive R R
      let rstop := cf.rstop d
      let (t, W) ← wtake wb W n
      let P := colView t n
      let (_, m) ← mcopy m P R false
      let (t, W) ← wtake wb W n
      let Q := colView t n
      let (niter, d1, m) ← cgradLoop env fuel A upper lower trans X R P Q rstop maxiter 0 0 m
      pure ⟨if maxiter ≤ niter then -9 else 0, some (wsetpos W pos), some ⟨niter, sq d1⟩, m⟩

/-- `armassp_cgrad` (`src/sparse/cgrad.c:206-236`); the allocation succeeds and returns the cells from `wb`. -/
def cgrad (env : Env) (fuel : Nat) (sq : α → α) (cf : IterConf α) (X : View) (A : Sp α) (B : View) (upper lower trans : Bool)
    (wb : Nat) (m : Mem α) : Res (CgRes α) :=
  if ¬ cgCheck X A B then pure ⟨-3, none, none, m⟩
  else if A.rows = 0 ∨ A.cols = 0 then pure ⟨0, none, none, m⟩
  else do
    let q ← cgradW env fuel sq cf X A B upper lower trans wb (some ⟨0, 0⟩) m
    if q.code < 0 then pure ⟨q.code, none, none, q.mem⟩
    else
      let bytes := match q.work with | some W => W.bytes | none => 0
      let r ← cgradW env fuel sq cf X A B upper lower trans wb (some (walloc bytes)) (allocCells wb (bytes / 8) q.mem)
      pure ⟨r.code, none, r.out, freeCells wb (bytes / 8) r.mem⟩

/-! ## Conjugate gradient with preconditioner -/

/-- The loop of `armassp_pcgrad_w` (`src/sparse/pcgrad.c:185-207`); `prec` is the call `M->precond(&z, M, &r, cf)`. -/
def pcgradLoop (env : Env) (fuel : Nat) (prec : Mem α → View → View → Res (Int × Mem α)) (A : Sp α) (upper lower trans : Bool)
    (X R Z P Q : View) (rstop : α) : Nat → Nat → α → Mem α → Res (Nat × α × Mem α)
  | 0, niter, d1, m => pure (niter, d1, m)
  | left + 1, niter, _, m => do
    let (_, m) ← spMvmultSym 0 Q 1 A P upper lower trans m
    let dp ← dot fuel m env.blas1min env.naive Q P
    let dr ← dot fuel m env.blas1min env.naive R Z
    let alpha ← fdiv dr dp
    let (_, m) ← axpy m X alpha P
    let (_, m) ← axpy m R (-alpha) Q
    let (_, m) ← prec m Z R
    let d1 ← dot fuel m env.blas1min env.naive R Z
    if d1 < rstop then pure (niter, d1, m)
    else do
      let beta ← fdiv d1 dr
      let (_, m) ← axpby m beta P 1 Z
      pcgradLoop env fuel prec A upper lower trans X R Z P Q rstop left (niter + 1) d1 m

/-- `armassp_pcgrad_w` (`src/sparse/pcgrad.c:119-215`) with a workspace (`W` not null). -/
def pcgradW (env : Env) (fuel : Nat) (sq : α → α) (cf : IterConf α) (prec : Mem α → View → View → Res (Int × Mem α)) (X : View) (A : Sp α)
    (B : View) (upper lower trans : Bool) (wb : Nat) (W : WBuf) (m : Mem α) : Res (CgRes α) :=
  if W.bytes = 0 then pure ⟨0, some { W with bytes := A.rows * 4 * 8 }, none, m⟩
  else if ¬ cgCheck X A B then pure ⟨-1, some W, none, m⟩
  else if wbytes W < A.rows * 4 * 8 then pure ⟨-1, some W, none, m⟩
  else if A.rows = 0 ∨ A.cols = 0 then pure ⟨0, some W, none, m⟩
  else do
    let pos := wpos W
    let n := A.rows
    let (t, W) ← wtake wb W n
    let R := colView t n
    let (_, m) ← mcopy m R B false
    let (_, m) ← spMvmultSym 1 R (-1) A X upper lower trans m
    let maxiter := cf.limit (2 * n)
    let d ← dot fuel m env.blas1min env.naive R R
    let rstop := cf.rstop d
    let (t, W) ← wtake wb W n
    let Z := colView t n
    let (_, m) ← prec m Z R
    let (t, W) ← wtake wb W n
    let P := colView t n
    let (_, m) ← mcopy m P Z false
    let (t, W) ← wtake wb W n
    let Q := colView t n
    let (niter, d1, m) ← pcgradLoop env fuel prec A upper lower trans X R Z P Q rstop maxiter 0 0 m
    pure ⟨0, some (wsetpos W pos), some ⟨niter, sq d1⟩, m⟩

/-! ## Normal equations -/

/-- `check_parms` of `src/sparse/cgne.c:55-69` and `src/sparse/cgnr.c:53-67`. -/
def cgnCheck (X : View) (A : Sp α) (B : View) : Prop := X.isVec ∧ B.isVec ∧ B.size = A.rows ∧ X.size = A.cols

instance (X : View) (A : Sp α) (B : View) : Decidable (cgnCheck X A B) := by unfold cgnCheck; infer_instance

/-- The loop of `armassp_cgne_w` (`src/sparse/cgne.c:188-208`). -/
def cgneLoop (env : Env) (fuel : Nat) (A : Sp α) (X R P Q : View) (rstop : α) : Nat → Nat → α → Mem α → Res (Nat × α × Mem α)
  | 0, niter, d1, m => pure (niter, d1, m)
  | left + 1, niter, _, m => do
    let (_, m) ← spMvmult 0 Q 1 A P false false m
    let dr ← dot fuel m env.blas1min env.naive R R
    let dp ← dot fuel m env.blas1min env.naive P P
    let alpha ← fdiv dr dp
    let (_, m) ← axpy m X alpha P
    let (_, m) ← axpy m R (-alpha) Q
    let d1 ← dot fuel m env.blas1min env.naive R R
    if d1 < rstop then pure (niter, d1, m)
    else do
      let beta ← fdiv d1 dr
      let (_, m) ← spMvmult beta P 1 A R true false m
      cgneLoop env fuel A X R P Q rstop left (niter + 1) d1 m

/-- `armassp_cgne_w` (`src/sparse/cgne.c:122-216`) with a workspace (`W` not null). -/
def cgneW (env : Env) (fuel : Nat) (sq : α → α) (cf : IterConf α) (X : View) (A : Sp α) (B : View) (wb : Nat) (W : WBuf) (m : Mem α) :
    Res (CgRes α) :=
  if W.bytes = 0 then pure ⟨0, some { W with bytes := (2 * A.rows + A.cols) * 8 }, none, m⟩
  else if A.rows = 0 ∨ A.cols = 0 then pure ⟨0, some W, none, m⟩
  else if ¬ cgnCheck X A B then pure ⟨-3, some W, none, m⟩
  else if wbytes W < (2 * A.rows + A.cols) * 8 then pure ⟨-5, some W, none, m⟩
  else do
    let pos := wpos W
    let maxiter := cf.limit (2 * A.rows)
    let (t, W) ← wtake wb W A.rows
    let R := colView t A.rows
    let (_, m) ← mcopy m R B false
    let (_, m) ← spMvmult 1 R (-1) A X false false m
    let d ← dot fuel m env.blas1min env.naive R R
    let rstop := cf.rstopNe d
    let (t, W) ← wtake wb W A.cols
    let P := colView t A.cols
    let (_, m) ← spMvmult 0 P 1 A R true false m
    let (t, W) ← wtake wb W A.rows
    let Q := colView t A.rows
    let (niter, d1, m) ← cgneLoop env fuel A X R P Q rstop maxiter 0 0 m
    pure ⟨if maxiter ≤ niter then -9 else 0, some (wsetpos W pos), some ⟨niter, sq d1⟩, m⟩

/-- The loop of `armassp_cgnr_w` (`src/sparse/cgnr.c:177-199`). -/
def cgnrLoop (env : Env) (fuel : Nat) (A : Sp α) (X R Z P Q : View) (rstop : α) : Nat → Nat → α → Mem α → Res (Nat × α × Mem α)
  | 0, niter, d1, m => pure (niter, d1, m)
  | left + 1, niter, _, m => do
    let (_, m) ← spMvmult 0 Q 1 A P false false m
    let dz ← dot fuel m env.blas1min env.naive Z Z
    let dp ← dot fuel m env.blas1min env.naive Q Q
    let alpha ← fdiv dz dp
    let (_, m) ← axpy m X alpha P
    let (_, m) ← axpy m R (-alpha) Q
    let (_, m) ← spMvmult 0 Z 1 A R true false m
    let d1 ← dot fuel m env.blas1min env.naive Z Z
    if d1 < rstop then pure (niter, d1, m)
    else do
      let beta ← fdiv d1 dz
      let (_, m) ← axpby m beta P 1 Z
      cgnrLoop env fuel A X R Z P Q rstop left (niter + 1) d1 m

/-- `armassp_cgnr_w` (`src/sparse/cgnr.c:108-206`) with a workspace (`W` not null). -/
def cgnrW (env : Env) (fuel : Nat) (sq : α → α) (cf : IterConf α) (X : View) (A : Sp α) (B : View) (wb : Nat) (W : WBuf) (m : Mem α) :
    Res (CgRes α) :=
  if W.bytes = 0 then pure ⟨0, some { W with bytes := (2 * A.cols + A.rows) * 8 }, none, m⟩
  else if A.rows = 0 ∨ A.cols = 0 then pure ⟨0, some W, none, m⟩
  else if ¬ cgnCheck X A B then pure ⟨-3, some W, none, m⟩
  else if wbytes W < (2 * A.cols + A.rows) * 8 then pure ⟨-5, some W, none, m⟩
  else do
    let pos := wpos W
    let maxiter := cf.limit (2 * A.rows)
    let (t, W) ← wtake wb W A.rows
    let R := colView t A.rows
    let (_, m) ← mcopy m R B false
    let (_, m) ← spMvmult 1 R (-1) A X false false m
    let d ← dot fuel m env.blas1min env.naive R R
    let rstop := cf.rstop d
    let (t, W) ← wtake wb W A.cols
    let Z := colView t A.cols
    let (_, m) ← spMvmult 0 Z 1 A R true false m
    let (t, W) ← wtake wb W A.cols
    let P := colView t A.cols
    let (_, m) ← copyVec m P Z
    let (t, W) ← wtake wb W A.rows
    let Q := colView t A.rows
    let (niter, d1, m) ← cgnrLoop env fuel A X R Z P Q rstop maxiter 0 0 m
    pure ⟨if maxiter ≤ niter then -9 else 0, some (wsetpos W pos), some ⟨niter, sq d1⟩, m⟩

/-- `armassp_cgnr` (`src/sparse/cgnr.c:213-246`); the allocation succeeds and returns the cells from `wb`. -/
def cgnr (env : Env) (fuel : Nat) (sq : α → α) (cf : IterConf α) (X : View) (A : Sp α) (B : View) (wb : Nat) (m : Mem α) : Res (CgRes α) :=
  if ¬ cgnCheck X A B then pure ⟨-1, none, none, m⟩
  else if A.rows = 0 ∨ A.cols = 0 then pure ⟨0, none, none, m⟩
  else do
    let q ← cgnrW env fuel sq cf X A B wb ⟨0, 0⟩ m
    if q.code < 0 then pure ⟨-1, none, none, q.mem⟩
    else
      let bytes := match q.work with | some W => W.bytes | none => 0
      let r ← cgnrW env fuel sq cf X A B wb (walloc bytes) (allocCells wb (bytes / 8) q.mem)
      pure ⟨r.code, none, r.out, freeCells wb (bytes / 8) r.mem⟩

end

end Armas
