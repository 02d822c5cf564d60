import Verif.Hess

/-!
# Model of the unblocked part of `src/lapack/bired.c`

Exact arithmetic.  `tauq` and `taup` are column vectors with at least `min(rows, cols)` elements (the code does not look at their sizes).
`unblk_bdreduce_right` is `unblk_bdreduce_left` with rows and columns, and `tauq` and `taup`, exchanged; both are modelled by the same definitions,
with a switch `tr` that is set for the former.  The return values of the BLAS calls are not looked at, as in the code.  Not modelled:
`conf->error`, null arguments, the workspace query, the allocating wrapper and the blocked algorithm.
-/

namespace Armas

/-- Part of the matrix, or of its transpose: `a21`, `a12`, `A22` of the partitions in `unblk_bdreduce_left` and, with `tr`, `a12`, `a21`, `A22` of those
in `unblk_bdreduce_right` (`src/lapack/bired.c:126-130, 497-501`). -/
def tsub (tr : Bool) (A : View) (r c nr nc : Nat) : View := if tr then A.sub c r nc nr else A.sub r c nr nc

/-- The two rank one updates (`src/lapack/bired.c:167-170`, with `tr` `src/lapack/bired.c:541-544`). -/
noncomputable def bdUpdate (env : Env) (fuel : Nat) (tr : Bool) (m : Mem ℝ) (u g A22 y z : View) (s t : ℝ) : Res (Mem ℝ) :=
  if tr then do
    let (_, m) ← mvupdate env fuel m 1 A22 (-s) y u
    let (_, m) ← mvupdate env fuel m 1 A22 (-t) g z
    pure m
  else do
    let (_, m) ← mvupdate env fuel m 1 A22 (-s) u y
    let (_, m) ← mvupdate env fuel m 1 A22 (-t) z g
    pure m

/-- Second half of a pass, for a remaining part that is not empty (`src/lapack/bired.c:145-173`, with `tr` `src/lapack/bired.c:518-547`): `u` is the vector of
the first reflector with the scalar at `t1`, `g` the row (column) that the second one is made of, with the scalar at `t2`. -/
noncomputable def bdCore (safmin : ℝ) (nonneg : Bool) (ab : ℝ → ℝ) (env : Env) (fuel : Nat) (tr : Bool) (u g A22 y z : View) (t1 t2 : Nat)
    (m : Mem ℝ) : Res (Mem ℝ) := do
  let (_, m) ← axpby m 0 y 1 g
  let (_, m) ← mvmult ab env fuel m 1 y 1 A22 u { transA := !tr }
  let s ← rd m t1
  let (_, m) ← axpy m g (-s) y
  let m ← houseVec safmin m g t2 nonneg
  let t ← rd m t2
  let v0 ← rd m (g.at' 0 0)
  let m ← wr m (g.at' 0 0) 1
  let beta ← dot fuel m env.blas1min env.naive y g
  let (_, m) ← axpby m 0 z (s * beta) u
  let (_, m) ← mvmult ab env fuel m (-1) z 1 A22 g { transA := tr }
  let m ← bdUpdate env fuel tr m u g A22 y z s t
  wr m (g.at' 0 0) v0

/-- One pass of the loop in `unblk_bdreduce_left` (`src/lapack/bired.c:125-184`) and, with `tr`, in `unblk_bdreduce_right`
(`src/lapack/bired.c:496-558`).  `M`, `N` are the numbers of rows and columns, exchanged for `tr`; `t1` is `tauq` (`taup` for `tr`), `t2` the other one;
`W` is the address of the work space. -/
noncomputable def bdStep (safmin : ℝ) (nonneg : Bool) (ab : ℝ → ℝ) (env : Env) (fuel : Nat) (tr : Bool) (M N : Nat) (A t1 t2 : View) (W k : Nat)
    (m : Mem ℝ) : Res (Mem ℝ) := do
  let a21 := tsub tr A (k + 1) k (M - k - 1) 1
  let a12 := tsub tr A k (k + 1) 1 (N - k - 1)
  let A22 := tsub tr A (k + 1) (k + 1) (M - k - 1) (N - k - 1)
  let y21 : View := ⟨W, N - k - 1, N - k - 1, 1⟩
  let z21 : View := ⟨W + (N - k - 1), M - k - 1, M - k - 1, 1⟩
  let m ← house safmin m (A.at' k k) a21 (t1.at' k 0) true false nonneg
  if N - k - 1 = 0 then pure m
  else bdCore safmin nonneg ab env fuel tr a21 a12 A22 y21 z21 (t1.at' k 0) (t2.at' k 0) m

/-- `unblk_bdreduce_left` (`src/lapack/bired.c:103-187`) and, with `tr`, `unblk_bdreduce_right` (`src/lapack/bired.c:474-561`). -/
noncomputable def unblkBd (safmin : ℝ) (nonneg : Bool) (ab : ℝ → ℝ) (env : Env) (fuel : Nat) (tr : Bool) (M N : Nat) (m : Mem ℝ) (A t1 t2 : View)
    (W : Nat) : Res (Mem ℝ) := do
  let (_, m) ← forUp 0 (min A.rows A.cols) 1 (bdStep safmin nonneg ab env fuel tr M N A t1 t2 W) m
  pure m

/-- `armas_bdreduce_w` (`src/lapack/bired.c:920-987`) with a work space of `ws` elements at `w`, for a block size that selects the unblocked algorithm
(`env->lb` is 0 or not less than the number of columns). -/
noncomputable def bdreduceW (safmin : ℝ) (nonneg : Bool) (ab : ℝ → ℝ) (env : Env) (fuel : Nat) (m : Mem ℝ) (A tauq taup : View) (w ws : Nat) :
    Res (Int × Mem ℝ) :=
  if ws < A.cols + A.rows then .ok (-EWORK, m)
  else if A.cols ≤ A.rows then do
    let m ← unblkBd safmin nonneg ab env fuel false A.rows A.cols m A tauq taup w
    pure (0, m)
  else do
    let m ← unblkBd safmin nonneg ab env fuel true A.cols A.rows m A taup tauq w
    pure (0, m)

end Armas
