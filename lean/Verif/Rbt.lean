import Verif.MatOps

/-!
# Model of `src/lapack/rbtgm.c` and `src/lapack/rbtgu.c` (random butterfly transformations)

Exact arithmetic in a commutative ring; `c` is the value of `POW(RSQRT2, R->cols)` and `hf` the value of `HALF`.  Elements are addressed as in the
code, that is, without a check of the indexes.  Sizes that do not fit an `int` (`1 << R->cols`) are not modelled.  Not modelled: `armas_gen_rbt`
(random numbers), `conf->error`.
-/

namespace Armas

variable {α : Type} [CommRing α] [DecidableEq α]

/-- One pass of the loop over the rows `i < rb` of a column (`src/lapack/rbtgm.c:68-75` for `diff`, `86-93`), with `right` over the columns of a row
(`:223-230` for `diff`, `:205-212`). -/
def rbtPair (right diff : Bool) (A R : View) (nb j i : Nat) (m : Mem α) : Res (Mem α) := do
  let p0 := if right then A.at' j i else A.at' i j
  let p1 := if right then A.at' j (i + nb) else A.at' (i + nb) j
  let r0 ← rd m (R.vat i)
  let r1 ← rd m (R.vat (i + nb))
  let a0 ← rd m p0
  let a1 ← rd m p1
  let m ← wr m p0 (if diff then r0 * (a0 + a1) else r0 * a0 + r1 * a1)
  wr m p1 (if diff then r1 * (a0 - a1) else r0 * a0 - r1 * a1)

/-- One pass of the second loop: rows without a partner (`src/lapack/rbtgm.c:76-80`, `95-99`, `231-235`). -/
def rbtTail (right : Bool) (A R : View) (j i : Nat) (m : Mem α) : Res (Mem α) := do
  let p0 := if right then A.at' j i else A.at' i j
  let r0 ← rd m (R.vat i)
  let a0 ← rd m p0
  wr m p0 (r0 * a0)

/-- The number of rows in the upper half (`src/lapack/rbtgm.c:58-64`, `:191-197`); `n` is the number of rows of `A`, columns for the right. -/
def rbtHalf (n Nd : Nat) : Nat := if n = 1 then 1 else if Nd = 1 then 1 else (Nd + 1) / 2

/-- `rbt_left` (`src/lapack/rbtgm.c:50-101`) and `rbt_right` without `ARMAS_TRANS` (`:183-197`, `221-236`).  `diff` is `ARMAS_TRANS` for `rbt_left`
and true for `rbt_right`.  `rb` may be negative in the code; the first loop is not entered then. -/
def rbtBlock (right diff : Bool) (m : Mem α) (A R : View) (Nd : Nat) : Res (Mem α) := do
  let n := if right then A.cols else A.rows
  let nb := rbtHalf n Nd
  let (_, m) ← forUp 0 (if right then A.rows else A.cols) 1 (fun j m => do
    let (i, m) ← forUp 0 (n - nb) 1 (rbtPair right diff A R nb j) m
    let (_, m) ← forUp i nb 1 (rbtTail right A R j) m
    pure m) m
  pure m

/-- `rbt_right` with `ARMAS_TRANS` (`src/lapack/rbtgm.c:191-220`): the second loop is behind the loop over the rows, so that `i` is the number of
rows there. -/
def rbtRightT (m : Mem α) (A R : View) (Nd : Nat) : Res (Mem α) := do
  let nb := rbtHalf A.cols Nd
  let (i, j, m) ← forUp 0 A.rows 1 (fun i (_, m) => forUp 0 (A.cols - nb) 1 (rbtPair true false A R nb i) m) (0, m)
  let (_, m) ← forUp j nb 1 (rbtTail true A R i) m
  pure m

/-- `rbt_left` or `rbt_right`. -/
def rbtSide (right trans : Bool) (m : Mem α) (A R : View) (Nd : Nat) : Res (Mem α) :=
  if right then (if trans then rbtRightT m A R Nd else rbtBlock true true m A R Nd) else rbtBlock false trans m A R Nd

/-- The inner loops of `rbt_recursive_left` and `rbt_recursive_right` (`src/lapack/rbtgm.c:146-161`, `:290-305`): column `k` of `R` is applied to
blocks of `lb` rows (columns). -/
def rbtLevel (right trans : Bool) (A R : View) (lb Nd k : Nat) (m : Mem α) : Res (Mem α) := do
  let n := if right then A.cols else A.rows
  let (_, m) ← forUp 0 n lb (fun o m =>
    let b := min lb (n - o)
    rbtSide right trans m (if right then A.sub 0 o A.rows b else A.sub o 0 b A.cols) (R.sub o k b 1) Nd) m
  pure m

/-- The size extended to a multiple of `2^d` (`src/lapack/rbtgm.c:121`, `:265`, `:396`, `src/lapack/rbtgu.c:199-200`). -/
def rbtSize (n d : Nat) : Nat := (n + 2 ^ d - 1) / 2 ^ d * 2 ^ d

/-- `rbt_recursive_left` and `rbt_recursive_right` (`src/lapack/rbtgm.c:106-180`, `:244-325`).  Without `ARMAS_TRANS` the columns of `R` are taken from
the last to the first and the block sizes halve; with it they are taken from the first and the block sizes double.  An `R` without columns and
`ARMAS_TRANS` divides by `k = 0`. -/
def rbtRecursive (right trans : Bool) (c : α) (m : Mem α) (A R : View) : Res (Mem α) := do
  let n := if right then A.cols else A.rows
  let Nd := rbtSize n R.cols
  let k := 2 ^ R.cols / 2
  if trans ∧ k = 0 then .ub
  else do
    let (_, _, _, m) ← (if trans then
        forUp 0 R.cols 1 (fun p (lb, Nd, m) => do
          let m ← rbtLevel right true A R lb Nd p m
          pure (min (2 * lb) n, 2 * Nd, m)) (Nd / k, Nd / k, m)
      else
        forUp 0 R.cols 1 (fun p (lb, Nd, m) => do
          let m ← rbtLevel right false A R lb Nd (R.cols - 1 - p) m
          pure (Nd / 2, Nd / 2, m)) (n, Nd, m))
    let (_, m) ← mscale m A c .all false
    pure m

/-- `armas_mult_rbt` (`src/lapack/rbtgm.c:354-381`); `c` is the factor `(1/sqrt(2))^d`. -/
def multRbt (c : α) (m : Mem α) (A R : View) (right trans : Bool) : Res (Int × Mem α) :=
  if (if right then A.cols else A.rows) ≠ R.rows then .ok (-ESIZE, m)
  else do
    let m ← rbtRecursive right trans c m A R
    pure (0, m)

/-- `armas_size_rbt` (`src/lapack/rbtgm.c:394-406`): the size and what `*fact` is afterwards; `none` is a null pointer, which is dereferenced
(`:403`) although the documentation allows it.  The factor is stored only when `*fact` is not zero before. -/
def sizeRbt (fact : Option Int) (n d : Nat) : Res (Nat × Option Int) :=
  match fact with
  | none => .ub
  | some v => .ok (rbtSize n d, some (if v ≠ 0 then (2 ^ d / 2 : Nat) else v))

/-- One element pair or quadruple of `update2_rbt` (`src/lapack/rbtgu.c:68-117`): the four loops write the elements `(i, j)`, `(i, j + lb)`,
`(i + lb, j)` and `(i + lb, j + lb)`, those that exist (`hi`: `i < mb`, `hj`: `j < nb`), from their old values. -/
def rbt2Cell (hf : α) (A R S : View) (lb : Nat) (hj hi : Bool) (j i : Nat) (m : Mem α) : Res (Mem α) := do
  let s0 ← rd m (S.vat j)
  let s1 ← (if hj then rd m (S.vat (j + lb)) else pure 0)
  let r0 ← rd m (R.vat i)
  let r1 ← (if hi then rd m (R.vat (i + lb)) else pure 0)
  let a00 ← rd m (A.at' i j)
  let a01 ← (if hj then rd m (A.at' i (j + lb)) else pure 0)
  let a10 ← (if hi then rd m (A.at' (i + lb) j) else pure 0)
  let a11 ← (if hi ∧ hj then rd m (A.at' (i + lb) (j + lb)) else pure 0)
  let m ← wr m (A.at' i j) (hf * s0 * r0 * ((a00 + a01) + (a10 + a11)))
  let m ← (if hj then wr m (A.at' i (j + lb)) (hf * s1 * r0 * ((a00 + a10) - (a01 + a11))) else pure m)
  let m ← (if hi then wr m (A.at' (i + lb) j) (hf * s0 * r1 * ((a00 + a01) - (a10 + a11))) else pure m)
  if hi ∧ hj then wr m (A.at' (i + lb) (j + lb)) (hf * s1 * r1 * ((a00 + a11) - (a01 + a10))) else pure m

/-- `update2_rbt` (`src/lapack/rbtgu.c:57-121`).  `mb` and `nb` may be negative in the code; the loops up to them are not entered then. -/
def update2Rbt (hf : α) (m : Mem α) (A R S : View) (Nd : Nat) : Res (Mem α) := do
  let lb := Nd / 2
  let (j, m) ← forUp 0 (A.cols - lb) 1 (fun j m => do
    let (i, m) ← forUp 0 (A.rows - lb) 1 (rbt2Cell hf A R S lb true true j) m
    let (_, m) ← forUp i lb 1 (rbt2Cell hf A R S lb true false j) m
    pure m) m
  let (_, m) ← forUp j lb 1 (fun j m => do
    let (i, m) ← forUp 0 (A.rows - lb) 1 (rbt2Cell hf A R S lb false true j) m
    let (_, m) ← forUp i lb 1 (rbt2Cell hf A R S lb false false j) m
    pure m) m
  pure m

/-- `armas_update2_rbt_descend` (`src/lapack/rbtgu.c:123-164`); `d` is the number of columns of `U` and `V` less one.  `lb` is not larger than the
sizes of `A` (otherwise the parts would have negative sizes). -/
def update2Descend (hf : α) : Nat → Mem α → View → View → View → Nat → Res (Mem α)
  | 0, m, A, U, V, Nd => update2Rbt hf m A U V Nd
  | d + 1, m, A, U, V, Nd => do
    let lb := Nd / 2
    let U0 := U.sub 0 0 (min lb U.rows) (d + 1)
    let U1 := U.sub (min lb U.rows) 0 (U.rows - min lb U.rows) (d + 1)
    let V0 := V.sub 0 0 (min lb V.rows) (d + 1)
    let V1 := V.sub (min lb V.rows) 0 (V.rows - min lb V.rows) (d + 1)
    let m ← update2Descend hf d m (A.sub 0 0 lb lb) U0 V0 (Nd / 2)
    let m ← update2Descend hf d m (A.sub 0 lb lb (A.cols - lb)) U0 V1 (Nd / 2)
    let m ← update2Descend hf d m (A.sub lb 0 (A.rows - lb) lb) U1 V0 (Nd / 2)
    let m ← update2Descend hf d m (A.sub lb lb (A.rows - lb) (A.cols - lb)) U1 V1 (Nd / 2)
    update2Rbt hf m A (U.sub 0 (d + 1) U.rows 1) (V.sub 0 (d + 1) V.rows 1) Nd

/-- `armas_update2_rbt` (`src/lapack/rbtgu.c:186-213`) for `U` with at least one column. -/
def update2RbtW (hf : α) (m : Mem α) (A U V : View) : Res (Int × Mem α) :=
  if ¬ (A.cols = A.rows ∧ U.rows = V.rows ∧ U.cols = V.cols ∧ A.rows ≤ U.rows) then .ok (-ESIZE, m)
  else do
    let m ← update2Descend hf (U.cols - 1) m A U V (rbtSize A.cols U.cols)
    pure (0, m)

end Armas
