import Verif.TrdMult
import Verif.LqMult
import Verif.LqBuild

/-!
# Model of `src/lapack/biredm.c` and `src/lapack/bibld.c`

Exact arithmetic.  Not modelled: null arguments, the workspace queries, the allocating wrappers and, for the parts of one row or column less, an `A` without
rows or columns (the code then asks for a submatrix of size -1).
-/

namespace Armas

variable {α : Type} [Field α] [DecidableEq α]

/-- The choice of the shape in `armas_bdmult_w` and `armas_bdbuild_w` (`src/lapack/biredm.c:166`, `src/lapack/bibld.c:126`): at least as many rows as columns, where
`ARMAS_LOWER` selects the other case for square matrices. -/
def bdTall (A : View) (lower : Bool) : Bool := decide (A.cols < A.rows) || (decide (A.rows = A.cols) && !lower)

/-- `C` without its first column for `ARMAS_RIGHT`, without its first row otherwise (`src/lapack/biredm.c:176-180, 193-197`). -/
def bdRest (right : Bool) (C : View) : View := if right then C.sub 0 1 C.rows (C.cols - 1) else C.sub 1 0 (C.rows - 1) C.cols

/-- `armas_bdmult_w` (`src/lapack/biredm.c:123-210`); `multq`, `multp`, `trans`, `right`, `lower` are the flags.  `ARMAS_TRANS` is inverted for
`ARMAS_MULTP` (`:162-164`). -/
def bdmultW (ab : α → α) (env : Env) (elb fuel : Nat) (m : Mem α) (C A tau : View) (multq multp trans right lower : Bool) (w ws : Nat) (cbuf : Option Cache) :
    Res (Int × Mem α) :=
  match bdTall A lower, multq, multp with
  | true, true, false => qrmultW ab env elb fuel m C A (tau.sub 0 0 A.cols 1) trans right w ws cbuf
  | true, false, true =>
    lqmultW ab env elb fuel m (bdRest right C) (A.sub 0 1 (A.cols - 1) (A.cols - 1)) (tau.sub 0 0 (A.cols - 1) 1) (!trans) right w ws cbuf
  | false, true, false =>
    qrmultW ab env elb fuel m (bdRest right C) (A.sub 1 0 (A.rows - 1) (A.rows - 1)) (tau.sub 0 0 (A.rows - 1) 1) trans right w ws cbuf
  | false, false, true => lqmultW ab env elb fuel m C A (tau.sub 0 0 A.rows 1) (!trans) right w ws cbuf
  | _, _, _ => .ok (-EINVAL, m)

/-- One pass of the loop that shifts the rows (`src/lapack/bibld.c:135-140`) for row `j`. -/
def bdShiftRow (A : View) (j : Nat) (m : Mem α) : Res (Mem α) := do
  let (_, m) ← copyVec m (A.sub j j 1 (A.cols - j)) (A.sub (j - 1) j 1 (A.cols - j))
  wr m (A.at' j 0) 0

/-- One pass of the loop that shifts the columns (`src/lapack/bibld.c:164-169`) for column `j`. -/
def bdShiftCol (A : View) (j : Nat) (m : Mem α) : Res (Mem α) := do
  let (_, m) ← copyVec m (A.sub j j (A.rows - j) 1) (A.sub j (j - 1) (A.rows - j) 1)
  wr m (A.at' 0 j) 0

/-- `ARMAS_WANTP` for at least as many rows as columns (`src/lapack/bibld.c:132-151`). -/
def bdBuildP (ab : α → α) (env : Env) (elb fuel : Nat) (m : Mem α) (A tau : View) (K w ws : Nat) (cbuf : Option Cache) : Res (Int × Mem α) := do
  let m ← forDown (A.cols - 1) (fun d => bdShiftRow A (d + 1)) m
  let (_, m) ← scale m (A.sub 0 0 1 A.cols) 0
  let m ← wr m (A.at' 0 0) 1
  lqbuildW ab env elb fuel m (A.sub 1 1 (A.cols - 1) (A.cols - 1)) (tau.sub 0 0 (A.cols - 1) 1) (min K (A.cols - 1)) w ws cbuf

/-- `ARMAS_WANTQ` for fewer rows than columns (`src/lapack/bibld.c:161-180`). -/
def bdBuildQ (ab : α → α) (env : Env) (elb fuel : Nat) (m : Mem α) (A tau : View) (K w ws : Nat) (cbuf : Option Cache) : Res (Int × Mem α) := do
  let m ← forDown (A.rows - 1) (fun d => bdShiftCol A (d + 1)) m
  let (_, m) ← scale m (A.sub 0 0 A.rows 1) 0
  let m ← wr m (A.at' 0 0) 1
  qrbuildW ab env elb fuel m (A.sub 1 1 (A.rows - 1) (A.rows - 1)) (tau.sub 0 0 (A.rows - 1) 1) (min K (A.rows - 1)) w ws cbuf

/-- `armas_bdbuild_w` (`src/lapack/bibld.c:91-192`), `K` not negative; `wantq`, `wantp`, `lower` are the flags. -/
def bdbuildW (ab : α → α) (env : Env) (elb fuel : Nat) (m : Mem α) (A tau : View) (K : Nat) (wantq wantp lower : Bool) (w ws : Nat) (cbuf : Option Cache) :
    Res (Int × Mem α) :=
  if A.size = 0 then .ok (0, m)
  else match bdTall A lower, wantq, wantp with
  | true, true, false => qrbuildW ab env elb fuel m A (tau.sub 0 0 A.cols 1) K w ws cbuf
  | true, false, true => bdBuildP ab env elb fuel m A tau K w ws cbuf
  | false, true, false => bdBuildQ ab env elb fuel m A tau K w ws cbuf
  | false, false, true => lqbuildW ab env elb fuel m A (tau.sub 0 0 A.rows 1) K w ws cbuf
  | _, _, _ => .ok (-EINVAL, m)

end Armas
