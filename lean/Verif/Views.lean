import Verif.Mem
import Mathlib.Data.List.Basic

/-!
# Matrix views and block partitioning

Model of `src/include/matrix.h` (views, element access) and `src/include/partition.h`.
Run-time `require` checks (`ARMAS_WITH_CHECKS`) are off, as in the default build.
-/

namespace Armas

variable {α : Type}

/-- Matrix descriptor as the C code computes it, with signed fields (`src/include/matrix.h:32-39`):
`base` is the element offset of `elems`. -/
structure IView where
  base : Int
  step : Int
  rows : Int
  cols : Int
deriving DecidableEq, Repr

/-- A proper view seen as signed descriptor. -/
def View.toI (V : View) : IView := ⟨V.base, V.step, V.rows, V.cols⟩

/-- `armas_submatrix_ext` (`src/include/matrix.h:313-340`); `none` = NULL returned (and the target
zeroed).  `int` arithmetic is unbounded here. -/
def submatrixExt (B : View) (r c nr nc step : Int) : Option IView :=
  if B.size = 0 then none
  else
    let r := if r < 0 then r + B.rows else r
    let c := if c < 0 then c + B.cols else c
    let nr := if nr < 0 then B.rows - r else nr
    let nc := if nc < 0 then B.cols - c else nc
    let step := if step < 0 then (B.step : Int) else step
    some ⟨B.base + (c * B.step + r), step, nr, nc⟩

/-- `armas_submatrix` (`src/include/matrix.h:344-348`). -/
def submatrix (B : View) (r c nr nc : Int) : Option IView :=
  submatrixExt B r c nr nc B.step

/-- `armas_column` (`src/include/matrix.h:245-261`). -/
def column (B : View) (c : Int) : Option IView :=
  if B.size = 0 then none
  else
    let c := if c < 0 then c + B.cols else c
    some ⟨B.base + c * B.step, B.step, B.rows, 1⟩

/-- `armas_row` (`src/include/matrix.h:279-295`). -/
def rowView (B : View) (r : Int) : Option IView :=
  if B.size = 0 then none
  else
    let r := if r < 0 then r + B.rows else r
    some ⟨B.base + r, B.step, 1, B.cols⟩

/-- `armas_subvector` (`src/include/matrix.h:360-373`); a non-vector gives a view of size zero
(here: `none`). -/
def subvector (Y : View) (n len : Int) : Option IView :=
  if ¬ Y.isVec then none
  else if Y.rows = 1 then submatrix Y 0 n 1 len
  else submatrix Y n 0 len 1

/-- `armas_diag` (`src/include/matrix.h:390-408`). -/
def diagView (B : View) (k : Int) : Option IView :=
  if k > 0 then
    let nk := if (B.rows : Int) < B.cols - k then (B.rows : Int) else B.cols - k
    submatrixExt B 0 k 1 nk (B.step + 1)
  else if k < 0 then
    let nk := if (B.rows : Int) + k < B.cols then (B.rows : Int) + k else B.cols
    submatrixExt B (-k) 0 1 nk (B.step + 1)
  else
    let nk := if (B.rows : Int) < B.cols then (B.rows : Int) else B.cols
    submatrixExt B 0 0 1 nk (B.step + 1)

/-- `elems[p]` with a signed cell number: negative cells are outside of every allocation. -/
def rdI (m : Mem α) (p : Int) : Res α := if p < 0 then .ub else rd m p.toNat

/-- `elems[p] = v` with a signed cell number. -/
def wrI (m : Mem α) (p : Int) (v : α) : Res (Mem α) := if p < 0 then .ub else wr m p.toNat v

/-- `armas_index` (`src/include/matrix.h:518-529`). -/
def indexOf (V : View) (row col : Int) : Int :=
  if V.size = 0 then 0
  else
    let row := if row < 0 then row + V.rows else row
    let col := if col < 0 then col + V.cols else col
    col * V.step + row

/-- `armas_get` (`src/include/matrix.h:434-444`). -/
def getElem [Zero α] (m : Mem α) (V : View) (row col : Int) : Res α :=
  if V.size = 0 then .ok 0
  else
    let row := if row < 0 then row + V.rows else row
    let col := if col < 0 then col + V.cols else col
    rdI m (V.base + (col * V.step + row))

/-- `armas_set` (`src/include/matrix.h:456-466`). -/
def setElem (m : Mem α) (V : View) (row col : Int) (v : α) : Res (Mem α) :=
  if V.size = 0 then .ok m
  else
    let row := if row < 0 then row + V.rows else row
    let col := if col < 0 then col + V.cols else col
    wrI m (V.base + (col * V.step + row)) v

/-- `armas_real_index` (`src/include/matrix.h:167-172`); C division truncates toward zero. -/
def realIndex (V : View) (ix : Int) : Int :=
  if V.cols = 1 ∨ V.step = V.rows then ix
  else V.step * (ix.tdiv V.rows) + ix.tmod V.rows

/-- `armas_get_at` (`src/include/matrix.h:498-506`). -/
def getAt [Zero α] (m : Mem α) (V : View) (ix : Int) : Res α :=
  if V.size = 0 then .ok 0
  else
    let ix := if ix < 0 then ix + V.size else ix
    rdI m (V.base + realIndex V ix)

/-- `armas_set_at` (`src/include/matrix.h:478-486`). -/
def setAt (m : Mem α) (V : View) (ix : Int) (v : α) : Res (Mem α) :=
  if V.size = 0 then .ok m
  else
    let ix := if ix < 0 then ix + V.size else ix
    wrI m (V.base + realIndex V ix) v

/-- `armas_get_at_unsafe` (`src/include/matrix.h:510-514`) for non-negative index. -/
def getAtUnsafe (m : Mem α) (V : View) (ix : Nat) : Res α := rd m (V.vat ix)

/-- `armas_set_at_unsafe` (`src/include/matrix.h:490-494`) for non-negative index. -/
def setAtUnsafe (m : Mem α) (V : View) (ix : Nat) (v : α) : Res (Mem α) := wr m (V.vat ix) v

/-- `armas_col_as_row` (`src/include/matrix.h:545-550`). -/
def colAsRow (V : View) : View := ⟨V.base, 1, 1, V.size⟩

/-! ## Partitioning (`src/include/partition.h`)

Sizes are naturals: where the C code would form a negative size (only `mat_partition_2x2` with a
block larger than the matrix) the theorems carry the needed precondition. -/

/-- Side/direction argument (`src/include/internal.h:30-37`) for one-dimensional partitioning:
`fwd` = towards bottom/right, `bwd` = towards top/left. -/
inductive Dir where
  | fwd
  | bwd
deriving DecidableEq, Repr

/-- `mat_partition_2x1` (`src/include/partition.h:38-55`); `top = true` is `ARMAS_PTOP`. -/
def partition2x1 (A : View) (nb : Nat) (top : Bool) : View × View :=
  let nb := if nb > A.rows then A.rows else nb
  if top then (A.sub 0 0 nb A.cols, A.sub nb 0 (A.rows - nb) A.cols)
  else (A.sub 0 0 (A.rows - nb) A.cols, A.sub (A.rows - nb) 0 nb A.cols)

/-- `mat_repartition_2x1to3x1` (`src/include/partition.h:81-104`). -/
def repartition2x1 (AT A : View) (nb : Nat) (d : Dir) : View × View × View :=
  match d with
  | .fwd =>
    let nb := if nb + AT.rows > A.rows then A.rows - AT.rows else nb
    (A.sub 0 0 AT.rows A.cols, A.sub AT.rows 0 nb A.cols,
      A.sub (AT.rows + nb) 0 (A.rows - AT.rows - nb) A.cols)
  | .bwd =>
    let nb := if AT.rows < nb then AT.rows else nb
    (A.sub 0 0 (AT.rows - nb) A.cols, A.sub (AT.rows - nb) 0 nb A.cols,
      A.sub AT.rows 0 (A.rows - AT.rows) A.cols)

/-- `mat_continue_3x1to2x1` (`src/include/partition.h:128-145`). -/
def continue2x1 (A0 A1 A : View) (d : Dir) : View × View :=
  match d with
  | .fwd => (A.sub 0 0 (A0.rows + A1.rows) A.cols,
      A.sub (A0.rows + A1.rows) 0 (A.rows - A0.rows - A1.rows) A.cols)
  | .bwd => (A.sub 0 0 A0.rows A.cols, A.sub A0.rows 0 (A.rows - A0.rows) A.cols)

/-- `mat_partition_1x2` (`src/include/partition.h:164-181`); `left = true` is `ARMAS_PLEFT`. -/
def partition1x2 (A : View) (nb : Nat) (left : Bool) : View × View :=
  let nb := if nb > A.cols then A.cols else nb
  if left then (A.sub 0 0 A.rows nb, A.sub 0 nb A.rows (A.cols - nb))
  else (A.sub 0 0 A.rows (A.cols - nb), A.sub 0 (A.cols - nb) A.rows nb)

/-- `mat_repartition_1x2to1x3` (`src/include/partition.h:217-240`). -/
def repartition1x2 (AL A : View) (nb : Nat) (d : Dir) : View × View × View :=
  match d with
  | .bwd =>
    let nb := if nb > AL.cols then AL.cols else nb
    (A.sub 0 0 A.rows (AL.cols - nb), A.sub 0 (AL.cols - nb) A.rows nb,
      A.sub 0 AL.cols A.rows (A.cols - AL.cols))
  | .fwd =>
    let nb := if AL.cols + nb > A.cols then A.cols - AL.cols else nb
    (A.sub 0 0 A.rows AL.cols, A.sub 0 AL.cols A.rows nb,
      A.sub 0 (AL.cols + nb) A.rows (A.cols - AL.cols - nb))

/-- `mat_continue_1x3to1x2` (`src/include/partition.h:275-291`). -/
def continue1x2 (A0 A1 A : View) (d : Dir) : View × View :=
  match d with
  | .bwd => (A.sub 0 0 A.rows A0.cols, A.sub 0 A0.cols A.rows (A.cols - A0.cols))
  | .fwd =>
    let nl := A0.cols + A1.cols
    (A.sub 0 0 A.rows nl, A.sub 0 nl A.rows (A.cols - nl))

/-- Four blocks of a 2x2 partitioning. -/
structure Quad where
  tl : View
  tr : View
  bl : View
  br : View
deriving DecidableEq, Repr

/-- Nine blocks of a 3x3 partitioning. -/
structure Nine where
  a00 : View
  a01 : View
  a02 : View
  a10 : View
  a11 : View
  a12 : View
  a20 : View
  a21 : View
  a22 : View
deriving DecidableEq, Repr

/-- `mat_partition_2x2` (`src/include/partition.h:314-337`); `fwd` is `ARMAS_PTOPLEFT` (the
traversal starts at top left), `bwd` is `ARMAS_PBOTTOMRIGHT`.  Optional (NULL) outputs are always
produced here. -/
def partition2x2 (A : View) (mb nb : Nat) (side : Dir) : Quad :=
  match side with
  | .fwd => ⟨A.sub 0 0 mb nb, A.sub 0 nb mb (A.cols - nb), A.sub mb 0 (A.rows - mb) nb,
      A.sub mb nb (A.rows - mb) (A.cols - nb)⟩
  | .bwd => ⟨A.sub 0 0 (A.rows - mb) (A.cols - nb), A.sub 0 (A.cols - nb) (A.rows - mb) nb,
      A.sub (A.rows - mb) 0 mb (A.cols - nb), A.sub (A.rows - mb) (A.cols - nb) mb nb⟩

/-- `mat_repartition_2x2to3x3` (`src/include/partition.h:376-432`); `fwd` is
`ARMAS_PBOTTOMRIGHT`, `bwd` is `ARMAS_PTOPLEFT`. -/
def repartition2x2 (ATL A : View) (nb : Nat) (d : Dir) : Nine :=
  let kr := ATL.rows
  let kc := ATL.cols
  match d with
  | .fwd =>
    let nb := if kc + nb > A.cols then A.cols - kc else nb
    let nb := if kr + nb > A.rows then A.rows - kr else nb
    { a00 := A.sub 0 0 kr kc
      a01 := A.sub 0 kc kr nb
      a02 := A.sub 0 (kc + nb) kr (A.cols - kc - nb)
      a10 := A.sub kr 0 nb kc
      a11 := A.sub kr kc nb nb
      a12 := A.sub kr (kc + nb) nb (A.cols - kc - nb)
      a20 := A.sub (kr + nb) 0 (A.rows - kr - nb) kc
      a21 := A.sub (kr + nb) kc (A.rows - kr - nb) nb
      a22 := A.sub (kr + nb) (kc + nb) (A.rows - kr - nb) (A.cols - kc - nb) }
  | .bwd =>
    let nb := if nb > kc then kc else nb
    let nb := if nb > kr then kr else nb
    { a00 := A.sub 0 0 (kr - nb) (kc - nb)
      a01 := A.sub 0 (kc - nb) (kr - nb) nb
      a02 := A.sub 0 kc (kr - nb) (A.cols - kc)
      a10 := A.sub (kr - nb) 0 nb (kc - nb)
      a11 := A.sub (kr - nb) (kc - nb) nb nb
      a12 := A.sub (kr - nb) kc nb (A.cols - kc)
      a20 := A.sub kr 0 (A.rows - kr) (kc - nb)
      a21 := A.sub kr (kc - nb) (A.rows - kr) nb
      a22 := A.sub kr kc (A.rows - kr) (A.cols - kc) }

/-- `mat_continue_3x3to2x2` (`src/include/partition.h:468-496`).  Line 492 (bottom-left block of
the backward direction) is modelled as written: width `A->cols-kc`. -/
def continue3x3 (a00 a11 A : View) (d : Dir) : Quad :=
  let mb := a11.cols
  let kr := a00.rows
  let kc := a00.cols
  match d with
  | .fwd => ⟨A.sub 0 0 (kr + mb) (kc + mb), A.sub 0 (kc + mb) (kr + mb) (A.cols - kc - mb),
      A.sub (kr + mb) 0 (A.rows - kr - mb) (kc + mb),
      A.sub (kr + mb) (kc + mb) (A.rows - kr - mb) (A.cols - kc - mb)⟩
  | .bwd => ⟨A.sub 0 0 kr kc, A.sub 0 kc kr (A.cols - kc), A.sub kr 0 (A.rows - kr) (A.cols - kc),
      A.sub kr kc (A.rows - kr) (A.cols - kc)⟩

/-- The usual forward traversal of the blocked LAPACK routines, e.g. `src/lapack/chol.c:96-129`:
`partition_2x2(0,0); while (ABR.rows>0 && ABR.cols>0) { repartition(nb); …A11…; continue; }`.
Returns the list of `A11` blocks visited and the final quad; `fuel` bounds the number of rounds,
running out of fuel is `diverge`. -/
def walkFwd (A : View) (nb : Nat) (q : Quad) : Nat → Res (List View × Quad)
  | 0 => .diverge
  | fuel + 1 =>
    if q.br.rows > 0 ∧ q.br.cols > 0 then do
      let n := repartition2x2 q.tl A nb .fwd
      let (l, q') ← walkFwd A nb (continue3x3 n.a00 n.a11 A .fwd) fuel
      pure (n.a11 :: l, q')
    else .ok ([], q)

/-- The backward traversal, e.g. `src/lapack/ldl.c:102-130`: starts with
`partition_2x2(0,0,PBOTTOMRIGHT)` and runs while the top-left block is not empty. -/
def walkBwd (A : View) (nb : Nat) (q : Quad) : Nat → Res (List View × Quad)
  | 0 => .diverge
  | fuel + 1 =>
    if q.tl.rows > 0 ∧ q.tl.cols > 0 then do
      let n := repartition2x2 q.tl A nb .bwd
      let (l, q') ← walkBwd A nb (continue3x3 n.a00 n.a11 A .bwd) fuel
      pure (n.a11 :: l, q')
    else .ok ([], q)

end Armas
