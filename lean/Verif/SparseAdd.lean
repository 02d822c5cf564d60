import Verif.SparseMv
import Verif.Workspace

/-!
# Sparse accumulator, sum and product of sparse matrices

Model of `src/sparse/accum.c`, `src/sparse/add.c` and `src/sparse/mult.c`.

Simplifications (besides those of `Verif.Sparse`): the three arrays of the accumulator are separate memories; their contents on entry are
arbitrary (argument `junk`); a failing `assert` is undefined behaviour; the result matrix is not one of the operands.
-/

namespace Armas

variable {α : Type}

/-- `armas_accum_t` (`src/include/sparse.h:89-95`). -/
structure Accum (α : Type) where
  elems : Mem α
  mark : Mem Int
  queue : Mem Nat
  nz : Nat
  tail : Nat

/-- Arbitrary contents of a workspace. -/
structure Junk (α : Type) where
  elems : Nat → α
  mark : Nat → Int
  queue : Nat → Nat

/-- `armas_accum_bytes` (`src/include/sparse.h:100-103`) with 8 byte elements. -/
def accBytes (n : Nat) : Nat := align8 (n * 8 + 2 * n * 4)

/-- `armas_accum_dim` (`src/include/sparse.h:108-111`). -/
def accDim (C : Sp α) : Nat := if C.kind = .csr then C.cols else C.rows

/-- `armas_accum_need` (`src/include/sparse.h:117-120`). -/
def accNeed (C : Sp α) : Nat := accBytes (accDim C)

/-- `armas_accum_make` (`src/sparse/accum.c:42-49`) with `armas_accum_init` (`src/sparse/accum.c:28-35`); `none`: the buffer is too short, the
accumulator stays uninitialized. -/
def accMake (n len : Nat) (junk : Junk α) : Option (Accum α) :=
  if accBytes n > len then none
  else some ⟨fun p => if p < n then some (junk.elems p) else none, fun p => if p < n then some (junk.mark p) else none,
    fun p => if p < n then some (junk.queue p) else none, n, 0⟩

/-- `addpos` (`src/sparse/accum.c:80-90`); also one round of the loop of `armas_accum_scatter` (`src/sparse/accum.c:106-119`), which has the
same text. -/
def accAddpos [Add α] (acc : Accum α) (k : Nat) (x : α) (mark : Nat) : Res (Accum α) := do
  let mk ← rd acc.mark k
  if mk < (mark : Int) then do
    let mk ← wr acc.mark k (mark : Int)
    let el ← wr acc.elems k x
    let qu ← wr acc.queue acc.tail k
    pure { acc with mark := mk, elems := el, queue := qu, tail := acc.tail + 1 }
  else do
    let t ← rd acc.elems k
    let el ← wr acc.elems k (t + x)
    pure { acc with elems := el }

/-- `armas_accum_scatter` (`src/sparse/accum.c:106-119`) on the vector `armassp_vector(B, k)` (`src/include/sparse.h:304-311`), the row (column)
`k` of `B`. -/
def accScatter [Mul α] [Add α] (acc : Accum α) (B : Sp α) (k : Nat) (beta : α) (mark : Nat) : Res (Accum α) := do
  let p0 ← rd B.ptr k
  let p1 ← rd B.ptr (k + 1)
  let (_, acc) ← forUp p0 p1 1 (fun p acc => do
    let c ← rd B.ix p
    let x ← rd B.v p
    accAddpos acc c (beta * x) mark) acc
  pure acc

/-- The loop of `armas_accum_dot` (`src/sparse/accum.c:133-145`).  Every round decreases the first argument `(ex - px) + (ey - py)`. -/
def dotMerge [Mul α] [Add α] (X Y : Sp α) (ex ey : Nat) : Nat → Nat → Nat → α × Bool → Res (α × Bool)
  | 0, _, _, st => pure st
  | f + 1, px, py, st =>
    if px < ex ∧ py < ey then do
      let cx ← rd X.ix px
      let cy ← rd Y.ix py
      if cx = cy then do
        let a ← rd X.v px
        let b ← rd Y.v py
        dotMerge X Y ex ey f (px + 1) (py + 1) (st.1 + a * b, true)
      else if cx < cy then dotMerge X Y ex ey f (px + 1) py st
      else dotMerge X Y ex ey f px (py + 1) st
    else pure st

/-- `armas_accum_dot` (`src/sparse/accum.c:125-151`) of the row (column) `i` of `X` and `j` of `Y`, added at position `k`. -/
def accDot [Mul α] [Add α] [Zero α] (acc : Accum α) (k : Nat) (X : Sp α) (i : Nat) (Y : Sp α) (j : Nat) (mark : Nat) : Res (Accum α) := do
  let p0 ← rd X.ptr i
  let p1 ← rd X.ptr (i + 1)
  let q0 ← rd Y.ptr j
  let q1 ← rd Y.ptr (j + 1)
  let r ← dotMerge X Y p1 q1 ((p1 - p0) + (q1 - q0)) p0 q0 (0, false)
  if r.2 = false then pure acc else accAddpos acc k r.1 mark

/-- `armas_accum_gather` (`src/sparse/accum.c:157-171`). -/
def accGather [Mul α] (C : Sp α) (alpha : α) (acc : Accum α) (ik : Nat) : Res (Sp α) := do
  let ptr ← wr C.ptr ik C.nnz
  let (_, C) ← forUp 0 acc.tail 1 (fun head (C : Sp α) => do
    let k ← rd acc.queue head
    let ix ← wr C.ix C.nnz k
    let x ← rd acc.elems k
    let v ← wr C.v C.nnz (alpha * x)
    if C.nnz + 1 < C.size then pure { C with ix := ix, v := v, nnz := C.nnz + 1 } else .ub) { C with ptr := ptr }
  pure C

/-- `armas_accum_clear` (`src/sparse/accum.c:177-180`). -/
def accClear (acc : Accum α) : Res (Accum α) := do
  let (_, mk) ← forUp 0 acc.nz 1 (fun i mk => wr mk i (-1)) acc.mark
  pure { acc with mark := mk }

/-- The common frame of the sums and products (`src/sparse/add.c:30-54`, `57-85`, `88-117`, `121-146`, `149-178`; `src/sparse/mult.c:33-59`,
`62-87`, `90-117`, `120-151`, `154-178`, `181-206`, `209-235`, `238-269`): for each row (column) `i < m` accumulate with `row` and gather; the last
pointer is written at index `mp`. -/
def accRows [Mul α] (C : Sp α) (m mp : Nat) (alpha : α) (row : Nat → Accum α → Res (Accum α)) (acc : Accum α) : Res (Sp α) := do
  let acc ← accClear acc
  let (_, C, _) ← forUp 0 m 1 (fun i (st : Sp α × Accum α) => do
    let acc ← row i st.2
    let C ← accGather st.1 alpha acc i
    pure (C, { acc with tail := 0 })) ({ C with nnz := 0 }, acc)
  let ptr ← wr C.ptr mp C.nnz
  pure { C with ptr := ptr, nptr := mp }

/-- Add `alpha*A[i,:]` (`src/sparse/add.c:41-44` and elsewhere in that file). -/
def addRow [Mul α] [Add α] (alpha : α) (A : Sp α) (i : Nat) (acc : Accum α) : Res (Accum α) := do
  let p0 ← rd A.ptr i
  let p1 ← rd A.ptr (i + 1)
  let (_, acc) ← forUp p0 p1 1 (fun p acc => do
    let x ← rd A.v p
    let c ← rd A.ix p
    accAddpos acc c (alpha * x) i) acc
  pure acc

/-- Add `beta*B[:,i]`, `B` having `nb` rows (`src/sparse/add.c:74-79`, `99-104`, `167-172`). -/
def addNz [Mul α] [Add α] (beta : α) (B : Sp α) (nb i : Nat) (acc : Accum α) : Res (Accum α) := do
  let (_, acc) ← forUp 0 nb 1 (fun j acc => do
    let p0 ← rd B.ptr j
    let p1 ← rd B.ptr (j + 1)
    match ← spNz B i p1 (B.nnz - p0) p0 with
    | none => pure acc
    | some p => do
      let x ← rd B.v p
      accAddpos acc j (beta * x) i) acc
  pure acc

/-- `add_csr_nn` (`src/sparse/add.c:30-54`) and `add_csc_nn` (`src/sparse/add.c:121-146`). -/
def addNN [Mul α] [Add α] [One α] (m : Nat) (C : Sp α) (alpha : α) (A : Sp α) (beta : α) (B : Sp α) (acc : Accum α) : Res (Sp α) :=
  accRows C m m 1 (fun i acc => do
    let acc ← addRow alpha A i acc
    addRow beta B i acc) acc

/-- `add_csr_nt` (`src/sparse/add.c:57-85`) and `add_csc_nt` (`src/sparse/add.c:149-178`). -/
def addNT [Mul α] [Add α] [One α] (m nb : Nat) (C : Sp α) (alpha : α) (A : Sp α) (beta : α) (B : Sp α) (acc : Accum α) : Res (Sp α) :=
  accRows C m m 1 (fun i acc => do
    let acc ← addRow alpha A i acc
    addNz beta B nb i acc) acc

/-- `add_csr_tn` (`src/sparse/add.c:88-117`): the elements of `A` are multiplied by `beta`. -/
def addTN [Mul α] [Add α] [One α] (m : Nat) (C : Sp α) (_alpha : α) (A : Sp α) (beta : α) (B : Sp α) (acc : Accum α) : Res (Sp α) :=
  accRows C m m 1 (fun i acc => do
    let acc ← addNz beta A m i acc
    addRow beta B i acc) acc

/-- The switch of `armassp_addto_w` (`src/sparse/add.c:231-252`): both operands transposed is treated like none, and a transposed `A` in
compressed column format does nothing. -/
def addSwitch [Mul α] [Add α] [One α] (C : Sp α) (alpha : α) (A : Sp α) (beta : α) (B : Sp α) (ta tb : Bool) (acc : Accum α) : Res (Sp α) :=
  if ta = false ∧ tb = true then
    if A.kind = .csc then addNT A.cols B.cols C alpha A beta B acc else addNT A.rows B.rows C alpha A beta B acc
  else if ta = true ∧ tb = false then
    if A.kind = .csc then pure C else addTN A.rows C alpha A beta B acc
  else
    if A.kind = .csc then addNN A.cols C alpha A beta B acc else addNN A.rows C alpha A beta B acc

/-- `armassp_addto_w` (`src/sparse/add.c:197-256`) with operands and workspace that are not null.  A null result matrix (`none`) is
dereferenced by `armas_accum_need`.  Error codes from `src/include/armas.h:131-145`. -/
def spAddTo [Mul α] [Add α] [One α] (C : Option (Sp α)) (alpha : α) (A : Sp α) (beta : α) (B : Sp α) (ta tb : Bool) (W : WBuf) (junk : Junk α) :
    Res (Int × Option (Sp α) × WBuf) :=
  if A.kind ≠ B.kind then pure (-3, C, W)
  else if A.rows ≠ B.rows ∨ A.cols ≠ B.cols then pure (-1, C, W)
  else match C with
    | none => .ub
    | some C =>
      if W.bytes = 0 then pure (0, some C, { W with bytes := accNeed C })
      else if wbytes W < accNeed C then pure (-5, some C, W)
      else match accMake (accDim C) (wbytes W) junk with
        | none => .ub
        | some acc => do
          let C ← addSwitch C alpha A beta B ta tb acc
          pure (0, some C, wsetpos W (wpos W))

/-- `armassp_add` (`src/sparse/add.c:264-296`); `none` is the null pointer.  The first call passes a null result matrix. -/
def spAdd [Mul α] [Add α] [Zero α] [One α] (alpha : α) (A : Sp α) (beta : α) (B : Sp α) (ta tb : Bool) (junk : Junk α) : Res (Option (Sp α)) := do
  let (r, _, W) ← spAddTo none alpha A beta B ta tb ⟨0, 0⟩ junk
  if r < 0 then pure none
  else do
    let (_, C, _) ← spAddTo (some (spNew A.rows A.cols (A.nnz + B.nnz) A.kind)) alpha A beta B ta tb (walloc W.bytes) junk
    pure C

/-! ## Products -/

/-- Rows of `X` selected by the row `i` of `Y`: the loop of `mult_csr_nn` and `mult_csc_nn` (`src/sparse/mult.c:46-51`, `167-170`). -/
def mulRow [Mul α] [Add α] (Y X : Sp α) (i : Nat) (acc : Accum α) : Res (Accum α) := do
  let p0 ← rd Y.ptr i
  let p1 ← rd Y.ptr (i + 1)
  let (_, acc) ← forUp p0 p1 1 (fun p acc => do
    let k ← rd Y.ix p
    let x ← rd Y.v p
    accScatter acc X k x i) acc
  pure acc

/-- Rows of `X` selected by the column `i` of `Y`, `Y` having `nb` rows: the loop of `mult_csr_tn` and `mult_csc_nt`
(`src/sparse/mult.c:104-109`, `222-227`). -/
def mulNz [Mul α] [Add α] (Y X : Sp α) (nb i : Nat) (acc : Accum α) : Res (Accum α) := do
  let (_, acc) ← forUp 0 nb 1 (fun j acc => do
    let p0 ← rd Y.ptr j
    let p1 ← rd Y.ptr (j + 1)
    match ← spNz Y i p1 (Y.nnz - p0) p0 with
    | none => pure acc
    | some p => do
      let x ← rd Y.v p
      accScatter acc X j x i) acc
  pure acc

/-- The loop of `mult_csr_tt` and `mult_csc_tt` (`src/sparse/mult.c:134-144`, `252-262`): for the first `nj` rows of `Y`, those elements whose
column `k` has an element `X[k,i]`. -/
def mulTT [Mul α] [Add α] (Y X : Sp α) (nj i : Nat) (acc : Accum α) : Res (Accum α) := do
  let (_, acc) ← forUp 0 nj 1 (fun j acc => do
    let q0 ← rd Y.ptr j
    let q1 ← rd Y.ptr (j + 1)
    let (_, acc) ← forUp q0 q1 1 (fun p1 acc => do
      let k ← rd Y.ix p1
      let p0 ← rd X.ptr k
      let pe ← rd X.ptr (k + 1)
      match ← spNz X i pe (X.nnz - p0) p0 with
      | none => pure acc
      | some p => do
        let x ← rd X.v p
        let y ← rd Y.v p1
        accAddpos acc j (x * y) i) acc
    pure acc) acc
  pure acc

/-- `mult_csr_nn` (`src/sparse/mult.c:33-59`): `alpha` is not used. -/
def multCsrNN [Mul α] [Add α] [One α] (C : Sp α) (_alpha : α) (A B : Sp α) (acc : Accum α) : Res (Sp α) :=
  accRows C A.rows A.rows 1 (fun i acc => mulRow A B i acc) acc

/-- `mult_csr_nt` (`src/sparse/mult.c:62-87`). -/
def multCsrNT [Mul α] [Add α] [Zero α] (C : Sp α) (alpha : α) (A B : Sp α) (acc : Accum α) : Res (Sp α) :=
  accRows C A.rows A.rows alpha (fun i acc => do
    let (_, acc) ← forUp 0 B.rows 1 (fun k acc => accDot acc k A i B k i) acc
    pure acc) acc

/-- `mult_csr_tn` (`src/sparse/mult.c:90-117`). -/
def multCsrTN [Mul α] [Add α] (C : Sp α) (alpha : α) (A B : Sp α) (acc : Accum α) : Res (Sp α) :=
  accRows C A.rows A.rows alpha (fun i acc => mulNz A B A.rows i acc) acc

/-- `mult_csr_tt` (`src/sparse/mult.c:120-151`). -/
def multCsrTT [Mul α] [Add α] (C : Sp α) (alpha : α) (A B : Sp α) (acc : Accum α) : Res (Sp α) :=
  accRows C C.rows A.rows alpha (fun i acc => mulTT B A C.cols i acc) acc

/-- `mult_csc_nn` (`src/sparse/mult.c:154-178`). -/
def multCscNN [Mul α] [Add α] (C : Sp α) (alpha : α) (A B : Sp α) (acc : Accum α) : Res (Sp α) :=
  accRows C B.cols B.cols alpha (fun i acc => mulRow B A i acc) acc

/-- `mult_csc_tn` (`src/sparse/mult.c:181-206`). -/
def multCscTN [Mul α] [Add α] [Zero α] (C : Sp α) (alpha : α) (A B : Sp α) (acc : Accum α) : Res (Sp α) :=
  accRows C B.cols B.cols alpha (fun i acc => do
    let (_, acc) ← forUp 0 A.cols 1 (fun k acc => accDot acc k A k B i i) acc
    pure acc) acc

/-- `mult_csc_nt` (`src/sparse/mult.c:209-235`). -/
def multCscNT [Mul α] [Add α] (C : Sp α) (alpha : α) (A B : Sp α) (acc : Accum α) : Res (Sp α) :=
  accRows C B.cols C.cols alpha (fun i acc => mulNz B A B.cols i acc) acc

/-- `mult_csc_tt` (`src/sparse/mult.c:238-269`). -/
def multCscTT [Mul α] [Add α] (C : Sp α) (alpha : α) (A B : Sp α) (acc : Accum α) : Res (Sp α) :=
  accRows C C.rows C.cols alpha (fun i acc => mulTT A B C.cols i acc) acc

/-- The switch of `armassp_multto_w` (`src/sparse/mult.c:360-386`). -/
def multSwitch [Mul α] [Add α] [Zero α] [One α] (C : Sp α) (alpha : α) (A B : Sp α) (ta tb : Bool) (acc : Accum α) : Res (Sp α) :=
  match ta, tb with
  | true, true => if C.kind = .csc then multCscTT C alpha A B acc else multCsrTT C alpha A B acc
  | false, true => if C.kind = .csc then multCscNT C alpha A B acc else multCsrNT C alpha A B acc
  | true, false => if C.kind = .csc then multCscTN C alpha A B acc else multCsrTN C alpha A B acc
  | false, false => if C.kind = .csc then multCscNN C alpha A B acc else multCsrNN C alpha A B acc

/-- The size test at the start of `armassp_multto_w` (`src/sparse/mult.c:311-332`). -/
def multOk (C A B : Sp α) (ta tb : Bool) : Prop :=
  (if ta then A.rows else A.cols) = (if tb then B.cols else B.rows) ∧
  C.rows = (if ta then A.cols else A.rows) ∧ C.cols = (if tb then B.rows else B.cols)

instance (C A B : Sp α) (ta tb : Bool) : Decidable (multOk C A B ta tb) := by unfold multOk; infer_instance

/-- `armassp_multto_w` (`src/sparse/mult.c:303-388`) with pointers that are not null.  The size of the workspace passed to `armas_accum_make`
is evaluated before (`early`) or after the reservation in the same argument list: C does not fix the order.  The estimate of the number of
elements divides by the number of columns of the result. -/
def spMultTo [Mul α] [Add α] [Zero α] [One α] (C : Sp α) (alpha : α) (A B : Sp α) (ta tb : Bool) (W : WBuf) (early : Bool) (junk : Junk α) :
    Res (Int × Sp α × WBuf) :=
  if ¬ multOk C A B ta tb then pure (-1, C, W)
  else if W.bytes = 0 then pure (0, C, { W with bytes := accNeed C })
  else if C.cols = 0 then .ub
  else if C.nbytes < spBytes C.rows C.cols (A.nnz * B.nnz / C.cols) C.kind then pure (-2, C, W)
  else if wbytes W < accNeed C then pure (-3, C, W)
  else
    match accMake (accDim C) (if early then wbytes W else wbytes (wreserveBytes W (accNeed C)).2) junk with
    | none => .ub
    | some acc => do
      let C' ← multSwitch C alpha A B ta tb acc
      pure (0, C', (wreserveBytes W (accNeed C)).2)

/-- `armassp_mult` (`src/sparse/mult.c:405-428`): only allocates the result.  `none` is the null pointer. -/
def spMult [Zero α] (A B : Sp α) : Res (Option (Sp α)) :=
  if A.kind ≠ B.kind ∨ A.kind = .coo then pure none
  else if A.cols = 0 then .ub
  else pure (some (spNew A.rows B.cols (A.nnz * B.nnz / A.cols) A.kind))

end Armas
