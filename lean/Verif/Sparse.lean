import Verif.Mem

/-!
# Sparse matrices: storage, conversion, sorting, copying

Model of `src/include/sparse.h`, `src/sparse/util.c`, `src/sparse/splocal.h`, `src/sparse/convert.c`, `src/sparse/sort.c` and
`src/sparse/copy.c`.

Simplifications:
* the arrays of one matrix (`elems.v`, `ptr`, `ix`; `elems.ep`) are separate memories although they lie in one block; an access outside
  an array is undefined behaviour even where it would land in the next array of the block;
* indices and counts are naturals (a negative index or count is outside every array);
* different matrices do not overlap; byte counts are those of double precision (`sizeof(DTYPE) = 8`, `sizeof(int) = 4`,
  `sizeof(coo_elem_t) = 16`); `int` does not overflow; `calloc` succeeds.
-/

namespace Armas

variable {α : Type}

/-- `armassp_type_enum` (`src/include/sparse.h:43-47`). -/
inductive SpKind where
  | csc | csr | coo
deriving DecidableEq

/-- `armas_sparse_t` (`src/include/sparse.h:59-74`), with `coo_elem_t` (`src/include/sparse.h:50-54`) as `(i, j, val)`.
`vlen` is the distance from `elems.v` to `ptr`, `plen` that from `ptr` to `ix`. -/
structure Sp (α : Type) where
  kind : SpKind
  rows : Nat
  cols : Nat
  nnz : Nat
  nptr : Nat
  size : Nat
  nbytes : Nat
  vlen : Nat
  plen : Nat
  v : Mem α
  ptr : Mem Nat
  ix : Mem Nat
  ep : Mem (Nat × Nat × α)

/-- `__align64` (`src/include/armas.h:551`). -/
def align8 (n : Nat) : Nat := (n + 7) / 8 * 8

/-- `armassp_bytes_needed` (`src/include/sparse.h:170-178`). -/
def spBytes (rows cols nnz : Nat) (kind : SpKind) : Nat :=
  match kind with
  | .coo => nnz * 16
  | .csr => align8 (nnz * 8 + 4 * (nnz + rows + 1))
  | .csc => align8 (nnz * 8 + 4 * (nnz + cols + 1))

/-- An array of `n` zeroed elements. -/
def zeros {β : Type} (z : β) (n : Nat) : Mem β := fun p => if p < n then some z else none

/-- No memory (null pointer). -/
def noMem {β : Type} : Mem β := fun _ => none

/-- Number of row or column pointers of a compressed matrix: `rows` for compressed rows, `cols` otherwise. -/
def spMajor (kind : SpKind) (rows cols : Nat) : Nat := if kind = .csr then rows else cols

/-- `armassp_make` (`src/sparse/util.c:54-81`) on a zeroed block of sufficient size, as called from `armassp_init`. -/
def spMake [Zero α] (rows cols nnz : Nat) (kind : SpKind) : Sp α :=
  match kind with
  | .coo => ⟨kind, rows, cols, 0, 0, nnz, spBytes rows cols nnz kind, 0, 0, noMem, noMem, noMem, zeros (0, 0, 0) nnz⟩
  | _ => ⟨kind, rows, cols, 0, spMajor kind rows cols, nnz, spBytes rows cols nnz kind, nnz, spMajor kind rows cols + 1,
      zeros 0 nnz, zeros 0 (spMajor kind rows cols + 1), zeros 0 nnz, noMem⟩

/-- `armassp_new` (`src/sparse/util.c:114-122`) with `armassp_init` (`src/sparse/util.c:99-112`) and `armassp_clear`
(`src/include/sparse.h:319-325`): a matrix without rows, columns or elements has no storage (`kind` stays zero, that is
`ARMASSP_CSC`). -/
def spNew [Zero α] (rows cols nnz : Nat) (kind : SpKind) : Sp α :=
  if rows = 0 ∨ cols = 0 ∨ nnz = 0 then ⟨.csc, 0, 0, 0, 0, 0, 0, 0, 0, noMem, noMem, noMem, noMem⟩
  else spMake rows cols nnz kind

/-! ## Conversion -/

/-- Zero the pointers: first loop of `csr_to_csc`, `csc_to_csr` (`src/sparse/convert.c:40-41`, `89-90`). -/
def ptrZero (n : Nat) (ptr : Mem Nat) : Res (Mem Nat) := do
  let (_, ptr) ← forUp 0 n 1 (fun i ptr => wr ptr i 0) ptr
  pure ptr

/-- Count the occurrences of the indices `key(0) ... key(N-1)`: second loop of `csr_to_csc` and `csc_to_csr`
(`src/sparse/convert.c:44-46`, `93-95`), first loop of `csc_convert` and `csr_convert` (`src/sparse/convert.c:138-140`, `177-179`). -/
def ptrCount (N : Nat) (key : Nat → Res Nat) (ptr : Mem Nat) : Res (Mem Nat) := do
  let (_, ptr) ← forUp 0 N 1 (fun k ptr => do
    let c ← key k
    let t ← rd ptr c
    wr ptr c (t + 1)) ptr
  pure ptr

/-- Cumulative sums over the first `n` pointers (`src/sparse/convert.c:48-53`, `97-102`, `142-147`, `181-186`). -/
def ptrSum (n : Nat) (ptr : Mem Nat) : Res (Mem Nat × Nat) := do
  let (_, ptr, csum) ← forUp 0 n 1 (fun i (st : Mem Nat × Nat) => do
    let t ← rd st.1 i
    let ptr ← wr st.1 i st.2
    pure (ptr, st.2 + t)) (ptr, 0)
  pure (ptr, csum)

/-- Store one entry at the next free place of its row or column (`src/sparse/convert.c:60-63`, `109-112`, `150-155`, `189-194`). -/
def ptrPlace (key idx : Nat) (val : α) (st : Mem Nat × Mem Nat × Mem α) : Res (Mem Nat × Mem Nat × Mem α) := do
  let q ← rd st.1 key
  let ix ← wr st.2.1 q idx
  let v ← wr st.2.2 q val
  let ptr ← wr st.1 key (q + 1)
  pure (ptr, ix, v)

/-- Restore the pointers (`src/sparse/convert.c:67-72`, `116-121`, `158-163`, `197-202`). -/
def ptrRestore (n : Nat) (ptr : Mem Nat) : Res (Mem Nat) := do
  let (_, ptr, _) ← forUp 0 n 1 (fun i (st : Mem Nat × Nat) => do
    let t ← rd st.1 i
    let ptr ← wr st.1 i st.2
    pure (ptr, t)) (ptr, 0)
  pure ptr

/-- The double loop over the entries of a compressed matrix (`src/sparse/convert.c:57-65`, `106-114`). -/
def placeAll (nb : Nat) (B : Sp α) (st : Mem Nat × Mem Nat × Mem α) : Res (Mem Nat × Mem Nat × Mem α) := do
  let (_, st) ← forUp 0 nb 1 (fun k st => do
    let p0 ← rd B.ptr k
    let p1 ← rd B.ptr (k + 1)
    let (_, st) ← forUp p0 p1 1 (fun p st => do
      let c ← rd B.ix p
      let x ← rd B.v p
      ptrPlace c k x st) st
    pure st) st
  pure st

/-- Common text of `csr_to_csc` and `csc_to_csr`: `na` pointers in the result, `nb` in the source.  The end of a row or column is
read once (`B` is not written). -/
def recompress (na nb : Nat) (A B : Sp α) : Res (Mem Nat × Mem Nat × Mem α) := do
  let ptr ← ptrZero na A.ptr
  let ptr ← ptrCount B.nnz (fun k => rd B.ix k) ptr
  let (ptr, csum) ← ptrSum na ptr
  let ptr ← wr ptr na csum
  let (ptr, ix, v) ← placeAll nb B (ptr, A.ix, A.v)
  let ptr ← ptrRestore na ptr
  let ptr ← wr ptr na B.nnz
  pure (ptr, ix, v)

/-- `csr_to_csc` (`src/sparse/convert.c:34-78`). -/
def csrToCsc (A B : Sp α) : Res (Sp α) := do
  let (ptr, ix, v) ← recompress A.cols B.rows A B
  pure { A with ptr := ptr, ix := ix, v := v, nptr := A.cols, nnz := B.nnz, kind := .csc }

/-- `csc_to_csr` (`src/sparse/convert.c:83-127`). -/
def cscToCsr (A B : Sp α) : Res (Sp α) := do
  let (ptr, ix, v) ← recompress A.rows B.cols A B
  pure { A with ptr := ptr, ix := ix, v := v, nptr := A.rows, nnz := B.nnz, kind := .csr }

/-- Common text of `csc_convert` and `csr_convert`: `key` chooses the column or row of a coordinate element, `idx` the other index;
`n` is `B->cols` or `B->rows`, `na` is `A->cols` or `A->rows`.  The pointers are not zeroed first. `require` is `assert`, modelled as
undefined behaviour when it fails. -/
def cooPlace (key idx : Nat × Nat × α → Nat) (n na : Nat) (A B : Sp α) : Res (Mem Nat × Mem Nat × Mem α) := do
  let ptr ← ptrCount B.nnz (fun k => do let e ← rd B.ep k; pure (key e)) A.ptr
  let (ptr, _) ← ptrSum (n + 1) ptr
  let t ← rd ptr n
  if t ≠ B.nnz then .ub
  else do
    let (_, ptr, ix, v) ← forUp 0 B.nnz 1 (fun k st => do
      let e ← rd B.ep k
      ptrPlace (key e) (idx e) e.2.2 st) (ptr, A.ix, A.v)
    let ptr ← ptrRestore na ptr
    pure (ptr, ix, v)

/-- `csc_convert` (`src/sparse/convert.c:130-167`). -/
def cscConvert (A B : Sp α) : Res (Sp α) := do
  let (ptr, ix, v) ← cooPlace (fun e => e.2.1) (fun e => e.1) B.cols A.cols A B
  pure { A with ptr := ptr, ix := ix, v := v, nnz := B.nnz, nptr := B.cols, kind := .csc }

/-- `csr_convert` (`src/sparse/convert.c:169-206`). -/
def csrConvert (A B : Sp α) : Res (Sp α) := do
  let (ptr, ix, v) ← cooPlace (fun e => e.1) (fun e => e.2.1) B.rows A.rows A B
  pure { A with ptr := ptr, ix := ix, v := v, nnz := B.nnz, nptr := B.rows, kind := .csr }

/-! ## Sorting -/

/-- Inner loop of `simple_sort` (`src/sparse/sort.c:64-71`) from position `j` down, in the part of the arrays starting at `o`. -/
def sortIns (o : Nat) : Nat → Mem Nat × Mem α → Res (Mem Nat × Mem α)
  | 0, st => pure st
  | j + 1, st => do
    let x ← rd st.1 (o + (j + 1))
    let y ← rd st.1 (o + j)
    if x < y then do
      let ex ← rd st.2 (o + (j + 1))
      let ix ← wr st.1 (o + (j + 1)) y
      let ey ← rd st.2 (o + j)
      let v ← wr st.2 (o + (j + 1)) ey
      let ix ← wr ix (o + j) x
      let v ← wr v (o + j) ex
      sortIns o j (ix, v)
    else pure st

/-- `simple_sort` (`src/sparse/sort.c:57-73`) of the `n` elements from `o`. -/
def simpleSort (o n : Nat) (st : Mem Nat × Mem α) : Res (Mem Nat × Mem α) := do
  let (_, st) ← forUp 1 n 1 (fun k st => sortIns o k st) st
  pure st

/-- `compressed_sort` (`src/sparse/sort.c:75-84`). -/
def compressedSort (A : Sp α) : Res (Sp α) := do
  let (_, st) ← forUp 0 A.nptr 1 (fun k st => do
    let p0 ← rd A.ptr k
    let p1 ← rd A.ptr (k + 1)
    simpleSort p0 (p1 - p0) st) (A.ix, A.v)
  pure { A with ix := st.1, v := st.2 }

/-- `armassp_sort` (`src/sparse/sort.c:128-134`): result code and matrix. -/
def spSort (A : Sp α) : Res (Int × Sp α) :=
  if A.kind = .coo then pure (-1, A)
  else do
    let A ← compressedSort A
    pure (0, A)

/-! ## Drivers -/

/-- `armassp_test_alloc` and `armassp_test_structure` (`src/sparse/splocal.h:111-128`). -/
def spFits (A : Sp α) (rows cols nnz : Nat) (kind : SpKind) : Bool :=
  spBytes rows cols nnz kind ≤ A.nbytes ∧ spMajor kind rows cols + 1 = A.plen ∧ nnz = A.vlen

/-- `armassp_convert_to` (`src/sparse/convert.c:223-265`); `none` is the null pointer, returned before anything is written.  The
arguments are not null.  `armassp_init_arrays` (`src/sparse/splocal.h:146-155`) sets `ptr` and `ix` to where `armassp_test_structure`
found them. -/
def convertTo (A B : Sp α) (target : SpKind) : Res (Option (Sp α)) :=
  if target = .coo then pure none
  else if ¬ spFits A B.rows B.cols B.nnz target then pure none
  else
    let A := { A with nptr := spMajor target B.rows B.cols }
    match B.kind with
    | .coo => do
      let A ← if target = .csr then csrConvert A B else cscConvert A B
      let (_, A) ← spSort A
      pure (some A)
    | .csc => do
      let A ← if target = .csr then cscToCsr A B else pure A
      pure (some A)
    | .csr => do
      let A ← if target = .csc then csrToCsc A B else pure A
      pure (some A)

/-- `armassp_convert` (`src/sparse/convert.c:279-284`). -/
def convert [Zero α] (B : Sp α) (target : SpKind) : Res (Option (Sp α)) :=
  convertTo (spNew B.rows B.cols B.nnz target) B target

/-- `armassp_transpose_to` (`src/sparse/convert.c:298-319`). -/
def transposeTo (A B : Sp α) : Res (Option (Sp α)) :=
  if B.kind = .coo then pure none
  else do
    let r ← convertTo A B (if B.kind = .csc then .csr else .csc)
    match r with
    | none => pure none
    | some A => pure (some { A with rows := B.cols, cols := B.rows, kind := B.kind })

/-- `armassp_transpose` (`src/sparse/convert.c:321-327`). -/
def transpose [Zero α] (B : Sp α) : Res (Option (Sp α)) :=
  transposeTo (spNew B.rows B.cols B.nnz (if B.kind = .csc then .csr else .csc)) B

/-- Copy `n` elements, as the loops of `armassp_copy_to` do. -/
def copyArr {β : Type} (n : Nat) (src dst : Mem β) : Res (Mem β) := do
  let (_, dst) ← forUp 0 n 1 (fun k dst => do
    let x ← rd src k
    wr dst k x) dst
  pure dst

/-- `armassp_copy_to` (`src/sparse/copy.c:30-63`).  The values and the indices are copied in one loop there, in two here. -/
def copyTo (A B : Sp α) : Res (Option (Sp α)) :=
  if A.nbytes < spBytes B.rows B.cols B.nnz B.kind then pure none
  else match B.kind with
    | .coo => do
      let ep ← copyArr B.nnz B.ep A.ep
      pure (some { A with ep := ep })
    | _ => do
      let v ← copyArr B.nnz B.v A.v
      let ix ← copyArr B.nnz B.ix A.ix
      let ptr ← copyArr (B.nptr + 1) B.ptr A.ptr
      pure (some { A with v := v, ix := ix, ptr := ptr, nptr := B.nptr, nnz := B.nnz })

/-- `armassp_mkcopy` (`src/sparse/copy.c:70-74`). -/
def mkcopy [Zero α] (B : Sp α) : Res (Option (Sp α)) := copyTo (spNew B.rows B.cols B.nnz B.kind) B

end Armas
