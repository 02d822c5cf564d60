# Formal verification of armas: design

Source: `/repo` (C library, read as text only; never built or run here).
Proofs: Lean 4.33.0 + Mathlib, `/verif/lean`.  Properties: `/verif/properties.jsonl`.
Status per property: `/verif/MANIFEST.json`.  Mutation log: `/verif/seeded/LOG.jsonl`.

## 1. Trusted base

* The Lean 4 kernel.  Every property theorem is meant to depend on no axioms besides
  `propext`, `Classical.choice`, `Quot.sound` (checked with `#print axioms`; see section 6).
  No own axioms, no `sorry`, no `native_decide`, no `bv_decide`.
* The hand translation from C to Lean.  Each Lean definition cites file and lines and says
  where it simplifies.
* **Numbers.** Elements are values of an arbitrary commutative ring / field / ordered field / ℝ
  (stated per theorem): exact arithmetic. Rounding, overflow to infinity and NaN are not modelled,
  except in C56 (rounding to nearest with unbounded exponent).
  Division by zero in algorithms over a field is excluded by hypotheses or made visible.
  Sizes, strides and indices are unbounded naturals or integers (no `int` wrap-around) unless a
  theorem is about wrap-around.
* **Memory.** One flat array of cells `Nat → Option α`: `none` = not allocated. Reading or writing
  an unallocated cell is the distinct outcome `Res.ub`; a loop or recursion that makes no
  progress is the distinct outcome `Res.diverge`. So "in bounds" and "terminates" are part of
  every statement of the form `f … = Res.ok …`. Type punning, alignment, `free` and the C object
  model are not modelled.
* **Concurrency.** State machines with interleaving of atomic steps (mutex protected sections and
  atomic compare-and-swap are one step). Memory-model effects weaker than sequential consistency are
  not modelled.
* **External calls.** `sqrt`, `qsort`, `printf`/`scanf` number conversion, `calloc` are parameters
  with the properties used stated as hypotheses.
* **Not modelled:** the SIMD kernels (`src/include/x86_64`, …) – the portable `nosimd` versions are modelled; the extended-precision
  matrix operations (`src/eblas`, apart from the error-free transformations); the accelerator interface; eigenvalue and SVD
  drivers, `compat`, random numbers; complex element types (CONJ flags); the `ABS` flag variants unless stated; the creation and
  joining of threads by the operating system. `ARMAS_WITH_CHECKS` (`require`) is off, as in the default build.

## 2. Model layout (`lean/Verif`)

Model files and the sources they translate (every definition cites lines):

| Module | Content | Sources cited |
|---|---|---|
| `Apply` | Element wise operators, norms of matrices, dense copies of sparse matrices | `blas/mapply.c`, `blas/mnorm.c`, `sparse/dense.c` |
| `BdMult` | Model of `src/lapack/biredm.c` and `src/lapack/bibld.c` | `lapack/bibld.c`, `lapack/biredm.c` |
| `Bired` | Model of the unblocked part of `src/lapack/bired.c` | `lapack/bired.c` |
| `Blas1` | BLAS level 1 | `blas/asum.c`, `blas/axpy.c`, `blas/dot.c`, `blas/iamax.c`, `blas/mcopy.c`, `blas/mscale.c`, `blas/nrm2.c`, `blas/swap.c`, `include/armas.h`, `include/matcpy.h` |
| `Blas2` | BLAS level 2 | `base/env.c`, `blas/dot.c`, `blas/gemv.c`, `blas/ger.c`, `blas/mscale.c`, `blas/symv.c`, `blas/syr.c`, `blas/syr2.c`, `blas/trmv.c`, `blas/trsv.c`, `blas/updtrmv.c`, `include/armas.h`, `include/nosimd/mvec.h`, `include/partition.h` |
| `Blocks` | Splitting work into blocks | `include/accel.h`, `threaded/entry.c`, `threaded/gemm.c`, `workers/gemm.c`, `workers/workers.h` |
| `Cache` | Model of the run-time configuration and of the cache buffer | `base/cache.c`, `base/env.c`, `blas/gemm.c`, `include/armas.h` |
| `Chol` | Model of `src/lapack/chol.c` | `include/partition.h`, `lapack/chol.c`, `lapack/cholpv.c` |
| `CholPv` | Model of `src/lapack/cholpv.c` | `base/pivot.c`, `lapack/cholpv.c`, `lapack/sym.h` |
| `CholPvBlk` | Model of the blocked functions of `src/lapack/cholpv.c` | `lapack/cholpv.c` |
| `CholUpd` | Rank-one update of a Cholesky factor | `lapack/cholupd.c`, `lapack/givens.c`, `lapack/gvrot.h`, `lapack/rotate.c` |
| `Compat` | Model of the BLAS compatibility layer, level 1 (`src/compat/{axpy,copy,dot,swap,rot,scal,asum,nrm2,iamax}.c`) | `compat/asum.c`, `compat/axpy.c`, `compat/copy.c`, `compat/dot.c`, `compat/iamax.c`, `compat/nrm2.c`, `compat/rot.c`, `compat/scal.c`, `compat/swap.c`, `include/float64/names_compat.h` |
| `Compat2` | Model of the BLAS compatibility layer, levels 2 and 3 (`src/compat/{gemv,symv,trmv,trsv,ger,syr,syr2,gemm,symm,syrk,syr2k,trmm,trsm}.c`) | `compat/gemm.c`, `compat/gemv.c`, `compat/ger.c`, `compat/symm.c`, `compat/symv.c`, `compat/syr.c`, `compat/syr2.c`, `compat/syr2k.c`, `compat/syrk.c`, `compat/trmm.c`, `compat/trmv.c`, `compat/trsm.c`, `compat/trsv.c`, `include/compat.h`, `include/float64/names_compat.h` |
| `EBlas` | Model of the extended-precision vector functions (`src/eblas/{dot,asum,axpy}_ext.c`) | `eblas/asum_ext.c`, `eblas/axpy_ext.c`, `eblas/dot_ext.c`, `eblas/gemv_ext.c`, `eblas/ger_ext.c`, `include/matrix.h` |
| `ESym` | Model of the extended-precision triangular and symmetric matrix-vector functions | `eblas/symv_ext.c`, `eblas/syr2_ext.c`, `eblas/syr_ext.c`, `eblas/trmv_ext.c` |
| `ETrsv` | Model of the extended-precision triangular solve (`src/eblas/trsv_ext.c`) | `eblas/trsv_ext.c`, `include/armas.h` |
| `Eft` | Model of the error-free transformations (`src/include/eft.h`, `src/include/x86_64/eftops.h`) | `include/eft.h`, `include/x86_64/eftops.h` |
| `Givens` | Plane rotations | `lapack/givens.c` |
| `Hess` | Model of the unblocked part of `src/lapack/hess.c` | `lapack/hess.c`, `lapack/house.c` |
| `HessMult` | Model of `src/lapack/hessm.c` | `lapack/hessm.c` |
| `House` | Householder reflectors and unblocked QR factorization | `lapack/house.c`, `lapack/qr.c` |
| `Housem` | Model of `src/lapack/housem.c` | `lapack/housem.c` |
| `Inv` | Model of `src/lapack/invtrm.c` | `include/partition.h`, `lapack/invtrm.c` |
| `Json` | JSON tokens and matrices (src/io) | `base/matrix.c`, `include/armas.h`, `include/matrix.h`, `io/ios.c`, `io/json_base.c`, `io/json_reader.c`, `io/json_writer.c` |
| `JsonExact` |  | `io/json_reader.c` |
| `Kernel` | Model of the matrix-matrix multiplication kernels | `blas/gemm.c`, `blas/kernel.c`, `include/armas.h`, `include/internal.h`, `include/kernel.h`, `include/matcpy.h`, `include/nosimd/mult.h` |
| `Ldl` | Model of `src/lapack/ldl.c` | `include/matrix.h`, `include/partition.h`, `lapack/ldl.c`, `lapack/ldl.h`, `lapack/ldlpv.c` |
| `Lq` | Model of `src/lapack/lq.c` | `lapack/lq.c` |
| `LqBuild` | Model of `src/lapack/lqbld.c` | `lapack/lqbld.c` |
| `LqMult` | Model of `src/lapack/lqmult.c` | `lapack/lqmult.c` |
| `LqSolve` | Model of `src/lapack/lqsolve.c` | `include/armas.h`, `lapack/lqmult.c`, `lapack/lqsolve.c` |
| `Lu` | Model of `src/lapack/lu.c` | `include/partition.h`, `include/pivot.h`, `lapack/lu.c` |
| `LuInv` | Model of `src/lapack/inv.c` | `include/armas.h`, `include/partition.h`, `lapack/inv.c`, `lapack/invspd.c` |
| `MatOps` | Element-wise matrix operations | `base/matrix.c`, `blas/madd.c`, `blas/mplus.c`, `blas/mscale.c`, `blas/mset.c`, `include/matrix.h`, `lapack/diag.c` |
| `Mem` | Outcomes, memory, C loops, matrix views | `include/matrix.h` |
| `Mm` | Dense MatrixMarket files (src/io/iomm.c), real element types | `include/armas.h`, `io/iomm.c` |
| `ParBlocks` | One thread for each block of the target | `blas/symm.c`, `blas/trmm.c`, `blas/trsm.c`, `threaded/gemm.c`, `threaded/symm.c`, `threaded/trmm.c`, `threaded/trsm.c` |
| `Pivot` | Pivot vectors | `base/pivot.c`, `include/armas.h` |
| `Pool` | Worker pool (`src/workers/workers.c`, `scheduler.h`) | `workers/workers.c` |
| `Ql` | Model of the unblocked part of `src/lapack/ql.c` | `lapack/ql.c` |
| `QlBuild` | Model of the unblocked part of `src/lapack/qlbld.c` | `include/matrix.h`, `lapack/qlbld.c` |
| `QlMult` | Model of the unblocked part of `src/lapack/qlmult.c` | `lapack/qlmult.c` |
| `Qr` | Model of the blocked part of `src/lapack/qr.c` | `lapack/qr.c` |
| `QrBuild` | Model of `src/lapack/qrbld.c` | `lapack/qrbld.c` |
| `QrMult` | Model of `src/lapack/qrmult.c` | `lapack/qrmult.c` |
| `QrSolve` | Model of `src/lapack/qrsolve.c` | `lapack/qrsolve.c` |
| `Qrt` | Model of `src/lapack/qrt.c` | `lapack/qrt.c` |
| `QrtWitness` | Lemmas for the counterexamples about `src/lapack/qrt.c` | `lapack/qrt.c` |
| `Queue` | The task queue (`src/workers/queue.h`) | `workers/queue.h` |
| `Rbt` | Model of `src/lapack/rbtgm.c` and `src/lapack/rbtgu.c` (random butterfly transformations) | `lapack/rbtgm.c`, `lapack/rbtgu.c` |
| `RbtSpec` | Random butterfly matrices | `lapack/rbtgm.c` |
| `Rq` | Model of the unblocked parts of `src/lapack/rq.c` and `src/lapack/rqmult.c` | `lapack/rq.c`, `lapack/rqmult.c` |
| `RqBuild` | Model of the unblocked part of `src/lapack/rqbld.c` | `include/matrix.h`, `lapack/rqbld.c` |
| `Small` | Model of the 2x2 functions (`src/lapack/aux.c`, `src/lapack/qdroot.c`, `src/lapack/auxiliary.h`) | `include/float64/names_base.h`, `lapack/aux.c`, `lapack/auxiliary.h`, `lapack/bdsvd_gr.c`, `lapack/evd.c`, `lapack/qdroot.c` |
| `Sort` | Sorting of vectors | `include/matrix.h`, `lapack/qsort.c`, `lapack/sort.c` |
| `SpUtil` | Sparse matrices: growing a coordinate list, test for a stored diagonal | `sparse/util.c` |
| `Sparse` | Sparse matrices: storage, conversion, sorting, copying | `include/armas.h`, `include/sparse.h`, `sparse/convert.c`, `sparse/copy.c`, `sparse/sort.c`, `sparse/splocal.h`, `sparse/util.c` |
| `SparseAdd` | Sparse accumulator, sum and product of sparse matrices | `include/armas.h`, `include/sparse.h`, `sparse/accum.c`, `sparse/add.c`, `sparse/mult.c` |
| `SparseCg` | Conjugate gradient methods | `include/armas.h`, `sparse/cgne.c`, `sparse/cgnr.c`, `sparse/cgrad.c`, `sparse/pcgrad.c` |
| `SparseIchol` | Incomplete Cholesky factorization | `sparse/icholz.c` |
| `SparseMv` | Sparse matrix times vector, triangular solve, incomplete LU | `include/sparse.h`, `sparse/gemv.c`, `sparse/iluz.c`, `sparse/trsv.c` |
| `SparseSym` | Symmetric sparse matrix times vector | `sparse/symv.c` |
| `SparseTrmv` | Triangular sparse matrix times vector | `sparse/trmv.c` |
| `SpdInv` | Model of `src/lapack/invspd.c` | `include/partition.h`, `lapack/invspd.c` |
| `Symm` | Symmetric matrix-matrix multiplication | `blas/symm.c`, `include/matcpy.h` |
| `Syr2k` | Symmetric rank-2k update | `blas/syr2k.c` |
| `Threaded` | Thread-per-block drivers (`src/threaded/gemm.c`, `symm.c`, `trmm.c`, `trsm.c`) | `threaded/gemm.c` |
| `Trd` | Model of the unblocked lower part of `src/lapack/trired.c` | `include/matrix.h`, `lapack/house.c`, `lapack/trired.c` |
| `TrdMult` | Model of the lower part of `src/lapack/triredm.c` and `src/lapack/tribld.c` | `lapack/tribld.c`, `lapack/triredm.c` |
| `Trxm` | Triangular matrix-matrix multiply and solve | `blas/trmm.c`, `blas/trmm_blk.c`, `blas/trmm_rec.c`, `blas/trmm_unb.c`, `blas/trsm.c`, `blas/trsm_blk.c`, `blas/trsm_rec.c`, `blas/trsm_unb.c` |
| `Updtrm` | Triangular and symmetric rank-k updates | `blas/syrk.c`, `blas/updtrmm.c` |
| `Views` | Matrix views and block partitioning | `include/internal.h`, `include/matrix.h`, `include/partition.h`, `lapack/chol.c`, `lapack/ldl.c` |
| `Workspace` | Workspace buffers | `include/armas.h` |

Helper lemmas, logic and specifications (no code translated): `ApplyLemmas`, `BdBuildLemmas`, `BdMultLemmas`, `BiredLemmas`, `BiredSpec`, `BiredStep`, `Blas1Lemmas`, `CacheLemmas`, `CgLemmas`, `CgLoops`, `CgSolve`, `CgSolve2`, `CgTheory`, `CholLemmas`, `CholPvBlkLemmas`, `CholPvLemmas`, `CholUpdLemmas`, `CompatLemmas`, `Demo`, `EBlasFast`, `EBlasLemmas`, `EBlasVec`, `ESymLemmas`, `ESymRun`, `ETrsvLemmas`, `ETrsvRun`, `EftDiv`, `EftLemmas`, `EftProd`, `GemmLemmas`, `GemvLemmas`, `GemvReal`, `GerLemmas`, `GivensLemmas`, `HessLemmas`, `HessMultLemmas`, `HessSpec`, `HouseLemmas`, `HousemLemmas`, `HousemVec`, `Interleave`, `InvLemmas`, `JsonLemmas`, `JsonMat`, `JsonRead`, `KernelLemmas`, `KernelReal`, `LapackLemmas`, `LdlLemmas`, `Logic`, `LqBlkLemmas`, `LqBuildLemmas`, `LqFacLemmas`, `LqLemmas`, `LqMultLemmas`, `LuInvLemmas`, `LuLemmas`, `LuNopivLemmas`, `MatOpsLemmas`, `MmLemmas`, `MsetLemmas`, `PivotLemmas`, `PivotSortLemmas`, `PosDef`, `QlBuildLemmas`, `QlFlip`, `QlLemmas`, `QlMultLemmas`, `QlSpec`, `QrBlkLemmas`, `QrBuildLemmas`, `QrFacLemmas`, `QrLemmas`, `QrMultLemmas`, `QrSolveLemmas`, `QrSpec`, `QrtLemmas`, `Rbt2Lemmas`, `RbtLemmas`, `Real`, `RqBuildLemmas`, `RqLemmas`, `RqMultLemmas`, `Schur`, `SmallLemmas`, `SortLemmas`, `SparseAddLemmas`, `SparseAddRows`, `SparseIcholLemmas`, `SparseIlu`, `SparseLemmas`, `SparseMvLemmas`, `SparseSolve`, `SparseSort`, `SparseSpec`, `SparseSymLemmas`, `SparseTrmvLemmas`, `SpdInvLemmas`, `SymmLemmas`, `SymmReal`, `SymvLemmas`, `Syr2kLemmas`, `TrdLemmas`, `TrdMultLemmas`, `TrdSpec`, `Tri`, `TriInv`, `TrmvLemmas`, `TrsmLemmas`, `TrsvLemmas`, `TrxmLemmas`, `TrxmNever`, `TrxmReal`, `UpdtrmLemmas`, `While`.

Property theorems: `Props/Apply` (C77, C78, C79), `Props/BdBuild` (C116), `Props/BdMult` (C115), `Props/Bired` (C114), `Props/Blas1` (C05, C06, C07, C08, C09), `Props/Blas2` (C10, C11, C12, C13, C14, C15), `Props/Blocks` (C26), `Props/Cache` (C25), `Props/Chol` (C44), `Props/CholPv` (C100, C101), `Props/CholPvBlk` (C100), `Props/CholUpd` (C54), `Props/Compat` (C68), `Props/Compat2` (C69), `Props/Compat3` (C70), `Props/EBlas` (C82, C83, C84, C85), `Props/ESym` (C88, C89, C90), `Props/ETrsv` (C87), `Props/Eft` (C56), `Props/Gemm` (C16, C17), `Props/Givens` (C50), `Props/Hess` (C109), `Props/HessMult` (C110), `Props/House` (C55), `Props/Housem` (C123), `Props/Inv` (C59), `Props/Json` (C34, C35, C36), `Props/Ldl` (C47), `Props/Lq` (C91, C92, C93), `Props/LqBuild` (C95), `Props/LqMult` (C94), `Props/LqSolve` (C96), `Props/Lu` (C45, C46), `Props/LuInv` (C60), `Props/MatOps` (C51, C52, C53), `Props/Mm` (C37), `Props/Mset` (C48, C58), `Props/Par` (C27), `Props/ParSide` (C27), `Props/Pivot` (C23, C24), `Props/Pool` (C30), `Props/Ql` (C117), `Props/QlBuild` (C119), `Props/QlMult` (C118), `Props/Qr` (C62, C63, C64), `Props/QrBuild` (C66), `Props/QrMult` (C65), `Props/QrSolve` (C67), `Props/Qrt` (C86), `Props/Queue` (C28, C29), `Props/Rbt` (C97, C98, C99), `Props/Rq` (C120), `Props/RqBuild` (C122), `Props/RqMult` (C121), `Props/Small` (C102, C103, C104, C105, C106), `Props/Sort` (C49), `Props/SpUtil` (C107, C108), `Props/Sparse` (C38, C39), `Props/SparseAdd` (C42), `Props/SparseCg` (C72, C73, C74, C75), `Props/SparseIchol` (C80, C81), `Props/SparseIlu` (C43), `Props/SparseMv` (C40, C41, C43), `Props/SparseSym` (C71), `Props/SparseTrmv` (C76), `Props/SpdInv` (C61), `Props/Stop` (C32, C33), `Props/Symm` (C20), `Props/Syr2k` (C22), `Props/Threaded` (C57), `Props/Transient` (C31), `Props/Trd` (C111), `Props/TrdMult` (C112, C113), `Props/Trxm` (C18, C19), `Props/Updtrm` (C21), `Props/Views` (C01, C02, C03), `Props/Workspace` (C04).

Assertions used in statements (the *specification language*, independent of the algorithms):
`Holds m V a` – view `V` is allocated in memory `m` and holds the matrix `a : Nat → Nat → α`;
`HoldsV m x f` – the same for a vector; `Frame m m' S` – `m'` equals `m` outside of the cell set `S`;
mathematical results are written with `Finset.sum`, not with model helpers.

## 3. Plan per property

* **C01** Matrix views address exactly the intended elements of the parent. View arithmetic as functions on (base, step, rows, cols); algebraic laws, injectivity, frame of a write.
  *Outcome:* proved. Submatrix, row, column, diagonal and subvector views, nesting to any depth, reads and writes through views; exact element identity, containment, distinctness, frame.
* **C02** Block partitioning tiles a matrix exactly. Partition functions as functions on views; tiling theorem, traversal induction. Expected finding: bottom-left block in backward continue.
  *Outcome:* partial. All splits, repartitions and traversals proved for both directions, except that the bottom-left block of the backward continue step is wrong in the code (partition.h:492): C02_continue_bwd_false proves the negation, C02_continue_bwd_partial the other three blocks.
* **C03** Linear element indexing enumerates the matrix in column order. Index functions; bijection by div/mod.
  *Outcome:* proved. Linear index = column order, all strides and negative indices; bijection; write/read law and frame.
* **C04** Workspace reservations never overlap and never exceed the buffer. State machine of the workspace; invariant by induction over histories.
  *Outcome:* partial. Every reservation history with unwrapped byte counts hands out disjoint in-bounds ranges; save/restore proved. count*size can wrap (C04_reserve_overflow_false) and reservations are not aligned (C04_reserve_unaligned).
* **C05** Matrix copy and transposed copy are exact and touch nothing else. Copy loops on flat memory; post-state + frame.
  *Outcome:* proved. armas_mcopy plain, transposed and between vectors, armas_copy; all sizes, strides, remainders; error cases leave memory unchanged.
* **C06** Vector update y = beta*y + alpha*x. Unrolled loops on flat memory; post-state + frame.
  *Outcome:* proved. axpby (also with x and y the same vector), axpy, scale; all lengths, strides, orientations; error cases.
* **C07** Inner product is the exact sum, independent of recursion threshold and orientation. Recursive function with threshold; equals Finset sum.
  *Outcome:* proved. adot and dot equal the exact sum for every threshold, option, stride and orientation, with the recursion depth bounded; error cases.
* **C08** Norm-like reductions: asum, nrm2, iamax, amax. Reductions over an ordered field / reals.
  *Outcome:* partial. asum (naive, Kahan, recursive), nrm2 over the reals, iamax (first maximal index), amax proved. iamin is wrong on row vectors of stride > 1 (C08_iamin_row_false); C08_iamin_partial covers adjacent elements. asum needs a positive threshold (C08_asum_threshold_zero_diverges).
* **C09** armas_swap exchanges two vectors and is an involution. Loop on flat memory; involution.
  *Outcome:* proved. swap exchanges, is an involution on the whole memory, rejects bad operands without change.
* **C10** Matrix-vector product. gemv unblocked + recursive over flat memory for a commutative ring. Finding: threshold 1 diverges.
  *Outcome:* partial. Proved for all sizes, strides, orientations, contents, both code paths and every threshold except 1. False for threshold 1 (recursion never ends on 1x1), for an empty A (y not scaled by beta) and with ARMAS_ABS (out-of-bounds access); the negations are proved.
* **C11** Rank-1 update. As C10.
  *Outcome:* partial. Proved for every threshold of at least 2 and for the unblocked code. Threshold 1: non-termination proved.
* **C12** Triangular matrix-vector product. As C10; eight variants.
  *Outcome:* partial. Proved for the eight variants, unblocked and recursive, every threshold except 1; only the selected triangle is assumed to be allocated. Threshold 1: non-termination proved. Precondition: exactly one of LOWER and UPPER is given.
* **C13** Triangular solve with vector. As C10 over a field.
  *Outcome:* partial. Proved for all variants over a field, unblocked and recursive, every threshold except 1. Threshold 1: non-termination proved.
* **C14** Symmetric matrix-vector product uses one triangle only. As C10.
  *Outcome:* partial. Proved for every threshold of at least 2; the other triangle may be unallocated. Threshold 1: non-termination proved. Precondition: exactly one of LOWER and UPPER is given.
* **C15** Triangular rank-1 and rank-2 updates touch only the selected triangle. As C10.
  *Outcome:* partial. Proved for the rank-1 (any shape, unblocked; square, recursive) and rank-2 updates with conforming operands. Negations proved: the missing size check of armas_mvupdate2_sym (out-of-bounds read) and the recursive update of non-square matrices (changes elements outside of the triangle).
* **C16** Blocked matrix multiply equals the mathematical product for every blocking. Kernel with cache copies, loops over MB/NB/KB; refinement to Finset sum for all positive block sizes.
  *Outcome:* partial. Proved for all sizes, strides, transposes and every positive block configuration (portable kernels, exact arithmetic); two configurations give the same C. Negations proved: a zero block size loops forever, ARMAS_ABSA alone takes absolute values of B too.
* **C17** armas_mult honours beta when the inner dimension is zero. Decision at the head of armas_mult; expected false, witness.
  *Outcome:* partial. The claim is false: proved that armas_mult does nothing for an empty inner dimension whatever beta is; holds only for beta = 1.
* **C18** Triangular matrix multiply: three algorithms, one result. Unblocked, recursive, blocked on top of C16.
  *Outcome:* partial. Proved for all sixteen variants, the unblocked, recursive and blocked algorithms, all sizes, strides and positive block sizes with recursion threshold at least 2 and rb <= MB. Negations proved: thresholds 0 and 1 never return, block size zero loops forever.
* **C19** Triangular solve with matrix right-hand side. As C18 over a field; recursion with alpha≠1 expected false.
  *Outcome:* partial. Proved for all sixteen variants and three algorithms with alpha = 1, and for every alpha where the recursion is not entered with alpha (unblocked; matrix or block below the threshold). Negation proved: the recursive algorithm with alpha = 2 returns a wrong solution with status 0; thresholds 0 and 1 never return.
* **C20** Symmetric matrix multiply uses one triangle only. Blocked loops on top of C16.
  *Outcome:* partial. armas_mult_sym for all sizes, strides, sides, transposes and every block configuration whose diagonal blocks fit the copy buffers; only the selected triangle is allocated in the model, so the other one is never read. For accepted settings in which they do not fit (ARMAS_CONFIG=32,64,160) the result is wrong: C20_overlap_false.
* **C21** Triangular rank-k update touches only the triangle, each element once. As C18; upper recursion expected false for odd sizes.
  *Outcome:* partial. armas_update_trm and armas_update_sym: lower triangle or trapezoid for all sizes and configurations, upper when all sizes split by the recursion are even; the opposite triangle is unallocated in the model, so it is never referenced. For odd sizes above the threshold the upper recursion updates a row twice (C21_odd_upper_false); inner dimension 0 leaves C unscaled (C21_inner_zero_false); threshold 0 never returns (C21_threshold0_false).
* **C22** Symmetric rank-2k update. As C21.
  *Outcome:* partial. armas_update2_sym, plain and transposed, both triangles, all sizes, every block size lb >= 2 and the unblocked version; the opposite triangle is unallocated in the model. Accepted settings lb = 0 and 1 never return (C22_block1_false); inner dimension 0 leaves C unscaled (C22_inner_zero_false).
* **C23** Row and column interchanges: backward undoes forward. Pivot application as row swaps on memory; round trip; expected false for short pivots.
  *Outcome:* partial. Forward application of a pivot vector is proved to permute the rows or columns by one permutation (armas_pivot_rows, armas_pivot_cols, armas_pivot), and for the symmetric kinds to permute rows and columns of the symmetric matrix touching only the stored triangle. Backward restores the matrix for pivot vectors as long as the matrix. The full claim is false: a shorter vector is applied to the wrong lines backward (C23_short_false), and zero entries in the symmetric kinds access memory in front of the matrix (C23_sym_zero_false).
* **C24** Pivot sorting permutes and orders. Insertion sort; Perm + sorted.
  *Outcome:* partial. Permutation and order proved for every direction, vector layout and pivot vector at least as long as the vector. A shorter pivot vector is not rejected and leads to an access in front of the vector (C24_short_false).
* **C25** Environment configuration never produces unusable block sizes. Parser accept condition, split arithmetic over the reals with floor; expected false.
  *Outcome:* partial. Proved: every setting read from any environment text is positive, the two- and three-way splits fit in the memory, and the blocks are usable when they come out nonzero and KB fills a cache line. Negations proved with concrete ARMAS_CONFIG texts: NB = 0 (armas_mult never returns), KB = 0 (division by zero), KB below the stride (buffers overlap and run past the memory), MB = 0 and an overrun for the fixed split.
* **C26** Work splitting for threads covers the result exactly once. Arithmetic of block boundaries.
  *Outcome:* proved. Thread blocks, worker blocks and tiles partition the target for every size and count within int range; int overflow beyond it is shown as undefined behaviour.
* **C27** Threaded level-3 operations compute the sequential result under every schedule. Parallel blocks write disjoint cells; any interleaving gives the sequential result.
  *Outcome:* partial. For every number of threads, every interleaving of single memory accesses: no undefined access, no deadlock, termination, and the target equals the sequential result (C27_mult, C27_mult_sym_partial, C27_mult_trm, C27_solve_trm_partial); threads realising the models exist (C27_*_thread). Assumed: sequential consistency (the threads are race free), a buffer of its own for each thread, n*max(rows,cols) <= INT_MAX, not both ARMAS_LEFT and ARMAS_RIGHT. Missing as in C19/C20: alpha != 1 with recursion in solve, block sizes that do not fit to the buffers in symmetric multiply. Creation and joining of threads by pthreads are not modelled.
* **C28** Task queue: bounded, first-in first-out, no loss and no duplication. Ring buffer refinement to list queue.
  *Outcome:* proved. Ring buffer refines a bounded first-in first-out list for every uint32 capacity and every history; refusals characterised exactly.
* **C29** A producer blocked on a full queue is eventually released. Interleaving model; expected false (stuck state reachable).
  *Outcome:* partial. False for taskq_enqueue: nothing ever signals `full` (C29_never_released, C29_released_false). Proved: polling producers (taskq_write) proceed as soon as there is room, consumers are never left asleep on a non-empty queue.
* **C30** Every scheduled task runs exactly once. Interleaving model with compare-and-swap claim; invariant.
  *Outcome:* proved. At most once in every reachable state; exactly once in every state without further work; all work ends within a bounded number of steps. Finding: a copy of a finished task may outlive it (C30_copy_outlives_task). Sequentially consistent memory assumed.
* **C31** The on-demand (transient) scheduler executes every submitted task. Interleaving model; expected false (stuck state).
  *Outcome:* partial. False: lost task (C31_lost_task_false) and permanently blocked submission (C31_blocked_false). Proved: order, at most once, no loss of data, slot search in bounds, complete execution when the last submission created a thread.
* **C32** Stopping workers terminates them. Interleaving model; expected false.
  *Outcome:* partial. False: stop before start and stop with a full queue never return; stop drops queued tasks. Proved: stop after start with room in the queue terminates.
* **C33** Waiting on a task counter returns only after all tasks are done. Interleaving model; early return with spurious wake-up.
  *Outcome:* partial. False with spurious wake-ups (C33_spurious_false). Proved: without them the wait returns only when all tasks are done; a single waiter always returns.
* **C34** The JSON tokenizer never writes outside its buffer. Tokenizer automaton on byte streams with buffer cells; invariant.
  *Outcome:* proved. For every input and every len >= 1: no UB, nothing outside the buffer written, NUL inside the buffer for strings and numbers, buffer untouched for the other tokens; strings/numbers returned in full or reported E2BIG. C34_len_zero: len = 0 overruns (bound wraps).
* **C35** JSON matrices round-trip. Writer and reader on character lists; number text conversion as parameter.
  *Outcome:* partial. Matrices: full round trip for every size/stride given printing and scanning invert (C35_matrix, C35_int). Strings: printable ASCII and \b\t\n\r (C35_string_partial). False: other control characters are dropped (C35_string_false), non-finite elements make the text unreadable (C35_nonfinite_false); \uXXXX is converted as decimal (C35_unicode_false).
* **C36** Reading JSON coordinate data never writes outside the matrix. Decision logic; expected false, witness.
  *Outcome:* partial. False at the boundary: row == rows or col == cols passes the <= test and writes another element or behind the matrix (C36_row_false, C36_col_false). Proved: documents without such triplets (C36_coord_partial), and for any input only cells (i,j), i <= rows, j <= cols (C36_bounds_partial).
* **C37** MatrixMarket dense files round-trip. Index enumeration of packed storage.
  *Outcome:* partial. general and symmetric array files written by armas_mmdump are loaded back element by element for all non-empty matrices whose element count fits an int, formats as parameters with scan(fmt v)=v; false in full: one extra line is consumed, a line without a number repeats the previous value, and the 14 digits of %.13e do not determine a double. Missing: coordinate files, complex element types (the code does not compile)
* **C38** Sparse format conversion preserves the matrix. Counting sort conversion on arrays; multiset preserved.
  *Outcome:* partial. C38_convert_partial: armassp_convert_to from any kind to CSR or CSC, for every matrix, gives exactly the same multiset of entries, with monotone pointers and ascending indices in each row or column, provided the target has the source's dimensions and room, and (from a coordinate list) its pointers are zero. C38_convert_new_partial: armassp_convert for matrices with at least one entry. C38_compressed_general shows that the entry description covers every compressed matrix. False of the code: a reused target fails an assertion (C38_reuse_false); a matrix without entries is not converted (C38_empty_false). Missing: conversion to a coordinate list (refused by the code).
* **C39** Converting or copying a sparse matrix to its own format yields the same matrix. Expected false, witness.
  *Outcome:* partial. C39_copy_partial: armassp_mkcopy of a compressed matrix with at least one entry is an equal matrix. False of the code: converting to the own format gives a matrix without entries (C39_same_false), copying a coordinate list gives a matrix without entries (C39_coo_false), copying a compressed matrix without entries gives the null pointer (C39_empty_false).
* **C40** Sparse matrix-vector product. CSR/CSC loops; expected false for rectangular transposed CSR and for size check.
  *Outcome:* partial. C40_mvmult_partial: armassp_mvmult computes beta*y + alpha*op(A)*x exactly, for every matrix in compressed rows or columns and conforming column vectors, touching only y; for the transposed product in compressed rows the matrix must be square. C40_csr_trans gives what the code computes for a wide matrix in that case. False of the code: transposed product of wide (C40_csr_trans_false) and tall matrices (C40_csr_trans_ub, out of bounds write) in compressed rows; wrong sizes accepted because of operator precedence (C40_reject_false); meaningless flags give the transposed product (C40_flags_false). C40_reject_partial lists the operands that are rejected. Vectors must be contiguous columns.
* **C41** Sparse triangular solve. Expected false for alpha≠1; partial for alpha=1.
  *Outcome:* partial. C41_solve_partial: all eight solvers (compressed rows/columns, upper/lower, transposed or not, unit or not) return x with op(T)x = b for every square matrix with strictly ascending indices and stored diagonal, ignoring the other triangle. False of the code: alpha is ignored (C41_alpha_false); with ARMAS_UNIT and a diagonal that is not stored the code reads out of bounds (C41_unit_false).
* **C42** Sparse addition and multiplication. Accumulator invariant; expected false (alpha ignored etc.).
  *Outcome:* partial. Proved for all compressed matrices with exact arithmetic: armassp_addto_w without transposition and with B transposed stores alpha*A+beta*B (op) with one entry per position and returns the workspace as it was; armassp_multto_w stores alpha*op(A)*op(B) in all four transposition cases. Hypotheses the code forces: room for one element more than the result (C42_fit_false), last element of a searched operand stored (C42_search_false), square operands where the loops use the wrong bound (C42_mult_rect_false), alpha = 1 for the csr product (C42_mult_alpha_false). False of the code, with witnesses: armassp_add always dereferences null, armassp_mult returns an empty matrix, TRANSA sum uses beta for A (csr) or writes nothing (csc), both transposed is treated as none, the workspace size reported by the function is too small if the arguments are evaluated in the other order.
* **C43** The incomplete-LU preconditioner solves with the factor product. Expected false: order of solves.
  *Outcome:* partial. False of the code: the preconditioner applies U^-1 first and L^-1 second (C43_order_false). C43_precond_partial: the result z satisfies U*(L*z) = x, for every factored matrix and x. C43_iluz_partial: armassp_iluz (both formats) stays inside its arrays, keeps the pattern, and with non-zero pivots L*U agrees with the matrix at every stored position.
* **C44** Cholesky factorization. Unblocked on memory over ℝ; zero pivot accepted (finding).
  *Outcome:* partial. armas_cholfactor (no pivoting), both triangles, unblocked and every block size: a positive definite matrix is factored exactly, only the selected triangle is accessed; status 0 implies positive definite and a correct factor, except that the lower version is shown to need nonsingular leading blocks: it accepts a zero pivot (C44_zero_pivot_false). The blocked upper version needs even splits in armas_update_sym (C21). armas_cholsolve solves A X = B with the factor.
* **C45** LU factorization. Unblocked without pivoting first; then pivoting.
  *Outcome:* partial. Proved for all shapes, contents and block sizes, with and without pivoting, including pivot bounds, multipliers at most one in magnitude and frame; restricted to pivot vectors of length min(rows, cols) and to configurations where the level-2/3 routines terminate (Conf3). C45_singular_false: a singular matrix is reported as success because the status is overwritten by later columns.
* **C46** LU solve, plain and transposed. Order of solves; transposed expected false.
  *Outcome:* partial. Plain system proved, both from the factors and from end to end for every nonsingular matrix. The ARMAS_TRANS half is false: C46_trans_false (solves are done in the wrong order).
* **C47** LDL^T factorization and solve without pivoting. Unblocked; blocked later.
  *Outcome:* partial. Factorization: unblocked and blocked, lower and upper, any work space size, over any field for matrices whose leading (trailing for upper) blocks are nonsingular; touches only the selected triangle and the work space. Solve inverts the product. Excluded: block size 1 (false, C47_block1_false), ARMAS_TRANS (false, C47_solve_trans_false), several right-hand sides of a 1x1 system (false, C47_solve_order1_false), odd splits in the upper blocked version (C21).
* **C48** Diagonal scaling and its inverse. Expected false for alpha≠1 on matrices.
  *Outcome:* partial. armas_mult_diag: complete (vector and matrix operands, both sides). armas_solve_diag: vector operands complete, matrix operands for alpha*alpha = 1. For other alpha the matrix path computes A/(alpha*d), not alpha*A/d: C48_solve_diag_false.
* **C49** Vector sorting. Insertion sort; quicksort divergence witness.
  *Outcome:* partial. Insertion sorts armas_sort_vec and armas_sort_eigenvec: sorted, a permutation, companion columns and rows moved by the same permutation, nothing else touched, every length. armas_qsort_vec proved only for pairwise distinct elements with a readable cell after the last one; with two equal elements it does not terminate and it reads element n of an n-element vector (both proved). armas_abs_sort_vec orders absolute values but replaces elements by absolute values (negation proved).
* **C50** Plane rotations stay inside the matrix and preserve norms. Rotation loops; OOB witness.
  *Outcome:* partial. Proved for every size, start and count with start + nrot below the number of lines, both sides and directions: exactly the requested rotations in order, only A changes, sums of squares kept when c^2+s^2=1. At the documented maximum count a line outside the matrix is rotated (C50_boundary_false), the backward direction returns 0 instead of the count (C50_count_false), single rotations do not cut the element count (C50_single_false).
* **C51** Scaling or shifting a triangle touches exactly that triangle. Expected false (upper).
  *Outcome:* partial. Whole matrix: mscale and madd complete. Lower triangle: exact except for UNIT on tall matrices, whose last column is missed (C51_lower_unit_tall_false). Upper triangle: madd exact for matrices that are not wide, without UNIT; mscale changes only the diagonal (C51_mscale_upper_false); with UNIT, or madd on wide matrices, memory behind the matrix is accessed. madd ignores the flags for vectors.
* **C52** Element-wise matrix sum. Loops on memory.
  *Outcome:* partial. Whole matrix (plain, transposed, absolute values), both triangles without transpose, and vectors. False for a 1x1 second operand (alpha ignored), for triangles with TRANS (not transposed).
* **C53** Tolerance comparison. Decision.
  *Outcome:* proved. Exact characterisation for all sizes and strides over an ordered field, and reflexivity for non-negative tolerances.
* **C54** Cholesky factor update. Rotation algebra; induction over columns.
  *Outcome:* proved. Lower and upper, row and column update vector, every order, no condition on factor or vector; only the triangle and X change. Both versions (plain and AVX) of the rotation computation are modelled and equal over the reals. Sizes are a stated precondition: the code does not check them (C54_size_false).
* **C55** Householder reflections annihilate and QR reproduces the matrix. Reflector algebra, later.
  *Outcome:* partial. Scaled reflector (the form the factorizations use) proved in full for every vector over the reals, including termination of the rescaling loop. Unscaled form proved for x /= 0; for x = 0 it is false (C55_unscaled_false). ARMAS_NONNEG promise false for x = 0 (C55_nonneg_false). Unblocked QR proved for every size and content: A = H_0...H_{K-1} R with all H_k orthogonal; needs blas2min >= 2 (or the naive non-recursive configuration) and a column vector tau. Blocked QR not modelled. Exact real arithmetic.
* **C56** Extended-precision building blocks are error free. Needs IEEE rounding model; not planned first (would be expressible over an abstract rounding model).
  *Outcome:* partial. Proved for every precision and every rounding to nearest (ties arbitrary), exponent range unbounded: twosum and fastsum (|a|>=|b|) return the rounded sum and its exact error; twoprod is exact in double precision (factor 2^27+1) and with fused multiply-add in every precision; split yields two 26-bit parts; extract (x86_64 macro) is exact; twodiv returns the rounded quotient and its correctly rounded error (FMA version and generic version in double precision). False of the code, with witnesses for every rounding to nearest: twoprod in single precision without FMA (factor 2^14+1), extract of the generic header (subtracts r twice), twodiv of the x86_64 header without FMA (multiplies a*b instead of x*b), fastsum with operands in the other order. Overflow, underflow and the vector variants are not modelled.
* **C57** Threaded operations report failures of any worker. Decision logic of joining; expected false.
  *Outcome:* partial. False: failures in created threads are dropped (C57_failures_dropped_false). Proved: failures of the calling thread's block and of thread creation are reported.
* **C58** Initializing values with a triangle flag sets exactly that triangle. Loops on memory; expected partly false.
  *Outcome:* partial. armas_set_values/armas_set_all complete for triangles, trapezoids, symmetric and whole matrices: one call per element, nothing else accessed. armas_make_trm complete except UPPER|UNIT on wide matrices, where memory behind the matrix is written (C58_make_trm_upper_false).
* **C59** The inverse of a triangular matrix is computed in place. Existence and uniqueness of the triangular inverse, then loop invariants (columns done hold the inverse) over the C12, C18, C19 theorems.
  *Outcome:* partial. Proved for both triangles, unblocked and every block size, nonsingular (C59_inverse_trm_partial): two-sided inverse, only the triangle and the copy buffers touched; status of singular matrices for the unblocked algorithm (C59_singular_partial); sizes (C59_size_error). False with ARMAS_UNIT and a stored diagonal other than one (C59_unit_false) and when the recursion of armas_solve_trm is entered with factor -1, block size >= blas2min (C59_recursion_false). Missing: singular matrices in the blocked algorithm.
* **C60** The inverse of a general matrix is computed from its LU factorization. Existence of the triangular inverses, loop invariants (columns done hold the solution of X L = U^-1), the column permutation as inverse of the pivoting of C45.
  *Outcome:* partial. Two-sided inverse for every nonsingular factored matrix, with and without pivots, unblocked and for every block size and work space of at least rows elements (C60_luinverse_partial); factorization followed by inversion inverts every nonsingular matrix (C60_driver_partial); sizes and work space checks (C60_size_error, C60_work_error). False when the recursion of armas_solve_trm is entered with factor -1, order >= blas2min (C60_recursion_false). Missing: singular factors, the workspace query and the allocating wrapper.
* **C61** The inverse of a positive definite matrix is computed from its Cholesky factorization. Inverse G of L L^T described by G L = L^-T; loop invariants (trailing block holds G), block identities for the off-diagonal and the diagonal block, composition with C20, C19, C21 and C44.
  *Outcome:* partial. Two-sided inverse for every factor with nonzero diagonal, both triangles, unblocked and for every block size and work space of at least rows elements, only the triangle is touched (C61_cholinverse_partial); the conditions on the blocks hold for the default configuration (C61_default_blocks); factorization followed by inversion inverts every positive definite matrix (C61_driver_partial); a zero on the diagonal is reported by the unblocked version (C61_singular_partial); sizes and work space checks (C61_size_error, C61_work_error). False when a block of an upper triangle is split at an odd order (C61_odd_split_false, from the bug of C21). Missing: blocks that do not fit the copy buffers (C20), zero diagonal in the blocked version, the workspace query and the allocating wrapper.
* **C62** The block reflector represents the product of the elementary reflectors. Spec `qrProd`, `blockProd`; recurrence for the columns of T (`BlkT`), algebra of the product, loop invariant.
  *Outcome:* partial. I - Y T Y^T is the product of the reflectors and I - Y T^T Y^T the product in the opposite order, for all sizes, vectors and scalars (C62_reflector_partial), under two conditions the code neither checks nor documents: columns of T with a zero tau are zero on entry, false otherwise (C62_stale_false), and the last tau of a square matrix is zero, false otherwise (C62_square_false); size check (C62_size_error).

* **C63** Applying a block reflector multiplies by Q or its transpose. One program for both sides (`updQr`), composition of C05, C19, C16 and C52.
  *Outcome:* partial. Q C, Q^T C, C Q and C Q^T for every shape (C63_update_left_partial, C63_update_right_partial), from the block reflector identity concluded by C62, within the conditions on the copy buffers of C16/C19 (Conf3, cache ready). Missing: other configurations of the caches.

* **C64** Blocked QR factorization. Panels by C55, block reflector by C62, trailing update by C63; splitting the product of reflectors at a block (`QrInv.block`).
  *Outcome:* partial. A = H(0) ... H(N-1) R with orthogonal reflectors for every real matrix with rows >= cols, every configured block size and every work space of at least cols elements, blocked or not, and what is written (C64_qrfactor_partial); the error returns (C64_errors). Exact arithmetic. Missing: tau as a row vector (accepted by the code, but its partitioning is for columns), the workspace query and the allocating wrapper.
* **C65** Multiplication with the orthogonal factor. One program for the four unblocked and one for the four blocked loops (`qrmUnb`, `qrmBlks`), C55 and C62/C63 per step, product of reflectors split at a block; composed with C64.
  *Outcome:* partial. For every size, block size and sufficient work space, in exact arithmetic over a field; tau is a column vector; K*K and (K+lb)*lb fit an int (C65_overflow_false shows the undefined behaviour otherwise); the float square root that chooses the block size is the exact integer root; more reflectors than rows (never produced by armas_qrfactor) are not covered.
* **C66** Building the orthogonal factor of a QR factorization. Invariant `QbInv` (the columns left of the position still hold the reflectors, the product applied to the rest is Q), one reflector and one block at a time; a block reflector with stale columns is harmless when their vectors are unit vectors (`qrReflector_weak`).
  *Outcome:* partial. For every K <= cols <= rows, every block size and sufficient work space, in exact arithmetic over a field: the result is the first columns of the product, orthonormal for orthogonal reflectors, and Q R = A after the factorization of C64 (C66_qrbuild_partial, C66_driver_partial). tau has exactly cols elements (C66_long_tau_false); the blocked code wants unit vectors for zero scalars (C66_stale_false), which the factorization provides. K > cols is not checked by the code and not covered; nor are the workspace query and the allocating wrapper.
* **C67** Least squares and minimum norm solutions from a QR factorization. C65 and C19 compose; the normal equations `aᵀ(aX - b) = 0` follow from the orthogonality of Q, minimality from them; for the minimum norm solution `z·x = x·x` for every solution z. Independent columns give a nonzero diagonal of R by the determinant.
  *Outcome:* partial. Exact real arithmetic. qrsolveW (qrsolve.c:103-157) over the models of qrmult, solve_trm and mscale: least squares (C67_lsq_partial) and minimum norm (C67_minnorm_partial) solutions from any factorization with an orthogonal Q and a nonzero diagonal of R, and after armas_qrfactor for every matrix with linearly independent columns (C67_driver_partial). Missing: rounding, sizes where K*K overflows an int (C65_overflow_false). False: a tau longer than the number of columns, accepted by armas_qrfactor, makes qrmult fail, which is ignored (C67_long_tau_false); the same for a failed allocation in solve_trm (C67_nomem_false).
* **C68** BLAS level 1 compatibility functions. `BVec` is the reference meaning of a vector with a signed increment; equal signs go through the library function on a vector traversed in storage order (a reversal of both vectors), other signs through a loop of which the invariant says which elements are done.
  *Outcome:* partial. Exact arithmetic. axpy, copy, dot, swap, rot for increments of either sign (nonzero for written vectors, the product of the increments within int for axpy, dot, swap); scal, asum, nrm2, iamax for positive increments; rotg. False: the product of the increments overflows an int (C68_increments_false); idamax_ counts from zero (C68_iamax_false); drotg_ does not return r (C68_rotg_false); a negative increment in dscal_ accesses memory before the array (C69_negative_false; the same code is in dasum_, dnrm2_, idamax_). dscal_ takes its arguments in another order than the reference BLAS (n, x, incx, alpha). n < 0 is not modelled.

* **C69** BLAS level 2 compatibility functions. Option characters have a meaning of their own (`IsTrans`, `IsUplo`, ...); each function is reduced to the theorem of the library function it calls (C10 to C15).
  *Outcome:* partial. Exact arithmetic, positive increments, option characters N, T, L, U in both cases, the thresholds of C10 to C15. False: the transposition C (C69_conj_false), negative increments (C69_negative_false), and what C10 to C15 record for the library functions.

* **C70** BLAS level 3 compatibility functions. As C69, from C16 to C22; row-major matrices are views of the transposed matrices. Several functions are wrong: exact counterexamples, and general theorems that the call does nothing.
  *Outcome:* partial. Exact arithmetic; the restrictions of C16 to C22 on block sizes and thresholds; no conjugate transposition. dgemm_ for matrices that are square when transposed (else the call does nothing: C70_gemm_trans_false); cblas_dgemm, cblas_dtrmm, cblas_dtrsm for column-major order (row-major: C70_cblas_gemm_row_false, C70_cblas_trxm_row_false, C70_cblas_trmm_square_false); cblas_dsymm for row-major order, and for column-major order when M = N (else nothing is done: C70_cblas_symm_col_false); dsyr2k for equal leading dimensions (C70_syr2k_ldb_false). dtrsm_ is not compiled (trsm.c:26 tests an undefined name) and dsyr2k is exported as dsyrk2_.
* **C71** Symmetric sparse matrix times vector. Loop over the columns; invariant: `y` after `k` columns is `beta*y` plus the contributions of all stored pairs of the first `k` columns (`symAdd`); the sum over all columns is the product with `symm`.
  *Outcome:* partial. Exact arithmetic, column vectors, sorted rows (columns) that contain their diagonal element (C71_mvmult_sym_partial, C71_reject_partial). False: y of the wrong size is accepted (C71_reject_false); columns without a diagonal element read behind their end (C71_empty_column_false); row vectors are taken for contiguous (C71_row_vector_false).

* **C72** Conjugate gradient. The recurrences are studied apart from the code (`CgTheory`): orthogonality of the residuals and conjugacy of the directions by induction, a zero residual after at most `n` steps by linear independence, decrease of the energy. The loop invariant says that the vectors in memory are those of the recurrences and that `r = b - S x`.
  *Outcome:* partial. Exact arithmetic in an ordered field. cgradW and cgrad (cgrad.c:109-236) for every matrix as in C71 that is positive definite, column x, any vector b: C72_cgrad_partial, C72_alloc_partial; rejected operands: C72_reject. False: a start that is the solution divides zero by zero (C72_exact_start_false). Not covered: rounding, row vectors x (they are misread, C71_row_vector_false), uninitialized workspace: the first product with beta = 0 multiplies what is there, so a NaN left in the workspace spoils the result (the model wants initialized cells).

* **C73** Preconditioned conjugate gradient. The same recurrences with a matrix `B`; the preconditioner is a parameter with a contract.
  *Outcome:* partial. As C72, with a preconditioner that satisfies the contract Preconditions; return value 0 always, the measure is r'Mr (C73_pcgrad_partial). False: the return value without convergence (C73_code_false), the measure (C73_measure_false). Errors return -1. The allocating wrapper and the preconditioners of the library are not covered here.

* **C74** Minimum norm problems. The recurrences for `A Aᵀ`; the direction in memory is `Aᵀ p`, and `x = x0 + Aᵀ y`; the error to a solution is the energy of `y` plus a constant.
  *Outcome:* partial. As C72; compressed columns, or compressed rows with a square matrix (the transposed product is wrong otherwise, see C40). Also negative values of cf.stop and cf.smult are used here, unlike the other solvers. The allocating wrapper is not covered.

* **C75** Least squares problems. The recurrences for `Aᵀ A`; the vector `z` is their residual. The workspace defect is proved for every call.
  *Outcome:* partial. As C74, with a workspace of 2 rows + 2 cols elements (C75_cgnr_partial). False: the workspace that the query returns is too small by rows(A) elements, so armassp_cgnr uses a null pointer for all valid arguments (C75_workspace_false, C75_alloc_false, both for all inputs); the reported residual (C75_residual_false).
* **C76** Sparse triangular product. Every inner loop adds a segment of a row (column) above or below the diagonal; the order of the outer loop decides whether `x` holds old or new elements there. Invariant: rows before `k` hold the result, the others the old values (or partial sums for the transposed and column versions).
  *Outcome:* partial. Exact arithmetic, column vectors, square matrix with sorted rows (columns) that contain their diagonal element, ARMAS_UNIT not for upper compressed rows without transposition nor lower compressed columns: C76_trmv_partial; rejected operands: C76_reject. False: the excluded unit cases read behind the index array (C76_unit_false), as do empty columns before it (C76_missing_diagonal_false); matrices that are not square are accepted (C76_square_false); row vectors are taken for contiguous (C76_row_vector_false).

* **C77** Dense copy. Loop over the entries; invariant: the matrix is the old one overwritten by the first `k` entries (`stored`).
  *Outcome:* partial. All three formats, duplicates included (the last one counts): C77_todense_partial, C77_zeroed_partial, C77_reject. False: elements that are not stored keep the old value (C77_old_values_false). The model reads and writes the elements exactly, without conversion of types.

* **C78** Element operators. Double loop; the set of elements already replaced is a prefix in column order. For `armas_iterate` the result is compared with a fold over the list of selected elements.
  *Outcome:* partial. Any element type and operator; with ARMAS_UPPER only for matrices with at most as many columns as rows (C78_apply_partial, C78_iterate_partial). False for wider matrices, memory behind the matrix is changed (C78_upper_false).

* **C79** Matrix norms. The vector sums of C01–C03 on row and column views, and a maximum over the loop; stated with `IsGreatest`.
  *Outcome:* partial. Over the reals with the exact square root (C79_mnorm_partial, C79_vector, C79_errors). Not covered: rounding, the 2-norm of matrices (reported as not implemented by the code).
* **C80** Incomplete Cholesky factorization. Both loop orders compute the same sequence `icSeq` of elimination steps restricted to the pattern; invariant: `a = sum of products of finished rows + current value` at every stored position. The factorization identity follows for every function `sq` that gives square roots where it is not zero.
  *Outcome:* partial. Exact arithmetic with any function sq in the place of sqrt (C80_icholz_partial); square compressed matrices with ascending indices and stored diagonal; for lower compressed rows and upper compressed columns one readable element behind the index array. False: the index behind the last element is read in these cases (C80_behind_end_false), a pivot that is not positive is not reported (C80_pivot_false), the format is not checked (C80_format_false). Not covered: rounding, for which matrices all pivots are positive.

* **C81** Its preconditioner. Two triangular solves (C41) give `L (Lᵀ z) = x`; the inverse of `L Lᵀ` is built from the inverse of `L` and is positive definite, so the contract of C73 is met.
  *Outcome:* partial. Exact arithmetic; flags ARMAS_UPPER or ARMAS_LOWER or none, without ARMAS_UNIT and ARMAS_TRANS (C81_precond_partial, C81_contract_partial). precond_icholz_partial is modelled, it is one triangular solve (C41), and has no theorem of its own.
* **C82** Inner products in extended precision. On the rounding model of C56. Invariant `Acc p k T S (s, c)`: the high part `s` misses `T` by exactly `E`, `|E| ≤ A ≤ gr u k * S`, and the correction `c` is a rounded sum that misses `E` by at most `gr u k * A`; every step of the loops adds one to `k`. `fastsum` with operands in the wrong order loses at most `(u + 5u² + 2u³)|b|` (`fastsum_defect`).
  *Outcome:* partial. Rounding to nearest without underflow and overflow, operations in the order of the text (the build has -ffast-math): C82_dot, C82_adot, C82_adot_error. False: the pair of armas_ext_adot_unsafe loses a first operand that is smaller than the product (C82_adot_pair_false). Not covered: single precision without fused multiply-add (its product is not error free, C56), armas_ext_adot_dx_unsafe (modelled, no theorem).

* **C83** Sums in extended precision. The same invariant; two or four partial pairs are merged at the end.
  *Outcome:* partial. Same rounding model; alpha = 1 (C83_sum_unsafe, C83_sum_partial). False for every other use: the high part of the product with alpha is dropped (C83_sum_false).

* **C84** Vector updates in extended precision. The written element as a function of its inputs (`axpyVal`, `axpbyVal`), and the final rounding of the same invariant.
  *Outcome:* partial. Same rounding model (C84_axpby); vectors that do not overlap. Not covered: single precision without fused multiply-add.

* **C85** Matrix-vector products and rank-one updates in extended precision. The loops write `mvVal` and `axpbyDxVal` of the old elements; `mv_final` and `axpbyDxVal_err` bound their errors.
  *Outcome:* partial. Same rounding model; three roundings in the place of one (C85_mvmult_partial, C85_mvupdate_partial); operands that do not overlap the result.
* **C86** QR factorization with stored block reflectors. Each step is a step of the unblocked QR factorization (C55) with a diagonal element of `T` for `tau`; `QrtSt` says what the wrong calls leave in the columns of `T`. The counterexamples are computed from the invariant `A = H_0 H_1 R`, not by running the model (square roots).
  *Outcome:* partial. One block, rows(T) >= cols(A): A, the reflectors and the diagonal of T (C86_qrt_partial, C86_errors). False: T is not the block reflector (C86_block_reflector_false), the factorization with several blocks is wrong (C86_blocked_false), an empty work space is accepted for rows(T) = cols(A) (C86_workspace_false).
* **C87** Extended-precision triangular solve. `AccD` follows the inner product with corrections (sum, exact error, bound of the computed correction); `etrsvDiv_err` the division; `ERow` is the residual of one equation, kept while later unknowns are found. The renormalisation in `trsv_ext_unb_lu` that stores the old correction changes the result only where the correction exceeds the sum, which costs a term of second order (`fastsum_again`).
  *Outcome:* partial. Rounding to nearest without underflow and overflow, at least 6 bits; product and quotient with fused multiply-add, or by splitting in double precision (C87_trsv_partial for a work space whose first used element is zero, C87_trsv_alloc for the function that allocates it, C87_errors). False: other contents of the work space (C87_workspace_false), TRANS without LOWER (C87_trans_default_false), the empty system with a work space (C87_empty_false). Not covered: the quotient of the AVX build without fused multiply-add, which is wrong (C56); single precision without fused multiply-add.

* **C88** Triangular product. `edotLoop_spec` carries the pair of sum and correction through the inner loop; `etrmvVal_err` bounds the stored value; the ascending and descending loops read only elements not yet overwritten (`etrmv_up`, `etrmv_down`).
  *Outcome:* partial. Rounding to nearest without underflow and overflow; product with fused multiply-add, or by splitting in double precision; x apart from A (C88_trmv_partial, C88_errors). False: ABS is documented and ignored (C88_abs_false), TRANS without LOWER or UPPER is not transposed (C88_trans_default_false).

* **C89** Symmetric product. Two inner loops give the whole row of the symmetric matrix; `esymvVal_err` bounds the stored value. The dropped error of the last sum gives the witness against doubled accuracy.
  *Outcome:* partial. Same rounding model; x and A apart from y (C89_symv_partial). The result is accurate to working precision only: the accumulated pair is rounded before y is added (C89_doubled_false).

* **C90** Rank one and two updates. `extMvupdate2SymUnsafe_spec` states exactly which cells change, for any flags; `esyr2Val_err` bounds the value. The rank one update is right for one element only.
  *Outcome:* partial. Same rounding model. Rank two with UPPER, first order accuracy, vectors of the size of the matrix (C90_syr2_partial); rank one for one element (C90_syr_one_partial). False: LOWER updates the upper triangle (C90_lower_false), accuracy (C90_accuracy_false), shorter vectors are read beyond their end (C90_size_false); rank one writes past the matrix (C90_syr_bounds_false) and uses wrong elements (C90_syr_value_false).
* **C91** The code for LQ is the QR code for the transposed matrix with its own order of arguments. Statements are about the transpose, so the words of the QR specification (`refl`, `qrProd`, `blockProd`) apply: `lqReflStep_spec` and `lqReflector_spec` repeat the induction over the columns of `T`.
  *Outcome:* partial. Exact arithmetic over any field; T of order cols(A) at least, last tau of a square matrix 0, T zeroed where tau is 0 (C91_reflector_partial, C91_size_error). False: a T of the order of the reflector, rows(A), is refused (C91_size_false); stale columns of T for a zero tau (C91_stale_false); square matrices with non-zero last tau (C91_square_false).

* **C92** `updateLqLeft_eq` and `updateLqRight_eq` bring both functions into one program `updLq`; `updLq_spec` follows the five calls.
  *Outcome:* partial. Exact arithmetic; the level 3 configuration must be usable (Conf3) and the areas apart (C92_update_left_partial, C92_update_right_partial).

* **C93** `unblkLqStep_spec` (one reflector), `unblkLq_spec`; `blkLqStep_spec` joins a panel with the update of the rest; the work space formulas are those of the QR factorization.
  *Outcome:* partial. Exact real arithmetic, rows at most cols (C93_lqfactor_partial, C93_errors). A bad tau returns -1 though the error field is set to the code of an invalid argument.
* **C94** `lqmStep_spec` and `lqmBlk_spec` treat one reflector and one block on either side; the loops are inductions in both directions (`lqmUnb_spec`, `lqmBlks_spec`).
  *Outcome:* partial. Exact arithmetic, rows(A) <= cols(A), last tau of a square matrix 0, no int overflow in the block size (C94_lqmult_partial, C94_errors, C94_driver_partial). False: K*K overflows for 46341 or more columns (C94_overflow_false).

* **C95** `unblkLqbuildStep_spec` keeps the invariant `QbInv` of the QR case for the transposed matrix; `blkLqbuild_spec` for blocks. `C95_work_false` runs the blocked code in the work space of the query.
  *Outcome:* partial. Exact arithmetic; tau has rows(A) elements; block size 0, at least cols(A) or less than rows(A) (C95_lqbuild_partial, C95_errors, C95_driver_partial). False: access beyond the work space for rows <= lb < cols (C95_work_false); a longer tau is read from its end (C95_long_tau_false).

* **C96** The algebra is that of C67 for the transposed matrix (`lsq_normal`, `mn_inner`), joined with C94 and the triangular solver C19.
  *Outcome:* partial. Exact real arithmetic, areas apart, packing buffers present, work space at least rows(B) and cols(B) (C96_lsq_partial, C96_minnorm_partial, C96_driver_partial, C96_errors). False: armas_lqsolve always fails with -EWORK for fewer right hand sides than rows (C96_wrapper_false); errors of armas_lqmult_w are ignored (C96_work_false).
* **C97** One block by loop invariants (`rbtBlock_spec`), all blocks of one size (`rbtLevel_spec`), each level as a product with the butterfly matrix (`gOp_bfly`, `gOp_bflyT`), the levels by induction (`rbtRecursive_spec`).
  *Outcome:* partial. Exact arithmetic; last block of every size at least half full or of at most one row, which holds for depths up to 2 (C97_left_partial, C97_depth2_partial, C97_errors, C97_adjoint, C97_size). False: access outside of the matrix otherwise (C97_fit_false); division by zero for depth 0 and ARMAS_TRANS (C97_depth0_false); armas_size_rbt with the null pointer its documentation allows (C97_size_false).

* **C98** The same lemmas for the transposed matrix; the order of the levels is that of the code (`rbtRev`), `C98_order_false` shows that it is not `A U`.
  *Outcome:* partial. Exact arithmetic; the product with the factors in the order of the code (C98_right_partial), A U for depth 1 (C98_depth1_partial). False: the order is reversed from depth 2 on (C98_order_false); with ARMAS_TRANS and a block that is not full the row behind the last is accessed (C98_tail_false).

* **C99** `update2Rbt_spec` for one block, the recursion with `pass2_loc` (a level acts on every block alone), `rbt2_eq` gathers the levels to `U^T A V`.
  *Outcome:* partial. Exact arithmetic; the extended size w 2^d exceeds the order by at most w (C99_update2_partial, C99_errors). False: access outside of the matrix otherwise (C99_fit_false).
* **C100** Exchange of rows and columns as a permutation of the Schur complements (`schur_perm`, `cholpvSwap_spec`), elimination as for C44 (`cholpvElim_spec`), induction over the steps with the pivots as a product of interchanges (`cholpvLoop_spec`); Schur complements of semidefinite matrices are semidefinite (`PosSemi.schur`). Blocked code: the panel keeps the diagonal of the Schur complement in the workspace (`ncolLoop_spec`), the pivots of the panel are glued to those before it (`Glue`), the rest is updated by C21 (`blkCholpvLoop_spec`).
  *Outcome:* partial. Exact real arithmetic: unblocked code (C100_factor_partial, C100_errors), blocked code for a cleared pivot vector or full rank, areas apart, packing buffers present, upper triangle with the restriction of C21 (C100_blocked_partial). False: rank 0 gives the same result 0 as full rank, so the zero matrix and negative matrices are accepted (C100_rank_false); the blocked code applies old elements of the pivot vector behind the rank to the finished columns, so using the vector of an earlier factorization again gives a wrong factor (C100_stale_false).

* **C101** `C19_solve_trm_partial` twice between the two pivotings; the lower rank case is refuted by evaluation.
  *Outcome:* partial. Exact real arithmetic, full rank, areas apart, packing buffers present (C101_solve_partial, C101_factor_solve_partial, C101_errors). False: with fewer pivots than rows the result is put in the wrong rows (C101_rank_false).
* **C102** The formula of the code as sum and product of squares of the two values (`sing_key`), by cases over zeros.
  *Outcome:* partial. Exact real arithmetic (C102_singular_partial). Not covered: rounding, and the approximation for a quotient that underflows, which does not occur in exact arithmetic.

* **C103** `svdCore_spec` for the ordered case (the code exchanges f and h), then the signs by cases (`fsign_mul`, `fsign3`); diagonal matrices separately.
  *Outcome:* partial. Exact real arithmetic, no element zero and g not larger than the diagonal by the factor 1/EPS (C103_svd_partial), or g = 0 and diagonal elements of the same sign (C103_diag_partial). False for every diagonal matrix with elements of different sign: the signs of both values are wrong (C103_diag_false). Not covered: zeros on the diagonal.

* **C104** Sum and product of the two values; the vector from the second row of the eigenvalue equation; `C50_single_partial` for the product with the rotation; the shift from (t - |d|)(t + |d|) = b^2.
  *Outcome:* partial. Exact real arithmetic; values for all but the zero matrix, vectors for matrices that are not diagonal (C104_eigen_partial, C104_vector_partial, C104_small_partial), shift for all but multiples of the identity (C104_wilkinson_partial). False: these exceptions divide zero by zero (C104_zero_false, C104_diag_false, C104_small_false, C104_shift_false), so armas_eigen_sym gives NaN vectors for every diagonal matrix of order 2.

* **C105** Sum and product of the roots; for the discriminant the products without error of C56 and three roundings.
  *Outcome:* partial. Exact real arithmetic, a and b not zero, real roots (C105_roots_partial); error of the discriminant with fused operations (C105_discriminant_partial). False: without linear term the values are twice and half the roots (C105_zero_false), complex roots are wrong (C105_complex_false), coincident roots are not reported (C105_coincident_false). Not covered: rounding of the roots, the discriminant without fused operations.

* **C106** From C105 with the trace and the determinant of the block.
  *Outcome:* partial. Exact real arithmetic: the shift is the smaller of the eigenvalues (C106_shift_partial). False: it is not the one nearest to the last element (C106_shift_false).
* **C107** Loop invariant for the copy; induction over the list of entries; the failing copy by induction up to the end of the new array.
  *Outcome:* partial. Coordinate lists in allocated memory (C107_append_partial, C107_append_all_partial, C107_new, C107_resize_partial); calloc succeeds. False: a list made for no elements is no coordinate list and refuses entries (C107_empty_false), a smaller size than the number of entries overflows the new array (C107_resize_false), the number of bytes stays that of the old array (C107_nbytes_false), indices are not checked (C107_bounds_false).

* **C108** Number of missing lines as invariant (`hasLines_spec`), for coordinate lists counting with an injection (`coo_count`).
  *Outcome:* partial. Main diagonal in all formats, diagonals above with compressed columns, below with the others, coordinate lists without duplicates (C108_hasdiag_partial). False: diagonals below with compressed columns read behind the pointers (C108_csc_false); above with compressed rows and coordinate lists another diagonal is tested (C108_csr_false, C108_coo_false); duplicates count twice (C108_twice_false).

* **C109** Invariant `HessInv`: `Q_kᵀ A Q_k` is the matrix with zeros in the place of the first `k` vectors; one step is `hessStep_spec` from the specifications of the reflector and of the level 2 routines, its algebra `hessNew_step`; a reflector is its own inverse on both sides (`reflConj_reflConj`).
  *Outcome:* partial. Exact real arithmetic, unblocked algorithm (C109_hess_partial) and refused arguments (C109_errors). Not covered: the blocked algorithm.
* **C110** The call on the parts of `C`, `A` and `tau` is `qrmultW` (C65); the reflectors of the parts are those of the whole with a zero in front (`hessProd`, `hessProdT`); C109 and C110 together for the driver.
  *Outcome:* partial. Exact arithmetic: all four products, blocked and unblocked (C110_hessmult_partial), and reduction followed by multiplication (C110_driver_partial). That arguments that do not fit are refused is false: the size of tau is not looked at and the code reads behind it (C110_tau_false). Not covered: the workspace query and the allocating wrapper.

* **C111** Invariant `TrdInv` as in C109, on the lower triangle only (`HoldsOn`); the rank-two update with `y = tau A v - (tau/2)(tau vᵀAv) v` is the two-sided reflection of the symmetric matrix (`reflConj_symm`, `trdNew_step`).
  *Outcome:* partial. Exact real arithmetic, lower triangle, unblocked algorithm (C111_trd_partial) and refused arguments (C111_errors). That a tau of another size is refused is false (C111_tau_false). Not covered: the blocked algorithm and the upper triangle.
* **C112** After the tests of the arguments the call is that of C110.
  *Outcome:* partial. Exact arithmetic, lower triangle: all four products, blocked and unblocked (C112_trdmult_partial), and refused arguments (C112_errors). Not covered: ARMAS_UPPER, the workspace query and the allocating wrapper.

* **C113** Loop invariant `shifted k` for the columns moved to the right, then C66 on the part without the first row and column; `hessFrom_eq` and `hessProd_lin` turn the product of reflectors into `Q T Qᵀ` for the driver theorem.
  *Outcome:* partial. Exact arithmetic, lower triangle: the product of the first K reflectors (C113_trdbuild_partial), reduction followed by building (C113_driver_partial), refused arguments (C113_errors). That arguments that do not fit are refused without a change is false of a short work space (C113_workspace_false). Not covered: ARMAS_UPPER; driver theorem for the blocked algorithm.
* **C114** One model and one proof for both shapes, with a switch that exchanges rows and columns. Loop invariant `BdInv`: the reflectors so far take the original matrix to one that is bidiagonal in the finished rows and columns; one step is the algebra of two rank one updates (`bdNew_step`).
  *Outcome:* partial. Exact arithmetic, unblocked algorithm: reduction for both shapes (C114_left_partial, C114_right_partial), refused work space (C114_errors). That short vectors are refused is false (C114_tau_false). Not covered: the blocked algorithm, the workspace query and the allocating wrapper.

* **C115** The switch of the code over shape and flag becomes four theorems that reduce to multiplication with the matrix of a QR, LQ or Hessenberg reduction; the parts of `C` and `A` that the code leaves out carry the first row and column of the identity. With C114: the bidiagonal matrix computed by multiplication is the one computed by reduction.
  *Outcome:* partial. Exact arithmetic: all four combinations of shape and matrix, both sides, transposed or not (C115_tall_q_partial, C115_tall_p_partial, C115_wide_q_partial, C115_wide_p_partial), reduction followed by multiplication of a copy (C115_driver_tall_partial, C115_driver_wide_partial), refused flags (C115_errors). That short vectors are refused is false (C115_tau_false). Not covered: block sizes and work spaces for which the LQ multiplication fails (C94), the workspace query and the allocating wrapper.

* **C116** The shift of the stored vectors by one row is a loop invariant (`shiftedT`); both shifted cases only touch the square part (`bdBuildP_sub`, `bdBuildQ_sub`), so that C113 and C95 apply.
  *Outcome:* partial. Exact arithmetic: all four combinations of shape and matrix (C116_tall_q_partial, C116_tall_p_partial, C116_wide_q_partial, C116_wide_p_partial), empty matrices and refused flags (C116_errors). False: short vectors are not refused (C116_tau_false) and a short work space is noticed only after A has changed (C116_workspace_false). Not covered: rows <= lb < cols for P of a wide matrix, which fails (C95_work_false); K > columns for Q of a tall matrix; the workspace query and the allocating wrapper.
* **C117** QL is QR of the matrix with rows and columns reversed: the step of the code is shown to be the reversed QR step (`qrNew_step`), so that the invariant of C63 (`QrInv`) applies; `qlProd`, `qlLower` state the result without it (`isQl_of`).
  *Outcome:* partial. Exact arithmetic, unblocked algorithm: C117_ql_partial gives A = Q L both ways round, orthogonal Q and the frame; C117_errors. Not covered: the blocked algorithm, the workspace query, the allocating wrapper, a row vector tau.

* **C118** One step multiplies with one reflector (`qlmStep_spec`); both directions of the loop are one induction over `qlProd` or `qlProdT`. With C117: multiplication of a copy gives `L`.
  *Outcome:* partial. Unblocked algorithm: all sides and orders (C118_qlmult_partial), factoring and multiplying a copy (C118_driver_partial), refused arguments (C118_errors). False: 46341 or more columns with a small work space (C118_overflow_false), and a tau longer than N accepted by the factorization is refused (C118_tau_false). Not covered: the blocked algorithm, the workspace query and the allocating wrapper.

* **C119** Invariant `QlbInv`: the columns already visited and the reflectors still to come multiply to the result. Orthonormality follows from `qlProdT_qlProd`. With C117: `Q L = A`.
  *Outcome:* partial. Unblocked algorithm: C119_qlbuild_partial, factoring and building (C119_driver_partial), short work space (C119_errors). That a short tau is refused is false (C119_tau_false). Not covered: the blocked algorithm, K > columns, the workspace query and the allocating wrapper.

* **C120** RQ of `A` is QL of its transpose: the step of the code on the stored rows is the QL step on columns; the specification is that of C117 for the transposed matrix.
  *Outcome:* partial. Exact arithmetic, unblocked algorithm: C120_rq_partial gives A = R Q both ways round, orthogonal Q and the frame, stated for the transposed matrices; C120_errors. Not covered: the blocked algorithm, the workspace query, the allocating wrapper, a row vector tau.

* **C121** As C118 with the reflectors in rows and the orders exchanged. With C120: a copy times `Qᵀ` gives `R`.
  *Outcome:* partial. Unblocked algorithm: all sides and orders (C121_rqmult_partial), factoring and multiplying a copy (C121_driver_partial), refused arguments (C121_errors). False: the returned value does not tell the error (C121_code_false), and 46341 or more columns with a small work space (C121_overflow_false). Not covered: the blocked algorithm, the workspace query and the allocating wrapper.
* **C122** As C119 on the rows (`rqClear_spec`, `unblkRqbuildStep_spec`), with the same invariant `QlbInv`. With C120: `R Q = A`.
  *Outcome:* partial. Unblocked algorithm: C122_rqbuild_partial, factoring and building (C122_driver_partial), refused arguments (C122_errors). That the work space asked for is enough is false for rows <= lb < cols (C122_work_false). Not covered: the loop of the blocked algorithm, K > rows, the allocating wrapper.

* **C123** One pass is one reflector (`hmultStep_spec`), where the vector of the reflector has one or the stored element on the diagonal (`hmw`); both orders are one loop invariant. For scaled reflectors the products are those of C64 (`C123_unit`).
  *Outcome:* partial. Matrices with exactly one of ARMAS_LEFT and ARMAS_RIGHT: all sides and orders, scaled or not (C123_housemult_partial, C123_unit); column vectors from the left and row vectors from the right, which take code without work space (C123_vector_partial); refused arguments (C123_errors). False: without ARMAS_LEFT a matrix that is not square is left unchanged and success returned (C123_default_false), and a row vector multiplied from the left changes in its first element only (C123_row_false). Not covered: P with more columns than rows, the workspace query and the allocating wrapper.























## 4. Findings and model/code disagreements

### 4.1 Proved: claims that are false of the code

Each has a concrete witness in the theorem named.

* `C02_continue_bwd_false`: C02 is false of the code for the bottom-left block in the backward direction: in a 3x3 matrix after one backward step of block size 1, the block below the 2x2 top-left part has one column instead of two (`src/include/partition.h:492`).
* `C04_reserve_overflow_false`: C04 is false when `count*sz` exceeds `size_t`: 2^61+1 elements of 8 bytes are "reserved" in a buffer of 16 bytes (the product wraps to 8).
* `C08_iamin_row_false`: C08 is false for `armas_iamin` on row vectors: the 1x3 row `(5, 1, 7)` of stride 2 stored as `5 9 1 9 7`; the answer is index 0, although element 1 is smaller.
* `C100_rank_false`: C100 is false for rank 0: `retval 0` is documented as "ok; rank not changed", but every 1x1 matrix `c ≤ 0` - the zero matrix as well as the negative ones, which have no such factorization - is overwritten with zero and gives 0.
* `C100_stale_false`: C100 is false when the pivot vector of a factorization is used again for a matrix of lower rank: the positive elements behind the rank are applied to the finished columns. For `v vᵀ` with `v = (3, 2, 1)` the factor is `(3, 2, 1)` with a cleared pivot vector and `(3, 1, 2)` with the vector `(1, 2, 3)` (the result of any earlier factorization without exchanges); both give rank 1 and the pivot 1, that is no exchange.
* `C101_rank_false`: C101 is false for a rank below the order, the case the code has a branch for: `A = e3 e3^T` of order 3 has the factor `L = e1` with the single pivot 3 (rows 1 and 3 exchanged). With the number of pivots set to the rank 1 the backward pivoting starts at the last row instead of row `rank` (see C23), and for `B = (0,0,5)` the result is `(5,0,0)`; the solution is `(0,0,5)`.
* `C103_diag_false`: C103 is false for every diagonal matrix with elements of different sign: both singular values get the wrong sign. (The formulas for the signs are those of LAPACK, but the one meant for `|f| ≥ |h|` is used for `|f| ≤ |h|` and vice versa.)
* `C104_diag_false`: C104 is false for every diagonal matrix: the vector computed is not a vector of numbers (a division by zero).
* `C104_shift_false`: C104 is false for the shift of a multiple of the identity: `0/0` is computed.
* `C104_small_false`: C104 is false for `armas_eigen_sym` with a 2x2 diagonal matrix and eigenvectors wanted: what is stored are not numbers.
* `C104_zero_false`: C104 is false for the zero matrix: `0/0` is computed.
* `C105_coincident_false`: C105 is false for coincident roots: 0 is returned, not another value as documented.
* `C105_complex_false`: C105 is false for complex roots: for `x^2 - 2x + 2` with the roots `1 ± i` the values are -1/2 and 1/2.
* `C105_zero_false`: C105 is false without linear term: the values for `a x^2 + c = 0` are twice and half of the roots.
* `C106_shift_false`: C106 is false: for `e = 1`, `f = g = 0`, `h = 2` the eigenvalues are 1 and 4 and the last element is 4, but the shift is 1.
* `C107_bounds_false`: C107 is false for indices outside of the matrix: they are appended.
* `C107_empty_false`: C107 is false for a coordinate list made without room: `armassp_new` gives a matrix that is no coordinate list, and nothing can be appended.
* `C107_nbytes_false`: C107 is false for the number of bytes: after the array has grown it still is that of the old array.
* `C107_resize_false`: C107 is false for a size below the number of entries: `memcpy` writes past the new array.
* `C108_coo_false`: C108 is false for coordinate lists and a diagonal above the main one: the element (1,0) is taken for the element (0,1).
* `C108_csc_false`: C108 is false for compressed columns and a diagonal below the main one: an element behind the pointers is read.
* `C108_csr_false`: C108 is false for compressed rows and a diagonal above the main one: the element (0,0) is taken for the element (0,1).
* `C108_twice_false`: C108 is false for a coordinate list with an entry stored twice: it is counted twice.
* `C10_abs_false`: With `ARMAS_ABS` and no transpose the unblocked kernel starts at the second element of `y` (`src/blas/gemv.c:82`): for 1x1 operands it accesses memory outside of every operand.
* `C10_empty_false`: C10 is false for an empty `A` (conforming: 2x0 matrix, `x` of length 0): `y` is not multiplied by `beta`, yet 0 is returned.
* `C10_threshold1_false`: C10 is false for the threshold 1 (which the environment variable may set): the recursive code does not end on 1x1 operands, whatever their contents.
* `C110_tau_false`: C110: the size of `tau` is not looked at. A `tau` of one element for a matrix of order four is not refused; the code reads behind it, undefined behaviour if nothing is stored there.
* `C111_tau_false`: C111: a vector `tau` of the wrong size is not refused (`src/lapack/trired.c:661`: the two tests are joined by "and"). With an empty one the code returns without an error and leaves `A` as it was; what is there then is not a reduction, with whatever scalars.
* `C113_workspace_false`: C113: a work space that is too short is only noticed after `A` has been changed: the first column of a matrix of ones becomes a unit vector.
* `C114_tau_false`: C114: vectors `tauq` and `taup` that are too short are not refused (`src/lapack/bired.c:920-987` looks at neither). For a matrix of two rows and columns and a `tauq` of one element the code returns without an error and has overwritten the element behind `tauq`, which belongs to none of its arguments.
* `C115_tau_false`: C115: a vector `tau` that is too short is not refused, against the comment "sizes are checked in QR/LQ functions" (`src/lapack/biredm.c:161`): those get a part of `tau` that was given the expected size (`src/lapack/biredm.c:170, 175, 192, 201`). With one scalar for two reflectors the code reads behind `tau`.
* `C116_tau_false`: C116: a vector `tau` that is too short is not refused (`src/lapack/bibld.c:129, 147, 176, 182`): with one scalar for two reflectors the code reads behind it.
* `C116_workspace_false`: C116: a work space that is too short is only noticed after `A` has been changed: with `ARMAS_WANTP` the first row of a matrix of ones becomes a unit vector.
* `C118_overflow_false`: That every argument of matching size is processed is false: with 46341 or more columns and less work space than the blocked code wants, `K * K` overflows an `int` (`src/lapack/qlmult.c:468`): undefined behaviour.
* `C118_tau_false`: That a `tau` accepted by `armas_qlfactor_w` can be handed to `armas_qlmult_w` is false: factoring accepts more than `N` elements and multiplication refuses them (`src/lapack/ql.c:464`, `src/lapack/qlmult.c:449`), although the loops of the latter are written for them.
* `C119_tau_false`: That a `tau` that is too short is refused is false: its size is not looked at (`src/lapack/qlbld.c:266-269`) and the code reads behind it; here it has one element and `A` two columns.
* `C11_threshold1_false`: C11 is false for threshold 1: the recursion never ends on a 1x1 matrix.
* `C121_code_false`: That the returned value tells the error is false: a short work space gives the value that stands for sizes that do not match, `-ARMAS_ESIZE` (`src/lapack/rqmult.c:489-492`); the other multiplications return `-ARMAS_EWORK` (`C118_errors`).
* `C121_overflow_false`: That every argument of matching size is processed is false: with 46341 or more columns and less work space than the blocked code wants, `K * K` overflows an `int` (`src/lapack/rqmult.c:498`): undefined behaviour.
* `C122_work_false`: That the work space the query asks for is enough is false between the two block size tests: the size is computed for unblocked code when `rows ≤ lb` (`src/lapack/rqbld.c:254-259`, `:274`) but the unblocked code is chosen only when `cols ≤ lb` (`:293`). A 2 by 4 matrix with `lb = 3` and the work space of two elements: the intermediate result is written behind the block reflector, outside of it.
* `C123_default_false`: That multiplication from the left is the default, as documented (`src/lapack/housem.c:300`), is false: without `ARMAS_LEFT` the work vector gets as many elements as `X` has rows (`:325`, `:348`); if `X` is not square every call on it is refused, the return values are not looked at, and the function returns 0 with `X` unchanged.
* `C123_row_false`: That a row vector (which matches one reflector of length one from the left) is multiplied is false: the code for vectors changes its first element only (`src/lapack/housem.c:122-133`). Here `Q = -1` and `X = (1 1)` becomes `(-1 1)`.
* `C12_threshold1_false`: C12 is false for threshold 1 (lower triangle, no transpose): the recursion never ends on a 1x1 matrix.
* `C13_threshold1_false`: C13 is false for threshold 1 (upper triangle, no transpose): the recursion never ends on a 1x1 matrix.
* `C14_threshold1_false`: C14 is false for threshold 1: the recursion never ends on a 1x1 matrix.
* `C15_update2_size_false`: C15: `armas_mvupdate2_sym` does not compare the vectors with the matrix: with a 2x2 matrix and vectors of length 1 it reads beyond the vectors instead of returning an error.
* `C15_update_trm_rect_false`: C15: the recursive triangular update splits a non-square matrix away from its diagonal: for a lower 2x4 matrix with threshold 2 the element (1,2), which is above the diagonal, is changed.
* `C16_absA_false`: C16: with `ARMAS_ABSA` alone the elements of `B` are replaced by their absolute values as well: 1x1 matrices `A = 1`, `B = -1`, `C = 0` give 1 instead of -1.
* `C16_zero_block_false`: C16: a block size of zero makes the loop over the columns of `C` run forever. `armas_cache_setup2` produces `NB = 0` for some accepted settings (see C25).
* `C17_inner_zero_false`: C17 is false: for every nonempty `C` with some element `x` such that `beta*x ≠ x` and every empty inner dimension `armas_mult` reports success and leaves that element as it was.
* `C18_threshold1_false`: C18 is false for a recursion threshold (`blas2min`) of 1 or 0: neither the recursive nor the blocked algorithm ever returns, for any arguments. For threshold 1 the code enters the unblocked function with an empty matrix and addresses elements outside of it (undefined in the model), for threshold 0 it calls itself without end.
* `C18_zero_block_false`: C18 is false for a block size of zero (see C25 for the settings that produce it): the blocked algorithm runs forever.
* `C19_recursive_alpha_false`: C19 is false for `alpha ≠ 1` in the recursive algorithm: `alpha` multiplies the right hand side of the second half after the first half, already multiplied, was subtracted. Here `T = [1 0; 1 1]`, `B = (1, 1)` and `alpha = 2`: the solution is `(2, 0)`, the code returns `(2, -2)` with status 0.
* `C19_threshold1_false`: C19 is false for a recursion threshold of 1 or 0: neither the recursive nor the blocked algorithm ever returns.
* `C20_overlap_false`: C20 is false for accepted settings: with `ARMAS_CONFIG=32,64,160` and the default cache memory the buffers are 232x44 and 232x92. For a row of 45 elements the diagonal block of order 45 does not fit to the first buffer, and the copy of `B` overwrites its last column. Here `S = 0` and `B` is all ones; the last element of `C = B*S` is 45 instead of 0, with status 0.
* `C21_inner_zero_false`: C21 is false when the inner dimension is zero: `C` is not scaled by `beta`.
* `C21_odd_upper_false`: C21 is false for odd sizes in the recursion for the upper triangle: the block right of the first diagonal block is taken with one row too many, so a row is updated twice. Here `C = 0` has order 3, `A` and `B` are all ones with inner dimension 1, `beta = alpha = 1` and the threshold is 2: all elements of the triangle should become 1, but element (1,1) becomes 2, with status 0.
* `C21_threshold0_false`: With the threshold zero, which the settings allow, the recursive version never returns.
* `C22_block1_false`: C22 is false for the block sizes 0 and 1, which the settings accept: the call never returns a result, for any operands of conforming sizes.
* `C22_inner_zero_false`: C22 is false for inner dimension zero: `C` is not scaled by `beta`.
* `C23_short_false`: C23 is false for a pivot vector shorter than the matrix: `[2]` applied forward and then backward to a matrix of two rows (the pivot vector of the LU factorization of a 2x1 matrix) exchanges the rows once, as the backward pass takes the single pivot for the one of the last row.
* `C23_sym_zero_false`: C23 (symmetric) is false for zero entries: while the row and column kinds skip them, the symmetric kinds access the element in front of the matrix.
* `C24_short_false`: C24 is false for a pivot vector shorter than the vector, which is not checked: the missing entries are read as zero and the vector is accessed in front of its first element.
* `C25_fixed3_false`: C25: the fixed three way split, used by the extended precision routines when the seventh entry of `ARMAS_CONFIG` is "y", takes the positive settings 3, 64, 160 and makes `MB = 0`.
* `C25_fixed3_overflow_false`: C25: with the fixed split and a workspace of 6144 bytes given by the caller the third buffer ends behind the workspace: 64+2*16 columns of 8 doubles need all 6144 bytes, but the start of the buffers is moved up to the next cache line.
* `C25_overlap_false`: C25: `ARMAS_CONFIG="1000,1000,1"` gives `KB = 4` but a column stride of 8 elements, while the start of the second buffer is computed with stride 4: the two buffers overlap, and the second one extends past the end of the cache memory.
* `C25_zero_block_false`: C25: `ARMAS_CONFIG="1000,1,1000"` makes `NB = 0`, and then `armas_mult` never returns for any nonempty operands and `alpha ≠ 0`.
* `C25_zero_kb_false`: C25: `ARMAS_CONFIG="1000000,1,1"` makes `KB = 0`; `armas_cache_setup2` then divides by zero, so every multiplication of nonempty operands has undefined behaviour.
* `C29_released_false`: C29 is false of the code. With a queue of any capacity `n > 0` there is an execution in which thread 1 blocks in `taskq_enqueue` on the full queue, thread 0 then removes an item, so that there is room again, and from there thread 1 stays blocked in every continuation.
* `C31_blocked_false`: C31, blocked submission. With one worker slot (queue capacity two) the third submission can block on the full queue; the thread then executes everything and returns, and nothing in the system can move any more: the submitting thread never gets its task in.
* `C31_lost_task_false`: C31 is false of the code: lost task. One worker slot: the on-demand thread finds the queue empty and leaves its loop; before it decrements `nrunning` the main thread enqueues task 1, sees `nrunning = 1` and creates no thread. In the resulting state every thread has returned, no step but a new submission is possible, and task 1 is still queued, unexecuted.
* `C32_stop_false`: C32 is false of the code. For every queue capacity there is an execution in which the pool is started and stopped, the stop request is completely issued, and from there the worker never terminates and the join never returns in any continuation.
* `C32_stop_full_queue_false`: C32, full queue. Second failure: the worker sees the flag after finishing a task and exits while its queue is full; `sched_workers_stop` then retries `taskq_write(…, NULL)` forever. For every capacity such a state is reachable.
* `C33_spurious_false`: C33 is false of the code with spurious wake-ups. `armas_counter_wait` tests the counter with `if`, not `while`: for any number `n > 0` of tasks there is an execution in which the wait returns although no task has finished.
* `C35_nonfinite_false`: C35: a non-finite element writes nothing, and the text cannot be read back (error −1), while the finite element can.
* `C35_string_false`: C35 is false for strings with other control characters: the character 1 is not written, so the string "\\x01" reads back as the empty string.
* `C35_unicode_false`: The string `"\\u0041"` of a JSON text (the letter A, code 65) reads as character 41: the four hexadecimal digits are converted as a decimal number.
* `C36_col_false`: C36 is false: in a 2 × 2 matrix the triplet `[0,2,5]` is written behind the elements (undefined behaviour).
* `C36_row_false`: C36 is false: in a 2 × 2 matrix the triplet `[2,0,5]`, outside the matrix, is not discarded but overwrites element (0,1).
* `C37_consumes_false`: C37 fails (lines consumed): the reader always takes one line more than the matrix has, so a second matrix behind the first in the same file loses its banner. Two 1×1 matrices are written one after the other; loading the first leaves a text from which the second cannot be loaded.
* `C37_precision_false`: C37 fails (precision): what `C37_general_partial` asks of the formats does not hold of `"%.13e"`. A text made from 14 significant digits (for `1 ≤ v < 10` from the nearest integer to `v · 10^13`) is the same for the two doubles `1` and `1 + 2^-52`, so no way of reading gives both of them back.
* `C37_stale_false`: C37 fails (line not read as a value): a line on which no number is found repeats the element before it, and the load reports success.
* `C38_empty_false`: A matrix without entries is not converted: the result is the null pointer.
* `C38_reuse_false`: Converting a coordinate list into a target used before (pointers not zero) fails although the target has room: the pointers are not cleared, the assertion on their sum fails.
* `C39_coo_false`: The copy of a coordinate list has no entries: the number of entries is not copied.
* `C39_empty_false`: A matrix without entries is not copied: the result is the null pointer for compressed matrices.
* `C39_same_false`: Converting a matrix to the compressed format it already has returns a matrix without entries.
* `C40_csr_trans_false`: The transposed product is wrong for a 1 × 2 matrix: `y = 0*y + Aᵀ*x` with `x` = 1, `y` = (7, 7) gives (1, 8) instead of (1, 1).
* `C40_flags_false`: A flag without meaning for this operation (e.g. `ARMAS_LOWER`) makes the product transposed: the code tests `flags == 0`. For the 2 × 2 matrix with the single element (0,1) = 1 and `x` = (3, 5), the result is (0, 3) instead of (5, 0).
* `C40_reject_false`: Wrong sizes are accepted: `y` with 1 and `x` with 3 elements for a 3 × 4 matrix, and the product then runs out of bounds.
* `C41_alpha_false`: `alpha` is ignored: with the 1 × 1 matrix (1), `alpha` = 2 and `b` = 1 the result is 1 instead of 2.
* `C41_unit_false`: With `ARMAS_UNIT` and a diagonal that is not stored the solver for compressed columns skips an element and reads behind the index array: 3 × 3 unit lower matrix with the elements (2,0) = 1 and (2,1) = 1, `b` = (1, 1, 1), where the solution is (1, 1, -1).
* `C42_add_false`: `armassp_add` never returns a sum: for operands of the same format and size it dereferences a null pointer.
* `C42_addto_csc_tn_false`: A transposed `A` in compressed column format: the result matrix is not written, the return code is 0.
* `C42_addto_tn_false`: Transposed `A` in compressed row format is scaled with `beta`: 1*(1)ᵀ + 2*(1) gives (4).
* `C42_addto_tt_false`: Both operands transposed gives the sum without transposing: for `A` = `B` = (1 5; 0 1) row 0 of the result holds 2, 10, row 1 holds 2 in column 1.
* `C42_fit_false`: A result matrix with room for exactly the elements of the sum fails the assertion in `armas_accum_gather`: (1) + (1) into a matrix of one element.
* `C42_mult_alpha_false`: The product in compressed row format ignores `alpha`: 2*(1)*(1) gives (1).
* `C42_mult_false`: `armassp_mult` computes nothing: the matrix it returns has no elements, whatever the operands.
* `C42_mult_order_false`: With the workspace size that the function itself asks for, and the reservation evaluated before the size, the accumulator is not initialized.
* `C42_mult_rect_false`: `A`ᵀ`A` for the 1 × 2 matrix `A` = (1 1): only the first of the two rows of the result is computed, the pointer to its end is left as it was.
* `C42_search_false`: A transposed operand whose last element is not stored: `armassp_nz` reads behind the index array. (1 0; 0 0) + (1 0; 0 0)ᵀ.
* `C43_order_false`: The factors are applied in the wrong order. With the 2 × 2 factors `L` = (1 0; 1 1), `U` = (1 1; 0 1), stored as (1 1; 1 1), and `x` = (1, 0) the result is `z` = (1, -1), but `L*U*z` = (0, -1).
* `C44_zero_pivot_false`: The claim "an error for every matrix that is not positive definite" is false for `ARMAS_LOWER`: the 1x1 zero matrix is accepted with status 0 (and the reciprocal of zero is computed), whatever the configuration. The upper version reports the error.
* `C45_singular_false`: A singular matrix is reported as success: the status of each column overwrites that of the columns before. The stored upper factor has a zero on its diagonal.
* `C46_trans_false`: With `ARMAS_TRANS` the two triangular solves are done in the wrong order (`L^T` first, then `U^T`): the call returns 0 and the result does not solve the transposed system, not even without pivoting and in exact arithmetic.
* `C47_block1_false`: With block size 1 the block below the diagonal is a column, which `armas_solve_diag` takes for a vector of another length than the diagonal; its error is ignored and the column is not divided by the pivot. The product of the factors of a matrix with nonsingular leading blocks then differs from the matrix.
* `C47_solve_order1_false`: A 1x1 system with two right-hand sides: `armas_solve_diag` takes the row of right-hand sides for a vector of another length than the diagonal, its error is ignored: 0 is returned and `B` is unchanged although the diagonal is not 1.
* `C47_solve_trans_false`: With `ARMAS_TRANS` the last of the three solves is transposed again: the call returns 0 and the result does not solve the (symmetric) system, not even in exact arithmetic.
* `C48_solve_diag_false`: C48 is false for `armas_solve_diag` with a matrix operand: the result solves `diag(D)*X*alpha = A` (`alpha` divides instead of multiplying), which differs from the claim whenever `alpha*alpha ≠ 1` and `A` is not zero.
* `C49_abs_false`: The sign of elements is lost: `(1, -2)` becomes `(1, 2)`.
* `C50_boundary_false`: Negation of C50 at the boundary: `rows - start = 2` rotations of a 2×2 matrix (the documented maximum, `src/lapack/givens.c:222-224`) touch a row that does not exist. With the matrix alone in memory this is undefined behaviour; with a cell after the matrix that cell is overwritten.
* `C50_count_false`: Negation of C50 for the count: one backward rotation is applied and the value returned is `0`.
* `C50_single_false`: `armas_gvleft` with two rows does not cut the number of columns: three columns from column 0 of a 2×2 matrix.
* `C51_lower_unit_tall_false`: C51 is false for the strictly lower part of tall matrices: `armas_mscale` and `armas_madd` with `ARMAS_LOWER|ARMAS_UNIT` leave the last column as it was, although its elements below the diagonal belong to the selected part.
* `C51_madd_upper_false`: C51 is false for `armas_madd` with `ARMAS_UPPER`: for a wide matrix (2x3 in an allocation of six elements) and with `ARMAS_UNIT` (2x2 in an allocation of four) memory behind the matrix is accessed.
* `C51_madd_vector_false`: C51 is false for `armas_madd` on vectors: the flags are ignored, so that with `ARMAS_UPPER` all elements of a column are incremented, not only the first one.
* `C51_mscale_upper_false`: C51 is false for `armas_mscale` with `ARMAS_UPPER`: on every square matrix only the elements of the diagonal are multiplied, all others of the triangle keep their value.
* `C51_mscale_upper_unit_false`: C51 is false for `armas_mscale` with `ARMAS_UPPER|ARMAS_UNIT`: for a 2x2 matrix in an allocation of four elements it accesses memory behind it.
* `C52_scalar_false`: C52 is false for a 1x1 operand `B`: `alpha` is ignored, also for 1x1 `A`.
* `C52_triangle_trans_false`: C52 is false for triangles with `ARMAS_TRANS`: the operand is not transposed, so that (lower triangle) the elements of the lower instead of the upper triangle of `B` are added.
* `C54_size_false`: The sizes are not checked: with a vector of length 1 and a factor of order 2, `armas_cholupdate` reads past the vector.
* `C55_nonneg_false`: With `ARMAS_NONNEG` and `x = 0`, `beta` can be negative although it is documented to be non-negative (`src/lapack/house.c:246-251`).
* `C55_unscaled_false`: For `x = 0` the unscaled form is no reflector to `(beta; 0)`: with `(a; x) = (1/2; 0)` the code keeps `v = (1/2; 0)` and `beta = 1/2`, but `(I - 2 v vᵀ)(1/2; 0) = (1/4; 0)`.
* `C56_extract_base_false`: The generic macro subtracts `r` twice: for 0 the parts are -2r and 2r.
* `C56_fastsum_order_false`: `fastsum` with the operands in the other order loses the smaller one: 1 and 2^60 in double precision.
* `C56_twodiv_avx_false`: The x86_64 macro without fused multiply-add multiplies the wrong operands: for 1/3 in double precision the correction is 0, although the quotient has an error.
* `C56_twoprod_f32_false`: `twoprod` in single precision (without fused multiply-add) is not error free: the factor 2^14 + 1 leaves low parts of 13 bits, whose product does not fit. For a = b = 8396801 the pair is 70506267017216, 16384 but the product is 70506267033601.
* `C57_failures_dropped_false`: C57 is false of the code. For every number of threads above one and every choice of failing blocks that leaves out the last one, the operation reports success (return code 0).
* `C58_make_trm_upper_false`: C58 is false for `armas_make_trm` with `ARMAS_UPPER|ARMAS_UNIT` of a wide matrix: for a 1x2 matrix in an allocation of two elements memory behind the matrix is written.
* `C59_recursion_false`: C59 is false in the blocked algorithm when the recursion of `armas_solve_trm` is entered with the factor -1 (block size not below the recursion threshold, see `C19_recursive_alpha_false`): the upper triangle of ones, block size 2 and threshold 2; the inverse has 0 at position (1,3), the code stores -2 and reports success.
* `C59_unit_false`: C59 is false with `ARMAS_UNIT` if the stored diagonal is not one (as in a packed LU factorization): the flag is not handed to `armas_mvmult_trm`, which multiplies with the stored diagonal. Here the unit upper triangle with the element 1 above the diagonal and 2 stored at position (0,0); the inverse has -1, the code stores -2.
* `C60_recursion_false`: C60 is false when the recursion of `armas_solve_trm` is entered with the factor -1 (see `C59_recursion_false`): `L` the identity, `U` the upper triangle of ones, block size 2 and threshold 2; the inverse has 0 at (0,2), the code stores -2 and reports success.
* `C61_odd_split_false`: C61 is false when a block of an upper triangle is split at an odd order (see `C21_odd_upper_false`): block size 3 and threshold 2, a factor with ones on the diagonal and at (1,3); the inverse has 2 at (1,1), the code stores 3 and reports success.
* `C62_square_false`: C62 is false for a square matrix with a non-zero last `tau`: the matrix-vector product is skipped because its matrix has no rows, and with it the scaling of the column by `-tau`. `A` a 2 by 2 matrix of ones, `tau = (1, 1)`.
* `C62_stale_false`: C62 is false without `hz`: the code does not write the column of `T` of a zero `tau`. One reflector with `tau = 0`, so that `Q = I`, and `T = (7)` on entry: `T` is unchanged and `I - Y T Yᵀ` is not the identity. The last `tau` computed for a square matrix is always zero.
* `C65_overflow_false`: With 46341 or more columns and less work space than the blocked code wants, `K * K` overflows an `int` (`src/lapack/qrmult.c:506`): undefined behaviour on arguments that satisfy all documented conditions.
* `C66_long_tau_false`: C66 is false for a `tau` longer than the number of columns, which `armas_qrfactor_w` accepts and fills from the front: `armas_qrbuild_w` reads the last elements. One column `e_0` with scalar `2`, so that the column of `Q` is `-e_0`; with `tau = (2, 0)` the result is `e_0`.
* `C66_stale_false`: C66 is false for zero scalars with vectors that are not unit vectors: all scalars are zero, so that `Q = I`, the vectors and the work space are ones; with blocks of two columns the result is not the identity, since the columns of the block reflector with a zero scalar keep the previous contents of the work space. Unblocked code gives the identity (`C66_qrbuild_partial`).
* `C67_long_tau_false`: C67 is false for a `tau` longer than the number of columns, which `armas_qrfactor_w` accepts: `armas_qrmult_w` returns `-ESIZE`, which `armas_qrsolve_w` ignores (`src/lapack/qrsolve.c:137-154`), and `0` is returned with a solution of `R x = b` instead. Here `a = (3, 4)`, `b = (3, 4)`: the result is `x = -3/5`, the residual of `y = 1` is zero.
* `C67_nomem_false`: C67 is false when the packing buffers cannot be allocated: `armas_solve_trm` returns `-EMEMORY`, which `armas_qrsolve_w` ignores, and `0` is returned with `Qᵀ b` in place of the solution. Here `a = (3, 4)`, `b = (3, 4)`: the result is `x = -5`, the residual of `y = 1` is zero.
* `C68_iamax_false`: C68 is false for `idamax_`: the reference BLAS counts from one and returns zero only for an empty vector; here a vector of one element gives zero and an empty vector `-1`.
* `C68_increments_false`: C68: increments whose product does not fit an `int` are undefined behaviour in `daxpy_`, `ddot_` and `dswap_`, for vectors of any length; `dcopy_` compares signs instead.
* `C68_rotg_false`: C68 is false for `drotg_`: the reference BLAS replaces the first argument by `r = c a + s b`; here it is never written. For `a = 3`, `b = 4` the value 3 stays, `c a + s b` is not 3.
* `C69_conj_false`: C69 is false for the transposition `C` (for real data the same as `T`): `dgemv_('C', 2, 1, ...)` should read two elements of `x` and write one of `y`; the code accesses a second element of `y`, which need not exist.
* `C69_negative_false`: C69: a negative increment of a vector with at least two elements is passed on as a negative step; elements before the start of the array are accessed.
* `C70_cblas_gemm_row_false`: C70 is false for `cblas_dgemm` with `CblasRowMajor`: the result is transposed. `A` is `[0 1; 0 0]`, `B` the identity, `beta = 0`, nothing transposed: element `(0, 1)` of the result should be 1, and element `(1, 0)` should be 0.
* `C70_cblas_symm_col_false`: C70 is false for `cblas_dsymm` with `CblasColMajor` and `M ≠ N`: the order of the symmetric matrix is taken from the wrong dimension, and the call does nothing at all.
* `C70_cblas_trmm_square_false`: C70 is false for `cblas_dtrmm` with `CblasRowMajor` also for square matrices: without transposition it multiplies with the transpose. `A` is `[1 1; 0 1]`, `B` the identity (`CblasLeft`, `CblasUpper`): element `(0, 1)` of the result should be 1 and element `(1, 0)` should be 0.
* `C70_cblas_trxm_row_false`: C70 is false for `cblas_dtrmm` and `cblas_dtrsm` with `CblasRowMajor` and `M ≠ N`: the order of the triangular matrix is taken from the wrong dimension and the calls do nothing at all.
* `C70_gemm_trans_false`: C70 is false for `dgemm_` with a transposed `A` that is not square: the call does nothing at all (the shape is passed as `M` by `K`, the size error is dropped). The same holds for `B`.
* `C70_syr2k_ldb_false`: C70 is false for `dsyr2k` when the leading dimensions of `A` and `B` differ: elements of `B` are read with the leading dimension of `A`. For `n = 1`, `k = 2`, `A = B = [1 1]` with `lda = 1`, `ldb = 2` the update is 4; with 7 in the element between those of `B` the code computes 16.
* `C71_empty_column_false`: A column without an element on or below the diagonal. The code reads the index before it tests the bound, and then takes the next column's first element for the diagonal. First: `A` = (1 0; 0 0) in compressed columns without stored zeros, the index array is read behind its end. Second: `A` = (0 5; 0 1) with `ARMAS_LOWER`, so `S` = (0 0; 0 1); for `x` = (1, 1) the result is (5, 1) instead of (0, 1).
* `C71_reject_false`: `y` of wrong size is accepted for a square matrix and written out of bounds: one element of `y` for the 2 × 2 unit matrix.
* `C71_row_vector_false`: `x` must be a column vector with adjacent elements: a row vector of the right size passes the size test, but the code reads the cells after its first element. Unit matrix of order 2, `x` = (1, 1) with distance 3 between its elements: undefined.
* `C72_exact_start_false`: A start that is the solution is not accepted: the first step divides zero by zero. Here `b = 0` and `x = 0`.
* `C73_code_false`: Without convergence the return value is 0 as well: one iteration, and the square of the residual norm is 5/324 with a limit of 1/1000000; the preconditioner is the unit matrix.
* `C73_measure_false`: What is compared and reported is not the norm of the residual: with the preconditioner `M = I/10000` and the limit 1/100 the function returns 0 after the first step and reports 5/3240000 where the square of the residual norm is 5/324, above the square 1/10000 of the limit.
* `C75_alloc_false`: `armassp_cgnr` allocates the workspace that `armassp_cgnr_w` asks for, so no call with accepted operands and a matrix that is not empty returns.
* `C75_residual_false`: `cf.residual` of `armassp_cgnr_w` is documented as the norm of `b - A x` and is that of `Aᵀ (b - A x)`: after one step the square of the first is 1/34, reported is 65/1156.
* `C75_workspace_false`: The workspace that `armassp_cgnr_w` asks for is too small: it wants `2 cols(A) + rows(A)` elements but takes `2 cols(A) + 2 rows(A)`. With anything between the two the reservation of `Ap` returns a null pointer that is used; no such call returns, whatever the contents of memory.
* `C76_missing_diagonal_false`: A diagonal element that is not stored counts as zero only if the column (row) holds another element: with an empty first column the product with an upper matrix in compressed columns reads the element before the index array.
* `C76_row_vector_false`: A row vector is taken for a column vector: with the unit matrix, `alpha` = 2 and the row vector with the elements 1, 1 in cells 0 and 3, cell 1 changes, which is not part of the vector, and cell 3 does not.
* `C76_square_false`: The sizes are checked against one dimension of the matrix only: a 2 × 1 matrix in compressed rows and a vector with one element are accepted, and the second element of the vector, which does not exist, is written.
* `C76_unit_false`: With `ARMAS_UNIT` the search for the first element behind the diagonal runs past the end of the index array in the last row or column: upper compressed rows (the 3 × 3 matrix of `demoTri`), lower compressed columns, and lower compressed columns transposed.
* `C77_old_values_false`: Elements that are not stored are not set to zero: a 1 × 1 dense matrix that holds 5 still holds 5 after the copy of an empty sparse matrix.
* `C78_upper_false`: With `ARMAS_UPPER` the loop over the rows of column `j` goes to row `j` even if there is no such row: for the 1 × 2 matrix in the cells 0 and 1, cell 2 is changed, which does not belong to it; with two cells only, the behaviour is undefined.
* `C80_behind_end_false`: For the lower triangle in compressed rows and the upper one in compressed columns the index behind the last element is read: without spare room in the arrays the factorization of (4 2; 2 5) is undefined.
* `C80_format_false`: The format is not checked: a matrix in coordinate format is taken for compressed columns, and its pointers, which do not exist, are read.
* `C80_pivot_false`: A pivot that is not positive is not reported: for the 1 × 1 matrix -1 the return value is 0 and the factor is the square root of -1, for every square root function `sq`.
* `C82_adot_pair_false`: The pair that `armas_ext_adot_unsafe` hands back does not carry the exact value to second order: it adds the inner product to `*h` with `fastsum`, which needs the first operand to be the larger one. With `*h = 1`, `*l = 0` and the inner product `2 ^ 60 * 1` the pair is `(2 ^ 60, 0)`, and the 1 is lost (`src/eblas/dot_ext.c:102`; the variant for corrected vectors, line 150, uses `twosum`).
* `C83_sum_false`: `armas_ext_sum` with a factor other than one drops the high part of the product: after `twoprod(result, &q, alpha, h)` the next statement overwrites `*result` with `q + alpha*l` (`src/eblas/asum_ext.c:157-158`). Twice the sum of the single element 1 is returned as 0.
* `C86_block_reflector_false`: C86 is false: `T` is not the block reflector. `t01` is computed from the blocks to the right of the column instead of those to its left (`a12`, `A22` for `a10`, `A20`), whose sizes do not even agree, so that the calls fail without notice and `T(0,1)` stays what it was on entry. `A` the 3 by 2 matrix with the columns `(3, 4, 0)` and `(-12/5, 9/5, 4)`, `T` zero on entry.
* `C86_blocked_false`: C86 is false with more than one block: the wrong `T` is used to update the columns to the right of the block, so that `A = H_0 H_1 H_2 R` fails with the reflectors and the upper triangle left in `A` and the scalars left in `T`. `A` the 3 by 3 matrix with the columns `(3, 4, 0)`, `(-12/5, 9/5, 4)` and `(1, 0, 0)`, `T` a 2 by 3 matrix (blocks of two columns), zero on entry.
* `C86_workspace_false`: The work space check of `armas_qrtfactor_w` accepts an empty work space if `T` has as many rows as `A` has columns (`A->cols < lb` is tested, but the unblocked code is used for `A->cols <= lb`): the code then writes outside it. `A` is 2 by 2, `T` is 2 by 2; the documented size, returned by the workspace query, is two elements.
* `C87_empty_false`: C87 is false for the empty system: with a workspace the last element of the empty vector is read.
* `C87_trans_default_false`: C87 is false for `TRANS` without `LOWER`: the `switch` sends it to the default case (`src/eblas/trsv_ext.c:267-281`) and the matrix is not transposed, while `armas_mvsolve_trm` transposes it (C13).
* `C87_workspace_false`: C87 is false for a workspace with other contents: the solve of `1 x = 1` with a workspace whose first element is 1, as an earlier call may have left it, returns `x = 2`. The unknown handled before the loop takes its correction from the uninitialised workspace (`src/eblas/trsv_ext.c:52,110,167,226`).
* `C88_abs_false`: C88 is false of the flag `ABS`: "X = alpha |A| |X| if ARMAS_ABS set" (`src/eblas/trmv_ext.c:220`), but no loop looks at it (`src/eblas/trmv_ext.c:37-212`): `|-1| |1|` gives `-1`.
* `C88_trans_default_false`: C88 is false when neither `LOWER` nor `UPPER` is given together with `TRANS`: the default case is the lower triangle, not transposed (`src/eblas/trmv_ext.c:206-209`): with `A = [1 3; 2 4]`, `x = (3, 3)` the first element is 21 and not `7 (1*3 + 2*3)`.
* `C89_doubled_false`: C89: twice the working precision is false of the result. With `A = [1 e; e 0]`, `x = (1, e)`, `y = (-1, -1)`, `e = 2^-30`, the first element of `y + A x` is `2^-60`, computed exactly by the pair of the accumulator, but the pair is rounded to one number before `y` is added (`src/eblas/symv_ext.c:82-89`) and the result is 0.
* `C90_accuracy_false`: C90: the accuracy of the extended precision is false. With `x = y' = 1 + e`, `y = 1`, `alpha = 1 + e`, `A = -2 (1 + 2e)`, `e = 2^-30`, the exact update is `2 e^2` and the computed one `e^2`: the low part of the second product with `alpha` is stored in `c1` and not used (`src/eblas/syr2_ext.c:53-57,84-88`).
* `C90_lower_false`: C90 is false of `LOWER`: the loop runs over the rows `0 ... j` of column `j`, the elements of the upper triangle (`src/eblas/syr2_ext.c:71-72`), whatever the operands: the lower triangle keeps its old values and the upper triangle, which may not be written, gets the update.
* `C90_size_false`: C90: a vector shorter than the matrix is accepted, since only the sizes of the two vectors are compared (`src/eblas/syr2_ext.c:149-152`), and read beyond its end.
* `C90_syr_bounds_false`: C90 is false of `armas_ext_mvupdate_sym` for larger matrices: the vector handed to `armas_ext_axpby_dx_unsafe` is the whole of `x` and not its part from the diagonal on (`src/eblas/syr_ext.c:44-61`), so the update of the last column of a 2x2 matrix writes past its end.
* `C90_syr_value_false`: C90 is false of `armas_ext_mvupdate_sym` also where the memory goes on: with `x = (2, 3)` and the matrix of ones the diagonal element `A(1,1)` becomes `1 + 3*2` and not `1 + 3*3`, and a cell that is not part of the matrix changes.
* `C91_size_false`: C91 is false of a `T` of the order of the block reflector: the check of `armas_lqreflector` asks for `cols(A)` rows and columns as in the QR case, though the LQ block reflector has order `rows(A)`. A 1 by 2 matrix and a 1 by 1 `T`: nothing is computed.
* `C91_square_false`: C91 is false for a square matrix with a non-zero last `tau`: the matrix-vector product is skipped because its matrix has no columns, and with it the scaling of the column by `-tau`. `A` a 2 by 2 matrix of ones, `tau = (1, 1)`.
* `C91_stale_false`: C91 is false without `hz`: the code does not write the column of `T` of a zero `tau`. One reflector with `tau = 0`, so that `Q = I`, and `T` a 2 by 2 matrix of sevens on entry: `T` is unchanged and `I - Y T Yᵀ` is not the identity. The last `tau` computed for a square matrix is always zero.
* `C94_overflow_false`: With 46341 or more columns and less work space than the blocked code wants, `K * K` overflows an `int` (`src/lapack/lqmult.c:507`): undefined behaviour on arguments that satisfy all documented conditions.
* `C95_long_tau_false`: C95 is false for a `tau` longer than the number of rows, which `armas_lqfactor_w` accepts and fills from the front: `armas_lqbuild_w` reads the last elements. One row `e_0ᵀ` with scalar `2`, so that the row of `Q` is `-e_0ᵀ`; with `tau = (2, 0)` the result is `e_0ᵀ`.
* `C95_work_false`: C95 is false between the two block size tests: the work space is checked (and its size computed, `:274-277`) for unblocked code when `rows ≤ lb`, but unblocked code is chosen only when `cols ≤ lb` (`:305`). A 2 by 3 matrix with `lb = 2` and the work space of two elements the query returns: the blocked code writes the 2 by 2 block reflector beyond its end.
* `C96_work_false`: C96 is false for a work space with at least as many elements as `B` has rows and fewer than it has columns: `armas_lqmult_w` fails, which `armas_lqsolve_w` ignores (`src/lapack/lqsolve.c:148-168`), and `0` is returned with a matrix that is no solution. Here `a = (3 4)` and the first of three right hand sides is 3: the result is `(-3/5, 0)`, and `3 * (-3/5) + 4 * 0` is not 3.
* `C96_wrapper_false`: C96 is false of the allocating `armas_lqsolve`: with fewer right hand sides than rows of `B`, and no more than the block size, the query asks `armas_lqmult_w` and returns as many elements as `B` has columns, and the call that follows wants as many as it has rows (`:140`): every such call fails with `-EWORK`, in particular every call with one right hand side and more than one column of `A`.
* `C97_depth0_false`: C97 is false for a matrix `R` without columns and `ARMAS_TRANS`: division by zero (`src/lapack/rbtgm.c:123-127`); without `ARMAS_TRANS` the call leaves `A` as it is.
* `C97_fit_false`: C97 is false for depth 3 and a block with more than one row that is less than half full: with ten rows the blocks of size 8 have 8 and 2 rows, and the loop behind (`src/lapack/rbtgm.c:80-84`, `:96-100`) reads rows 2 and 3 of the second (accesses outside of the matrix and of `R`).
* `C97_size_false`: C97 is false of `armas_size_rbt` with the null pointer the documentation allows (`src/lapack/rbtgm.c:386-387`, `:403`): the pointer is dereferenced; and the factor is not stored when `*fact` is 0 before the call.
* `C98_order_false`: C98 is false for depth 2 (`src/lapack/rbtgm.c:285-318`): the product from the right takes the largest butterfly first. With `A` the unit matrix of order 4 the products from the left and from the right should both be `c U`, and they differ.
* `C98_tail_false`: C98 is false with `ARMAS_TRANS` when the last block is not full (`src/lapack/rbtgm.c:213-218`): the loop that scales the columns without a partner is behind the loop over the rows and accesses the row behind the last (outside of the matrix), the columns stay as they are.
* `C99_fit_false`: C99 is false when the last block is less than half full: for order 5 and depth 2 the blocks have 4 and 1 rows, and the loops of `update2_rbt` (`src/lapack/rbtgu.c:89-95`, `:110-115`) access a second row of the last block (outside of the matrix).

### 4.2 Seen while reading, not stated as theorems

* Workspace: `armas_cache_split2` with a buffer not larger than `CACHEMIN` lets the two buffers overlap; `fixed2`/`fixed3` check the cache
  size, not the length of the buffer; selecting a user workspace reserves all of it; `CLSHIFT` 5 disagrees with `CACHELINE` 64.
* The portable kernels under `include/nosimd` have defects of their own in branches that no build uses.
* `armas_iamax` returns other error codes than documented. The processor list parser loops for step 0.
* `trsm_blk` has no default case; `armas_solve_trm` never releases the cache buffer; `armas_mult_sym_unsafe` with a zero inner size;
  `mult_kernel_nc` with `rb > MB` does not terminate; `trmm` applies `ABS` off the diagonal only; `symv` without a triangle flag takes
  different triangles in different branches.
* `armas_sched_release` calls the start function; the barrier tests its condition with `if`; symmetric and triangular tasks of
  the worker scheduler are commented out; `threaded/gemm.c` never releases the buffers of its threads; with both `ARMAS_LEFT` and
  `ARMAS_RIGHT` the threaded drivers split by rows but each thread takes the whole matrix.
* JSON: `%.14g` loses digits; `ungetchar` writes to a constant string; a signed character ≥ 0x80 is taken for the end of input; unknown
  characters are skipped; `rows*cols` overflows; a failed `armas_init` is not noticed; keys match by prefix; a text that fills the
  buffer exactly is refused; `iscntrl` is called with negative values; the writer reads `*cp` before comparing with the length.
* MatrixMarket: banner tests joined with `&&` instead of `||`; the loader returns the type code instead of 0 and never sets flags;
  a symmetric dump of a non-square matrix cannot be read; the complex variant does not compile.
* Sparse: `armassp_nz` reads one element behind the row; `trmv` needs stored diagonals and its skip loops have no bound.
* LAPACK: LU of wide matrices with a pivot vector longer than the rows ignores an error of the pivoting step; `sort_eigenvec` and
  `sort_vec` disagree about the direction; `armas_qrfactor` accepts a row vector `tau` and partitions it as a column; the triangular factor of
  the block reflector is computed from uninitialised memory times zero (`armas_axpby` with factor 0), so a NaN left there spreads; the block
  size of `armas_qrmult_w` comes from a floating point square root, which in single precision may round up (`K = 8936`, work space
  `(K+32)*32 - 1`: block size 32, one element too few); `unblk_qrmult_left` without `ARMAS_TRANS` pairs reflectors with the wrong elements of
  `tau` when `A` has more columns than rows (`src/lapack/qrmult.c:77`), which `armas_qrfactor` never produces.
* `armas_qrbuild_w` does not look at `K`: `K > cols(A)` gives negative sizes to the partitioning (`src/lapack/qrbld.c:317`).  Its block reflector
  is malloc'ed memory that is never cleared (`C66_stale_false`); in exact arithmetic the stale values are multiplied by zero for the output of
  `armas_qrfactor`, in floating point a NaN or infinity left in the memory is not.
* Extended precision: `armas_ext_adot_unsafe` calls `fastsum` without its precondition (`dot_ext.c:102`).
* `src/lapack/hess.c:246-273`: the blocked reduction uses column `t01` of the block reflector as work space and fills it afterwards only if the
  scalar of the new reflector is not zero.  With a zero scalar the column keeps work values although the reflector is the identity; the diagonal
  entry is zero but the entries above it are not.
* `src/lapack/trired.c:661`: a `tau` that has some but too few elements passes the test; the parts of it are then empty, the scalar is read as
  zero, and `src/lapack/house.c:165` stores through the pointer behind its end.
* `src/lapack/qlbld.c:151-158`: the blocked loop advances by one column per pass after processing `lb` of them. `armas_qlbuild_w` does not check
  `K` and does not reset the work position.
* `src/lapack/rq.c:471-477`: the block size is also reduced if the matrix has no more than `lb` rows.
* `src/lapack/rqbld.c:284`: a reduced block size is computed from the columns instead of the rows.
* `src/lapack/hhouse.c` prints to standard output when it rescales.

### 4.3 Where the model differs from the code on purpose

* Sizes and offsets are natural numbers; where the code depends on `int` range a hypothesis says so (`… ≤ INT_MAX`) or `ub` is the outcome.
* A loop of the code is a loop of the model with the same bounds; the order of memory accesses inside one straight-line statement may differ.
* Unrolled loops whose iterations are independent keep the unrolling and the tail `switch`.
* Recursion that C expresses with the call stack has a fuel argument; running out of fuel is `diverge`, and the theorems say how much is enough
  (or that no amount is).

## 5. Progress

123 claims: {'proved': 12, 'partial': 111}; 600 property theorems listed in `MANIFEST.json`.
Mutation attempts logged: 426 (`seeded/LOG.jsonl`).

## 6. Axiom audit

`#print axioms` was run on every theorem listed in `MANIFEST.json` after each milestone. Only `propext`, `Classical.choice` and
`Quot.sound` occur. No theorem depends on `sorryAx`, on `Lean.ofReduceBool` (`native_decide`) or on an axiom of this project.
