{"id": "C01", "title": "Matrix views address exactly the intended elements of the parent", "statement": "Element (i,j) of a submatrix created at (r,c) is element (r+i,c+j) of the parent; rows, columns, diagonals and subvectors likewise name exactly the expected parent elements. Every element of a view lies inside the parent, distinct view elements are distinct memory cells, a view of a view equals the directly created view, and writing through a view changes only the one parent element.", "quantifier": "all parent sizes and row strides (step >= rows), all in-range view offsets and sizes, and all nesting depths", "why_tests_cant": "Tests use a handful of sizes with step == rows; wrong stride arithmetic only shows for nested views with step > rows, of which there are unboundedly many.", "anchors": ["src/include/matrix.h: armas_submatrix_ext, armas_submatrix, armas_row, armas_column, armas_diag, armas_subvector, armas_set, armas_get"]}
{"id": "C02", "title": "Block partitioning tiles a matrix exactly", "statement": "Splitting a matrix in 2x1/1x2/2x2 blocks, repartitioning to 3x1/1x3/3x3 and continuing back yields blocks that cover every element exactly once, in the position the block name says, in both traversal directions; and a loop that repartitions and continues until the remaining part is empty ends and has visited each element of the diagonal exactly once.", "quantifier": "all matrix sizes (including empty), all block sizes, all traversal positions and both directions", "why_tests_cant": "Every blocked LAPACK routine relies on it for every size/block-size combination, including last partial blocks and non-square matrices.", "anchors": ["src/include/partition.h: mat_partition_2x2, mat_repartition_2x2to3x3, mat_continue_3x3to2x2, mat_partition_2x1, mat_repartition_2x1to3x1, mat_continue_3x1to2x1, mat_partition_1x2, mat_repartition_1x2to1x3, mat_continue_1x3to1x2"]}
{"id": "C03", "title": "Linear element indexing enumerates the matrix in column order", "statement": "armas_get_at/armas_set_at with linear index k (0 <= k < rows*cols, or -size <= k < 0 counted from the end) access element (k mod rows, k div rows) of the matrix, different indices access different elements, all elements are reached, and a write through index k is what the next read through k returns while no other element changes.", "quantifier": "all sizes, all strides step >= rows, all valid indices", "why_tests_cant": "The mapping must hold for submatrices with step > rows; tests typically index contiguous matrices.", "anchors": ["src/include/matrix.h: armas_real_index, armas_get_at, armas_set_at, armas_index"]}
{"id": "C04", "title": "Workspace reservations never overlap and never exceed the buffer", "statement": "Any sequence of successful armas_wreserve/armas_wreserve_bytes calls on a workspace returns pairwise disjoint byte ranges inside the buffer; a request that does not fit fails and leaves the position unchanged; saving the position and restoring it with armas_wsetpos makes exactly the space reserved since available again.", "quantifier": "all buffer sizes, all request sizes and all sequences (histories) of reservations and restores", "why_tests_cant": "Overlap depends on the history of calls and on size arithmetic; finite tests only see few sequences.", "anchors": ["src/include/armas.h: armas_wreserve_bytes, armas_wreserve, armas_wbytes, armas_wpos, armas_wsetpos"]}
{"id": "C05", "title": "Matrix copy and transposed copy are exact and touch nothing else", "statement": "armas_mcopy(A,B) makes A equal to B (or to the transpose of B with ARMAS_TRANS), reads only elements of B, and leaves every memory cell that is not an element of A unchanged; on a size mismatch it returns an error and changes nothing.", "quantifier": "all sizes, all strides, all contents, both orientations; source and target disjoint", "why_tests_cant": "The loops are unrolled by four with separate remainders; only a proof covers every remainder and stride.", "anchors": ["src/blas/mcopy.c: armas_mcopy, armas_copy", "src/include/matcpy.h: copy_plain_mcpy1, copy_trans4x1, copy_trans1x4"]}
{"id": "C06", "title": "Vector update y = beta*y + alpha*x", "statement": "armas_axpby (and armas_axpy, armas_scale) replaces y[k] by beta*y[k]+alpha*x[k] (y[k]+alpha*x[k], alpha*y[k]) for every k and changes nothing else; orientation (row or column vector) of either operand does not matter.", "quantifier": "all lengths including 0, all strides, all scalars and contents in exact arithmetic", "why_tests_cant": "Unrolled loops with remainder handling plus fast paths for beta=0/1 and alpha=0/1 have many size/scalar combinations.", "anchors": ["src/blas/axpy.c: armas_axpby, armas_axpy, armas_axpby_unsafe", "src/blas/mscale.c: armas_scale, armas_scale_unsafe"]}
{"id": "C07", "title": "Inner product is the exact sum, independent of recursion threshold and orientation", "statement": "armas_dot(x,y) is the sum of x[k]*y[k]; armas_adot adds alpha times that sum. The result does not depend on whether vectors are rows or columns, on the stride, nor on the level-1 recursion threshold of the environment.", "quantifier": "all lengths, strides, contents (exact arithmetic) and all thresholds", "why_tests_cant": "Tests fix one threshold and a few sizes; recursion splits and 4-way unrolling must hold for all.", "anchors": ["src/blas/dot.c: armas_dot, armas_adot, vec_dot_recursive, vec_dot"]}
{"id": "C08", "title": "Norm-like reductions: asum, nrm2, iamax, amax", "statement": "armas_asum is the sum of absolute values, armas_nrm2 the square root of the sum of squares (without overflow-driven rescaling changing the exact value), armas_iamax returns the first index whose absolute value is maximal and armas_amax that value; results do not depend on stride, orientation or recursion threshold. armas_iamin returns an index of minimal absolute value.", "quantifier": "all non-empty vectors, strides and thresholds, exact arithmetic", "why_tests_cant": "Scaled-sum recurrences and recursive halving are correct only by an invariant; first-index tie breaking needs all inputs.", "anchors": ["src/blas/asum.c: armas_asum", "src/blas/nrm2.c: armas_nrm2", "src/blas/iamax.c: armas_iamax, armas_amax, armas_iamin"]}
{"id": "C09", "title": "armas_swap exchanges two vectors and is an involution", "statement": "armas_swap(x,y) leaves x with the old y and y with the old x, touches nothing else, and applying it twice restores memory; unequal lengths are rejected without any change.", "quantifier": "all lengths, strides, orientations of disjoint vectors", "why_tests_cant": "Unrolled remainder cases for every length and stride.", "anchors": ["src/blas/swap.c: armas_swap"]}
{"id": "C10", "title": "Matrix-vector product", "statement": "armas_mvmult computes y = beta*y + alpha*A*x (or A^T x) for every element of y, reads A and x only inside their bounds and writes only y; the result does not depend on the recursion threshold or the recursion option.", "quantifier": "all sizes, strides, vector orientations, thresholds, scalars and contents (exact arithmetic); y disjoint from A and x", "why_tests_cant": "Recursive quartering of A with unrolled kernels; correctness for all sizes and thresholds cannot be sampled.", "anchors": ["src/blas/gemv.c: armas_mvmult, armas_mvmult_unsafe, gemv_recursive, gemv_unb"]}
{"id": "C11", "title": "Rank-1 update", "statement": "armas_mvupdate computes A = beta*A + alpha*x*y^T on every element of A and touches nothing else, for every recursion threshold.", "quantifier": "all sizes, strides, orientations, thresholds, scalars and contents (exact arithmetic)", "why_tests_cant": "As for matrix-vector product: recursion plus unrolling for all sizes.", "anchors": ["src/blas/ger.c: armas_mvupdate, armas_mvupdate_unsafe"]}
{"id": "C12", "title": "Triangular matrix-vector product", "statement": "armas_mvmult_trm computes x = alpha*op(T)*x where T is the selected (lower/upper, optionally unit) triangle of A; elements of A outside of the triangle (and the diagonal if UNIT) do not influence the result; unblocked and recursive versions agree.", "quantifier": "all sizes, strides, thresholds, all eight lower/upper x trans x unit variants, all contents", "why_tests_cant": "In-place update order matters for every row; eight variants times all sizes and recursion splits.", "anchors": ["src/blas/trmv.c: armas_mvmult_trm, armas_mvmult_trm_unsafe"]}
{"id": "C13", "title": "Triangular solve with vector", "statement": "armas_mvsolve_trm returns x with op(T)*x = alpha*b whenever the diagonal of T has no zeros, where T is the selected (unit) triangle; data outside of the triangle is not used; nothing but x changes; unblocked and recursive versions agree.", "quantifier": "all sizes, strides, thresholds, variants, and all non-singular triangles over a field", "why_tests_cant": "Solution property is universally quantified over matrices; recursion must scale by alpha exactly once.", "anchors": ["src/blas/trsv.c: armas_mvsolve_trm, armas_mvsolve_trm_unsafe"]}
{"id": "C14", "title": "Symmetric matrix-vector product uses one triangle only", "statement": "armas_mvmult_sym computes y = beta*y + alpha*S*x where S is the symmetric matrix given by the selected triangle of A; the other triangle is never read.", "quantifier": "all sizes, strides, thresholds, contents", "why_tests_cant": "Independence from the unselected triangle quantifies over all its contents.", "anchors": ["src/blas/symv.c: armas_mvmult_sym, armas_mvmult_sym_unsafe"]}
{"id": "C15", "title": "Triangular rank-1 and rank-2 updates touch only the selected triangle", "statement": "armas_mvupdate_trm / armas_mvupdate_sym / armas_mvupdate2_sym update exactly the elements of the selected triangle of A with beta*A + alpha*x*y^T (x*x^T, x*y^T+y*x^T) and leave the other triangle and all other memory unchanged.", "quantifier": "all sizes, strides, thresholds, scalars and contents", "why_tests_cant": "Frame condition over all other memory and all sizes.", "anchors": ["src/blas/updtrmv.c: armas_mvupdate_trm", "src/blas/syr.c: armas_mvupdate_sym", "src/blas/syr2.c: armas_mvupdate2_sym"]}
{"id": "C16", "title": "Blocked matrix multiply equals the mathematical product for every blocking", "statement": "armas_mult computes C = beta*C + alpha*op(A)*op(B) for each transpose combination; the result is the same for every cache block size configuration, only C is written (besides the private cache buffer) and A, B are read inside their bounds.", "quantifier": "all sizes, strides, block sizes MB, NB, KB, rb, all scalars and contents (exact arithmetic)", "why_tests_cant": "Tests use one or two block configurations; partial edge blocks combine with the 4/2/1 unrolled kernels in unboundedly many ways.", "anchors": ["src/blas/gemm.c: armas_mult", "src/blas/kernel.c: armas_mult_kernel, armas_mult_kernel_nc, armas_mult_kernel_inner", "src/include/nosimd/mult.h", "src/include/matcpy.h"]}
{"id": "C17", "title": "armas_mult honours beta when the inner dimension is zero", "statement": "When A has zero columns (and B zero rows) the product term is empty, so armas_mult(beta,C,alpha,A,B) must leave C = beta*C.", "quantifier": "all C, beta, alpha, and all empty A, B of conforming size", "why_tests_cant": "A degenerate case that sampled tests do not reach, yet every blocked algorithm may call with an empty block.", "anchors": ["src/blas/gemm.c: armas_mult"]}
{"id": "C18", "title": "Triangular matrix multiply: three algorithms, one result", "statement": "armas_mult_trm computes B = alpha*op(T)*B or alpha*B*op(T) with T the selected (unit) triangle of A, for unblocked, recursive and cache-blocked algorithms and every block size; only B changes.", "quantifier": "all sizes, strides, block sizes and sixteen side/uplo/trans/unit variants, all contents", "why_tests_cant": "In-place block order must be right for each variant and every size.", "anchors": ["src/blas/trmm.c: armas_mult_trm", "src/blas/trmm_unb.c", "src/blas/trmm_rec.c", "src/blas/trmm_blk.c"]}
{"id": "C19", "title": "Triangular solve with matrix right-hand side", "statement": "armas_solve_trm returns X with op(T)*X = alpha*B (or X*op(T) = alpha*B), T the selected (unit) non-singular triangle, for the unblocked, the recursive and the cache-blocked algorithm and for every alpha.", "quantifier": "all sizes, strides, thresholds, block sizes, variants, all alpha and all non-singular triangles over a field", "why_tests_cant": "alpha must be applied exactly once in each recursion branch; most tests use alpha = 1 or one fixed size.", "anchors": ["src/blas/trsm.c: armas_solve_trm", "src/blas/trsm_unb.c", "src/blas/trsm_rec.c: armas_solve_recursive", "src/blas/trsm_blk.c"]}
{"id": "C20", "title": "Symmetric matrix multiply uses one triangle only", "statement": "armas_mult_sym computes C = beta*C + alpha*S*B or beta*C + alpha*B*S where S is given by the selected triangle of A; the other triangle is never used; the result is the same for every cache block configuration.", "quantifier": "all sizes, strides, block sizes, contents", "why_tests_cant": "Diagonal blocks are expanded to full blocks in the cache buffer; each block-size/size combination is different.", "anchors": ["src/blas/symm.c: armas_mult_sym, armas_mult_symm_left, armas_mult_symm_right"]}
{"id": "C21", "title": "Triangular rank-k update touches only the triangle, each element once", "statement": "armas_update_trm and armas_update_sym compute beta*C + alpha*op(A)*op(B) on the selected triangle of C (each element scaled by beta exactly once) and leave the strictly opposite triangle untouched, for the unblocked, blocked and recursive versions and every size.", "quantifier": "all sizes (odd and even), inner dimensions, thresholds, block sizes, scalars and contents", "why_tests_cant": "Off-by-one splits in the recursion show only for odd sizes above the threshold.", "anchors": ["src/blas/updtrmm.c: armas_update_trm", "src/blas/syrk.c: armas_update_sym"]}
{"id": "C22", "title": "Symmetric rank-2k update", "statement": "armas_update2_sym computes C = beta*C + alpha*A*B^T + alpha*B*A^T (or the transposed form) on the selected triangle of C and leaves the opposite triangle untouched, for all block sizes.", "quantifier": "all sizes, block sizes, scalars, contents", "why_tests_cant": "Both halves of the update must hit each triangle element exactly once for all sizes.", "anchors": ["src/blas/syr2k.c: armas_update2_sym"]}
{"id": "C23", "title": "Row and column interchanges: backward undoes forward", "statement": "Applying a pivot vector forward with armas_pivot_rows (armas_pivot_cols) and then backward restores the matrix; applying it forward permutes the rows (columns) of the matrix by a permutation that is the same for every column (row).", "quantifier": "all matrix sizes, strides, pivot vectors with in-range entries (and zero entries meaning no interchange)", "why_tests_cant": "Round trip over all pivot sequences, in particular pivot vectors shorter than the number of rows (wide matrices, partial factorizations).", "anchors": ["src/base/pivot.c: armas_pivot_rows, armas_pivot_cols, armas_pivot", "src/include/pivot.h"]}
{"id": "C24", "title": "Pivot sorting permutes and orders", "statement": "armas_pivot_sort leaves a permutation of its input values in the requested order and returns within its bounds.", "quantifier": "all pivot vectors and both orders", "why_tests_cant": "Sortedness and permutation over all inputs.", "anchors": ["src/base/pivot.c: armas_pivot_sort"]}
{"id": "C25", "title": "Environment configuration never produces unusable block sizes", "statement": "Whatever text is in the ARMAS_* environment variables, initialization leaves all block sizes positive, and the cache split derived from them has non-zero block dimensions and its buffers lie inside the cache memory without overlap, so that blocked multiply advances and terminates.", "quantifier": "all environment strings and all cache memory sizes", "why_tests_cant": "Configuration strings are unbounded; a zero block size makes the multiply loop forever only for unusual ratios.", "anchors": ["src/base/env.c", "src/base/cache.c: armas_cbuf_split2, armas_cbuf_split3, armas_cache_setup2, armas_cache_setup3", "src/blas/gemm.c: armas_mult"]}
{"id": "C26", "title": "Work splitting for threads covers the result exactly once", "statement": "The block boundaries computed for n workers are non-decreasing, start at 0 and end at the total, so that the row/column blocks given to the workers are disjoint and cover the target matrix exactly, whatever the number of workers or tile size.", "quantifier": "all totals, all worker counts, all tile sizes", "why_tests_cant": "Rounding to multiples of four for every total/worker combination.", "anchors": ["src/include/accel.h: armas_ac_block_index", "src/workers/workers.h: worker_tiles", "src/threaded/gemm.c", "src/workers/gemm.c"]}
{"id": "C27", "title": "Threaded level-3 operations compute the sequential result under every schedule", "statement": "The threaded versions of multiply, symmetric multiply, triangular multiply and triangular solve leave the same matrix as the sequential operation for every interleaving of the worker threads and every number of threads.", "quantifier": "all thread interleavings, thread counts, sizes and contents", "why_tests_cant": "Schedules cannot be enumerated by tests.", "anchors": ["src/threaded/gemm.c: armas_ac_threaded_mult", "src/threaded/symm.c", "src/threaded/trmm.c", "src/threaded/trsm.c"]}
{"id": "C28", "title": "Task queue: bounded, first-in first-out, no loss and no duplication", "statement": "For any sequence of accepted writes and reads on the task queue, the values read are exactly the values written, in order; a read on an empty queue and a write on a full queue are refused without changing the queue; the number of stored items never exceeds the capacity.", "quantifier": "all capacities, all histories of operations by any number of producers and consumers (operations are serialized by the queue lock)", "why_tests_cant": "Wrap-around of the ring buffer positions over arbitrarily long histories.", "anchors": ["src/workers/queue.h: taskq_append, taskq_remove, taskq_write, taskq_read, taskq_enqueue, taskq_dequeue"]}
{"id": "C29", "title": "A producer blocked on a full queue is eventually released", "statement": "If a producer waits because the task queue is full and a consumer then removes an item, the producer is woken up and completes.", "quantifier": "all interleavings of producers and consumers on a queue of any capacity", "why_tests_cant": "A lost wake-up depends on the schedule.", "anchors": ["src/workers/queue.h: taskq_enqueue, taskq_dequeue"]}
{"id": "C30", "title": "Every scheduled task runs exactly once", "statement": "A task handed to the worker pool is executed exactly once even when it is queued to more than one worker queue (two-choice scheduling), for every interleaving of workers.", "quantifier": "all interleavings, any number of workers, any number of queue copies of a task", "why_tests_cant": "Claim-by-compare-and-swap race: needs all schedules.", "anchors": ["src/workers/workers.c", "src/workers/workers.h: armas_ac_worker_task", "src/workers/scheduler.h"]}
{"id": "C31", "title": "The on-demand (transient) scheduler executes every submitted task", "statement": "Every task submitted to the transient scheduler is eventually executed, i.e. in every state in which no thread can move all submitted tasks have been executed, so that waiting for the task counter returns.", "quantifier": "all interleavings of the submitting thread and worker threads, any number of tasks and workers", "why_tests_cant": "A worker that decides to exit between enqueue and spawn decision is a schedule-dependent race.", "anchors": ["src/workers/transient.c"]}
{"id": "C32", "title": "Stopping workers terminates them", "statement": "After the pool is asked to stop, every worker thread terminates, so that joining the threads returns.", "quantifier": "all interleavings of worker start-up and stop requests", "why_tests_cant": "The stop request may arrive before a worker thread has started to run.", "anchors": ["src/workers/workers.c"]}
{"id": "C33", "title": "Waiting on a task counter returns only after all tasks are done", "statement": "armas_counter_wait returns only when the counter has dropped to zero, i.e. all tasks counted have signalled completion, and returns eventually once they have.", "quantifier": "all interleavings of the waiting thread and completing tasks, with or without spurious wake-ups", "why_tests_cant": "Needs all schedules, including spurious condition-variable wake-ups.", "anchors": ["src/workers/counter.h: armas_counter_wait, armas_counter_decrement"]}
{"id": "C34", "title": "The JSON tokenizer never writes outside its buffer", "statement": "Reading a token into a buffer of len >= 1 bytes writes only inside that buffer and leaves a NUL-terminated string when the token has a text (string, number; other tokens leave the buffer alone), for every input stream; a token that does not fit is reported as an error.", "quantifier": "all input byte streams and all buffer lengths", "why_tests_cant": "Memory safety against arbitrary (hostile) input.", "anchors": ["src/io/json_reader.c: armas_json_read_token"]}
{"id": "C35", "title": "JSON matrices round-trip", "statement": "Writing a matrix as JSON and reading it back yields a matrix of equal size and equal elements (given that number formatting and parsing round-trip), for dense matrices of any size; strings written as JSON strings read back unchanged.", "quantifier": "all matrices, all finite values for which printing and scanning are inverse; all strings", "why_tests_cant": "Round trip over all contents.", "anchors": ["src/io/json_writer.c", "src/io/json_reader.c", "src/io/json_base.c"]}
{"id": "C36", "title": "Reading JSON coordinate data never writes outside the matrix", "statement": "Loading coordinate (row, column, value) triplets from JSON stores only elements inside the declared matrix; triplets outside are discarded as documented.", "quantifier": "all input documents, in particular rows/columns equal to the declared dimension", "why_tests_cant": "Boundary values of untrusted input.", "anchors": ["src/io/json_base.c: armas_json_read_coorddata, armas_json_read_data, armas_json_read"]}
{"id": "C37", "title": "MatrixMarket dense files round-trip", "statement": "Loading what armas_mmdump wrote gives back the dimensions and all elements (general storage), or the lower triangle for symmetric storage; each value goes to its column-order position and reading consumes exactly the lines of the matrix.", "quantifier": "all matrix sizes and contents (values that print/scan exactly)", "why_tests_cant": "Packed triangular index enumeration for all n.", "anchors": ["src/io/iomm.c: armas_mmload, armas_mmdump"]}
{"id": "C38", "title": "Sparse format conversion preserves the matrix", "statement": "Converting a coordinate-list matrix to compressed row or column format, or between the compressed formats, preserves for every (i,j) the collection of stored values at (i,j); result pointers are monotone with total nnz and, inside each row/column, indices are ascending.", "quantifier": "all sizes, all entry lists (including duplicates and empty rows), all orders of entries", "why_tests_cant": "Counting-sort conversion must work for every distribution of entries.", "anchors": ["src/sparse/convert.c: armassp_convert_to, csr_to_csc, csc_to_csr, csr_convert, csc_convert", "src/sparse/sort.c"]}
{"id": "C39", "title": "Converting or copying a sparse matrix to its own format yields the same matrix", "statement": "armassp_convert to the format the matrix already has, and armassp_mkcopy of any matrix, return a matrix with the same entries.", "quantifier": "all sparse matrices of all three storage kinds", "why_tests_cant": "Depends on the storage kind path; tests cover only the conversions commonly used.", "anchors": ["src/sparse/convert.c: armassp_convert, armassp_convert_to", "src/sparse/copy.c: armassp_copy_to, armassp_mkcopy"]}
{"id": "C40", "title": "Sparse matrix-vector product", "statement": "armassp_mvmult computes y = beta*y + alpha*A*x (or A^T x) for compressed row and column storage, accesses x and y only inside their bounds, and rejects operands of wrong size.", "quantifier": "all sparse matrices (rectangular too), vectors, scalars", "why_tests_cant": "Rectangular transposed products and wrong-size rejection over all sizes.", "anchors": ["src/sparse/gemv.c: armassp_mvmult, csc_mvmult, csr_mvmult"]}
{"id": "C41", "title": "Sparse triangular solve", "statement": "armassp_mvsolve_trm returns x with op(T)*x = alpha*b for a sparse triangular T with stored non-zero diagonal (implicit unit diagonal with ARMAS_UNIT).", "quantifier": "all sparse triangular matrices in both formats, all right-hand sides and all alpha", "why_tests_cant": "Correctness over all sparsity patterns and all alpha.", "anchors": ["src/sparse/trsv.c: armassp_mvsolve_trm"]}
{"id": "C42", "title": "Sparse addition and multiplication", "statement": "armassp_addto_w stores alpha*A + beta*B, armassp_multto_w stores alpha*op(A)*op(B) in C; armassp_add and armassp_mult return newly allocated results with these values.", "quantifier": "all conforming sparse operands, scalars, transposition flags", "why_tests_cant": "All sparsity patterns and scalars.", "anchors": ["src/sparse/add.c", "src/sparse/mult.c", "src/sparse/accum.c"]}
{"id": "C43", "title": "The incomplete-LU preconditioner solves with the factor product", "statement": "Applying the ILU(0) preconditioner to x returns z with L*U*z = x, where L (unit lower) and U (upper) are the computed factors.", "quantifier": "all sparse matrices with full diagonal and all x", "why_tests_cant": "Order of the two triangular solves matters for every non-diagonal factor, but convergence tests still pass with the wrong order.", "anchors": ["src/sparse/iluz.c: precond_ilu, armassp_init_iluz"]}
{"id": "C44", "title": "Cholesky factorization", "statement": "If armas_cholfactor (no pivoting) reports success then the selected triangle holds L with L*L^T = A (U with U^T*U = A) and the opposite triangle is unchanged; a matrix that is not positive definite is reported as an error.", "quantifier": "all sizes, all symmetric matrices over the reals (exact arithmetic), all block sizes", "why_tests_cant": "Factorization identity for all matrices; failure detection for all indefinite or singular inputs.", "anchors": ["src/lapack/chol.c: armas_cholfactor_w, unblk_cholfactor_lower, unblk_cholfactor_upper"]}
{"id": "C45", "title": "LU factorization", "statement": "After armas_lufactor reports success the product of the unit lower and upper factors equals the (row-permuted, if pivoting) original matrix.", "quantifier": "all sizes including rectangular, all contents with non-vanishing pivots, all block sizes", "why_tests_cant": "Identity for all matrices and block sizes.", "anchors": ["src/lapack/lu.c: armas_lufactor, unblk_lufactor, unblk_lufactor_nopiv"]}
{"id": "C46", "title": "LU solve, plain and transposed", "statement": "armas_lusolve with the factors of A returns X with A*X = B, and with ARMAS_TRANS returns X with A^T*X = B.", "quantifier": "all non-singular A, all B, both flags", "why_tests_cant": "Order of the triangular solves and direction of pivoting matter for every non-trivial factorization.", "anchors": ["src/lapack/lu.c: armas_lusolve"]}
{"id": "C47", "title": "LDL^T factorization and solve without pivoting", "statement": "The non-pivoting LDL^T factorization returns unit triangular L and diagonal D with L*D*L^T equal to the given symmetric matrix, for blocked and unblocked versions, touching only the selected triangle; solving with the factors inverts A.", "quantifier": "all sizes, contents with non-zero pivots, block sizes", "why_tests_cant": "Identity for all matrices.", "anchors": ["src/lapack/ldl.c: ldlfactor_np, ldlsolve_np"]}
{"id": "C48", "title": "Diagonal scaling and its inverse", "statement": "armas_mult_diag computes alpha*diag(D)*A or alpha*A*diag(D); armas_solve_diag computes alpha*diag(D)^-1*A or alpha*A*diag(D)^-1.", "quantifier": "all sizes, non-zero D, all alpha, vector and matrix operands", "why_tests_cant": "All alpha; tests use alpha = 1.", "anchors": ["src/lapack/diag.c: armas_mult_diag, armas_solve_diag"]}
{"id": "C49", "title": "Vector sorting", "statement": "armas_sort_vec and armas_qsort_vec terminate and leave the vector sorted in the requested order as a permutation of its input; armas_sort_eigenvec applies to eigenvector columns exactly the permutation applied to eigenvalues.", "quantifier": "all vectors including ones with repeated elements, both orders, all lengths and strides", "why_tests_cant": "Termination and permutation for all inputs (duplicates).", "anchors": ["src/lapack/sort.c: armas_sort_vec, armas_sort_eigenvec", "src/lapack/qsort.c: armas_qsort_vec"]}
{"id": "C50", "title": "Plane rotations stay inside the matrix and preserve norms", "statement": "Applying a sequence of Givens rotations with armas_gvupdate changes only elements of A, applies exactly the rotations requested (returning their number), and with c^2+s^2=1 preserves the sum of squares of every column (left) or row (right).", "quantifier": "all sizes, start positions, rotation counts and parameters", "why_tests_cant": "Boundary rotation count nrot = rows - start reads past the last row.", "anchors": ["src/lapack/givens.c: armas_gvupdate, armas_gvleft, armas_gvright"]}
{"id": "C51", "title": "Scaling or shifting a triangle touches exactly that triangle", "statement": "armas_mscale and armas_madd with ARMAS_LOWER/ARMAS_UPPER (optionally ARMAS_UNIT to exclude the diagonal) change every element of the selected triangle or trapezoid, by factor or addition, and no other memory.", "quantifier": "all sizes (tall, wide, square), strides, scalars", "why_tests_cant": "Frame and coverage for rectangular shapes.", "anchors": ["src/blas/mscale.c: armas_mscale", "src/blas/madd.c: armas_madd"]}
{"id": "C52", "title": "Element-wise matrix sum", "statement": "armas_mplus computes A = alpha*A + beta*op(B) on the selected part (all, lower or upper) of A and nothing else.", "quantifier": "all sizes, strides, scalars, flags", "why_tests_cant": "Frame and coverage for all shapes and flag combinations.", "anchors": ["src/blas/mplus.c: armas_mplus"]}
{"id": "C53", "title": "Tolerance comparison", "statement": "armas_intolerance returns 1 exactly if sizes agree and |A-B| <= atol + rtol*|B| for every element; it is reflexive for non-negative tolerances and insensitive to strides.", "quantifier": "all sizes, strides and contents", "why_tests_cant": "A universally quantified element-wise decision.", "anchors": ["src/base/matrix.c: armas_intolerance, armas_allclose"]}
{"id": "C54", "title": "Cholesky factor update", "statement": "armas_cholupdate turns the factor L of A into the factor of A + x*x^T (upper variant likewise) for every x.", "quantifier": "all sizes, factors and update vectors over the reals", "why_tests_cant": "Identity for all inputs.", "anchors": ["src/lapack/cholupd.c: armas_cholupdate", "src/lapack/rotate.c: armas_gvcompute, armas_gvrotate"]}
{"id": "C55", "title": "Householder reflections annihilate and QR reproduces the matrix", "statement": "The computed Householder reflector maps (a; x) to (beta; 0), is orthogonal, and the unblocked QR factorization returns R and reflectors with Q*R = A.", "quantifier": "all sizes and contents over the reals", "why_tests_cant": "Identity for all matrices.", "anchors": ["src/lapack/house.c", "src/lapack/qr.c"]}
{"id": "C56", "title": "Extended-precision building blocks are error free", "statement": "The error-free transformations used by the extended-precision routines return a pair whose exact sum is the exact sum (product) of the operands.", "quantifier": "all floating-point operands without overflow", "why_tests_cant": "All operand pairs.", "anchors": ["src/include/eft.h: __twosum_base, __fastsum_base, __split_base, __twoprod_base", "src/include/x86_64/eftops.h"]}
{"id": "C57", "title": "Threaded operations report failures of any worker", "statement": "If any of the parallel parts of a threaded operation fails, the operation reports an error to the caller.", "quantifier": "all subsets of failing workers and thread counts", "why_tests_cant": "Failure injection over all subsets of workers.", "anchors": ["src/threaded/gemm.c", "src/threaded/symm.c", "src/threaded/trmm.c", "src/threaded/trsm.c"]}
{"id": "C58", "title": "Initializing values with a triangle flag sets exactly that triangle", "statement": "armas_set_values/armas_set_all with ARMAS_LOWER or ARMAS_UPPER (and ARMAS_UNIT, ARMAS_SYMM) set exactly the elements documented, once each, and no memory outside of the matrix; armas_make_trm zeroes exactly the opposite triangle.", "quantifier": "all sizes, tall, wide and square, all flags", "why_tests_cant": "Frame and coverage for rectangular shapes.", "anchors": ["src/blas/mset.c: armas_set_values, armas_set_all, armas_make_trm"]}
{"id": "C59", "title": "The inverse of a triangular matrix is computed in place", "statement": "armas_inverse_trm(A, flags) replaces the selected triangle of a nonsingular square matrix by the corresponding triangle of the inverse, in the unblocked and the blocked algorithm for every block size, reads and writes nothing of the other triangle, and reports a singular matrix by its status.", "quantifier": "all sizes, contents, block sizes, upper and lower, unit and non-unit", "why_tests_cant": "Exactness of the inverse for all matrices and block splits; which branch of the recursive kernels is entered depends on configuration; access to the opposite triangle cannot be seen in a result.", "anchors": ["src/lapack/invtrm.c: unblk_inverse_upper, blk_inverse_upper, unblk_inverse_lower, blk_inverse_lower, armas_inverse_trm"]}
{"id": "C60", "title": "The inverse of a general matrix is computed from its LU factorization", "statement": "Given the factors that armas_lufactor left in A and its pivots (or no pivots), armas_luinverse_w replaces the factors by the inverse of the original matrix, unblocked or blocked as the work space allows, refuses sizes that do not match and a work space of fewer than rows elements, and touches nothing but the matrix, the work space and the copy buffers; factorization followed by inversion inverts every nonsingular matrix.", "quantifier": "all sizes, all nonsingular contents, all pivot vectors, all work spaces and block sizes", "why_tests_cant": "Exactness of the inverse for every matrix, pivot sequence and block split; reads outside the work space are invisible in results.", "anchors": ["src/lapack/inv.c: unblk_inverse_fused, blk_inverse_fused, armas_luinverse_w", "src/lapack/lu.c: armas_lufactor"]}
{"id": "C61", "title": "The inverse of a positive definite matrix is computed from its Cholesky factorization", "statement": "Given a Cholesky factor in the lower or upper triangle of A, armas_cholinverse_w replaces it by the same triangle of the inverse of the factored matrix, unblocked or blocked as the work space allows, reports a zero on the diagonal, refuses matrices that are not square and a work space of fewer than rows elements, and touches nothing but this triangle, the work space and the copy buffers; armas_cholfactor followed by armas_cholinverse_w inverts every positive definite matrix.", "quantifier": "all sizes, both triangles, all factors with nonzero diagonal, all work spaces and block sizes", "why_tests_cant": "Exactness of the inverse for every factor and block split; that the other triangle and memory outside the work space stay untouched cannot be seen in results.", "anchors": ["src/lapack/invspd.c: unblk_invpsd_lower, unblk_invpsd_upper, blk_invpsd_lower, blk_invpsd_upper, armas_cholinverse_w", "src/lapack/cholesky.c: armas_cholfactor_w"]}
{"id": "C62", "title": "The block reflector represents the product of the elementary reflectors", "statement": "For the reflectors stored in A and tau by the QR factorization, armas_qrreflector computes an upper triangular T with I - Y T Y^T = H(0) H(1) ... H(n-1), and with T^T the product in the opposite order; a T that is too small is refused; nothing but T is written.", "quantifier": "all sizes, all reflector vectors and scalars, all initial contents of T", "why_tests_cant": "The product identity for all vectors and scalars; columns of T left over from an earlier use show only for particular scalars.", "anchors": ["src/lapack/qr.c: armas_unblk_qr_reflector, armas_qrreflector"]}
{"id": "C63", "title": "Applying a block reflector multiplies by Q or its transpose", "statement": "armas_update_qr_left and armas_update_qr_right replace C by Q C, Q^T C, C Q or C Q^T where Q = I - Y T Y^T is the product of the reflectors in Y, and write only C and the work space.", "quantifier": "all sizes and contents, both sides, both orders", "why_tests_cant": "Exactness for every matrix and every block shape.", "anchors": ["src/lapack/qr.c: armas_update_qr_left, armas_update_qr_right"]}
{"id": "C64", "title": "Blocked QR factorization", "statement": "armas_qrfactor_w replaces A by R in its upper triangle and reflector vectors below it, with scalars in tau, such that A = H(0) ... H(N-1) R with orthogonal H(k), for every block size and every sufficient work space; it refuses matrices with fewer rows than columns, a short or two-dimensional tau and a work space of fewer than cols elements; it writes only A, tau and the work spaces.", "quantifier": "all sizes, all real contents, all block sizes and work spaces", "why_tests_cant": "Exactness for every matrix and block split; memory outside the work space is invisible in results.", "anchors": ["src/lapack/qr.c: unblk_qrfactor, blk_qrfactor, armas_qrfactor_w"]}
{"id": "C65", "title": "Multiplication with the orthogonal factor of a QR factorization", "statement": "armas_qrmult_w replaces C by Q C, Q^T C, C Q or C Q^T, where Q is the product of the reflectors stored in A and tau, whatever the block size and the work space; applied to a copy of the factored matrix, Q^T gives R; nothing but C and the work spaces is written, and wrong sizes or a short work space are reported without a write.", "quantifier": "all sizes, both sides, both transpositions, all block sizes, all work spaces of at least K elements, all element values", "why_tests_cant": "The eight loops walk the reflectors forwards or backwards by flag, in blocks whose size depends on the work space; a loop in the wrong direction is only visible with several blocks and sizes that leave a remainder.", "anchors": ["src/lapack/qrmult.c:40-546", "src/lapack/qrmult.c:506"]}
{"id": "C66", "title": "Building the orthogonal factor of a QR factorization", "statement": "armas_qrbuild_w replaces the reflectors in A by the first cols(A) columns of Q = H(0) ... H(K-1), whatever the block size and the work space; the columns are orthonormal when the reflectors are orthogonal, and after armas_qrfactor the product of the built matrix and R is the original matrix; only A and the work spaces are written.", "quantifier": "all sizes with K <= cols <= rows, all block sizes, all work spaces of at least cols elements, all element values", "why_tests_cant": "The blocked loop works backwards over the blocks after a remainder of K mod lb reflectors and reuses one never cleared block reflector; a stale column is harmless or not depending on values that random tests do not produce (zero scalars), and the remainder only matters for particular sizes.", "anchors": ["src/lapack/qrbld.c:61-203", "src/lapack/qrbld.c:273-337"]}
{"id": "C67", "title": "Least squares and minimum norm solutions from a QR factorization", "statement": "After armas_qrfactor_w of a matrix a with linearly independent columns, armas_qrsolve_w leaves in the first N rows of B a matrix X whose columns minimize ||b_j - a x|| over all x; with ARMAS_TRANS it leaves in B the solution of a^T X = B of minimum norm. Only B and the work spaces are written; a wrong size or a short work space is reported.", "quantifier": "all sizes with cols <= rows, all block sizes, all work spaces of at least cols(B) elements, all matrices with linearly independent columns and all right hand sides", "why_tests_cant": "Minimality is a statement about all other vectors; a test can only compare with a reference solution, and the blocked and unblocked multiplications and the recursive and blocked triangular solvers multiply the number of paths.", "anchors": ["src/lapack/qrsolve.c:103-157"]}
{"id": "C68", "title": "BLAS level 1 compatibility functions", "statement": "daxpy_, dcopy_, ddot_, dswap_, drot_, drotg_, dscal_, dasum_, dnrm2_ and idamax_ compute what the reference BLAS defines for vectors with increments of either sign (element k of a vector with a negative increment is at (n-1-k)|inc|), and write only the vectors they update.", "quantifier": "all lengths, all nonzero increments, all values, all placements of disjoint vectors", "why_tests_cant": "Four sign combinations take three different code paths with index arithmetic in both directions; the overflow of the product of the increments needs increments no test uses.", "anchors": ["src/compat/axpy.c:27-76", "src/compat/copy.c:27-74", "src/compat/dot.c:27-79", "src/compat/swap.c:27-76", "src/compat/rot.c:29-77", "src/compat/scal.c:27-39", "src/compat/iamax.c:27-38"]}
{"id": "C69", "title": "BLAS level 2 compatibility functions", "statement": "dgemv_, dger_, dsymv_, dtrmv_, dtrsv_, dsyr_ and dsyr2_ compute what the reference BLAS defines for every combination of the option characters and for vectors with increments, without accessing the triangle that is not stored.", "quantifier": "all sizes, leading dimensions, increments, option characters and values", "why_tests_cant": "The option characters (upper and lower case, N, T, C, U, L) times increments times sizes; that the other triangle is not read is not visible in results.", "anchors": ["src/compat/gemv.c:27-54", "src/compat/ger.c:27-47", "src/compat/symv.c:27-59", "src/compat/trmv.c:27-55", "src/compat/trsv.c:27-55", "src/compat/syr.c:27-43", "src/compat/syr2.c:27-48"]}
{"id": "C70", "title": "BLAS level 3 compatibility functions", "statement": "dgemm_, dsymm_, dsyrk_, dsyr2k_, dtrmm_ and cblas_dgemm, cblas_dsymm, cblas_dtrmm, cblas_dtrsm compute what the reference BLAS defines, for both storage orders of the cblas functions, and write only the result (and the buffers of the configuration).", "quantifier": "all sizes, leading dimensions, options, storage orders, block sizes and values", "why_tests_cant": "Square test matrices hide exchanged dimensions; size errors are dropped by this layer, so a call that does nothing looks like a success.", "anchors": ["src/compat/gemm.c:27-96", "src/compat/symm.c:27-93", "src/compat/syrk.c:27-45", "src/compat/syr2k.c:27-48", "src/compat/trmm.c:27-105", "src/compat/trsm.c:58-105"]}
{"id": "C71", "title": "Symmetric sparse matrix times vector", "statement": "armassp_mvmult_sym computes y = beta*y + alpha*S*x where S is the symmetric matrix whose upper or lower triangle, as selected by the flags, is stored in A; elements outside the triangle have no influence; only y changes; wrong operands are rejected.", "quantifier": "all sizes, all sparsity patterns, both compressed formats, both triangles, all values", "why_tests_cant": "Every stored element is used twice, for two elements of y, in loops whose bounds depend on the pattern; patterns without a diagonal element and patterns with both triangles stored are not generated by tests.", "anchors": ["src/sparse/symv.c:40-96", "src/sparse/symv.c:98-164", "src/sparse/symv.c:182-226"]}
{"id": "C72", "title": "Conjugate gradient", "statement": "armassp_cgrad(_w) returns for every symmetric positive definite matrix; return value 0 means that the residual of the returned x is below the limit given by the configuration, -ARMAS_ECONVERGE that the iteration limit was reached and it is not; in exact arithmetic the second is impossible if n iterations are allowed; cf.residual is the residual of the returned x; only x and the workspace change and the workspace is given back.", "quantifier": "all n, all patterns and values with a positive definite matrix, all right hand sides and starting vectors, all configurations", "why_tests_cant": "That the recurrences for the residual and the direction keep r = b - A x and conjugacy, and so terminate, is a statement about all matrices and all steps; tests only see that a residual is small for some matrix.", "anchors": ["src/sparse/cgrad.c:49-65", "src/sparse/cgrad.c:109-198", "src/sparse/cgrad.c:206-236"]}
{"id": "C73", "title": "Conjugate gradient with preconditioner", "statement": "armassp_pcgrad_w, with a preconditioner that applies a symmetric positive definite matrix, has the properties of C72 with the same meaning of the limit, the reported residual and the return value.", "quantifier": "all n, all positive definite matrices and preconditioners, all right hand sides and starting vectors, all configurations", "why_tests_cant": "A wrong measure of the residual or a return value that is always zero is invisible in tests that converge.", "anchors": ["src/sparse/pcgrad.c:68-84", "src/sparse/pcgrad.c:119-215"]}
{"id": "C74", "title": "Conjugate gradient for minimum norm problems", "statement": "armassp_cgne_w returns for every matrix of full row rank; x moves by a combination of rows of A (so from zero it goes to the minimum norm solution) and gets nearer to every solution; return value, limit and reported residual as in C72, with at most rows(A) iterations needed in exact arithmetic.", "quantifier": "all shapes, patterns and values of full row rank, all right hand sides and starting vectors, all configurations", "why_tests_cant": "That all iterates stay in the row space and that the error decreases in every step is not visible from a final residual.", "anchors": ["src/sparse/cgne.c:122-216"]}
{"id": "C75", "title": "Conjugate gradient for least squares problems", "statement": "armassp_cgnr(_w) returns for every matrix of full column rank with the workspace it asks for; the residual norm gets smaller; return value and limit as in C72, with at most cols(A) iterations needed in exact arithmetic; cf.residual is the norm of b - A x.", "quantifier": "all shapes, patterns and values of full column rank, all right hand sides and starting vectors, all configurations, every sufficient workspace", "why_tests_cant": "The workspace is used in four pieces whose sum is not what the query returns; a test that passes with a larger or unlucky buffer does not show it.", "anchors": ["src/sparse/cgnr.c:108-206", "src/sparse/cgnr.c:213-246"]}
{"id": "C76", "title": "Sparse triangular matrix times vector", "statement": "armassp_mvmult_trm computes x = alpha*op(T)*x in place, where T is the upper or lower triangle of the sparse matrix, with ones on the diagonal for ARMAS_UNIT; elements outside the triangle have no influence; only x changes; wrong operands are rejected.", "quantifier": "all sizes, all sparsity patterns, both compressed formats, both triangles, transposed or not, unit or not, all values", "why_tests_cant": "The product is formed in place, so the order in which old and new elements of x are used matters for every pattern; reads behind the index array do not show in results.", "anchors": ["src/sparse/trmv.c:27-46", "src/sparse/trmv.c:49-66", "src/sparse/trmv.c:68-84", "src/sparse/trmv.c:85-104", "src/sparse/trmv.c:107-130", "src/sparse/trmv.c:132-145", "src/sparse/trmv.c:148-163", "src/sparse/trmv.c:165-185", "src/sparse/trmv.c:205-254"]}
{"id": "C77", "title": "Dense copy of a sparse matrix", "statement": "armassp_todense makes the dense matrix equal to the sparse one: stored elements are copied to their place, all others become zero; matrices of different size are rejected.", "quantifier": "all sizes, all patterns, all three formats, all values", "why_tests_cant": "A target that was zeroed by the allocator hides that elements which are not stored are never written.", "anchors": ["src/sparse/dense.c:26-64"]}
{"id": "C78", "title": "Element operators", "statement": "armas_apply and armas_apply2 replace exactly the elements selected by the flags (all, upper or lower triangle with diagonal) by the operator's value; armas_iterate passes them in column order to the operator until it returns a negative value and reports whether it did.", "quantifier": "all shapes, also with more columns than rows, all operators, all flags", "why_tests_cant": "The bound of the inner loop of the upper triangle is a column number; only matrices wider than high show the error, and then in foreign memory.", "anchors": ["src/blas/mapply.c:42-73", "src/blas/mapply.c:94-125", "src/blas/mapply.c:145-179"]}
{"id": "C79", "title": "Matrix norms", "statement": "armas_mnorm returns the greatest column sum of absolute values for ARMAS_NORM_ONE, the greatest row sum for ARMAS_NORM_INF, the Frobenius norm for ARMAS_NORM_FRB; for vectors the corresponding vector norms and the Euclidean norm for ARMAS_NORM_TWO; other norms are reported as errors.", "quantifier": "all shapes, all values, all strategies of summation", "why_tests_cant": "The sums run over different numbers of elements for rows and columns, and the maximum over different counts; square test matrices cannot tell them apart.", "anchors": ["src/blas/mnorm.c:30-50", "src/blas/mnorm.c:55-69", "src/blas/mnorm.c:74-89", "src/blas/mnorm.c:94-109", "src/blas/mnorm.c:126-171"]}
{"id": "C80", "title": "Incomplete Cholesky factorization", "statement": "armassp_icholz computes incomplete Cholesky factors without fill-in in place: for every stored position of the selected triangle the product L*L^T (or U^T*U) agrees with the matrix; positions and elements outside the triangle do not change; a matrix for which a pivot is not positive, or that has the wrong format, is reported.", "quantifier": "all sizes, all sparsity patterns with diagonal, both compressed formats, both triangles, all values", "why_tests_cant": "The result is only defined on the pattern, so it cannot be compared with a dense factorization; every pattern takes another path through the merge and search loops.", "anchors": ["src/sparse/icholz.c:53-92", "src/sparse/icholz.c:94-141", "src/sparse/icholz.c:143-190", "src/sparse/icholz.c:192-229", "src/sparse/icholz.c:233-251", "src/include/sparse.h:252-260"]}
{"id": "C81", "title": "Incomplete Cholesky preconditioner", "statement": "The preconditioner of armassp_init_icholz computes z = (L*L^T)^-1 * x, in place or into another vector, and changes nothing else; this is the application of a symmetric positive definite matrix, so that the preconditioned conjugate gradient method (C73) converges with it.", "quantifier": "all sizes, patterns and factors without zero on the diagonal, both formats, both triangles, all vectors", "why_tests_cant": "With the factors in the wrong order, or one of them not transposed, the iteration may still converge slowly for test matrices near a multiple of the unit matrix.", "anchors": ["src/sparse/icholz.c:254-271", "src/sparse/icholz.c:273-284", "src/sparse/icholz.c:301-312"]}
{"id": "C82", "title": "Inner products in extended precision", "statement": "armas_ext_dot_unsafe and armas_ext_adot return the inner product (times alpha) with an error of one rounding of the exact value plus a part of second order in the unit roundoff relative to the sum of the absolute products; the pair of armas_ext_adot_unsafe carries the exact value to second order; operands that are not vectors of the same length are refused.", "quantifier": "all lengths, all strides, all elements, every rounding to nearest, products by fused multiply-add in any precision or by splitting in double precision", "why_tests_cant": "A lost correction term shows only when the terms cancel; random vectors are computed well by the plain algorithm too.", "anchors": ["src/eblas/dot_ext.c:28-61", "src/eblas/dot_ext.c:77-106", "src/eblas/dot_ext.c:171-193"]}
{"id": "C83", "title": "Sums in extended precision", "statement": "armas_ext_sum_unsafe and armas_ext_sum return alpha times the sum of the elements, or of their absolute values, with an error of one rounding plus a part of second order in the unit roundoff.", "quantifier": "all lengths, all strides, all elements, every rounding to nearest", "why_tests_cant": "The compensation matters only for sums with cancellation, and the four partial sums take another path for every length modulo 4.", "anchors": ["src/eblas/asum_ext.c:26-52", "src/eblas/asum_ext.c:54-100", "src/eblas/asum_ext.c:109-114", "src/eblas/asum_ext.c:135-163"]}
{"id": "C84", "title": "Vector updates in extended precision", "statement": "armas_ext_axpby computes every element of beta*y + alpha*x with an error of one rounding plus a part of second order in the unit roundoff, and writes nothing else.", "quantifier": "all lengths, all strides, all elements and factors, every rounding to nearest", "why_tests_cant": "The elements that show a missing correction are those where beta*y and alpha*x cancel.", "anchors": ["src/eblas/axpy_ext.c:27-57", "src/eblas/axpy_ext.c:59-100", "src/eblas/axpy_ext.c:143-165"]}
{"id": "C85", "title": "Matrix-vector products and rank-one updates in extended precision", "statement": "armas_ext_mvmult and armas_ext_mvupdate compute every element of beta*y + alpha*op(A)*x and of beta*A + alpha*x*y^T with an error of one rounding plus a part of second order in the unit roundoff, and write nothing else.", "quantifier": "all sizes, both values of the transpose flag, all elements and factors, every rounding to nearest", "why_tests_cant": "As for the inner products, only data with cancellation separate the extended from the plain computation.", "anchors": ["src/eblas/gemv_ext.c:27-59", "src/eblas/gemv_ext.c:122-161", "src/eblas/ger_ext.c:31-48", "src/eblas/ger_ext.c:65-97", "src/eblas/axpy_ext.c:103-127"]}
{"id": "C86", "title": "QR factorization with stored block reflectors", "statement": "armas_qrtfactor_w overwrites A with R and the vectors of the reflectors and T with the block reflectors of the column blocks: A = Q R, every reflector is orthogonal, and I - Y T Y^T of every block is the product of its reflectors; the work space check covers what is used.", "quantifier": "all matrices with rows >= cols, all row counts of T (block sizes), all contents of T on entry", "why_tests_cant": "No test calls the function; the factorization with one block is right although T is wrong, so that comparing A with Q R computed from the reflectors finds nothing until there are two blocks.", "anchors": ["src/lapack/qrt.c:34-86", "src/lapack/qrt.c:91-145", "src/lapack/qrt.c:226-271"]}
{"id": "C87", "title": "Extended-precision triangular solve", "statement": "armas_ext_mvsolve_trm and armas_ext_mvsolve_trm_w return a vector x for which there is a correction dx of relative size 4u such that x + dx satisfies every equation of the triangular system op(A) x = alpha b up to an error of second order in the unit roundoff u, relative to |alpha b_i| + sum |a_ij| |x_j|; nothing but x and the work space is written.", "quantifier": "all sizes, all triangles, transposition, unit or stored diagonal, all numbers with p >= 6 bits (no underflow or overflow), all contents of the work space", "why_tests_cant": "The bound is about rounding of all inputs; a test compares with one well conditioned system, and allocates the work space with calloc, so that the reads of its uninitialised first element give zero.", "anchors": ["src/eblas/trsv_ext.c:38-82", "src/eblas/trsv_ext.c:96-140", "src/eblas/trsv_ext.c:153-199", "src/eblas/trsv_ext.c:212-256", "src/eblas/trsv_ext.c:307-368", "src/eblas/dot_ext.c:122-154"]}
{"id": "C88", "title": "Extended-precision triangular matrix-vector product", "statement": "armas_ext_mvmult_trm replaces x with alpha op(T) x, T the triangle of A selected by the flags (unit or stored diagonal, transposed or not); each element has an error of at most two roundings of its value plus a term of second order in the unit roundoff relative to |alpha| sum |t_ij x_j|; nothing but x is written, and refused calls write nothing.", "quantifier": "all sizes, all triangles, transposition, unit or stored diagonal, all numbers with p bits (no underflow or overflow)", "why_tests_cant": "The bound is about the rounding of all inputs, with any cancellation; tests compare a few sizes with a looser tolerance.", "anchors": ["src/eblas/trmv_ext.c:37-212", "src/eblas/trmv_ext.c:237-262"]}
{"id": "C89", "title": "Extended-precision symmetric matrix-vector product", "statement": "armas_ext_mvmult_sym replaces y with beta y + alpha A x for a symmetric matrix of which only the selected triangle is read; each element has an error of at most four roundings of |beta y_i| + |alpha (A x)_i| plus a term of second order relative to |alpha| sum |a_ij x_j|; nothing but y is written.", "quantifier": "all sizes, both triangles, all alpha and beta, all numbers with p bits (no underflow or overflow)", "why_tests_cant": "No test calls the function; which accuracy it has is visible only under cancellation between y and A x.", "anchors": ["src/eblas/symv_ext.c:50-121", "src/eblas/symv_ext.c:146-181"]}
{"id": "C90", "title": "Extended-precision symmetric rank one and rank two updates", "statement": "armas_ext_mvupdate_sym and armas_ext_mvupdate2_sym replace the selected triangle of A with that of beta A + alpha x x^T and of beta A + alpha (x y^T + y x^T), in extended precision, and write nothing else.", "quantifier": "all sizes, both triangles, all alpha and beta, all numbers with p bits (no underflow or overflow)", "why_tests_cant": "No test calls the functions.", "anchors": ["src/eblas/syr_ext.c:32-114", "src/eblas/syr2_ext.c:27-158", "src/eblas/axpy_ext.c:103-127"]}
{"id": "C91", "title": "Block reflector of an LQ factorization", "statement": "armas_lqreflector computes the upper triangular T with I - Y^T T Y = H_0 H_1 ... H_{M-1}, the product of the reflectors stored in the rows of A and in tau; only the upper triangle of T is written; a T that is too small is refused.", "quantifier": "all sizes with rows at most cols, all matrices and scalars", "why_tests_cant": "Tests use random matrices of one size and a zeroed T; a zero tau, a square matrix and a T of the exact order of the reflector do not occur.", "anchors": ["src/lapack/lq.c:237-319"]}
{"id": "C92", "title": "Applying the block reflector of an LQ factorization", "statement": "armas_update_lq_left and armas_update_lq_right replace C by the product of C with the reflectors of one block, in ascending or descending order as selected by the transpose argument, from the left or the right; they write C and the work space only.", "quantifier": "all sizes, all matrices, both orders, both sides, every configuration of the level 3 functions", "why_tests_cant": "The product of the two triangular and three general matrix products is only compared for a few sizes.", "anchors": ["src/lapack/lq.c:146-224"]}
{"id": "C93", "title": "LQ factorization", "statement": "armas_lqfactor_w computes a lower triangular (trapezoidal) L and elementary reflectors with A = L Q, Q = H_{M-1} ... H_0 orthogonal, for every block size and every work space of at least rows(A) elements; it writes A, tau and the work space only; bad sizes and work spaces are refused.", "quantifier": "all sizes with rows at most cols, all real matrices, all block sizes and work space sizes", "why_tests_cant": "Blocked and unblocked code must agree for every combination of size, block size and work space.", "anchors": ["src/lapack/lq.c:40-134", "src/lapack/lq.c:397-463"]}
{"id": "C94", "title": "Multiplication by the orthogonal matrix of an LQ factorization", "statement": "armas_lqmult_w replaces C by Q C, Q^T C, C Q or C Q^T, where Q = H_{M-1} ... H_0 is the product of the reflectors stored in A and tau, for every block size and every work space of at least K elements; it writes C and the work space only; bad sizes and work spaces are refused.", "quantifier": "all sizes, all matrices, both sides, both transpositions, all block and work space sizes", "why_tests_cant": "Eight code paths (left/right, transposed or not, blocked or not) with their own traversal order; tests compare a few sizes.", "anchors": ["src/lapack/lqmult.c:45-200", "src/lapack/lqmult.c:203-373", "src/lapack/lqmult.c:456-543"]}
{"id": "C95", "title": "Building the orthogonal matrix of an LQ factorization", "statement": "armas_lqbuild_w replaces A by the first rows of Q = H_{K-1} ... H_0, whose rows are orthonormal, for every block size and every work space of at least rows(A) elements; it writes A and the work space only.", "quantifier": "all sizes with K <= rows <= cols, all reflectors, all block and work space sizes", "why_tests_cant": "The choice between blocked and unblocked code depends on rows, columns, block size and work space size at once; tests use the queried work space of one configuration.", "anchors": ["src/lapack/lqbld.c:54-184", "src/lapack/lqbld.c:255-317"]}
{"id": "C96", "title": "Minimum norm and least squares solutions from an LQ factorization", "statement": "armas_lqsolve_w computes the solution of A X = B of minimum norm, and with ARMAS_TRANS the least squares solution of A^T X = B, from the LQ factorization of A; it writes B and the work space only; it reports an error or the solution.", "quantifier": "all real matrices with independent rows, all right hand sides, block and work space sizes", "why_tests_cant": "That no other solution is shorter, or has a smaller residual, is a statement about all vectors.", "anchors": ["src/lapack/lqsolve.c:45-69", "src/lapack/lqsolve.c:115-171"]}
{"id": "C97", "title": "Multiplication by a random butterfly matrix from the left", "statement": "armas_mult_rbt with ARMAS_LEFT replaces A by c U A, with ARMAS_TRANS by c U^T A, where U = B_0 B_1 ... B_{d-1} is the product of the block diagonal butterfly matrices of the documentation and c = (1/sqrt 2)^d; it writes A only; armas_size_rbt returns the least multiple of 2^d not less than N.", "quantifier": "all matrices, all scalars, every number of rows, every depth", "why_tests_cant": "Whether the blocks that are not full are treated rightly depends on the size modulo every power of two; tests use a few sizes.", "anchors": ["src/lapack/rbtgm.c:50-180", "src/lapack/rbtgm.c:354-406"]}
{"id": "C98", "title": "Multiplication by a random butterfly matrix from the right", "statement": "armas_mult_rbt with ARMAS_RIGHT replaces A by c A U, with ARMAS_TRANS by c A U^T, for the same matrix U as from the left; it writes A only.", "quantifier": "all matrices, all scalars, every number of columns, every depth", "why_tests_cant": "The order of the factors shows from depth 2 on only, and the access behind the last row may stay in the same allocation.", "anchors": ["src/lapack/rbtgm.c:183-325", "src/lapack/rbtgm.c:354-381"]}
{"id": "C99", "title": "Two sided random butterfly transformation", "statement": "armas_update2_rbt replaces the square matrix A by (1/2)^d U^T A V with the butterfly matrices U and V of depth d; it writes A only; sizes that do not fit are refused.", "quantifier": "all square matrices, all scalars, every order, every depth", "why_tests_cant": "The recursion splits in four at every level; whether the parts are full depends on the order and the depth at once.", "anchors": ["src/lapack/rbtgu.c:57-213"]}
{"id": "C100", "title": "Pivoted Cholesky factorization", "statement": "armas_cholfactor_pv overwrites the selected triangle of a symmetric matrix with a factor of r nonzero columns, positive nonincreasing diagonal and squares above the stopping level, such that P A P^T equals L L^T (U^T U) in the first r rows and columns and, for a semidefinite A, differs nowhere by more than the stopping level; the result is 0 for full rank and r otherwise; only that triangle and the first r pivots change.", "quantifier": "all symmetric matrices, all orders, both triangles, all stopping criteria", "why_tests_cant": "Tests factor a handful of matrices of known rank; the bound on the rest depends on an argument about all semidefinite matrices.", "anchors": ["src/lapack/cholpv.c:60-116", "src/lapack/cholpv.c:300-358", "src/lapack/cholpv.c:526-580", "src/lapack/sym.h:78-228"]}
{"id": "C101", "title": "Solution with a pivoted Cholesky factorization", "statement": "armas_cholsolve_pv replaces B by the solution of A X = B from the factor and the pivots made by armas_cholfactor_pv, for a number of pivots below the order the basic solution with the leading block; it writes B only; sizes that do not fit are refused.", "quantifier": "all right hand sides, all factors with nonzero diagonal, all pivot vectors, both triangles", "why_tests_cant": "The test program solves with full rank only; the branch for lower rank goes wrong in the position of the backward interchanges.", "anchors": ["src/lapack/cholpv.c:600-653", "src/base/pivot.c:169-195"]}
{"id": "C102", "title": "Singular values of a 2x2 bidiagonal matrix", "statement": "armas_bdsvd2x2 gives the singular values of the matrix (f g; 0 h), the smaller first: numbers 0 <= smin <= smax whose squares are the eigenvalues of its Gram matrix; no division by zero occurs.", "quantifier": "all real f, g, h", "why_tests_cant": "The code has five cases and a branch for a quotient that underflows; tests call it through the iteration with random matrices, which never have zeros or overflow the quotient.", "anchors": ["src/lapack/aux.c:104-162"]}
{"id": "C103", "title": "Singular value decomposition of a 2x2 bidiagonal matrix", "statement": "armas_bdsvd2x2_vec gives two plane rotations that make the matrix (f g; 0 h) diagonal with the values ssmax and ssmin, whose absolute values are the singular values in decreasing order.", "quantifier": "all real f, g, h", "why_tests_cant": "The signs depend on three case distinctions that random tests hit one combination at a time; diagonal matrices with a negative element do not occur in them.", "anchors": ["src/lapack/aux.c:186-314"]}
{"id": "C104", "title": "Eigenvalues and eigenvectors of a symmetric 2x2 matrix", "statement": "armas_sym_eigen2x2 and armas_sym_eigen2x2vec give the eigenvalues of (a b; b c), the larger by absolute value first, and a unit eigenvector of the first; armas_eigen_sym for order 2 overwrites A with an orthonormal matrix of eigenvectors and D with the eigenvalues, reading one triangle only; the Wilkinson shift is the eigenvalue nearest to the last diagonal element.", "quantifier": "all symmetric 2x2 matrices, both triangles", "why_tests_cant": "Diagonal and zero matrices are a set of measure zero for random tests, but are the usual case at the end of an iteration.", "anchors": ["src/lapack/aux.c:329-392", "src/lapack/auxiliary.h:26-33", "src/lapack/evd.c:36-64", "src/lapack/evd.c:161-164"]}
{"id": "C105", "title": "Roots of a quadratic equation", "statement": "armas_qdroots gives the two roots of a x^2 - 2 b x + c, the larger by absolute value first, and reports coincident and complex roots as documented; the discriminant is computed with an error of second order in the unit roundoff besides the rounding of the exact value.", "quantifier": "all coefficients with a nonzero leading one", "why_tests_cant": "Cancellation in the discriminant needs coefficients chosen for it, and there is no test program for this function.", "anchors": ["src/lapack/qdroot.c:40-168"]}
{"id": "C106", "title": "Shift of the Golub-Kahan-Reinsch iteration", "statement": "compute_bsvd_shift gives the eigenvalue of the trailing 2x2 block of the Gram matrix that is nearest to its last element.", "quantifier": "all real values of the four elements", "why_tests_cant": "A wrong shift only makes the iteration slower or not converge for some matrices, tests do not look at it.", "anchors": ["src/lapack/bdsvd_gr.c:100-115"]}
{"id": "C107", "title": "Growing a coordinate list", "statement": "armassp_append adds an entry at the end of a coordinate list, enlarging it when full, and keeps all earlier entries in order; armassp_resize keeps the entries; the recorded size in bytes is that of the array and entries outside of the matrix are refused.", "quantifier": "all coordinate lists, all sequences of entries, all sizes", "why_tests_cant": "Tests append a few entries to a list made large enough; growing, shrinking and the empty list are not tried.", "anchors": ["src/sparse/util.c:54-81", "src/sparse/util.c:99-122", "src/sparse/util.c:128-164"]}
{"id": "C108", "title": "Test for a stored diagonal", "statement": "armassp_hasdiag returns nonzero exactly if the matrix is square and every entry of the given diagonal is stored, reading only the arrays of the matrix.", "quantifier": "all matrices, all three formats, all diagonals", "why_tests_cant": "There is no test of this function; three of the six cases besides the main diagonal are wrong.", "anchors": ["src/sparse/util.c:171-222"]}
{"id": "C109", "title": "Reduction to Hessenberg form", "statement": "armas_hessreduce_w overwrites a square matrix A with an upper Hessenberg matrix H on and above the first subdiagonal and the vectors of the reflectors below it, so that A = Q H Q^T for the orthogonal Q that is the product of the stored reflectors; their scalars are in tau; matrices that are not square, a tau of another size and a short work space are refused.", "quantifier": "all square matrices of all orders and strides, all configurations of the level 2 routines", "why_tests_cant": "The test tries one random matrix of one size with a tolerance on the norm; columns that are zero below the subdiagonal, one and two rows, and strides are not tried.", "anchors": ["src/lapack/hess.c:75-142", "src/lapack/hess.c:488-556", "src/lapack/house.c:298-317"]}
{"id": "C110", "title": "Multiplication with the orthogonal matrix of a Hessenberg reduction", "statement": "armas_hessmult_w overwrites C with Q C, Q^T C, C Q or C Q^T, where Q is the orthogonal matrix that armas_hessreduce_w left in A and tau; the first row (or column) of C is not changed; arguments that do not fit are refused; reducing A and multiplying a copy of it by Q^T and Q gives the Hessenberg matrix.", "quantifier": "all C, A, tau of fitting sizes, all four flag combinations, all block sizes and work spaces", "why_tests_cant": "The test uses one size and only checks one product against another computed by the same routine; a first row that is changed by both cancels, and a short tau is not tried.", "anchors": ["src/lapack/hessm.c:108-133", "src/lapack/qrmult.c:454-543"]}
{"id": "C111", "title": "Reduction of a symmetric matrix to tridiagonal form", "statement": "armas_trdreduce_w overwrites the lower triangle of a symmetric matrix S with the diagonal and subdiagonal of a tridiagonal matrix T and the vectors of reflectors below them, so that S = Q T Q^T for the orthogonal Q that is the product of the stored reflectors; their scalars are in tau; the other triangle is neither read nor written; matrices that are not square, a tau of another size and a short work space are refused.", "quantifier": "all symmetric matrices of all orders and strides, all configurations of the level 2 routines", "why_tests_cant": "The test tries one random matrix of one size with a tolerance on the norm; columns that are already zero, orders one and two, a tau of the wrong size and what is stored in the other triangle are not tried.", "anchors": ["src/lapack/trired.c:73-134", "src/lapack/trired.c:631-710", "src/lapack/house.c:298-317"]}
{"id": "C112", "title": "Multiplication with the orthogonal matrix of a tridiagonal reduction", "statement": "armas_trdmult_w overwrites C with Q C, Q^T C, C Q or C Q^T, where Q is the orthogonal matrix that armas_trdreduce_w left in the lower triangle of A and in tau; arguments that do not fit are refused without a change.", "quantifier": "all C, A, tau of fitting sizes, all four flag combinations, all block sizes and work spaces", "why_tests_cant": "The test uses one size with a tolerance and only products whose errors cancel; the first row or column, the order of the reflectors for each flag and short work spaces are not tried.", "anchors": ["src/lapack/triredm.c:87-147", "src/lapack/qrmult.c:454-543"]}
{"id": "C113", "title": "Building the orthogonal matrix of a tridiagonal reduction", "statement": "armas_trdbuild_w replaces the reflectors in the lower triangle of A by the orthogonal matrix Q they define, with the first row and column of the identity; after armas_trdreduce_w, Q T Q^T is the matrix that was reduced; arguments that do not fit are refused without a change.", "quantifier": "all A of all orders and strides, all numbers of reflectors, all block sizes and work spaces", "why_tests_cant": "The test tries one random matrix of one size; order one, fewer reflectors than columns, what was in the other triangle and a short work space are not tried.", "anchors": ["src/lapack/tribld.c:86-163", "src/lapack/qrbld.c:273-337"]}
{"id": "C114", "title": "Reduction to bidiagonal form", "statement": "armas_bdreduce_w overwrites A with a bidiagonal matrix B (upper for at least as many rows as columns, lower otherwise) and the vectors of the reflectors, and tauq and taup with their scalars, so that Q^T A P = B and A = Q B P^T with orthogonal Q and P; a work space or vectors tauq and taup that are too short are refused without a change.", "quantifier": "all real matrices of all sizes and strides", "why_tests_cant": "The test reduces one random matrix of one size per shape and looks at a norm of the difference with a tolerance; zero columns, a single row or column, the last reflectors and short vectors are not tried.", "anchors": ["src/lapack/bired.c:103-187", "src/lapack/bired.c:474-561", "src/lapack/bired.c:920-987"]}
{"id": "C115", "title": "Multiplication with the matrices of a bidiagonal reduction", "statement": "armas_bdmult_w replaces C with Q C, Q^T C, C Q, C Q^T, or the same with P, where Q and P are the products of the reflectors stored in A by armas_bdreduce_w; applied to a copy of the original matrix they give the bidiagonal matrix; neither or both of ARMAS_MULTQ and ARMAS_MULTP, and vectors that are too short, are refused without a change.", "quantifier": "all matrices of all sizes and strides, both shapes, both sides, transposed or not", "why_tests_cant": "The test multiplies back one random matrix per shape and compares norms; single rows or columns, square matrices with ARMAS_LOWER, the partial first block and short vectors are not tried.", "anchors": ["src/lapack/biredm.c:123-210"]}
{"id": "C116", "title": "Building the matrices of a bidiagonal reduction", "statement": "armas_bdbuild_w replaces the reflectors stored in A by armas_bdreduce_w with the orthogonal matrix Q or the transpose of P that they represent, using at most K of them, and changes nothing outside the part that holds it; neither or both of ARMAS_WANTQ and ARMAS_WANTP, short vectors and a short work space are refused without a change.", "quantifier": "all matrices of all sizes and strides, both shapes, all K", "why_tests_cant": "The test builds from one random matrix and looks at norms; K smaller than the number of reflectors, square matrices with ARMAS_LOWER, rows that must stay and short work spaces are not tried.", "anchors": ["src/lapack/bibld.c:91-192"]}
{"id": "C117", "title": "QL factorization", "statement": "armas_qlfactor_w with the unblocked algorithm overwrites A with L and the vectors of the reflectors and tau with their scalars so that A = Q L, Q = H(N-1)...H(0) orthogonal, L zero above the diagonal that ends in the lower right corner; only A, tau and the work space change; more columns than rows, a tau that is no vector or too short and a short work space are refused without a change.", "quantifier": "all real matrices of all sizes and strides with rows >= cols, all block sizes and work spaces that select the unblocked algorithm", "why_tests_cant": "The test factors one random matrix per size and looks at a norm; zero columns, already triangular matrices, memory outside of A and refused arguments are not tried.", "anchors": ["src/lapack/ql.c:74-113", "src/lapack/ql.c:443-507"]}
{"id": "C118", "title": "Multiplication with the matrix of a QL factorization", "statement": "armas_qlmult_w with the unblocked algorithm replaces C with Q C, Q^T C, C Q or C Q^T, where Q is the product of the reflectors in A and tau; only C and the work space change; applied to a copy of the factored matrix Q^T gives L; sizes that do not match and a short work space are refused without a change, and every tau that the factorization accepts can be used.", "quantifier": "all matrices over a field, all sizes and strides, both sides, transposed or not", "why_tests_cant": "The order in which the reflectors are applied and the parts skipped before the first one depend on four flag combinations and the shapes; tests use one shape each and a tau of exact length.", "anchors": ["src/lapack/qlmult.c:38-103", "src/lapack/qlmult.c:183-254", "src/lapack/qlmult.c:417-502"]}
{"id": "C119", "title": "Building the matrix of a QL factorization", "statement": "armas_qlbuild_w with the unblocked algorithm replaces the reflectors in A with the last columns of Q = H(N-1)...H(N-K); with orthogonal reflectors the columns are orthonormal; factoring and then building gives A = Q L; only A and the work space change; a short work space or tau is refused without a change.", "quantifier": "all matrices over a field with rows >= cols, all sizes and strides, all K up to the number of columns", "why_tests_cant": "The test builds from all reflectors of one random matrix; K smaller than the number of columns takes the clearing branch, and short tau vectors are not tried.", "anchors": ["src/lapack/qlbld.c:50-102", "src/lapack/qlbld.c:254-311"]}
{"id": "C120", "title": "RQ factorization", "statement": "armas_rqfactor_w with the unblocked algorithm overwrites A with R and the vectors of the reflectors and tau with their scalars so that A = R Q, Q = H(0)H(1)...H(M-1) orthogonal, R zero below the diagonal that ends in the lower right corner; only A, tau and the work space change; more rows than columns, a tau that is no vector or of another size and a short work space are refused without a change.", "quantifier": "all real matrices of all sizes and strides with rows <= cols, all block sizes and work spaces that select the unblocked algorithm", "why_tests_cant": "The test factors one random matrix per size and looks at a norm; zero rows, already triangular matrices, memory outside of A and refused arguments are not tried.", "anchors": ["src/lapack/rq.c:73-112", "src/lapack/rq.c:430-494"]}
{"id": "C121", "title": "Multiplication with the matrix of an RQ factorization", "statement": "armas_rqmult_w with the unblocked algorithm replaces C with Q C, Q^T C, C Q or C Q^T, where Q is the product of the reflectors in A and tau; only C and the work space change; a copy of the factored matrix times Q^T gives R; sizes that do not match and a short work space are refused without a change and with different codes.", "quantifier": "all matrices over a field, all sizes and strides, both sides, transposed or not", "why_tests_cant": "The order in which the reflectors are applied and the parts skipped before the first one depend on four flag combinations and the shapes; tests use one shape each and never look at the error code.", "anchors": ["src/lapack/rqmult.c:44-111", "src/lapack/rqmult.c:199-269", "src/lapack/rqmult.c:448-534"]}
{"id": "C122", "title": "Building the matrix of an RQ factorization", "statement": "armas_rqbuild_w with the unblocked algorithm replaces the reflectors in A with the last rows of Q = H(M-K)...H(M-1); with orthogonal reflectors the rows are orthonormal; factoring and then building gives A = R Q; only A and the work space change; a tau of another size and a short work space are refused without a change, and the work space the query asks for is enough.", "quantifier": "all matrices over a field with rows <= cols, all sizes and strides, all K up to the number of rows", "why_tests_cant": "The test builds from all reflectors of one random matrix with fixed block sizes; K smaller than the number of rows takes the clearing branch, and a block size between rows and columns is not tried.", "anchors": ["src/lapack/rqbld.c:51-101", "src/lapack/rqbld.c:237-306"]}
{"id": "C123", "title": "Multiplication with a product of Householder reflectors", "statement": "armas_housemult_w replaces X with Q X, Q^T X, X Q or X Q^T, where Q is the product of the reflectors stored in the columns of P, scaled to one on the diagonal with scalars in tau or normalized with scalar two; only X and the work space change; multiplication from the left is the default; sizes that do not match are refused without a change.", "quantifier": "all matrices over a field, all sizes and strides, both sides, transposed or not, scaled or not", "why_tests_cant": "The return values of the vector operations are not looked at, so that a call with a wrong length changes nothing and reports success; tests use square matrices or pass ARMAS_LEFT.", "anchors": ["src/lapack/housem.c:50-154", "src/lapack/housem.c:167-276", "src/lapack/housem.c:311-361"]}
