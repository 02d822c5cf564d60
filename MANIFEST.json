{
 "claims": [
  {
   "property": "C01",
   "status": "proved",
   "theorems": [
    "Armas.Props.C01_submatrix",
    "Armas.Props.C01_row",
    "Armas.Props.C01_column",
    "Armas.Props.C01_diag",
    "Armas.Props.C01_subvector",
    "Armas.Props.C01_distinct",
    "Armas.Props.C01_nested",
    "Armas.Props.C01_nested_any",
    "Armas.Props.C01_write",
    "Armas.Props.C01_read"
   ],
   "note": "Submatrix, row, column, diagonal and subvector views, nesting to any depth, reads and writes through views; exact element identity, containment, distinctness, frame."
  },
  {
   "property": "C02",
   "status": "partial",
   "theorems": [
    "Armas.Props.C02_partition_2x1",
    "Armas.Props.C02_partition_1x2",
    "Armas.Props.C02_step_2x1",
    "Armas.Props.C02_step_1x2",
    "Armas.Props.C02_partition_2x2",
    "Armas.Props.C02_split_tiles",
    "Armas.Props.C02_repartition_3x3",
    "Armas.Props.C02_split3_tiles",
    "Armas.Props.C02_continue_fwd",
    "Armas.Props.C02_continue_bwd_partial",
    "Armas.Props.C02_continue_bwd_false",
    "Armas.Props.C02_traverse_fwd",
    "Armas.Props.C02_traverse_bwd"
   ],
   "note": "All splits, repartitions and traversals proved for both directions, except that the bottom-left block of the backward continue step is wrong in the code (partition.h:492): C02_continue_bwd_false proves the negation, C02_continue_bwd_partial the other three blocks."
  },
  {
   "property": "C03",
   "status": "proved",
   "theorems": [
    "Armas.Props.C03_index",
    "Armas.Props.C03_get_at",
    "Armas.Props.C03_set_at",
    "Armas.Props.C03_bijective",
    "Armas.Props.C03_set_get"
   ],
   "note": "Linear index = column order, all strides and negative indices; bijection; write/read law and frame."
  },
  {
   "property": "C04",
   "status": "partial",
   "theorems": [
    "Armas.Props.C04_reserve_bytes",
    "Armas.Props.C04_history_partial",
    "Armas.Props.C04_available",
    "Armas.Props.C04_restore",
    "Armas.Props.C04_reserve_overflow_false",
    "Armas.Props.C04_reserve_unaligned"
   ],
   "note": "Every reservation history with unwrapped byte counts hands out disjoint in-bounds ranges; save/restore proved. count*size can wrap (C04_reserve_overflow_false) and reservations are not aligned (C04_reserve_unaligned)."
  },
  {
   "property": "C05",
   "status": "proved",
   "theorems": [
    "Armas.Props.C05_mcopy",
    "Armas.Props.C05_mcopy_trans",
    "Armas.Props.C05_mcopy_vector",
    "Armas.Props.C05_mcopy_mismatch",
    "Armas.Props.C05_copy"
   ],
   "note": "armas_mcopy plain, transposed and between vectors, armas_copy; all sizes, strides, remainders; error cases leave memory unchanged."
  },
  {
   "property": "C06",
   "status": "proved",
   "theorems": [
    "Armas.Props.C06_axpby",
    "Armas.Props.C06_axpby_self",
    "Armas.Props.C06_axpy",
    "Armas.Props.C06_axpby_error",
    "Armas.Props.C06_scale"
   ],
   "note": "axpby (also with x and y the same vector), axpy, scale; all lengths, strides, orientations; error cases."
  },
  {
   "property": "C07",
   "status": "proved",
   "theorems": [
    "Armas.Props.C07_adot",
    "Armas.Props.C07_dot",
    "Armas.Props.C07_adot_error"
   ],
   "note": "adot and dot equal the exact sum for every threshold, option, stride and orientation, with the recursion depth bounded; error cases."
  },
  {
   "property": "C08",
   "status": "partial",
   "theorems": [
    "Armas.Props.C08_asum",
    "Armas.Props.C08_asum_threshold_zero_diverges",
    "Armas.Props.C08_iamax",
    "Armas.Props.C08_amax",
    "Armas.Props.C08_iamin_partial",
    "Armas.Props.C08_iamin_row_false",
    "Armas.Props.C08_nrm2"
   ],
   "note": "asum (naive, Kahan, recursive), nrm2 over the reals, iamax (first maximal index), amax proved. iamin is wrong on row vectors of stride > 1 (C08_iamin_row_false); C08_iamin_partial covers adjacent elements. asum needs a positive threshold (C08_asum_threshold_zero_diverges)."
  },
  {
   "property": "C09",
   "status": "proved",
   "theorems": [
    "Armas.Props.C09_swap",
    "Armas.Props.C09_swap_involutive",
    "Armas.Props.C09_swap_error"
   ],
   "note": "swap exchanges, is an involution on the whole memory, rejects bad operands without change."
  },
  {
   "property": "C10",
   "status": "partial",
   "theorems": [
    "Armas.Props.C10_mvmult_partial",
    "Armas.Props.C10_threshold1_false",
    "Armas.Props.C10_empty_false",
    "Armas.Props.C10_abs_false"
   ],
   "note": "Proved for all sizes, strides, orientations, contents, both code paths and every threshold except 1. False for threshold 1 (recursion never ends on 1x1), for an empty A (y not scaled by beta) and with ARMAS_ABS (out-of-bounds access); the negations are proved."
  },
  {
   "property": "C11",
   "status": "partial",
   "theorems": [
    "Armas.Props.C11_mvupdate_partial",
    "Armas.Props.C11_threshold1_false"
   ],
   "note": "Proved for every threshold of at least 2 and for the unblocked code. Threshold 1: non-termination proved."
  },
  {
   "property": "C12",
   "status": "partial",
   "theorems": [
    "Armas.Props.C12_mvmult_trm_partial",
    "Armas.Props.C12_threshold1_false"
   ],
   "note": "Proved for the eight variants, unblocked and recursive, every threshold except 1; only the selected triangle is assumed to be allocated. Threshold 1: non-termination proved. Precondition: exactly one of LOWER and UPPER is given."
  },
  {
   "property": "C13",
   "status": "partial",
   "theorems": [
    "Armas.Props.C13_mvsolve_trm_partial",
    "Armas.Props.C13_threshold1_false"
   ],
   "note": "Proved for all variants over a field, unblocked and recursive, every threshold except 1. Threshold 1: non-termination proved."
  },
  {
   "property": "C14",
   "status": "partial",
   "theorems": [
    "Armas.Props.C14_mvmult_sym_partial",
    "Armas.Props.C14_threshold1_false"
   ],
   "note": "Proved for every threshold of at least 2; the other triangle may be unallocated. Threshold 1: non-termination proved. Precondition: exactly one of LOWER and UPPER is given."
  },
  {
   "property": "C15",
   "status": "partial",
   "theorems": [
    "Armas.Props.C15_mvupdate_trm_partial",
    "Armas.Props.C15_mvupdate_sym_partial",
    "Armas.Props.C15_mvupdate2_sym_partial",
    "Armas.Props.C15_update2_size_false",
    "Armas.Props.C15_update_trm_rect_false"
   ],
   "note": "Proved for the rank-1 (any shape, unblocked; square, recursive) and rank-2 updates with conforming operands. Negations proved: the missing size check of armas_mvupdate2_sym (out-of-bounds read) and the recursive update of non-square matrices (changes elements outside of the triangle)."
  },
  {
   "property": "C16",
   "status": "partial",
   "theorems": [
    "Armas.Props.C16_mult_partial",
    "Armas.Props.C16_blocking_independent",
    "Armas.Props.C16_mult_abs_partial",
    "Armas.Props.C16_absA_false",
    "Armas.Props.C16_zero_block_false"
   ],
   "note": "Proved for all sizes, strides, transposes and every positive block configuration (portable kernels, exact arithmetic); two configurations give the same C. Negations proved: a zero block size loops forever, ARMAS_ABSA alone takes absolute values of B too."
  },
  {
   "property": "C17",
   "status": "partial",
   "theorems": [
    "Armas.Props.C17_inner_zero_partial",
    "Armas.Props.C17_inner_zero_false"
   ],
   "note": "The claim is false: proved that armas_mult does nothing for an empty inner dimension whatever beta is; holds only for beta = 1."
  },
  {
   "property": "C18",
   "status": "partial",
   "theorems": [
    "Armas.Props.C18_mult_trm_partial",
    "Armas.Props.C18_size_error",
    "Armas.Props.C18_threshold1_false",
    "Armas.Props.C18_zero_block_false"
   ],
   "note": "Proved for all sixteen variants, the unblocked, recursive and blocked algorithms, all sizes, strides and positive block sizes with recursion threshold at least 2 and rb <= MB. Negations proved: thresholds 0 and 1 never return, block size zero loops forever."
  },
  {
   "property": "C19",
   "status": "partial",
   "theorems": [
    "Armas.Props.C19_solve_trm_partial",
    "Armas.Props.C19_size_error",
    "Armas.Props.C19_threshold1_false",
    "Armas.Props.C19_recursive_alpha_false"
   ],
   "note": "Proved for all sixteen variants and three algorithms with alpha = 1, and for every alpha where the recursion is not entered with alpha (unblocked; matrix or block below the threshold). Negation proved: the recursive algorithm with alpha = 2 returns a wrong solution with status 0; thresholds 0 and 1 never return."
  },
  {
   "property": "C20",
   "status": "partial",
   "theorems": [
    "Armas.Props.C20_mult_sym_partial",
    "Armas.Props.C20_size_error",
    "Armas.Props.C20_overlap_false"
   ],
   "note": "armas_mult_sym for all sizes, strides, sides, transposes and every block configuration whose diagonal blocks fit the copy buffers; only the selected triangle is allocated in the model, so the other one is never read. For accepted settings in which they do not fit (ARMAS_CONFIG=32,64,160) the result is wrong: C20_overlap_false."
  },
  {
   "property": "C21",
   "status": "partial",
   "theorems": [
    "Armas.Props.C21_update_trm_partial",
    "Armas.Props.C21_update_sym_partial",
    "Armas.Props.C21_size_error",
    "Armas.Props.C21_inner_zero_false",
    "Armas.Props.C21_threshold0_false",
    "Armas.Props.C21_odd_upper_false"
   ],
   "note": "armas_update_trm and armas_update_sym: lower triangle or trapezoid for all sizes and configurations, upper when all sizes split by the recursion are even; the opposite triangle is unallocated in the model, so it is never referenced. For odd sizes above the threshold the upper recursion updates a row twice (C21_odd_upper_false); inner dimension 0 leaves C unscaled (C21_inner_zero_false); threshold 0 never returns (C21_threshold0_false)."
  },
  {
   "property": "C22",
   "status": "partial",
   "theorems": [
    "Armas.Props.C22_update2_sym_partial",
    "Armas.Props.C22_size_error",
    "Armas.Props.C22_inner_zero_false",
    "Armas.Props.C22_block1_false"
   ],
   "note": "armas_update2_sym, plain and transposed, both triangles, all sizes, every block size lb >= 2 and the unblocked version; the opposite triangle is unallocated in the model. Accepted settings lb = 0 and 1 never return (C22_block1_false); inner dimension 0 leaves C unscaled (C22_inner_zero_false)."
  },
  {
   "property": "C23",
   "status": "partial",
   "theorems": [
    "Armas.Props.C23_fwdPerm_step",
    "Armas.Props.C23_forward",
    "Armas.Props.C23_restore_partial",
    "Armas.Props.C23_backward",
    "Armas.Props.C23_short_false",
    "Armas.Props.C23_sym_forward_partial",
    "Armas.Props.C23_sym_restore_partial",
    "Armas.Props.C23_sym_zero_false"
   ],
   "note": "Forward application of a pivot vector is proved to permute the rows or columns by one permutation (armas_pivot_rows, armas_pivot_cols, armas_pivot), and for the symmetric kinds to permute rows and columns of the symmetric matrix touching only the stored triangle. Backward restores the matrix for pivot vectors as long as the matrix. The full claim is false: a shorter vector is applied to the wrong lines backward (C23_short_false), and zero entries in the symmetric kinds access memory in front of the matrix (C23_sym_zero_false)."
  },
  {
   "property": "C24",
   "status": "partial",
   "theorems": [
    "Armas.Props.C24_sort_partial",
    "Armas.Props.C24_short_false"
   ],
   "note": "Permutation and order proved for every direction, vector layout and pivot vector at least as long as the vector. A shorter pivot vector is not rejected and leads to an access in front of the vector (C24_short_false)."
  },
  {
   "property": "C25",
   "status": "partial",
   "theorems": [
    "Armas.Props.C25_env_positive",
    "Armas.Props.C25_split2_fits",
    "Armas.Props.C25_setup2_ready_partial",
    "Armas.Props.C25_setup2_settings_partial",
    "Armas.Props.C25_split3_fits",
    "Armas.Props.C25_zero_block_false",
    "Armas.Props.C25_zero_kb_false",
    "Armas.Props.C25_overlap_false",
    "Armas.Props.C25_fixed3_false",
    "Armas.Props.C25_fixed3_partial",
    "Armas.Props.C25_fixed3_overflow_false"
   ],
   "note": "Proved: every setting read from any environment text is positive, the two- and three-way splits fit in the memory, and the blocks are usable when they come out nonzero and KB fills a cache line. Negations proved with concrete ARMAS_CONFIG texts: NB = 0 (armas_mult never returns), KB = 0 (division by zero), KB below the stride (buffers overlap and run past the memory), MB = 0 and an overrun for the fixed split."
  },
  {
   "property": "C26",
   "status": "proved",
   "theorems": [
    "Armas.Props.C26_boundaries",
    "Armas.Props.C26_thread_blocks",
    "Armas.Props.C26_worker_blocks",
    "Armas.Props.C26_tiles",
    "Armas.Props.C26_overflow_ub",
    "Armas.Props.C26_thread_count"
   ],
   "note": "Thread blocks, worker blocks and tiles partition the target for every size and count within int range; int overflow beyond it is shown as undefined behaviour."
  },
  {
   "property": "C27",
   "status": "partial",
   "theorems": [
    "Armas.Props.C27_mult",
    "Armas.Props.C27_mult_thread",
    "Armas.Props.C27_mult_trm",
    "Armas.Props.C27_solve_trm_partial",
    "Armas.Props.C27_mult_trm_thread",
    "Armas.Props.C27_solve_trm_thread",
    "Armas.Props.C27_mult_sym_thread",
    "Armas.Props.C27_mult_sym_partial"
   ],
   "note": "For every number of threads, every interleaving of single memory accesses: no undefined access, no deadlock, termination, and the target equals the sequential result (C27_mult, C27_mult_sym_partial, C27_mult_trm, C27_solve_trm_partial); threads realising the models exist (C27_*_thread). Assumed: sequential consistency (the threads are race free), a buffer of its own for each thread, n*max(rows,cols) <= INT_MAX, not both ARMAS_LEFT and ARMAS_RIGHT. Missing as in C19/C20: alpha != 1 with recursion in solve, block sizes that do not fit to the buffers in symmetric multiply. Creation and joining of threads by pthreads are not modelled."
  },
  {
   "property": "C28",
   "status": "proved",
   "theorems": [
    "Armas.Props.C28_fifo",
    "Armas.Props.C28_history",
    "Armas.Props.C28_refused"
   ],
   "note": "Ring buffer refines a bounded first-in first-out list for every uint32 capacity and every history; refusals characterised exactly."
  },
  {
   "property": "C29",
   "status": "partial",
   "theorems": [
    "Armas.Props.C29_never_released",
    "Armas.Props.C29_released_false",
    "Armas.Props.C29_write_progress_partial",
    "Armas.Props.C29_consumers_released"
   ],
   "note": "False for taskq_enqueue: nothing ever signals `full` (C29_never_released, C29_released_false). Proved: polling producers (taskq_write) proceed as soon as there is room, consumers are never left asleep on a non-empty queue."
  },
  {
   "property": "C30",
   "status": "proved",
   "theorems": [
    "Armas.Props.C30_at_most_once",
    "Armas.Props.C30_exactly_once",
    "Armas.Props.C30_terminates",
    "Armas.Props.C30_copy_outlives_task"
   ],
   "note": "At most once in every reachable state; exactly once in every state without further work; all work ends within a bounded number of steps. Finding: a copy of a finished task may outlive it (C30_copy_outlives_task). Sequentially consistent memory assumed."
  },
  {
   "property": "C31",
   "status": "partial",
   "theorems": [
    "Armas.Props.C31_at_most_once",
    "Armas.Props.C31_no_oob",
    "Armas.Props.C31_executed_partial",
    "Armas.Props.C31_lost_task_false",
    "Armas.Props.C31_blocked_false"
   ],
   "note": "False: lost task (C31_lost_task_false) and permanently blocked submission (C31_blocked_false). Proved: order, at most once, no loss of data, slot search in bounds, complete execution when the last submission created a thread."
  },
  {
   "property": "C32",
   "status": "partial",
   "theorems": [
    "Armas.Props.C32_stop_before_start",
    "Armas.Props.C32_stop_false",
    "Armas.Props.C32_stop_full_queue_false",
    "Armas.Props.C32_stop_drops_tasks",
    "Armas.Props.C32_stop_partial"
   ],
   "note": "False: stop before start and stop with a full queue never return; stop drops queued tasks. Proved: stop after start with room in the queue terminates."
  },
  {
   "property": "C33",
   "status": "partial",
   "theorems": [
    "Armas.Props.C33_wait_partial",
    "Armas.Props.C33_wait_returns",
    "Armas.Props.C33_spurious_false",
    "Armas.Props.C33_second_waiter_stuck"
   ],
   "note": "False with spurious wake-ups (C33_spurious_false). Proved: without them the wait returns only when all tasks are done; a single waiter always returns."
  },
  {
   "property": "C34",
   "status": "proved",
   "theorems": [
    "Armas.Props.C34_token",
    "Armas.Props.C34_string",
    "Armas.Props.C34_number",
    "Armas.Props.C34_len_zero"
   ],
   "note": "For every input and every len >= 1: no UB, nothing outside the buffer written, NUL inside the buffer for strings and numbers, buffer untouched for the other tokens; strings/numbers returned in full or reported E2BIG. C34_len_zero: len = 0 overruns (bound wraps)."
  },
  {
   "property": "C35",
   "status": "partial",
   "theorems": [
    "Armas.Props.C35_matrix",
    "Armas.Props.C35_int",
    "Armas.Props.C35_string_partial",
    "Armas.Props.C35_string_false",
    "Armas.Props.C35_nonfinite_false",
    "Armas.Props.C35_unicode_false"
   ],
   "note": "Matrices: full round trip for every size/stride given printing and scanning invert (C35_matrix, C35_int). Strings: printable ASCII and \\b\\t\\n\\r (C35_string_partial). False: other control characters are dropped (C35_string_false), non-finite elements make the text unreadable (C35_nonfinite_false); \\uXXXX is converted as decimal (C35_unicode_false)."
  },
  {
   "property": "C36",
   "status": "partial",
   "theorems": [
    "Armas.Props.C36_coord_partial",
    "Armas.Props.C36_bounds_partial",
    "Armas.Props.C36_row_false",
    "Armas.Props.C36_col_false"
   ],
   "note": "False at the boundary: row == rows or col == cols passes the <= test and writes another element or behind the matrix (C36_row_false, C36_col_false). Proved: documents without such triplets (C36_coord_partial), and for any input only cells (i,j), i <= rows, j <= cols (C36_bounds_partial)."
  },
  {
   "property": "C37",
   "status": "partial",
   "theorems": [
    "Armas.Props.C37_general_partial",
    "Armas.Props.C37_symm_partial",
    "Armas.Props.C37_consumes_false",
    "Armas.Props.C37_stale_false",
    "Armas.Props.C37_precision_false"
   ],
   "note": "general and symmetric array files written by armas_mmdump are loaded back element by element for all non-empty matrices whose element count fits an int, formats as parameters with scan(fmt v)=v; false in full: one extra line is consumed, a line without a number repeats the previous value, and the 14 digits of %.13e do not determine a double. Missing: coordinate files, complex element types (the code does not compile)"
  },
  {
   "property": "C38",
   "status": "partial",
   "theorems": [
    "Armas.Props.C38_convert_partial",
    "Armas.Props.C38_convert_new_partial",
    "Armas.Props.C38_transpose_partial",
    "Armas.Props.C38_compressed_general",
    "Armas.Props.C38_reuse_false",
    "Armas.Props.C38_empty_false"
   ],
   "note": "C38_convert_partial: armassp_convert_to from any kind to CSR or CSC, for every matrix, gives exactly the same multiset of entries, with monotone pointers and ascending indices in each row or column, provided the target has the source's dimensions and room, and (from a coordinate list) its pointers are zero. C38_convert_new_partial: armassp_convert for matrices with at least one entry. C38_compressed_general shows that the entry description covers every compressed matrix. False of the code: a reused target fails an assertion (C38_reuse_false); a matrix without entries is not converted (C38_empty_false). Missing: conversion to a coordinate list (refused by the code)."
  },
  {
   "property": "C39",
   "status": "partial",
   "theorems": [
    "Armas.Props.C39_same_false",
    "Armas.Props.C39_copy_partial",
    "Armas.Props.C39_coo_false",
    "Armas.Props.C39_empty_false"
   ],
   "note": "C39_copy_partial: armassp_mkcopy of a compressed matrix with at least one entry is an equal matrix. False of the code: converting to the own format gives a matrix without entries (C39_same_false), copying a coordinate list gives a matrix without entries (C39_coo_false), copying a compressed matrix without entries gives the null pointer (C39_empty_false)."
  },
  {
   "property": "C40",
   "status": "partial",
   "theorems": [
    "Armas.Props.C40_mvmult_partial",
    "Armas.Props.C40_csr_trans",
    "Armas.Props.C40_csr_trans_false",
    "Armas.Props.C40_csr_trans_ub",
    "Armas.Props.C40_reject_partial",
    "Armas.Props.C40_reject_false",
    "Armas.Props.C40_flags_false"
   ],
   "note": "C40_mvmult_partial: armassp_mvmult computes beta*y + alpha*op(A)*x exactly, for every matrix in compressed rows or columns and conforming column vectors, touching only y; for the transposed product in compressed rows the matrix must be square. C40_csr_trans gives what the code computes for a wide matrix in that case. False of the code: transposed product of wide (C40_csr_trans_false) and tall matrices (C40_csr_trans_ub, out of bounds write) in compressed rows; wrong sizes accepted because of operator precedence (C40_reject_false); meaningless flags give the transposed product (C40_flags_false). C40_reject_partial lists the operands that are rejected. Vectors must be contiguous columns."
  },
  {
   "property": "C41",
   "status": "partial",
   "theorems": [
    "Armas.Props.C41_solve_partial",
    "Armas.Props.C41_alpha_false",
    "Armas.Props.C41_unit_false"
   ],
   "note": "C41_solve_partial: all eight solvers (compressed rows/columns, upper/lower, transposed or not, unit or not) return x with op(T)x = b for every square matrix with strictly ascending indices and stored diagonal, ignoring the other triangle. False of the code: alpha is ignored (C41_alpha_false); with ARMAS_UNIT and a diagonal that is not stored the code reads out of bounds (C41_unit_false)."
  },
  {
   "property": "C42",
   "status": "partial",
   "theorems": [
    "Armas.Props.C42_addto_partial",
    "Armas.Props.C42_addto_nt_partial",
    "Armas.Props.C42_addto_tn_partial",
    "Armas.Props.C42_addto_reject",
    "Armas.Props.C42_add_false",
    "Armas.Props.C42_addto_csc_tn_false",
    "Armas.Props.C42_multto_nn_partial",
    "Armas.Props.C42_multto_nt_partial",
    "Armas.Props.C42_multto_tn_partial",
    "Armas.Props.C42_multto_tt_partial",
    "Armas.Props.C42_mult_false",
    "Armas.Props.C42_mult_order_false",
    "Armas.Props.C42_fit_false",
    "Armas.Props.C42_search_false",
    "Armas.Props.C42_addto_tn_false",
    "Armas.Props.C42_addto_tt_false",
    "Armas.Props.C42_mult_alpha_false",
    "Armas.Props.C42_mult_rect_false"
   ],
   "note": "Proved for all compressed matrices with exact arithmetic: armassp_addto_w without transposition and with B transposed stores alpha*A+beta*B (op) with one entry per position and returns the workspace as it was; armassp_multto_w stores alpha*op(A)*op(B) in all four transposition cases. Hypotheses the code forces: room for one element more than the result (C42_fit_false), last element of a searched operand stored (C42_search_false), square operands where the loops use the wrong bound (C42_mult_rect_false), alpha = 1 for the csr product (C42_mult_alpha_false). False of the code, with witnesses: armassp_add always dereferences null, armassp_mult returns an empty matrix, TRANSA sum uses beta for A (csr) or writes nothing (csc), both transposed is treated as none, the workspace size reported by the function is too small if the arguments are evaluated in the other order."
  },
  {
   "property": "C43",
   "status": "partial",
   "theorems": [
    "Armas.Props.C43_iluz_partial",
    "Armas.Props.C43_reject_partial",
    "Armas.Props.C43_precond_partial",
    "Armas.Props.C43_order_false"
   ],
   "note": "False of the code: the preconditioner applies U^-1 first and L^-1 second (C43_order_false). C43_precond_partial: the result z satisfies U*(L*z) = x, for every factored matrix and x. C43_iluz_partial: armassp_iluz (both formats) stays inside its arrays, keeps the pattern, and with non-zero pivots L*U agrees with the matrix at every stored position."
  },
  {
   "property": "C44",
   "status": "partial",
   "theorems": [
    "Armas.Props.C44_factor_partial",
    "Armas.Props.C44_success_partial",
    "Armas.Props.C44_not_posdef_partial",
    "Armas.Props.C44_size",
    "Armas.Props.C44_zero_pivot_false",
    "Armas.Props.C44_solve_partial"
   ],
   "note": "armas_cholfactor (no pivoting), both triangles, unblocked and every block size: a positive definite matrix is factored exactly, only the selected triangle is accessed; status 0 implies positive definite and a correct factor, except that the lower version is shown to need nonsingular leading blocks: it accepts a zero pivot (C44_zero_pivot_false). The blocked upper version needs even splits in armas_update_sym (C21). armas_cholsolve solves A X = B with the factor."
  },
  {
   "property": "C45",
   "status": "partial",
   "theorems": [
    "Armas.Props.C45_pivot_partial",
    "Armas.Props.C45_nopiv_partial",
    "Armas.Props.C45_singular_false"
   ],
   "note": "Proved for all shapes, contents and block sizes, with and without pivoting, including pivot bounds, multipliers at most one in magnitude and frame; restricted to pivot vectors of length min(rows, cols) and to configurations where the level-2/3 routines terminate (Conf3). C45_singular_false: a singular matrix is reported as success because the status is overwritten by later columns."
  },
  {
   "property": "C46",
   "status": "partial",
   "theorems": [
    "Armas.Props.C46_solve_partial",
    "Armas.Props.C46_size",
    "Armas.Props.C46_driver_partial",
    "Armas.Props.C46_trans_false"
   ],
   "note": "Plain system proved, both from the factors and from end to end for every nonsingular matrix. The ARMAS_TRANS half is false: C46_trans_false (solves are done in the wrong order)."
  },
  {
   "property": "C47",
   "status": "partial",
   "theorems": [
    "Armas.Props.C47_factor_partial",
    "Armas.Props.C47_size",
    "Armas.Props.C47_solve_size",
    "Armas.Props.C47_block1_false",
    "Armas.Props.C47_solve_partial",
    "Armas.Props.C47_solve_trans_false",
    "Armas.Props.C47_solve_order1_false"
   ],
   "note": "Factorization: unblocked and blocked, lower and upper, any work space size, over any field for matrices whose leading (trailing for upper) blocks are nonsingular; touches only the selected triangle and the work space. Solve inverts the product. Excluded: block size 1 (false, C47_block1_false), ARMAS_TRANS (false, C47_solve_trans_false), several right-hand sides of a 1x1 system (false, C47_solve_order1_false), odd splits in the upper blocked version (C21)."
  },
  {
   "property": "C48",
   "status": "partial",
   "theorems": [
    "Armas.Props.C48_mult_diag",
    "Armas.Props.C48_mult_diag_vector",
    "Armas.Props.C48_solve_diag_vector",
    "Armas.Props.C48_solve_diag_partial",
    "Armas.Props.C48_solve_diag_false"
   ],
   "note": "armas_mult_diag: complete (vector and matrix operands, both sides). armas_solve_diag: vector operands complete, matrix operands for alpha*alpha = 1. For other alpha the matrix path computes A/(alpha*d), not alpha*A/d: C48_solve_diag_false."
  },
  {
   "property": "C49",
   "status": "partial",
   "theorems": [
    "Armas.Props.C49_sort",
    "Armas.Props.C49_abs_partial",
    "Armas.Props.C49_abs_false",
    "Armas.Props.C49_qsort_partial",
    "Armas.Props.C49_qsort_diverges",
    "Armas.Props.C49_qsort_oob",
    "Armas.Props.C49_qsort_error",
    "Armas.Props.C49_eigenvec"
   ],
   "note": "Insertion sorts armas_sort_vec and armas_sort_eigenvec: sorted, a permutation, companion columns and rows moved by the same permutation, nothing else touched, every length. armas_qsort_vec proved only for pairwise distinct elements with a readable cell after the last one; with two equal elements it does not terminate and it reads element n of an n-element vector (both proved). armas_abs_sort_vec orders absolute values but replaces elements by absolute values (negation proved)."
  },
  {
   "property": "C50",
   "status": "partial",
   "theorems": [
    "Armas.Props.C50_update_partial",
    "Armas.Props.C50_single_partial",
    "Armas.Props.C50_boundary_false",
    "Armas.Props.C50_count_false",
    "Armas.Props.C50_single_false"
   ],
   "note": "Proved for every size, start and count with start + nrot below the number of lines, both sides and directions: exactly the requested rotations in order, only A changes, sums of squares kept when c^2+s^2=1. At the documented maximum count a line outside the matrix is rotated (C50_boundary_false), the backward direction returns 0 instead of the count (C50_count_false), single rotations do not cut the element count (C50_single_false)."
  },
  {
   "property": "C51",
   "status": "partial",
   "theorems": [
    "Armas.Props.C51_mscale_all",
    "Armas.Props.C51_mscale_lower_partial",
    "Armas.Props.C51_lower_unit_tall_false",
    "Armas.Props.C51_mscale_upper_false",
    "Armas.Props.C51_mscale_upper_unit_false",
    "Armas.Props.C51_madd_all",
    "Armas.Props.C51_madd_lower_partial",
    "Armas.Props.C51_madd_upper_partial",
    "Armas.Props.C51_madd_upper_false",
    "Armas.Props.C51_madd_vector_false"
   ],
   "note": "Whole matrix: mscale and madd complete. Lower triangle: exact except for UNIT on tall matrices, whose last column is missed (C51_lower_unit_tall_false). Upper triangle: madd exact for matrices that are not wide, without UNIT; mscale changes only the diagonal (C51_mscale_upper_false); with UNIT, or madd on wide matrices, memory behind the matrix is accessed. madd ignores the flags for vectors."
  },
  {
   "property": "C52",
   "status": "partial",
   "theorems": [
    "Armas.Props.C52_all_partial",
    "Armas.Props.C52_triangle_partial",
    "Armas.Props.C52_vector_partial",
    "Armas.Props.C52_scalar_false",
    "Armas.Props.C52_triangle_trans_false"
   ],
   "note": "Whole matrix (plain, transposed, absolute values), both triangles without transpose, and vectors. False for a 1x1 second operand (alpha ignored), for triangles with TRANS (not transposed)."
  },
  {
   "property": "C53",
   "status": "proved",
   "theorems": [
    "Armas.Props.C53_intolerance",
    "Armas.Props.C53_reflexive"
   ],
   "note": "Exact characterisation for all sizes and strides over an ordered field, and reflexivity for non-negative tolerances."
  },
  {
   "property": "C54",
   "status": "proved",
   "theorems": [
    "Armas.Props.C54_update",
    "Armas.Props.C54_gvcompute",
    "Armas.Props.C54_size_false"
   ],
   "note": "Lower and upper, row and column update vector, every order, no condition on factor or vector; only the triangle and X change. Both versions (plain and AVX) of the rotation computation are modelled and equal over the reals. Sizes are a stated precondition: the code does not check them (C54_size_false)."
  },
  {
   "property": "C55",
   "status": "partial",
   "theorems": [
    "Armas.Props.C55_house",
    "Armas.Props.C55_unscaled_partial",
    "Armas.Props.C55_unscaled_false",
    "Armas.Props.C55_nonneg_false",
    "Armas.Props.C55_qr_partial"
   ],
   "note": "Scaled reflector (the form the factorizations use) proved in full for every vector over the reals, including termination of the rescaling loop. Unscaled form proved for x /= 0; for x = 0 it is false (C55_unscaled_false). ARMAS_NONNEG promise false for x = 0 (C55_nonneg_false). Unblocked QR proved for every size and content: A = H_0...H_{K-1} R with all H_k orthogonal; needs blas2min >= 2 (or the naive non-recursive configuration) and a column vector tau. Blocked QR not modelled. Exact real arithmetic."
  },
  {
   "property": "C56",
   "status": "partial",
   "theorems": [
    "Armas.Props.C56_twosum",
    "Armas.Props.C56_fastsum",
    "Armas.Props.C56_fastsum_order_false",
    "Armas.Props.C56_split_f64",
    "Armas.Props.C56_twoprod_f64",
    "Armas.Props.C56_twoprod_fma",
    "Armas.Props.C56_twoprod_f32_partial",
    "Armas.Props.C56_twoprod_f32_false",
    "Armas.Props.C56_extract",
    "Armas.Props.C56_extract_base_false",
    "Armas.Props.C56_twodiv_fma",
    "Armas.Props.C56_twodiv_f64",
    "Armas.Props.C56_twodiv_avx_false"
   ],
   "note": "Proved for every precision and every rounding to nearest (ties arbitrary), exponent range unbounded: twosum and fastsum (|a|>=|b|) return the rounded sum and its exact error; twoprod is exact in double precision (factor 2^27+1) and with fused multiply-add in every precision; split yields two 26-bit parts; extract (x86_64 macro) is exact; twodiv returns the rounded quotient and its correctly rounded error (FMA version and generic version in double precision). False of the code, with witnesses for every rounding to nearest: twoprod in single precision without FMA (factor 2^14+1), extract of the generic header (subtracts r twice), twodiv of the x86_64 header without FMA (multiplies a*b instead of x*b), fastsum with operands in the other order. Overflow, underflow and the vector variants are not modelled."
  },
  {
   "property": "C57",
   "status": "partial",
   "theorems": [
    "Armas.Props.C57_only_last_reported",
    "Armas.Props.C57_failures_dropped_false",
    "Armas.Props.C57_reported_partial",
    "Armas.Props.C57_zero_threads_ub"
   ],
   "note": "False: failures in created threads are dropped (C57_failures_dropped_false). Proved: failures of the calling thread's block and of thread creation are reported."
  },
  {
   "property": "C58",
   "status": "partial",
   "theorems": [
    "Armas.Props.C58_set_triangle",
    "Armas.Props.C58_set_all",
    "Armas.Props.C58_set_symm",
    "Armas.Props.C58_make_trm_partial",
    "Armas.Props.C58_make_trm_upper_false"
   ],
   "note": "armas_set_values/armas_set_all complete for triangles, trapezoids, symmetric and whole matrices: one call per element, nothing else accessed. armas_make_trm complete except UPPER|UNIT on wide matrices, where memory behind the matrix is written (C58_make_trm_upper_false)."
  },
  {
   "property": "C59",
   "status": "partial",
   "theorems": [
    "Armas.Props.C59_inverse_trm_partial",
    "Armas.Props.C59_size_error",
    "Armas.Props.C59_singular_partial",
    "Armas.Props.C59_singular_blocked_partial",
    "Armas.Props.C59_unit_false",
    "Armas.Props.C59_recursion_false"
   ],
   "note": "Proved for both triangles, unblocked and every block size, nonsingular (C59_inverse_trm_partial): two-sided inverse, only the triangle and the copy buffers touched; status of singular matrices for the unblocked algorithm (C59_singular_partial); sizes (C59_size_error). False with ARMAS_UNIT and a stored diagonal other than one (C59_unit_false) and when the recursion of armas_solve_trm is entered with factor -1, block size >= blas2min (C59_recursion_false). Missing: singular matrices in the blocked algorithm."
  },
  {
   "property": "C60",
   "status": "partial",
   "theorems": [
    "Armas.Props.C60_luinverse_partial",
    "Armas.Props.C60_size_error",
    "Armas.Props.C60_work_error",
    "Armas.Props.C60_recursion_false",
    "Armas.Props.C60_driver_partial"
   ],
   "note": "Two-sided inverse for every nonsingular factored matrix, with and without pivots, unblocked and for every block size and work space of at least rows elements (C60_luinverse_partial); factorization followed by inversion inverts every nonsingular matrix (C60_driver_partial); sizes and work space checks (C60_size_error, C60_work_error). False when the recursion of armas_solve_trm is entered with factor -1, order >= blas2min (C60_recursion_false). Missing: singular factors, the workspace query and the allocating wrapper."
  },
  {
   "property": "C61",
   "status": "partial",
   "theorems": [
    "Armas.Props.C61_cholinverse_partial",
    "Armas.Props.C61_default_blocks",
    "Armas.Props.C61_singular_partial",
    "Armas.Props.C61_size_error",
    "Armas.Props.C61_work_error",
    "Armas.Props.C61_odd_split_false",
    "Armas.Props.C61_driver_partial"
   ],
   "note": "Two-sided inverse for every factor with nonzero diagonal, both triangles, unblocked and for every block size and work space of at least rows elements, only the triangle is touched (C61_cholinverse_partial); the conditions on the blocks hold for the default configuration (C61_default_blocks); factorization followed by inversion inverts every positive definite matrix (C61_driver_partial); a zero on the diagonal is reported by the unblocked version (C61_singular_partial); sizes and work space checks (C61_size_error, C61_work_error). False when a block of an upper triangle is split at an odd order (C61_odd_split_false, from the bug of C21). Missing: blocks that do not fit the copy buffers (C20), zero diagonal in the blocked version, the workspace query and the allocating wrapper."
  },
  {
   "property": "C62",
   "status": "partial",
   "theorems": [
    "Armas.Props.C62_reflector_partial",
    "Armas.Props.C62_size_error",
    "Armas.Props.C62_stale_false",
    "Armas.Props.C62_square_false"
   ],
   "note": "I - Y T Y^T is the product of the reflectors and I - Y T^T Y^T the product in the opposite order, for all sizes, vectors and scalars (C62_reflector_partial), under two conditions the code neither checks nor documents: columns of T with a zero tau are zero on entry, false otherwise (C62_stale_false), and the last tau of a square matrix is zero, false otherwise (C62_square_false); size check (C62_size_error)."
  },
  {
   "property": "C63",
   "status": "partial",
   "theorems": [
    "Armas.Props.C63_update_left_partial",
    "Armas.Props.C63_update_right_partial"
   ],
   "note": "Q C, Q^T C, C Q and C Q^T for every shape (C63_update_left_partial, C63_update_right_partial), from the block reflector identity concluded by C62, within the conditions on the copy buffers of C16/C19 (Conf3, cache ready). Missing: other configurations of the caches."
  },
  {
   "property": "C64",
   "status": "partial",
   "theorems": [
    "Armas.Props.C64_qrfactor_partial",
    "Armas.Props.C64_errors"
   ],
   "note": "A = H(0) ... H(N-1) R with orthogonal reflectors for every real matrix with rows >= cols, every configured block size and every work space of at least cols elements, blocked or not, and what is written (C64_qrfactor_partial); the error returns (C64_errors). Exact arithmetic. Missing: tau as a row vector (accepted by the code, but its partitioning is for columns), the workspace query and the allocating wrapper."
  },
  {
   "property": "C65",
   "status": "partial",
   "theorems": [
    "Armas.Props.C65_qrmult_partial",
    "Armas.Props.C65_errors",
    "Armas.Props.C65_overflow_false",
    "Armas.Props.C65_driver_partial"
   ],
   "note": "For every size, block size and sufficient work space, in exact arithmetic over a field; tau is a column vector; K*K and (K+lb)*lb fit an int (C65_overflow_false shows the undefined behaviour otherwise); the float square root that chooses the block size is the exact integer root; more reflectors than rows (never produced by armas_qrfactor) are not covered."
  },
  {
   "property": "C66",
   "status": "partial",
   "theorems": [
    "Armas.Props.C66_qrbuild_partial",
    "Armas.Props.C66_errors",
    "Armas.Props.C66_driver_partial",
    "Armas.Props.C66_stale_false",
    "Armas.Props.C66_long_tau_false"
   ],
   "note": "For every K <= cols <= rows, every block size and sufficient work space, in exact arithmetic over a field: the result is the first columns of the product, orthonormal for orthogonal reflectors, and Q R = A after the factorization of C64 (C66_qrbuild_partial, C66_driver_partial). tau has exactly cols elements (C66_long_tau_false); the blocked code wants unit vectors for zero scalars (C66_stale_false), which the factorization provides. K > cols is not checked by the code and not covered; nor are the workspace query and the allocating wrapper."
  },
  {
   "property": "C67",
   "status": "partial",
   "theorems": [
    "Armas.Props.C67_errors",
    "Armas.Props.C67_lsq_partial",
    "Armas.Props.C67_minnorm_partial",
    "Armas.Props.C67_driver_partial",
    "Armas.Props.C67_long_tau_false",
    "Armas.Props.C67_nomem_false"
   ],
   "note": "Exact real arithmetic. qrsolveW (qrsolve.c:103-157) over the models of qrmult, solve_trm and mscale: least squares (C67_lsq_partial) and minimum norm (C67_minnorm_partial) solutions from any factorization with an orthogonal Q and a nonzero diagonal of R, and after armas_qrfactor for every matrix with linearly independent columns (C67_driver_partial). Missing: rounding, sizes where K*K overflows an int (C65_overflow_false). False: a tau longer than the number of columns, accepted by armas_qrfactor, makes qrmult fail, which is ignored (C67_long_tau_false); the same for a failed allocation in solve_trm (C67_nomem_false)."
  },
  {
   "property": "C68",
   "status": "partial",
   "theorems": [
    "Armas.Props.C68_axpy_partial",
    "Armas.Props.C68_copy",
    "Armas.Props.C68_dot_partial",
    "Armas.Props.C68_increments_false",
    "Armas.Props.C68_swap_partial",
    "Armas.Props.C68_rot",
    "Armas.Props.C68_scal_partial",
    "Armas.Props.C68_asum_partial",
    "Armas.Props.C68_nrm2_partial",
    "Armas.Props.C68_iamax_partial",
    "Armas.Props.C68_iamax_false",
    "Armas.Props.C68_rotg_partial",
    "Armas.Props.C68_rotg_false"
   ],
   "note": "Exact arithmetic. axpy, copy, dot, swap, rot for increments of either sign (nonzero for written vectors, the product of the increments within int for axpy, dot, swap); scal, asum, nrm2, iamax for positive increments; rotg. False: the product of the increments overflows an int (C68_increments_false); idamax_ counts from zero (C68_iamax_false); drotg_ does not return r (C68_rotg_false); a negative increment in dscal_ accesses memory before the array (C69_negative_false; the same code is in dasum_, dnrm2_, idamax_). dscal_ takes its arguments in another order than the reference BLAS (n, x, incx, alpha). n < 0 is not modelled."
  },
  {
   "property": "C69",
   "status": "partial",
   "theorems": [
    "Armas.Props.C69_gemv_partial",
    "Armas.Props.C69_ger_partial",
    "Armas.Props.C69_symv_partial",
    "Armas.Props.C69_trmv_partial",
    "Armas.Props.C69_syr_partial",
    "Armas.Props.C69_syr2_partial",
    "Armas.Props.C69_negative_false",
    "Armas.Props.C69_trsv_partial",
    "Armas.Props.C69_conj_false"
   ],
   "note": "Exact arithmetic, positive increments, option characters N, T, L, U in both cases, the thresholds of C10 to C15. False: the transposition C (C69_conj_false), negative increments (C69_negative_false), and what C10 to C15 record for the library functions."
  },
  {
   "property": "C70",
   "status": "partial",
   "theorems": [
    "Armas.Props.C70_gemm_partial",
    "Armas.Props.C70_gemm_trans_false",
    "Armas.Props.C70_cblas_gemm_partial",
    "Armas.Props.C70_symm_partial",
    "Armas.Props.C70_cblas_symm_partial",
    "Armas.Props.C70_cblas_symm_col_false",
    "Armas.Props.C70_syrk_partial",
    "Armas.Props.C70_syr2k_partial",
    "Armas.Props.C70_trmm_partial",
    "Armas.Props.C70_cblas_trmm_partial",
    "Armas.Props.C70_cblas_trsm_partial",
    "Armas.Props.C70_cblas_trxm_row_false",
    "Armas.Props.C70_cblas_trmm_square_false",
    "Armas.Props.C70_cblas_gemm_row_false",
    "Armas.Props.C70_syr2k_ldb_false"
   ],
   "note": "Exact arithmetic; the restrictions of C16 to C22 on block sizes and thresholds; no conjugate transposition. dgemm_ for matrices that are square when transposed (else the call does nothing: C70_gemm_trans_false); cblas_dgemm, cblas_dtrmm, cblas_dtrsm for column-major order (row-major: C70_cblas_gemm_row_false, C70_cblas_trxm_row_false, C70_cblas_trmm_square_false); cblas_dsymm for row-major order, and for column-major order when M = N (else nothing is done: C70_cblas_symm_col_false); dsyr2k for equal leading dimensions (C70_syr2k_ldb_false). dtrsm_ is not compiled (trsm.c:26 tests an undefined name) and dsyr2k is exported as dsyrk2_."
  },
  {
   "property": "C71",
   "status": "partial",
   "theorems": [
    "Armas.Props.C71_mvmult_sym_partial",
    "Armas.Props.C71_reject_partial",
    "Armas.Props.C71_reject_false",
    "Armas.Props.C71_empty_column_false",
    "Armas.Props.C71_row_vector_false"
   ],
   "note": "Exact arithmetic, column vectors, sorted rows (columns) that contain their diagonal element (C71_mvmult_sym_partial, C71_reject_partial). False: y of the wrong size is accepted (C71_reject_false); columns without a diagonal element read behind their end (C71_empty_column_false); row vectors are taken for contiguous (C71_row_vector_false)."
  },
  {
   "property": "C72",
   "status": "partial",
   "theorems": [
    "Armas.Props.C72_cgrad_partial",
    "Armas.Props.C72_alloc_partial",
    "Armas.Props.C72_reject",
    "Armas.Props.C72_exact_start_false"
   ],
   "note": "Exact arithmetic in an ordered field. cgradW and cgrad (cgrad.c:109-236) for every matrix as in C71 that is positive definite, column x, any vector b: C72_cgrad_partial, C72_alloc_partial; rejected operands: C72_reject. False: a start that is the solution divides zero by zero (C72_exact_start_false). Not covered: rounding, row vectors x (they are misread, C71_row_vector_false), uninitialized workspace: the first product with beta = 0 multiplies what is there, so a NaN left in the workspace spoils the result (the model wants initialized cells)."
  },
  {
   "property": "C73",
   "status": "partial",
   "theorems": [
    "Armas.Props.C73_pcgrad_partial",
    "Armas.Props.C73_code_false",
    "Armas.Props.C73_measure_false"
   ],
   "note": "As C72, with a preconditioner that satisfies the contract Preconditions; return value 0 always, the measure is r'Mr (C73_pcgrad_partial). False: the return value without convergence (C73_code_false), the measure (C73_measure_false). Errors return -1. The allocating wrapper and the preconditioners of the library are not covered here."
  },
  {
   "property": "C74",
   "status": "partial",
   "theorems": [
    "Armas.Props.C74_cgne_partial"
   ],
   "note": "As C72; compressed columns, or compressed rows with a square matrix (the transposed product is wrong otherwise, see C40). Also negative values of cf.stop and cf.smult are used here, unlike the other solvers. The allocating wrapper is not covered."
  },
  {
   "property": "C75",
   "status": "partial",
   "theorems": [
    "Armas.Props.C75_cgnr_partial",
    "Armas.Props.C75_workspace_false",
    "Armas.Props.C75_alloc_false",
    "Armas.Props.C75_residual_false"
   ],
   "note": "As C74, with a workspace of 2 rows + 2 cols elements (C75_cgnr_partial). False: the workspace that the query returns is too small by rows(A) elements, so armassp_cgnr uses a null pointer for all valid arguments (C75_workspace_false, C75_alloc_false, both for all inputs); the reported residual (C75_residual_false)."
  },
  {
   "property": "C76",
   "status": "partial",
   "theorems": [
    "Armas.Props.C76_trmv_partial",
    "Armas.Props.C76_reject",
    "Armas.Props.C76_unit_false",
    "Armas.Props.C76_missing_diagonal_false",
    "Armas.Props.C76_square_false",
    "Armas.Props.C76_row_vector_false"
   ],
   "note": "Exact arithmetic, column vectors, square matrix with sorted rows (columns) that contain their diagonal element, ARMAS_UNIT not for upper compressed rows without transposition nor lower compressed columns: C76_trmv_partial; rejected operands: C76_reject. False: the excluded unit cases read behind the index array (C76_unit_false), as do empty columns before it (C76_missing_diagonal_false); matrices that are not square are accepted (C76_square_false); row vectors are taken for contiguous (C76_row_vector_false)."
  },
  {
   "property": "C77",
   "status": "partial",
   "theorems": [
    "Armas.Props.C77_todense_partial",
    "Armas.Props.C77_zeroed_partial",
    "Armas.Props.C77_reject",
    "Armas.Props.C77_old_values_false"
   ],
   "note": "All three formats, duplicates included (the last one counts): C77_todense_partial, C77_zeroed_partial, C77_reject. False: elements that are not stored keep the old value (C77_old_values_false). The model reads and writes the elements exactly, without conversion of types."
  },
  {
   "property": "C78",
   "status": "partial",
   "theorems": [
    "Armas.Props.C78_apply_partial",
    "Armas.Props.C78_iterate_partial",
    "Armas.Props.C78_upper_false"
   ],
   "note": "Any element type and operator; with ARMAS_UPPER only for matrices with at most as many columns as rows (C78_apply_partial, C78_iterate_partial). False for wider matrices, memory behind the matrix is changed (C78_upper_false)."
  },
  {
   "property": "C79",
   "status": "partial",
   "theorems": [
    "Armas.Props.C79_mnorm_partial",
    "Armas.Props.C79_vector",
    "Armas.Props.C79_errors"
   ],
   "note": "Over the reals with the exact square root (C79_mnorm_partial, C79_vector, C79_errors). Not covered: rounding, the 2-norm of matrices (reported as not implemented by the code)."
  },
  {
   "property": "C80",
   "status": "partial",
   "theorems": [
    "Armas.Props.C80_icholz_partial",
    "Armas.Props.C80_behind_end_false",
    "Armas.Props.C80_pivot_false",
    "Armas.Props.C80_format_false"
   ],
   "note": "Exact arithmetic with any function sq in the place of sqrt (C80_icholz_partial); square compressed matrices with ascending indices and stored diagonal; for lower compressed rows and upper compressed columns one readable element behind the index array. False: the index behind the last element is read in these cases (C80_behind_end_false), a pivot that is not positive is not reported (C80_pivot_false), the format is not checked (C80_format_false). Not covered: rounding, for which matrices all pivots are positive."
  },
  {
   "property": "C81",
   "status": "partial",
   "theorems": [
    "Armas.Props.C81_precond_partial",
    "Armas.Props.C81_contract_partial"
   ],
   "note": "Exact arithmetic; flags ARMAS_UPPER or ARMAS_LOWER or none, without ARMAS_UNIT and ARMAS_TRANS (C81_precond_partial, C81_contract_partial). precond_icholz_partial is modelled, it is one triangular solve (C41), and has no theorem of its own."
  },
  {
   "property": "C82",
   "status": "partial",
   "theorems": [
    "Armas.Props.C82_dot",
    "Armas.Props.C82_adot",
    "Armas.Props.C82_adot_error",
    "Armas.Props.C82_adot_pair_false"
   ],
   "note": "Rounding to nearest without underflow and overflow, operations in the order of the text (the build has -ffast-math): C82_dot, C82_adot, C82_adot_error. False: the pair of armas_ext_adot_unsafe loses a first operand that is smaller than the product (C82_adot_pair_false). Not covered: single precision without fused multiply-add (its product is not error free, C56), armas_ext_adot_dx_unsafe (modelled, no theorem)."
  },
  {
   "property": "C83",
   "status": "partial",
   "theorems": [
    "Armas.Props.C83_sum_unsafe",
    "Armas.Props.C83_sum_partial",
    "Armas.Props.C83_sum_false"
   ],
   "note": "Same rounding model; alpha = 1 (C83_sum_unsafe, C83_sum_partial). False for every other use: the high part of the product with alpha is dropped (C83_sum_false)."
  },
  {
   "property": "C84",
   "status": "partial",
   "theorems": [
    "Armas.Props.C84_axpby"
   ],
   "note": "Same rounding model (C84_axpby); vectors that do not overlap. Not covered: single precision without fused multiply-add."
  },
  {
   "property": "C85",
   "status": "partial",
   "theorems": [
    "Armas.Props.C85_mvmult_partial",
    "Armas.Props.C85_mvupdate_partial"
   ],
   "note": "Same rounding model; three roundings in the place of one (C85_mvmult_partial, C85_mvupdate_partial); operands that do not overlap the result."
  },
  {
   "property": "C86",
   "status": "partial",
   "theorems": [
    "Armas.Props.C86_qrt_partial",
    "Armas.Props.C86_errors",
    "Armas.Props.C86_block_reflector_false",
    "Armas.Props.C86_blocked_false",
    "Armas.Props.C86_workspace_false"
   ],
   "note": "One block, rows(T) >= cols(A): A, the reflectors and the diagonal of T (C86_qrt_partial, C86_errors). False: T is not the block reflector (C86_block_reflector_false), the factorization with several blocks is wrong (C86_blocked_false), an empty work space is accepted for rows(T) = cols(A) (C86_workspace_false)."
  },
  {
   "property": "C87",
   "status": "partial",
   "theorems": [
    "Armas.Props.C87_trsv_partial",
    "Armas.Props.C87_trsv_alloc",
    "Armas.Props.C87_errors",
    "Armas.Props.C87_workspace_false",
    "Armas.Props.C87_trans_default_false",
    "Armas.Props.C87_empty_false"
   ],
   "note": "Rounding to nearest without underflow and overflow, at least 6 bits; product and quotient with fused multiply-add, or by splitting in double precision (C87_trsv_partial for a work space whose first used element is zero, C87_trsv_alloc for the function that allocates it, C87_errors). False: other contents of the work space (C87_workspace_false), TRANS without LOWER (C87_trans_default_false), the empty system with a work space (C87_empty_false). Not covered: the quotient of the AVX build without fused multiply-add, which is wrong (C56); single precision without fused multiply-add."
  },
  {
   "property": "C88",
   "status": "partial",
   "theorems": [
    "Armas.Props.C88_trmv_partial",
    "Armas.Props.C88_errors",
    "Armas.Props.C88_abs_false",
    "Armas.Props.C88_trans_default_false"
   ],
   "note": "Rounding to nearest without underflow and overflow; product with fused multiply-add, or by splitting in double precision; x apart from A (C88_trmv_partial, C88_errors). False: ABS is documented and ignored (C88_abs_false), TRANS without LOWER or UPPER is not transposed (C88_trans_default_false)."
  },
  {
   "property": "C89",
   "status": "partial",
   "theorems": [
    "Armas.Props.C89_symv_partial",
    "Armas.Props.C89_doubled_false"
   ],
   "note": "Same rounding model; x and A apart from y (C89_symv_partial). The result is accurate to working precision only: the accumulated pair is rounded before y is added (C89_doubled_false)."
  },
  {
   "property": "C90",
   "status": "partial",
   "theorems": [
    "Armas.Props.C90_syr2_partial",
    "Armas.Props.C90_lower_false",
    "Armas.Props.C90_accuracy_false",
    "Armas.Props.C90_size_false",
    "Armas.Props.C90_syr_one_partial",
    "Armas.Props.C90_syr_bounds_false",
    "Armas.Props.C90_syr_value_false"
   ],
   "note": "Same rounding model. Rank two with UPPER, first order accuracy, vectors of the size of the matrix (C90_syr2_partial); rank one for one element (C90_syr_one_partial). False: LOWER updates the upper triangle (C90_lower_false), accuracy (C90_accuracy_false), shorter vectors are read beyond their end (C90_size_false); rank one writes past the matrix (C90_syr_bounds_false) and uses wrong elements (C90_syr_value_false)."
  },
  {
   "property": "C91",
   "status": "partial",
   "theorems": [
    "Armas.Props.C91_reflector_partial",
    "Armas.Props.C91_size_error",
    "Armas.Props.C91_size_false",
    "Armas.Props.C91_stale_false",
    "Armas.Props.C91_square_false"
   ],
   "note": "Exact arithmetic over any field; T of order cols(A) at least, last tau of a square matrix 0, T zeroed where tau is 0 (C91_reflector_partial, C91_size_error). False: a T of the order of the reflector, rows(A), is refused (C91_size_false); stale columns of T for a zero tau (C91_stale_false); square matrices with non-zero last tau (C91_square_false)."
  },
  {
   "property": "C92",
   "status": "partial",
   "theorems": [
    "Armas.Props.C92_update_left_partial",
    "Armas.Props.C92_update_right_partial"
   ],
   "note": "Exact arithmetic; the level 3 configuration must be usable (Conf3) and the areas apart (C92_update_left_partial, C92_update_right_partial)."
  },
  {
   "property": "C93",
   "status": "partial",
   "theorems": [
    "Armas.Props.C93_lqfactor_partial",
    "Armas.Props.C93_errors"
   ],
   "note": "Exact real arithmetic, rows at most cols (C93_lqfactor_partial, C93_errors). A bad tau returns -1 though the error field is set to the code of an invalid argument."
  },
  {
   "property": "C94",
   "status": "partial",
   "theorems": [
    "Armas.Props.C94_lqmult_partial",
    "Armas.Props.C94_errors",
    "Armas.Props.C94_overflow_false",
    "Armas.Props.C94_driver_partial"
   ],
   "note": "Exact arithmetic, rows(A) <= cols(A), last tau of a square matrix 0, no int overflow in the block size (C94_lqmult_partial, C94_errors, C94_driver_partial). False: K*K overflows for 46341 or more columns (C94_overflow_false)."
  },
  {
   "property": "C95",
   "status": "partial",
   "theorems": [
    "Armas.Props.C95_lqbuild_partial",
    "Armas.Props.C95_errors",
    "Armas.Props.C95_driver_partial",
    "Armas.Props.C95_work_false",
    "Armas.Props.C95_long_tau_false"
   ],
   "note": "Exact arithmetic; tau has rows(A) elements; block size 0, at least cols(A) or less than rows(A) (C95_lqbuild_partial, C95_errors, C95_driver_partial). False: access beyond the work space for rows <= lb < cols (C95_work_false); a longer tau is read from its end (C95_long_tau_false)."
  },
  {
   "property": "C96",
   "status": "partial",
   "theorems": [
    "Armas.Props.C96_errors",
    "Armas.Props.C96_lsq_partial",
    "Armas.Props.C96_minnorm_partial",
    "Armas.Props.C96_driver_partial",
    "Armas.Props.C96_wrapper_false",
    "Armas.Props.C96_work_false"
   ],
   "note": "Exact real arithmetic, areas apart, packing buffers present, work space at least rows(B) and cols(B) (C96_lsq_partial, C96_minnorm_partial, C96_driver_partial, C96_errors). False: armas_lqsolve always fails with -EWORK for fewer right hand sides than rows (C96_wrapper_false); errors of armas_lqmult_w are ignored (C96_work_false)."
  },
  {
   "property": "C97",
   "status": "partial",
   "theorems": [
    "Armas.Props.C97_left_partial",
    "Armas.Props.C97_depth2_partial",
    "Armas.Props.C97_errors",
    "Armas.Props.C97_adjoint",
    "Armas.Props.C97_size",
    "Armas.Props.C97_size_false",
    "Armas.Props.C97_fit_false",
    "Armas.Props.C97_depth0_false"
   ],
   "note": "Exact arithmetic; last block of every size at least half full or of at most one row, which holds for depths up to 2 (C97_left_partial, C97_depth2_partial, C97_errors, C97_adjoint, C97_size). False: access outside of the matrix otherwise (C97_fit_false); division by zero for depth 0 and ARMAS_TRANS (C97_depth0_false); armas_size_rbt with the null pointer its documentation allows (C97_size_false)."
  },
  {
   "property": "C98",
   "status": "partial",
   "theorems": [
    "Armas.Props.C98_right_partial",
    "Armas.Props.C98_depth1_partial",
    "Armas.Props.C98_order_false",
    "Armas.Props.C98_tail_false"
   ],
   "note": "Exact arithmetic; the product with the factors in the order of the code (C98_right_partial), A U for depth 1 (C98_depth1_partial). False: the order is reversed from depth 2 on (C98_order_false); with ARMAS_TRANS and a block that is not full the row behind the last is accessed (C98_tail_false)."
  },
  {
   "property": "C99",
   "status": "partial",
   "theorems": [
    "Armas.Props.C99_update2_partial",
    "Armas.Props.C99_errors",
    "Armas.Props.C99_fit_false"
   ],
   "note": "Exact arithmetic; the extended size w 2^d exceeds the order by at most w (C99_update2_partial, C99_errors). False: access outside of the matrix otherwise (C99_fit_false)."
  },
  {
   "property": "C100",
   "status": "partial",
   "theorems": [
    "Armas.Props.C100_factor_partial",
    "Armas.Props.C100_errors",
    "Armas.Props.C100_rank_false",
    "Armas.Props.C100_blocked_partial",
    "Armas.Props.C100_stale_false"
   ],
   "note": "Exact real arithmetic: unblocked code (C100_factor_partial, C100_errors), blocked code for a cleared pivot vector or full rank, areas apart, packing buffers present, upper triangle with the restriction of C21 (C100_blocked_partial). False: rank 0 gives the same result 0 as full rank, so the zero matrix and negative matrices are accepted (C100_rank_false); the blocked code applies old elements of the pivot vector behind the rank to the finished columns, so using the vector of an earlier factorization again gives a wrong factor (C100_stale_false)."
  },
  {
   "property": "C101",
   "status": "partial",
   "theorems": [
    "Armas.Props.C101_solve_partial",
    "Armas.Props.C101_factor_solve_partial",
    "Armas.Props.C101_errors",
    "Armas.Props.C101_rank_false"
   ],
   "note": "Exact real arithmetic, full rank, areas apart, packing buffers present (C101_solve_partial, C101_factor_solve_partial, C101_errors). False: with fewer pivots than rows the result is put in the wrong rows (C101_rank_false)."
  },
  {
   "property": "C102",
   "status": "partial",
   "theorems": [
    "Armas.Props.C102_singular_partial"
   ],
   "note": "Exact real arithmetic (C102_singular_partial). Not covered: rounding, and the approximation for a quotient that underflows, which does not occur in exact arithmetic."
  },
  {
   "property": "C103",
   "status": "partial",
   "theorems": [
    "Armas.Props.C103_svd_partial",
    "Armas.Props.C103_diag_partial",
    "Armas.Props.C103_diag_false"
   ],
   "note": "Exact real arithmetic, no element zero and g not larger than the diagonal by the factor 1/EPS (C103_svd_partial), or g = 0 and diagonal elements of the same sign (C103_diag_partial). False for every diagonal matrix with elements of different sign: the signs of both values are wrong (C103_diag_false). Not covered: zeros on the diagonal."
  },
  {
   "property": "C104",
   "status": "partial",
   "theorems": [
    "Armas.Props.C104_eigen_partial",
    "Armas.Props.C104_zero_false",
    "Armas.Props.C104_vector_partial",
    "Armas.Props.C104_diag_false",
    "Armas.Props.C104_small_partial",
    "Armas.Props.C104_small_false",
    "Armas.Props.C104_wilkinson_partial",
    "Armas.Props.C104_shift_false"
   ],
   "note": "Exact real arithmetic; values for all but the zero matrix, vectors for matrices that are not diagonal (C104_eigen_partial, C104_vector_partial, C104_small_partial), shift for all but multiples of the identity (C104_wilkinson_partial). False: these exceptions divide zero by zero (C104_zero_false, C104_diag_false, C104_small_false, C104_shift_false), so armas_eigen_sym gives NaN vectors for every diagonal matrix of order 2."
  },
  {
   "property": "C105",
   "status": "partial",
   "theorems": [
    "Armas.Props.C105_roots_partial",
    "Armas.Props.C105_zero_false",
    "Armas.Props.C105_complex_false",
    "Armas.Props.C105_coincident_false",
    "Armas.Props.C105_discriminant_partial"
   ],
   "note": "Exact real arithmetic, a and b not zero, real roots (C105_roots_partial); error of the discriminant with fused operations (C105_discriminant_partial). False: without linear term the values are twice and half the roots (C105_zero_false), complex roots are wrong (C105_complex_false), coincident roots are not reported (C105_coincident_false). Not covered: rounding of the roots, the discriminant without fused operations."
  },
  {
   "property": "C106",
   "status": "partial",
   "theorems": [
    "Armas.Props.C106_shift_partial",
    "Armas.Props.C106_shift_false"
   ],
   "note": "Exact real arithmetic: the shift is the smaller of the eigenvalues (C106_shift_partial). False: it is not the one nearest to the last element (C106_shift_false)."
  },
  {
   "property": "C107",
   "status": "partial",
   "theorems": [
    "Armas.Props.C107_resize_partial",
    "Armas.Props.C107_append_partial",
    "Armas.Props.C107_append_all_partial",
    "Armas.Props.C107_new",
    "Armas.Props.C107_empty_false",
    "Armas.Props.C107_resize_false",
    "Armas.Props.C107_nbytes_false",
    "Armas.Props.C107_bounds_false"
   ],
   "note": "Coordinate lists in allocated memory (C107_append_partial, C107_append_all_partial, C107_new, C107_resize_partial); calloc succeeds. False: a list made for no elements is no coordinate list and refuses entries (C107_empty_false), a smaller size than the number of entries overflows the new array (C107_resize_false), the number of bytes stays that of the old array (C107_nbytes_false), indices are not checked (C107_bounds_false)."
  },
  {
   "property": "C108",
   "status": "partial",
   "theorems": [
    "Armas.Props.C108_hasdiag_partial",
    "Armas.Props.C108_csc_false",
    "Armas.Props.C108_csr_false",
    "Armas.Props.C108_coo_false",
    "Armas.Props.C108_twice_false"
   ],
   "note": "Main diagonal in all formats, diagonals above with compressed columns, below with the others, coordinate lists without duplicates (C108_hasdiag_partial). False: diagonals below with compressed columns read behind the pointers (C108_csc_false); above with compressed rows and coordinate lists another diagonal is tested (C108_csr_false, C108_coo_false); duplicates count twice (C108_twice_false)."
  },
  {
   "property": "C109",
   "status": "partial",
   "theorems": [
    "Armas.Props.C109_hess_partial",
    "Armas.Props.C109_errors"
   ],
   "note": "Exact real arithmetic, unblocked algorithm (C109_hess_partial) and refused arguments (C109_errors). Not covered: the blocked algorithm."
  },
  {
   "property": "C110",
   "status": "partial",
   "theorems": [
    "Armas.Props.C110_hessmult_partial",
    "Armas.Props.C110_tau_false",
    "Armas.Props.C110_driver_partial"
   ],
   "note": "Exact arithmetic: all four products, blocked and unblocked (C110_hessmult_partial), and reduction followed by multiplication (C110_driver_partial). That arguments that do not fit are refused is false: the size of tau is not looked at and the code reads behind it (C110_tau_false). Not covered: the workspace query and the allocating wrapper."
  },
  {
   "property": "C111",
   "status": "partial",
   "theorems": [
    "Armas.Props.C111_trd_partial",
    "Armas.Props.C111_errors",
    "Armas.Props.C111_tau_false"
   ],
   "note": "Exact real arithmetic, lower triangle, unblocked algorithm (C111_trd_partial) and refused arguments (C111_errors). That a tau of another size is refused is false (C111_tau_false). Not covered: the blocked algorithm and the upper triangle."
  },
  {
   "property": "C112",
   "status": "partial",
   "theorems": [
    "Armas.Props.C112_trdmult_partial",
    "Armas.Props.C112_errors"
   ],
   "note": "Exact arithmetic, lower triangle: all four products, blocked and unblocked (C112_trdmult_partial), and refused arguments (C112_errors). Not covered: ARMAS_UPPER, the workspace query and the allocating wrapper."
  },
  {
   "property": "C113",
   "status": "partial",
   "theorems": [
    "Armas.Props.C113_trdbuild_partial",
    "Armas.Props.C113_errors",
    "Armas.Props.C113_workspace_false",
    "Armas.Props.C113_driver_partial"
   ],
   "note": "Exact arithmetic, lower triangle: the product of the first K reflectors (C113_trdbuild_partial), reduction followed by building (C113_driver_partial), refused arguments (C113_errors). That arguments that do not fit are refused without a change is false of a short work space (C113_workspace_false). Not covered: ARMAS_UPPER; driver theorem for the blocked algorithm."
  },
  {
   "property": "C114",
   "status": "partial",
   "theorems": [
    "Armas.Props.C114_left_partial",
    "Armas.Props.C114_right_partial",
    "Armas.Props.C114_errors",
    "Armas.Props.C114_tau_false"
   ],
   "note": "Exact arithmetic, unblocked algorithm: reduction for both shapes (C114_left_partial, C114_right_partial), refused work space (C114_errors). That short vectors are refused is false (C114_tau_false). Not covered: the blocked algorithm, the workspace query and the allocating wrapper."
  },
  {
   "property": "C115",
   "status": "partial",
   "theorems": [
    "Armas.Props.C115_tall_q_partial",
    "Armas.Props.C115_tall_p_partial",
    "Armas.Props.C115_wide_q_partial",
    "Armas.Props.C115_wide_p_partial",
    "Armas.Props.C115_errors",
    "Armas.Props.C115_tau_false",
    "Armas.Props.C115_driver_tall_partial",
    "Armas.Props.C115_driver_wide_partial"
   ],
   "note": "Exact arithmetic: all four combinations of shape and matrix, both sides, transposed or not (C115_tall_q_partial, C115_tall_p_partial, C115_wide_q_partial, C115_wide_p_partial), reduction followed by multiplication of a copy (C115_driver_tall_partial, C115_driver_wide_partial), refused flags (C115_errors). That short vectors are refused is false (C115_tau_false). Not covered: block sizes and work spaces for which the LQ multiplication fails (C94), the workspace query and the allocating wrapper."
  },
  {
   "property": "C116",
   "status": "partial",
   "theorems": [
    "Armas.Props.C116_tall_q_partial",
    "Armas.Props.C116_tall_p_partial",
    "Armas.Props.C116_wide_q_partial",
    "Armas.Props.C116_wide_p_partial",
    "Armas.Props.C116_errors",
    "Armas.Props.C116_tau_false",
    "Armas.Props.C116_workspace_false"
   ],
   "note": "Exact arithmetic: all four combinations of shape and matrix (C116_tall_q_partial, C116_tall_p_partial, C116_wide_q_partial, C116_wide_p_partial), empty matrices and refused flags (C116_errors). False: short vectors are not refused (C116_tau_false) and a short work space is noticed only after A has changed (C116_workspace_false). Not covered: rows <= lb < cols for P of a wide matrix, which fails (C95_work_false); K > columns for Q of a tall matrix; the workspace query and the allocating wrapper."
  },
  {
   "property": "C117",
   "status": "partial",
   "theorems": [
    "Armas.Props.C117_ql_partial",
    "Armas.Props.C117_errors"
   ],
   "note": "Exact arithmetic, unblocked algorithm: C117_ql_partial gives A = Q L both ways round, orthogonal Q and the frame; C117_errors. Not covered: the blocked algorithm, the workspace query, the allocating wrapper, a row vector tau."
  },
  {
   "property": "C118",
   "status": "partial",
   "theorems": [
    "Armas.Props.C118_qlmult_partial",
    "Armas.Props.C118_errors",
    "Armas.Props.C118_overflow_false",
    "Armas.Props.C118_tau_false",
    "Armas.Props.C118_driver_partial"
   ],
   "note": "Unblocked algorithm: all sides and orders (C118_qlmult_partial), factoring and multiplying a copy (C118_driver_partial), refused arguments (C118_errors). False: 46341 or more columns with a small work space (C118_overflow_false), and a tau longer than N accepted by the factorization is refused (C118_tau_false). Not covered: the blocked algorithm, the workspace query and the allocating wrapper."
  },
  {
   "property": "C119",
   "status": "partial",
   "theorems": [
    "Armas.Props.C119_qlbuild_partial",
    "Armas.Props.C119_errors",
    "Armas.Props.C119_tau_false",
    "Armas.Props.C119_driver_partial"
   ],
   "note": "Unblocked algorithm: C119_qlbuild_partial, factoring and building (C119_driver_partial), short work space (C119_errors). That a short tau is refused is false (C119_tau_false). Not covered: the blocked algorithm, K > columns, the workspace query and the allocating wrapper."
  },
  {
   "property": "C120",
   "status": "partial",
   "theorems": [
    "Armas.Props.C120_rq_partial",
    "Armas.Props.C120_errors"
   ],
   "note": "Exact arithmetic, unblocked algorithm: C120_rq_partial gives A = R Q both ways round, orthogonal Q and the frame, stated for the transposed matrices; C120_errors. Not covered: the blocked algorithm, the workspace query, the allocating wrapper, a row vector tau."
  },
  {
   "property": "C121",
   "status": "partial",
   "theorems": [
    "Armas.Props.C121_rqmult_partial",
    "Armas.Props.C121_errors",
    "Armas.Props.C121_overflow_false",
    "Armas.Props.C121_code_false",
    "Armas.Props.C121_driver_partial"
   ],
   "note": "Unblocked algorithm: all sides and orders (C121_rqmult_partial), factoring and multiplying a copy (C121_driver_partial), refused arguments (C121_errors). False: the returned value does not tell the error (C121_code_false), and 46341 or more columns with a small work space (C121_overflow_false). Not covered: the blocked algorithm, the workspace query and the allocating wrapper."
  },
  {
   "property": "C122",
   "status": "partial",
   "theorems": [
    "Armas.Props.C122_rqbuild_partial",
    "Armas.Props.C122_errors",
    "Armas.Props.C122_work_false",
    "Armas.Props.C122_driver_partial"
   ],
   "note": "Unblocked algorithm: C122_rqbuild_partial, factoring and building (C122_driver_partial), refused arguments (C122_errors). That the work space asked for is enough is false for rows <= lb < cols (C122_work_false). Not covered: the loop of the blocked algorithm, K > rows, the allocating wrapper."
  },
  {
   "property": "C123",
   "status": "partial",
   "theorems": [
    "Armas.Props.C123_housemult_partial",
    "Armas.Props.C123_unit",
    "Armas.Props.C123_vector_partial",
    "Armas.Props.C123_errors",
    "Armas.Props.C123_default_false",
    "Armas.Props.C123_row_false"
   ],
   "note": "Matrices with exactly one of ARMAS_LEFT and ARMAS_RIGHT: all sides and orders, scaled or not (C123_housemult_partial, C123_unit); column vectors from the left and row vectors from the right, which take code without work space (C123_vector_partial); refused arguments (C123_errors). False: without ARMAS_LEFT a matrix that is not square is left unchanged and success returned (C123_default_false), and a row vector multiplied from the left changes in its first element only (C123_row_false). Not covered: P with more columns than rows, the workspace query and the allocating wrapper."
  }
 ]
}