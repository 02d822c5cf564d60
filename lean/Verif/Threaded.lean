import Verif.Mem

/-!
# Thread-per-block drivers (`src/threaded/gemm.c`, `symm.c`, `trmm.c`, `trsm.c`)

Control flow and error handling of the four recursive drivers, which are identical in this respect:
`threaded_mult_recursive` (gemm.c:92-140), `threaded_mult_sym_recursive` (symm.c:90-140),
`threaded_mult_trm_recursive` (trmm.c:76-121), `threaded_solve_trm_recursive` (trsm.c:71-122).
The data side (which block a thread computes) is in `Verif/Blocks.lean`.
-/

namespace Armas

/-- Result of a driver call: return code and the blocks whose computation was attempted, in the
order of thread creation. -/
structure DriverOut where
  rc : Int
  blocks : List Nat
deriving DecidableEq

/-- `threaded_mult_recursive(thread, nthreads, …)` (gemm.c:92-140).  `createErr k` is the result of
the `pthread_create` call for block `k` (0 = success), `blockErr k` the value `compute_block` leaves
in `args.error` for block `k` (0 = success; `ARMAS_EMEMORY` when no cache buffer can be allocated,
gemm.c:77-81).  For `thread ≥ nthreads` the recursion has no end in the block numbers: the block
index computation divides by `nthreads` or overflows, undefined behaviour. -/
def threadedRec (createErr blockErr : Nat → Nat) (nthreads thread : Nat) : Res DriverOut :=
  if thread + 1 = nthreads then
    .ok ⟨-(blockErr thread : Int), [thread]⟩
  else if nthreads ≤ thread then .ub
  else if createErr thread ≠ 0 then .ok ⟨-1, []⟩
  else do
    let r ← threadedRec createErr blockErr nthreads (thread + 1)
    -- pthread_join(th, NULL); args.error of this block is not looked at
    .ok ⟨r.rc, thread :: r.blocks⟩
termination_by nthreads - thread

/-- `armas_ac_threaded_mult` and its siblings (gemm.c:142-150, symm.c:142-150, trmm.c:123-128,
trsm.c:124-129): start with block 0 of `nproc`. -/
def threadedDriver (createErr blockErr : Nat → Nat) (nproc : Nat) : Res DriverOut :=
  threadedRec createErr blockErr nproc 0

end Armas
