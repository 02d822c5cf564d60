import Verif.Mem

/-!
# Splitting work into blocks

Model of `armas_ac_block_index` (`src/include/accel.h:97-103`), `worker_tiles`
(`src/workers/workers.h:31-39`), the block definitions of `src/threaded/gemm.c:104-117` and
`src/workers/gemm.c:91-113,151-168`, and `armas_ac_threaded_cores`
(`src/threaded/entry.c:75-80`).
-/

namespace Armas

/-- Largest `int`. -/
def INT_MAX : Nat := 2147483647

/-- `armas_ac_block_index` (`src/include/accel.h:97-103`); the `int` product `n*ntotal` must not
overflow, and the divisor must not be zero. -/
def blockIndex (n nblocks ntotal : Nat) : Res Nat :=
  if n = nblocks then .ok ntotal
  else if INT_MAX < n * ntotal then .ub
  else if nblocks = 0 then .ub
  else .ok (n * ntotal / nblocks - (n * ntotal / nblocks) % 4)

/-- A block of the target matrix (`struct armas_ac_block`, `src/include/accel.h:82-92`). -/
structure Block where
  row : Nat
  col : Nat
  nrows : Nat
  ncols : Nat

/-- Block of thread `k` of `nthreads` in `threaded_mult_recursive` (`src/threaded/gemm.c:104-117`):
split along the longer side of C. -/
def threadBlock (k nthreads rows cols : Nat) : Res Block :=
  if rows ≤ cols then do
    let c ← blockIndex k nthreads cols
    let e ← blockIndex (k + 1) nthreads cols
    pure ⟨0, c, rows, e - c⟩
  else do
    let r ← blockIndex k nthreads rows
    let e ← blockIndex (k + 1) nthreads rows
    pure ⟨r, 0, e - r, cols⟩

/-- `armas_ac_define_block` as used by `schedule_blocks` (`src/workers/gemm.c:91-140`). -/
def workerBlock (k ntask rows cols : Nat) : Res Block :=
  if cols > rows then do
    let c ← blockIndex k ntask cols
    let e ← blockIndex (k + 1) ntask cols
    pure ⟨0, c, rows, e - c⟩
  else do
    let r ← blockIndex k ntask rows
    let e ← blockIndex (k + 1) ntask rows
    pure ⟨r, 0, e - r, cols⟩

/-- `worker_tiles` (`src/workers/workers.h:31-39`): number of tile rows and columns. -/
def workerTiles (M N wb : Nat) : Res (Nat × Nat) :=
  if wb = 0 then .ub
  else
    let qr := if M % wb > wb / 8 then 1 else 0
    let qc := if N % wb > wb / 8 then 1 else 0
    .ok (if M < wb then 1 else M / wb + qr, if N < wb then 1 else N / wb + qc)

/-- Tile (i,j) of `schedule_tiles` (`src/workers/gemm.c:153-168`). -/
def tileBlock (i j rtiles ctiles rows cols : Nat) : Res Block := do
  let c ← blockIndex j ctiles cols
  let ce ← blockIndex (j + 1) ctiles cols
  let r ← blockIndex i rtiles rows
  let re ← blockIndex (i + 1) rtiles rows
  pure ⟨r, c, re - r, ce - c⟩

/-- `armas_ac_threaded_cores` (`src/threaded/entry.c:75-80`): number of threads, with the ceiling
taken exactly. -/
def threadedCores (items numItems maxCores : Nat) : Nat :=
  let k := (items + numItems - 1) / numItems
  if k < maxCores then k else maxCores

end Armas
