import Verif.Blocks
import Verif.Logic
import Mathlib.Algebra.Order.Field.Rat

/-!
# C26: splitting work into blocks

`InBlock b r c`: element (r,c) belongs to block `b`.
-/

namespace Armas.Props

open Armas

/-- Element (r,c) of the target lies in the block. -/
def InBlock (b : Block) (r c : Nat) : Prop :=
  b.row ≤ r ∧ r < b.row + b.nrows ∧ b.col ≤ c ∧ c < b.col + b.ncols

/-- Exact value of the block boundary. -/
def bound (n nblocks ntotal : Nat) : Nat :=
  if n = nblocks then ntotal else 4 * (n * ntotal / nblocks / 4)

theorem blockIndex_ok {n nblocks ntotal : Nat} (hn : n ≤ nblocks) (hp : 0 < nblocks)
    (ho : nblocks * ntotal ≤ INT_MAX) : blockIndex n nblocks ntotal = .ok (bound n nblocks ntotal) := by
  unfold blockIndex bound
  split
  · rfl
  · have : n * ntotal ≤ nblocks * ntotal := Nat.mul_le_mul_right _ hn
    rw [if_neg (by omega), if_neg (by omega)]
    congr 1
    have := Nat.div_add_mod (n * ntotal / nblocks) 4
    omega

theorem bound_mono {n n' nblocks ntotal : Nat} (h : n ≤ n') (hn : n' ≤ nblocks) (hp : 0 < nblocks) :
    bound n nblocks ntotal ≤ bound n' nblocks ntotal := by
  unfold bound
  have h1 : n * ntotal ≤ n' * ntotal := Nat.mul_le_mul_right _ h
  have h2 : n * ntotal / nblocks ≤ n' * ntotal / nblocks := Nat.div_le_div_right h1
  have h3 : n * ntotal / nblocks ≤ ntotal := by
    apply Nat.div_le_of_le_mul
    exact Nat.mul_le_mul_right _ (by omega)
  have := Nat.div_mul_le_self (n * ntotal / nblocks) 4
  split
  · have e : n' = nblocks := by omega
    rw [if_pos e]
  · split
    · omega
    · have := Nat.div_le_div_right (c := 4) h2
      omega

/-- C26: boundaries for `nblocks > 0` blocks start at 0, end at the total, never decrease, and are
multiples of four except for the last; precondition of the code: `nblocks*ntotal` fits `int`. -/
theorem C26_boundaries (nblocks ntotal : Nat) (hp : 0 < nblocks) (ho : nblocks * ntotal ≤ INT_MAX) :
    ∃ b : Nat → Nat, (∀ n, n ≤ nblocks → blockIndex n nblocks ntotal = .ok (b n)) ∧
      b 0 = 0 ∧ b nblocks = ntotal ∧ (∀ n, n < nblocks → b n ≤ b (n + 1)) ∧
      (∀ n, n < nblocks → 4 ∣ b n) := by
  refine ⟨fun n => bound n nblocks ntotal, fun n hn => blockIndex_ok hn hp ho, ?_, ?_, ?_, ?_⟩
  · simp only [bound]
    rw [if_neg (by omega)]; simp
  · simp [bound]
  · intro n hn
    exact bound_mono (by omega) (by omega) hp
  · intro n hn
    simp only [bound]
    rw [if_neg (by omega)]
    exact Nat.dvd_mul_right _ _

example : ∃ b : Nat → Nat, (∀ n, n ≤ 7 → blockIndex n 7 100 = .ok (b n)) ∧ b 0 = 0 ∧ b 7 = 100 ∧
    (∀ n, n < 7 → b n ≤ b (n + 1)) ∧ (∀ n, n < 7 → 4 ∣ b n) :=
  C26_boundaries 7 100 (by decide) (by decide)

/-- Every item lies between exactly one pair of consecutive boundaries. -/
theorem bound_unique {nblocks ntotal x : Nat} (hp : 0 < nblocks) (hx : x < ntotal) :
    ∃! k, k < nblocks ∧ bound k nblocks ntotal ≤ x ∧ x < bound (k + 1) nblocks ntotal := by
  have h0 : bound 0 nblocks ntotal ≤ x := by
    simp only [bound]
    rw [if_neg (by omega)]; simp
  have hN : bound nblocks nblocks ntotal = ntotal := by simp [bound]
  have ex : ∀ m, m ≤ nblocks → x < bound m nblocks ntotal →
      ∃ k, k < m ∧ bound k nblocks ntotal ≤ x ∧ x < bound (k + 1) nblocks ntotal := by
    intro m
    induction m with
    | zero => intro _ h; omega
    | succ m ih =>
      intro hm h
      by_cases c : bound m nblocks ntotal ≤ x
      · exact ⟨m, by omega, c, h⟩
      · obtain ⟨k, h1, h2⟩ := ih (by omega) (by omega)
        exact ⟨k, by omega, h2⟩
  obtain ⟨k, h1, h2, h3⟩ := ex nblocks (le_refl _) (by omega)
  refine ⟨k, ⟨h1, h2, h3⟩, ?_⟩
  rintro k' ⟨h1', h2', h3'⟩
  rcases Nat.lt_trichotomy k' k with h | h | h
  · have := bound_mono (ntotal := ntotal) (show k' + 1 ≤ k by omega) (by omega) hp
    omega
  · exact h
  · have := bound_mono (ntotal := ntotal) (show k + 1 ≤ k' by omega) (by omega) hp
    omega

/-- C26: the blocks given to `nthreads` threads are inside the target and every element of the
target lies in exactly one of them. -/
theorem C26_thread_blocks (nthreads rows cols : Nat) (hp : 0 < nthreads)
    (ho : nthreads * max rows cols ≤ INT_MAX) :
    ∃ b : Nat → Block, (∀ k, k < nthreads → threadBlock k nthreads rows cols = .ok (b k) ∧
        (b k).row + (b k).nrows ≤ rows ∧ (b k).col + (b k).ncols ≤ cols) ∧
      ∀ r c, r < rows → c < cols → ∃! k, k < nthreads ∧ InBlock (b k) r c := by
  by_cases h : rows ≤ cols
  · have ho' : nthreads * cols ≤ INT_MAX := by rwa [max_eq_right h] at ho
    refine ⟨fun k => ⟨0, bound k nthreads cols, rows,
      bound (k + 1) nthreads cols - bound k nthreads cols⟩, fun k hk => ?_, fun r c hr hc => ?_⟩
    · have m1 := bound_mono (ntotal := cols) (show k ≤ k + 1 by omega) (by omega) hp
      have m2 := bound_mono (ntotal := cols) (show k + 1 ≤ nthreads by omega) (le_refl _) hp
      have m3 : bound nthreads nthreads cols = cols := by simp [bound]
      refine ⟨?_, by dsimp only; omega, by dsimp only; omega⟩
      unfold threadBlock
      rw [if_pos h, blockIndex_ok (by omega) hp ho', blockIndex_ok (by omega) hp ho']
      rfl
    · obtain ⟨k, ⟨h1, h2, h3⟩, hu⟩ := bound_unique hp hc
      refine ⟨k, ⟨h1, ?_⟩, ?_⟩
      · simp only [InBlock]; omega
      · rintro k' ⟨g1, g2⟩
        simp only [InBlock] at g2
        have := bound_mono (ntotal := cols) (show k' ≤ k' + 1 by omega) (by omega) hp
        exact hu k' ⟨g1, by omega, by omega⟩
  · have ho' : nthreads * rows ≤ INT_MAX := by rwa [max_eq_left (by omega)] at ho
    refine ⟨fun k => ⟨bound k nthreads rows, 0,
      bound (k + 1) nthreads rows - bound k nthreads rows, cols⟩, fun k hk => ?_, fun r c hr hc => ?_⟩
    · have m1 := bound_mono (ntotal := rows) (show k ≤ k + 1 by omega) (by omega) hp
      have m2 := bound_mono (ntotal := rows) (show k + 1 ≤ nthreads by omega) (le_refl _) hp
      have m3 : bound nthreads nthreads rows = rows := by simp [bound]
      refine ⟨?_, by dsimp only; omega, by dsimp only; omega⟩
      unfold threadBlock
      rw [if_neg h, blockIndex_ok (by omega) hp ho', blockIndex_ok (by omega) hp ho']
      rfl
    · obtain ⟨k, ⟨h1, h2, h3⟩, hu⟩ := bound_unique hp hr
      refine ⟨k, ⟨h1, ?_⟩, ?_⟩
      · simp only [InBlock]; omega
      · rintro k' ⟨g1, g2⟩
        simp only [InBlock] at g2
        have := bound_mono (ntotal := rows) (show k' ≤ k' + 1 by omega) (by omega) hp
        exact hu k' ⟨g1, by omega, by omega⟩

example : ∃ b : Nat → Block, (∀ k, k < 5 → threadBlock k 5 30 47 = .ok (b k) ∧
        (b k).row + (b k).nrows ≤ 30 ∧ (b k).col + (b k).ncols ≤ 47) ∧
      ∀ r c, r < 30 → c < 47 → ∃! k, k < 5 ∧ InBlock (b k) r c :=
  C26_thread_blocks 5 30 47 (by decide) (by decide)

/-- C26: the same for the blocks of the worker pool. -/
theorem C26_worker_blocks (ntask rows cols : Nat) (hp : 0 < ntask)
    (ho : ntask * max rows cols ≤ INT_MAX) :
    ∃ b : Nat → Block, (∀ k, k < ntask → workerBlock k ntask rows cols = .ok (b k) ∧
        (b k).row + (b k).nrows ≤ rows ∧ (b k).col + (b k).ncols ≤ cols) ∧
      ∀ r c, r < rows → c < cols → ∃! k, k < ntask ∧ InBlock (b k) r c := by
  by_cases h : cols > rows
  · obtain ⟨b, h1, h2⟩ := C26_thread_blocks ntask rows cols hp ho
    refine ⟨b, fun k hk => ?_, h2⟩
    have := h1 k hk
    unfold threadBlock at this
    unfold workerBlock
    rw [if_pos (by omega)] at this
    rw [if_pos h]; exact this
  · by_cases e : rows = cols
    · subst e
      have ho' : ntask * rows ≤ INT_MAX := by simpa using ho
      refine ⟨fun k => ⟨bound k ntask rows, 0,
        bound (k + 1) ntask rows - bound k ntask rows, rows⟩, fun k hk => ?_, fun r c hr hc => ?_⟩
      · have m1 := bound_mono (ntotal := rows) (show k ≤ k + 1 by omega) (by omega) hp
        have m2 := bound_mono (ntotal := rows) (show k + 1 ≤ ntask by omega) (le_refl _) hp
        have m3 : bound ntask ntask rows = rows := by simp [bound]
        refine ⟨?_, by dsimp only; omega, by dsimp only; omega⟩
        unfold workerBlock
        rw [if_neg h, blockIndex_ok (by omega) hp ho', blockIndex_ok (by omega) hp ho']
        rfl
      · obtain ⟨k, ⟨h1, h2, h3⟩, hu⟩ := bound_unique hp hr
        refine ⟨k, ⟨h1, ?_⟩, ?_⟩
        · simp only [InBlock]; omega
        · rintro k' ⟨g1, g2⟩
          simp only [InBlock] at g2
          have := bound_mono (ntotal := rows) (show k' ≤ k' + 1 by omega) (by omega) hp
          exact hu k' ⟨g1, by omega, by omega⟩
    · obtain ⟨b, h1, h2⟩ := C26_thread_blocks ntask rows cols hp ho
      refine ⟨b, fun k hk => ?_, h2⟩
      have := h1 k hk
      unfold threadBlock at this
      unfold workerBlock
      rw [if_neg (by omega)] at this
      rw [if_neg h]; exact this

example : ∃ b : Nat → Block, (∀ k, k < 5 → workerBlock k 5 30 30 = .ok (b k) ∧
        (b k).row + (b k).nrows ≤ 30 ∧ (b k).col + (b k).ncols ≤ 30) ∧
      ∀ r c, r < 30 → c < 30 → ∃! k, k < 5 ∧ InBlock (b k) r c :=
  C26_worker_blocks 5 30 30 (by decide) (by decide)

/-- C26: tiled splitting: for any tile size, the `rt*ct` tiles are inside the target and every
element lies in exactly one tile. -/
theorem C26_tiles (rows cols wb : Nat) (hwb : 0 < wb)
    (ho : (rows + 1) * rows ≤ INT_MAX ∧ (cols + 1) * cols ≤ INT_MAX) :
    ∃ (rt ct : Nat) (b : Nat → Nat → Block), workerTiles rows cols wb = .ok (rt, ct) ∧
      0 < rt ∧ 0 < ct ∧
      (∀ i j, i < rt → j < ct → tileBlock i j rt ct rows cols = .ok (b i j) ∧
        (b i j).row + (b i j).nrows ≤ rows ∧ (b i j).col + (b i j).ncols ≤ cols) ∧
      ∀ r c, r < rows → c < cols → ∃! p : Nat × Nat, p.1 < rt ∧ p.2 < ct ∧ InBlock (b p.1 p.2) r c := by
  have tiles : ∀ M, (if M < wb then 1 else M / wb + if M % wb > wb / 8 then 1 else 0) ≤ M + 1 ∧
      0 < (if M < wb then 1 else M / wb + if M % wb > wb / 8 then 1 else 0) := by
    intro M
    have h1 := Nat.div_le_self M wb
    split
    · omega
    · rename_i h
      have : 0 < M / wb := Nat.div_pos (by omega) hwb
      split <;> omega
  obtain ⟨r1, r2⟩ := tiles rows
  obtain ⟨c1, c2⟩ := tiles cols
  generalize er : (if rows < wb then 1 else rows / wb + if rows % wb > wb / 8 then 1 else 0) = rt at *
  generalize ec : (if cols < wb then 1 else cols / wb + if cols % wb > wb / 8 then 1 else 0) = ct at *
  have hor : rt * rows ≤ INT_MAX := le_trans (Nat.mul_le_mul_right _ r1) ho.1
  have hoc : ct * cols ≤ INT_MAX := le_trans (Nat.mul_le_mul_right _ c1) ho.2
  refine ⟨rt, ct, fun i j => ⟨bound i rt rows, bound j ct cols, bound (i + 1) rt rows - bound i rt rows,
    bound (j + 1) ct cols - bound j ct cols⟩, ?_, r2, c2, ?_, ?_⟩
  · unfold workerTiles
    rw [if_neg (by omega)]
    simp only [er, ec]
  · intro i j hi hj
    have m1 := bound_mono (ntotal := rows) (show i ≤ i + 1 by omega) (show i + 1 ≤ rt by omega) r2
    have m2 := bound_mono (ntotal := rows) (show i + 1 ≤ rt by omega) (le_refl _) r2
    have m3 : bound rt rt rows = rows := by simp [bound]
    have n1 := bound_mono (ntotal := cols) (show j ≤ j + 1 by omega) (show j + 1 ≤ ct by omega) c2
    have n2 := bound_mono (ntotal := cols) (show j + 1 ≤ ct by omega) (le_refl _) c2
    have n3 : bound ct ct cols = cols := by simp [bound]
    refine ⟨?_, by dsimp only; omega, by dsimp only; omega⟩
    unfold tileBlock
    rw [blockIndex_ok (by omega) c2 hoc, blockIndex_ok (by omega) c2 hoc,
      blockIndex_ok (by omega) r2 hor, blockIndex_ok (by omega) r2 hor]
    rfl
  · intro r c hr hc
    obtain ⟨i, ⟨i1, i2, i3⟩, iu⟩ := bound_unique r2 hr
    obtain ⟨j, ⟨j1, j2, j3⟩, ju⟩ := bound_unique c2 hc
    refine ⟨(i, j), ⟨i1, j1, ?_⟩, ?_⟩
    · simp only [InBlock]; omega
    · rintro ⟨i', j'⟩ ⟨g1, g2, g3⟩
      simp only [InBlock] at g1 g2 g3
      have := bound_mono (ntotal := rows) (show i' ≤ i' + 1 by omega) (show i' + 1 ≤ rt by omega) r2
      have := bound_mono (ntotal := cols) (show j' ≤ j' + 1 by omega) (show j' + 1 ≤ ct by omega) c2
      rw [iu i' ⟨g1, by omega, by omega⟩, ju j' ⟨g2, by omega, by omega⟩]

example : ∃ (rt ct : Nat) (b : Nat → Nat → Block), workerTiles 100 77 24 = .ok (rt, ct) ∧
      0 < rt ∧ 0 < ct ∧
      (∀ i j, i < rt → j < ct → tileBlock i j rt ct 100 77 = .ok (b i j) ∧
        (b i j).row + (b i j).nrows ≤ 100 ∧ (b i j).col + (b i j).ncols ≤ 77) ∧
      ∀ r c, r < 100 → c < 77 → ∃! p : Nat × Nat, p.1 < rt ∧ p.2 < ct ∧ InBlock (b p.1 p.2) r c :=
  C26_tiles 100 77 24 (by decide) (by decide)

/-- C26, limit of the precondition: with 64 threads and 2^26 columns the `int` product overflows. -/
theorem C26_overflow_ub : ∃ n nblocks ntotal, n ≤ nblocks ∧ 0 < nblocks ∧ ntotal ≤ INT_MAX ∧
    nblocks ≤ INT_MAX ∧ blockIndex n nblocks ntotal = .ub :=
  ⟨63, 64, 67108864, by decide, by decide, by decide, by decide, by decide⟩

/-- C26: the number of threads is at least one for a non-empty target and at most the configured
maximum. -/
theorem C26_thread_count (items numItems maxCores : Nat) (h1 : 0 < items) (h2 : 0 < numItems)
    (h3 : 0 < maxCores) :
    0 < threadedCores items numItems maxCores ∧ threadedCores items numItems maxCores ≤ maxCores := by
  unfold threadedCores
  have : 0 < (items + numItems - 1) / numItems := Nat.div_pos (by omega) h2
  dsimp only
  split <;> omega

example : 0 < threadedCores 1000 300 8 ∧ threadedCores 1000 300 8 ≤ 8 :=
  C26_thread_count 1000 300 8 (by decide) (by decide) (by decide)

end Armas.Props
