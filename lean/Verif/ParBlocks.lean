import Verif.Interleave
import Verif.Blocks
import Verif.Kernel
import Verif.Symm
import Verif.Trxm
import Verif.GemmLemmas
import Verif.Tri

/-!
# One thread for each block of the target

`compute_block` of the four files of `src/threaded`, and what threads that work on the blocks of a partition of the
target leave.
-/

namespace Armas

variable {α : Type}

/-- The part of a matrix that is a block. -/
def View.blk (T : View) (b : Block) : View := T.sub b.row b.col b.nrows b.ncols

/-- `compute_block` (`src/threaded/gemm.c:37-90`): slices of the operands, then `armas_mult_kernel`; `c` is
the cache structure set up in the buffer of the thread (lines 76-85, when there is memory for it). -/
def multBlock [Mul α] [Add α] [Zero α] [One α] [DecidableEq α] (ab : α → α) (beta : α) (C : View) (alpha : α)
    (A B : View) (fl : Flags) (c : Cache) (b : Block) (m : Mem α) : Res (Mem α) :=
  multKernel ab m beta (C.blk b) alpha
    (if fl.transA then A.sub 0 b.row A.rows b.nrows else A.sub b.row 0 b.nrows A.cols)
    (if fl.transB then B.sub b.col 0 b.ncols B.cols else B.sub 0 b.col B.rows b.ncols) fl c

/-- Block of thread `k` of `n` in `threaded_mult_sym_recursive`, `threaded_mult_trm_recursive` and
`threaded_solve_trm_recursive` (`src/threaded/symm.c:101-113`, `trmm.c:82-94`, `trsm.c:82-94`): rows of the target for
`ARMAS_RIGHT`, columns otherwise. -/
def sideBlock (right : Bool) (k n rows cols : Nat) : Res Block :=
  if right then do
    let r ← blockIndex k n rows
    let e ← blockIndex (k + 1) n rows
    pure ⟨r, 0, e - r, cols⟩
  else do
    let c ← blockIndex k n cols
    let e ← blockIndex (k + 1) n cols
    pure ⟨0, c, rows, e - c⟩

/-- `compute_block` of `src/threaded/symm.c:39-87` with `armas_mult_sym_unsafe` (`src/blas/symm.c:384-400`). -/
def symThread [Mul α] [Add α] [Zero α] [One α] [DecidableEq α] (ab : α → α) (beta : α) (C : View) (alpha : α)
    (A B : View) (fl : Flags) (c : Cache) (b : Block) (m : Mem α) : Res (Mem α) :=
  symmSide ab fl.right m beta (C.blk b) alpha A
    (match fl.left, fl.right, fl.transB with
    | false, true, true => B.sub 0 b.row B.rows b.nrows
    | false, true, false => B.sub b.row 0 b.nrows B.cols
    | _, false, true => B.sub b.col 0 b.ncols B.cols
    | _, _, _ => B.sub 0 b.col B.rows b.ncols) fl c

/-- The part of `B` in `compute_block` of `src/threaded/trmm.c:44-55` and `trsm.c:41-52`. -/
def trSlice (B : View) (fl : Flags) (b : Block) : View :=
  if fl.right ∧ ¬ fl.left then B.sub b.row 0 b.nrows B.cols else B.sub 0 b.col B.rows b.ncols

/-- `compute_block` of `src/threaded/trmm.c:37-72` with `armas_mult_trm_unsafe` (`src/blas/trmm.c:126-134`). -/
def trmThread [Mul α] [Add α] [Zero α] [One α] [DecidableEq α] (ab : α → α) (env : Env) (fuel : Nat) (B : View)
    (alpha : α) (A : View) (fl : Flags) (c : Cache) (b : Block) (m : Mem α) : Res (Mem α) :=
  trmmBlk ab env fuel m (trSlice B fl b) alpha A fl c

/-- `compute_block` of `src/threaded/trsm.c:34-69` with `armas_solve_trm_unsafe` (`src/blas/trsm.c:128-136`). -/
def trsThread [Field α] [DecidableEq α] (ab : α → α) (env : Env) (fuel : Nat) (B : View)
    (alpha : α) (A : View) (fl : Flags) (c : Cache) (b : Block) (m : Mem α) : Res (Mem α) :=
  trsmBlk ab env fuel m (trSlice B fl b) alpha A fl c

/-- The same with the result type of threads. -/
def unitM (f : Mem α → Res (Mem α)) (m : Mem α) : Res (Unit × Mem α) := f m >>= fun m' => .ok ((), m')

/-- The blocks `b k` cover the target, no element is in two. -/
structure Tiling (T : View) {n : Nat} (b : Fin n → Block) : Prop where
  row : ∀ k, (b k).row + (b k).nrows ≤ T.rows
  col : ∀ k, (b k).col + (b k).ncols ≤ T.cols
  cover : ∀ i j, i < T.rows → j < T.cols → ∃ k, (b k).row ≤ i ∧ i < (b k).row + (b k).nrows ∧
    (b k).col ≤ j ∧ j < (b k).col + (b k).ncols
  unique : ∀ i j k l, (b k).row ≤ i → i < (b k).row + (b k).nrows → (b k).col ≤ j → j < (b k).col + (b k).ncols →
    (b l).row ≤ i → i < (b l).row + (b l).nrows → (b l).col ≤ j → j < (b l).col + (b l).ncols → k = l

theorem Mem.only_frame (m : Mem α) (F : Set Nat) {p : Nat} (h : p ∈ F) :
    m.only F p = m p := by unfold Mem.only; rw [if_pos h]

theorem HoldsOn.only {m : Mem α} {V : View} {S : Nat → Nat → Prop} {a : Nat → Nat → α} (h : HoldsOn m V S a)
    {F : Set Nat} (hF : V.footOn S ⊆ F) : HoldsOn (m.only F) V S a := by
  intro i j hi hj hs
  rw [Mem.only_frame _ _ (hF ⟨i, j, hi, hj, hs, rfl⟩)]
  exact h i j hi hj hs

theorem Holds.only {m : Mem α} {V : View} {a : Nat → Nat → α} (h : Holds m V a)  {F : Set Nat}
    (hF : V.foot ⊆ F) : Holds (m.only F) V a := by
  intro i j hi hj
  rw [Mem.only_frame _ _ (hF (View.at_mem_foot hi hj))]
  exact h i j hi hj

open Classical in
/-- The interleavings of threads, one for each block: `f k` is the sequential model of thread `k`, which reads
its block of the target, the operands (cells `R`) and its buffer (`buf k`). -/
theorem blocks_threads {n : Nat} {T : View} {b : Fin n → Block} {R : Set Nat} {buf : Fin n → Set Nat}
    {f : Fin n → Mem α → Res (Mem α)} {g : Nat → Nat → α} {m : Mem α} {P : Fin n → Prog α Unit}
    (hT : T.WF) (ht : Tiling T b) (hR : Disjoint T.foot R) (hbT : ∀ k, Disjoint (buf k) T.foot)
    (hbR : ∀ k, Disjoint (buf k) R) (hbb : ∀ k l, k ≠ l → Disjoint (buf k) (buf l))
    (hspec : ∀ k, Runs (f k (m.only ((T.blk (b k)).foot ∪ R ∪ buf k)))
      (fun m' => Holds m' (T.blk (b k)) (fun i j => g ((b k).row + i) ((b k).col + j))))
    (hP : ∀ k, (P k).Realises (unitM (f k))) (hW : ∀ k, (P k).Writes ((T.blk (b k)).foot ∪ buf k)) :
    (∀ s, Relation.ReflTransGen TStep ⟨P, m⟩ s → ¬ s.Bad ∧ (¬ s.Done → ∃ s', TStep s s') ∧
      (s.Done → Holds s.mem T g ∧ Frame (T.foot ∪ ⋃ k, buf k) m s.mem)) ∧
    ¬ ∃ σ : Nat → TState (Fin n) α Unit, σ 0 = ⟨P, m⟩ ∧ ∀ k, TStep (σ k) (σ (k + 1)) := by
  have hsub : ∀ k, (T.blk (b k)).foot ⊆ T.foot := fun k => View.sub_foot (ht.row k) (ht.col k)
  choose mf hrun hmf using hspec
  have hblk : ∀ k l, k ≠ l → Disjoint (T.blk (b k)).foot (T.blk (b l)).foot := by
    intro k l hkl
    rw [Set.disjoint_left]
    rintro p ⟨i, j, hi, hj, e⟩ ⟨i', j', hi', hj', e'⟩
    have h1 := ht.row k; have h2 := ht.col k; have h3 := ht.row l; have h4 := ht.col l
    simp only [View.blk, View.sub] at hi hj hi' hj'
    have e1 : T.at' ((b k).row + i) ((b k).col + j) = T.at' ((b l).row + i') ((b l).col + j') := by
      have := e.symm.trans e'
      simp only [View.blk, View.sub, View.at'] at this ⊢
      rw [Nat.add_mul, Nat.add_mul]; omega
    obtain ⟨e2, e3⟩ := View.at_inj hT (by omega) (by omega) (by omega) (by omega) e1
    exact hkl (ht.unique ((b k).row + i) ((b k).col + j) k l (by omega) (by omega) (by omega) (by omega)
      (by omega) (by omega) (by omega) (by omega))
  have hres := threads_result (F := fun k => (T.blk (b k)).foot ∪ R ∪ buf k)
    (W := fun k => (T.blk (b k)).foot ∪ buf k) (P := P) (b := fun _ => ()) (mf := mf) (m0 := m)
    (fun k => hP k _ _ (by unfold unitM; rw [hrun k]; rfl)) hW (by
      intro k l hkl
      refine Set.disjoint_union_left.mpr ⟨Set.disjoint_union_right.mpr ⟨Set.disjoint_union_right.mpr ⟨hblk k l hkl,
        hR.mono_left (hsub k)⟩, ((hbT l).mono_right (hsub k)).symm⟩,
        Set.disjoint_union_right.mpr ⟨Set.disjoint_union_right.mpr ⟨(hbT k).mono_right (hsub l), hbR k⟩, hbb k l hkl⟩⟩)
  refine ⟨fun s hs => ⟨(hres.1 s hs).1, (hres.1 s hs).2.1, fun hd => ?_⟩, hres.2⟩
  obtain ⟨-, h2, h3⟩ := (hres.1 s hs).2.2 hd
  refine ⟨?_, h3.mono ?_⟩
  · intro i j hi hj
    obtain ⟨k, k1, k2, k3, k4⟩ := ht.cover i j hi hj
    have e : T.at' i j = (T.blk (b k)).at' (i - (b k).row) (j - (b k).col) := by
      simp only [View.blk, View.sub, View.at']
      rw [Nat.sub_mul]
      have : (b k).col * T.step ≤ j * T.step := Nat.mul_le_mul_right _ k3
      omega
    have hi' : i - (b k).row < (T.blk (b k)).rows := by simp only [View.blk, View.sub]; omega
    have hj' : j - (b k).col < (T.blk (b k)).cols := by simp only [View.blk, View.sub]; omega
    rw [e, h2 k _ (Or.inl (Or.inl (View.at_mem_foot hi' hj'))), hmf k _ _ hi' hj']
    simp only [Nat.add_sub_cancel' k1, Nat.add_sub_cancel' k3]
  · intro p hp
    obtain ⟨k, hk⟩ := Set.mem_iUnion.mp hp
    rcases hk with hk | hk
    · exact Or.inl (hsub k hk)
    · exact Or.inr (Set.mem_iUnion.mpr ⟨k, hk⟩)

end Armas
