import Verif.ParBlocks
import Verif.KernelReal
import Verif.Props.Blocks
import Verif.Props.Gemm
import Verif.Demo
import Mathlib.Tactic.FinCases
import Mathlib.Data.Fin.VecNotation

/-!
# C27: threaded level-3 operations

A thread is any tree of single memory accesses (`Prog`) that realises the sequential model of
`compute_block` and writes only to its block and its own buffer; the theorems hold for all such threads, so
also for those that access the cells in the order of the C code (`C27_mult_thread` shows that the model's
own order of accesses is such a thread).  Executions are all interleavings of single accesses (`TStep`).
The threads are taken to be there from the start: starting one later is a special schedule.
-/

namespace Armas.Props

open Armas

variable {α : Type}

/-- What is claimed of the executions of threads `P` from memory `m`: no access to a cell that is not allocated,
no other undefined behaviour, some thread can go on until all have finished, there is no endless execution, and
`Q` holds of the memory at the end. -/
def AllSchedules {n : Nat} (P : Fin n → Prog α Unit) (m : Mem α) (Q : Mem α → Prop) : Prop :=
  (∀ s, Relation.ReflTransGen TStep ⟨P, m⟩ s → ¬ s.Bad ∧ (¬ s.Done → ∃ s', TStep s s') ∧ (s.Done → Q s.mem)) ∧
  ¬ ∃ σ : Nat → TState (Fin n) α Unit, σ 0 = ⟨P, m⟩ ∧ ∀ k, TStep (σ k) (σ (k + 1))

/-- Buffers of the threads: one for each, apart from each other and the matrices (cells `S`). -/
structure BufsOk {n : Nat} (c : Fin n → Cache) (m : Mem α) (S : Set Nat) : Prop where
  ready : ∀ k, (c k).Ready m
  apart : ∀ k, Disjoint (c k).foot S
  dis : ∀ k l, k ≠ l → Disjoint (c k).foot (c l).foot

theorem readyOnly {c : Cache} {m : Mem α} (h : c.Ready m) {F : Set Nat} (hF : c.foot ⊆ F) :
    c.Ready (m.only F) := by
  obtain ⟨h1, h2, h3, h4, h5, ⟨a, ha⟩, ⟨b, hb⟩, h8⟩ := h
  exact ⟨h1, h2, h3, h4, h5, ⟨a, ha.only (Set.subset_union_left.trans hF)⟩,
    ⟨b, hb.only (Set.subset_union_right.trans hF)⟩, h8⟩

theorem threadBlock_tiling {n : Nat} {T : View} {b : Fin n → Block} (hn : 0 < n)
    (ho : n * max T.rows T.cols ≤ INT_MAX) (hb : ∀ k : Fin n, threadBlock k n T.rows T.cols = .ok (b k)) :
    Tiling T b := by
  obtain ⟨b', h1, h2⟩ := C26_thread_blocks n T.rows T.cols hn ho
  have e : ∀ k : Fin n, b k = b' k := fun k => by
    have := (h1 k k.2).1
    rw [hb k] at this
    exact Res.ok.inj this
  refine ⟨fun k => e k ▸ (h1 k k.2).2.1, fun k => e k ▸ (h1 k k.2).2.2, ?_, ?_⟩
  · intro i j hi hj
    obtain ⟨k, ⟨hk, hk'⟩, -⟩ := h2 i j hi hj
    exact ⟨⟨k, hk⟩, by rw [e]; exact hk'⟩
  · intro i j k l a1 a2 a3 a4 b1 b2 b3 b4
    have hr := (h1 k k.2).2.1
    have hc := (h1 k k.2).2.2
    rw [e] at a1 a2 a3 a4 b1 b2 b3 b4
    obtain ⟨q, -, hq⟩ := h2 i j (by omega) (by omega)
    have e1 := hq k ⟨k.2, a1, a2, a3, a4⟩
    have e2 := hq l ⟨l.2, b1, b2, b3, b4⟩
    exact Fin.ext (e1.trans e2.symm)

/-- **C27, multiplication.** `armas_ac_threaded_mult` with any number of threads, every schedule: the elements of
`C` are those that the sequential `armas_mult` (with any cache `c0` of its own) computes, and no cell outside of
`C` and the buffers is changed. -/
theorem C27_mult [CommRing α] [DecidableEq α] (ab : α → α) {n : Nat} {c : Fin n → Cache} {c0 : Cache} {m : Mem α}
    {C A B : View} {a d f : Nat → Nat → α} (beta alpha : α) {fl : Flags} {b : Fin n → Block}
    {P : Fin n → Prog α Unit} (hn : 0 < n) (ho : n * max C.rows C.cols ≤ INT_MAX)
    (hb : ∀ k : Fin n, threadBlock k n C.rows C.cols = .ok (b k))
    (hP : ∀ k, (P k).Realises (unitM (multBlock ab beta C alpha A B fl (c k) (b k))))
    (hW : ∀ k, (P k).Writes ((C.blk (b k)).foot ∪ (c k).foot))
    (hw : C.WF) (hc : BufsOk c m (C.foot ∪ (A.foot ∪ B.foot)))
    (hc0 : c0.Ready m) (hd0 : Disjoint c0.foot (C.foot ∪ (A.foot ∪ B.foot)))
    (hA : Holds m A a) (hB : Holds m B d) (hC : Holds m C f) (hdAC : Disjoint A.foot C.foot)
    (hdBC : Disjoint B.foot C.foot) (hs : multSizes C A B fl) (h0 : A.size ≠ 0 ∧ B.size ≠ 0 ∧ C.size ≠ 0) :
    AllSchedules P m (fun m' => (∃ ms, mult ab m beta C alpha A B fl (some c0) = .ok (0, ms) ∧
      ∀ i j, i < C.rows → j < C.cols → m' (C.at' i j) = ms (C.at' i j)) ∧
      Frame (C.foot ∪ ⋃ k, (c k).foot) m m') := by
  have hsz : (C.rows = if fl.transA then A.cols else A.rows) ∧
      (C.cols = if fl.transB then B.rows else B.cols) ∧
      (if fl.transA then A.rows else A.cols) = if fl.transB then B.cols else B.rows := by
    unfold multSizes at hs
    cases h1 : fl.transA <;> cases h2 : fl.transB <;> rw [h1, h2] at hs <;> simp at hs ⊢ <;> omega
  have ht := threadBlock_tiling hn ho hb
  simp only [Set.disjoint_union_right] at hd0
  obtain ⟨ms, e1, h1, -⟩ := multKernel_spec ab fl beta alpha hw hc0 hA hB hC hd0.2.1.symm hd0.2.2.symm hd0.1.symm
    hdAC hdBC hsz.1 hsz.2.1 hsz.2.2
  set g : Nat → Nat → α := fun i j => beta * f i j + alpha * ∑ k ∈ Finset.range (if fl.transA then A.rows else A.cols),
        fl.elt ab (opM fl.transA a i k) * fl.elt ab (opM fl.transB d k j) with hg
  have hmain := blocks_threads (T := C) (b := b) (R := A.foot ∪ B.foot) (buf := fun k => (c k).foot)
    (f := fun k => multBlock ab beta C alpha A B fl (c k) (b k)) (g := g) (m := m) (P := P) hw ht
    (Set.disjoint_union_right.mpr ⟨hdAC.symm, hdBC.symm⟩)
    (fun k => (Set.disjoint_union_right.mp (hc.apart k)).1) (fun k => (Set.disjoint_union_right.mp (hc.apart k)).2)
    hc.dis ?_ hP hW
  · refine ⟨fun s hr => ⟨(hmain.1 s hr).1, (hmain.1 s hr).2.1, fun hd => ?_⟩, hmain.2⟩
    obtain ⟨h2, h3⟩ := (hmain.1 s hr).2.2 hd
    refine ⟨⟨ms, ?_, fun i j hi hj => ?_⟩, h3⟩
    · unfold mult
      rw [if_neg (by omega), if_neg (by simp [hs])]
      dsimp only
      rw [e1]
      rfl
    · rw [h1 i j hi hj]; exact h2 i j hi hj
  · intro k
    have hr := ht.row k
    have hcl := ht.col k
    obtain ⟨q1, q2, q3⟩ := hsz
    set F := (C.blk (b k)).foot ∪ (A.foot ∪ B.foot) ∪ (c k).foot with hF
    have sC : (C.blk (b k)).foot ⊆ C.foot := View.sub_foot hr hcl
    have hap := hc.apart k
    simp only [Set.disjoint_union_right] at hap
    have sA : (if fl.transA then A.sub 0 (b k).row A.rows (b k).nrows else A.sub (b k).row 0 (b k).nrows A.cols).foot
        ⊆ A.foot := by
      split <;> rename_i hx <;> simp only [hx, if_true, if_false, Bool.false_eq_true] at q1 <;>
        exact View.sub_foot (by omega) (by omega)
    have sB : (if fl.transB then B.sub (b k).col 0 (b k).ncols B.cols else B.sub 0 (b k).col B.rows (b k).ncols).foot
        ⊆ B.foot := by
      split <;> rename_i hx <;> simp only [hx, if_true, if_false, Bool.false_eq_true] at q2 <;>
        exact View.sub_foot (by omega) (by omega)
    have hA' : Holds (m.only F) (if fl.transA then A.sub 0 (b k).row A.rows (b k).nrows
        else A.sub (b k).row 0 (b k).nrows A.cols)
        (fun i j => if fl.transA then a i ((b k).row + j) else a ((b k).row + i) j) := by
      have h := hA.only (F := F) (fun p hp => Or.inl (Or.inr (Or.inl hp)))
      cases hx : fl.transA <;> simp only [hx, if_true, if_false, Bool.false_eq_true] at q1 ⊢
      · exact (h.sub (by omega) (by omega)).congr (fun i j _ _ => by simp)
      · exact (h.sub (by omega) (by omega)).congr (fun i j _ _ => by simp)
    have hB' : Holds (m.only F) (if fl.transB then B.sub (b k).col 0 (b k).ncols B.cols
        else B.sub 0 (b k).col B.rows (b k).ncols)
        (fun i j => if fl.transB then d ((b k).col + i) j else d i ((b k).col + j)) := by
      have h := hB.only (F := F) (fun p hp => Or.inl (Or.inr (Or.inr hp)))
      cases hx : fl.transB <;> simp only [hx, if_true, if_false, Bool.false_eq_true] at q2 ⊢
      · exact (h.sub (by omega) (by omega)).congr (fun i j _ _ => by simp)
      · exact (h.sub (by omega) (by omega)).congr (fun i j _ _ => by simp)
    have hC' : Holds (m.only F) (C.blk (b k)) (fun i j => f ((b k).row + i) ((b k).col + j)) :=
      (hC.sub hr hcl).only (fun p hp => Or.inl (Or.inl hp))
    have hsp := multKernel_spec ab fl beta alpha (hw.sub hr hcl) (readyOnly (hc.ready k) (F := F) (fun p hp => Or.inr hp))
      hA' hB' hC' (hap.2.1.symm.mono_left sA) (hap.2.2.symm.mono_left sB) (hap.1.symm.mono_left sC)
      (hdAC.mono sA sC) (hdBC.mono sB sC)
      (by cases hx : fl.transA <;> simp [View.blk]) (by cases hx : fl.transB <;> simp [View.blk])
      (by revert q3; cases hx : fl.transA <;> cases hy : fl.transB <;> simp)
    refine hsp.mono ?_
    rintro m' ⟨h2, -⟩
    refine h2.congr (fun i j _ _ => ?_)
    rw [hg]
    dsimp only
    congr 2
    have e3 : (if fl.transA = true then
        (if fl.transA then A.sub 0 (b k).row A.rows (b k).nrows else A.sub (b k).row 0 (b k).nrows A.cols).rows
        else (if fl.transA then A.sub 0 (b k).row A.rows (b k).nrows else A.sub (b k).row 0 (b k).nrows A.cols).cols)
        = if fl.transA then A.rows else A.cols := by cases fl.transA <;> simp
    rw [e3]
    refine Finset.sum_congr rfl (fun x _ => ?_)
    unfold opM
    cases fl.transA <;> cases fl.transB <;> simp

/-- **C27, the model's order of accesses.** The model of `compute_block` is the behaviour of a thread that accesses
the cells one after the other as the model does and writes to its block and its buffer. -/
theorem C27_mult_thread [Mul α] [Add α] [Zero α] [One α] [DecidableEq α] (ab : α → α) (beta : α) (C : View)
    (alpha : α) (A B : View) (fl : Flags) (c : Cache) (b : Block) :
    ∃ P : Prog α Unit, P.Realises (unitM (multBlock ab beta C alpha A B fl c b)) ∧
      P.Writes ((C.blk b).foot ∪ c.foot) := by
  obtain ⟨P, h1, -, h3⟩ := multKernel_real (ab := ab) (beta := beta) (C := C.blk b) (alpha := alpha)
    (A := if fl.transA then A.sub 0 b.row A.rows b.nrows else A.sub b.row 0 b.nrows A.cols)
    (B := if fl.transB then B.sub b.col 0 b.ncols B.cols else B.sub 0 b.col B.rows b.ncols) (fl := fl) (c := c)
    (W := (C.blk b).foot ∪ c.foot) Set.subset_union_left Set.subset_union_right
  exact ⟨P, fun m r h => by rw [h3]; exact h, h1⟩

/-- Buffers of three threads for the examples. -/
def exBufs (k : Fin 3) : Cache := ⟨1000 + 200 * k, 1100 + 200 * k, 4, 2, 3, 2, 1⟩

theorem exBufs_above {V : View} (h : V.base + V.rows + V.cols * V.step ≤ 1000) (k : Fin 3) :
    Disjoint (exBufs k).foot V.foot :=
  (Set.disjoint_union_right.mpr ⟨View.disj_below (h.trans (by simp [exBufs, Cache.A])),
    View.disj_below (h.trans (by simp [exBufs, Cache.B]; omega))⟩).symm

theorem exBufs_ok {g : Nat → α} {S : Set Nat} (h : ∀ k, Disjoint (exBufs k).foot S) : BufsOk exBufs (tot g) S := by
  refine ⟨fun k => ⟨by decide +revert, by decide +revert, by decide +revert, by decide +revert, by decide +revert,
    ⟨_, holds_tot _ _⟩, ⟨_, holds_tot _ _⟩, View.disj_below (by decide +revert)⟩, h, ?_⟩
  have key : ∀ k l : Fin 3, k < l → Disjoint (exBufs k).foot (exBufs l).foot := fun k l hkl =>
    Set.disjoint_union_right.mpr ⟨Set.disjoint_union_left.mpr ⟨View.disj_below (by decide +revert),
      View.disj_below (by decide +revert)⟩, Set.disjoint_union_left.mpr ⟨View.disj_below (by decide +revert),
      View.disj_below (by decide +revert)⟩⟩
  intro k l hkl
  rcases lt_or_gt_of_ne hkl with h | h
  · exact key k l h
  · exact (key l k h).symm

/-- A 9x10 result on three threads, which have 0, 4 and 6 columns. -/
example : ∃ P : Fin 3 → Prog ℤ Unit, AllSchedules P (tot (fun p => (p : ℤ))) (fun m' =>
    (∃ ms, mult id (tot (fun p => (p : ℤ))) 2 ⟨0, 9, 9, 10⟩ 3 ⟨100, 9, 9, 7⟩ ⟨200, 11, 10, 7⟩ { transB := true }
      (some ⟨500, 600, 4, 2, 3, 2, 1⟩) = .ok (0, ms) ∧
      ∀ i j, i < 9 → j < 10 → m' (View.at' ⟨0, 9, 9, 10⟩ i j) = ms (View.at' ⟨0, 9, 9, 10⟩ i j)) ∧
    Frame (View.foot ⟨0, 9, 9, 10⟩ ∪ ⋃ k, (exBufs k).foot) (tot (fun p => (p : ℤ))) m') := by
  choose P h1 h2 using fun k => C27_mult_thread (α := ℤ) id 2 ⟨0, 9, 9, 10⟩ 3 ⟨100, 9, 9, 7⟩ ⟨200, 11, 10, 7⟩
    { transB := true } (exBufs k) (![⟨0, 0, 9, 0⟩, ⟨0, 0, 9, 4⟩, ⟨0, 4, 9, 6⟩] k)
  exact ⟨P, C27_mult id 2 3 (by decide) (by decide) (by intro k; fin_cases k <;> rfl) h1 h2 (Or.inl (by decide))
    (exBufs_ok (fun k => Set.disjoint_union_right.mpr ⟨exBufs_above (by decide) k,
      Set.disjoint_union_right.mpr ⟨exBufs_above (by decide) k, exBufs_above (by decide) k⟩⟩))
    ⟨by decide, by decide, by decide, by decide, by decide, ⟨_, holds_tot _ _⟩, ⟨_, holds_tot _ _⟩,
      View.disj_below (by decide)⟩
    (Set.disjoint_union_right.mpr ⟨(Set.disjoint_union_right.mpr ⟨View.disj_below (by decide),
      View.disj_below (by decide)⟩).symm, Set.disjoint_union_right.mpr ⟨(Set.disjoint_union_right.mpr
      ⟨View.disj_below (by decide), View.disj_below (by decide)⟩).symm, (Set.disjoint_union_right.mpr
      ⟨View.disj_below (by decide), View.disj_below (by decide)⟩).symm⟩⟩)
    (holds_tot _ _) (holds_tot _ _) (holds_tot _ _) (View.disj_below (by decide)).symm
    (View.disj_below (by decide)).symm (by decide) (by decide)⟩

end Armas.Props
