import Verif.Props.Blas1
import Verif.Props.SparseMv
import Verif.ApplyLemmas

/-!
# C77, C78, C79: dense copies of sparse matrices, element wise operators, norms of matrices
-/

namespace Armas.Props

open Finset Armas

variable {α : Type}

/-! ## C77 -/

/-- Position (i, j) of the matrix is not stored. -/
def NotStored (N : Nat) (e : Nat → Ent α) (i j : Nat) : Prop := ∀ p, p < N → ¬ (i = (e p).1 ∧ j = (e p).2.1)

/-- `p` is the last stored entry for its position. -/
def LastFor (N : Nat) (e : Nat → Ent α) (p : Nat) : Prop := ∀ q, p < q → q < N → ¬ ((e p).1 = (e q).1 ∧ (e p).2.1 = (e q).2.1)

private theorem todense_run {A : View} {B : Sp α} {N : Nat} {e : Nat → Ent α} {m : Mem α} {a : Nat → Nat → α} (h : SpIs B N e)
    (hr : A.rows = B.rows) (hc : A.cols = B.cols) (hw : A.WF) (ha : Holds m A a) :
    Runs (todense A B m) (fun r => r.1 = 0 ∧ Holds r.2 A (stored e a N) ∧ Frame A.foot m r.2) := by
  unfold todense
  rw [if_neg (by omega)]
  obtain ⟨h1, h2⟩ := h
  cases hk : B.kind with
  | coo =>
    rw [hk] at h2
    dsimp only at h2 ⊢
    refine Runs.bind (P := fun r : Nat × Mem α => Holds r.2 A (stored e a N) ∧ Frame A.foot m r.2) ?_ (fun r hr => Runs.pure ⟨rfl, hr⟩)
    rw [h1]
    refine Runs.forUp1 (fun k m' => Holds m' A (stored e a k) ∧ Frame A.foot m m') (Nat.zero_le _) ⟨ha, Frame.refl _ _⟩ ?_ (fun m' h => h)
    rintro k m' - hkN h
    obtain ⟨b1, b2⟩ := h2.2 k hkN
    refine Runs.rd_bind (h2.1 k hkN) (setElem_stored hw h rfl (by omega) (by omega))
  | csr =>
    rw [hk] at h2
    obtain ⟨hp, H⟩ := h2
    dsimp only
    refine Runs.bind (P := fun r : Nat × Mem α => Holds r.2 A (stored e a N) ∧ Frame A.foot m r.2) ?_ (fun r hr => Runs.pure ⟨rfl, hr⟩)
    rw [hp]
    refine Runs.forUp1 (fun i m' => Holds m' A (stored e a (pst e N i)) ∧ Frame A.foot m m') (Nat.zero_le _)
      ⟨by simp only [pst, H.ptr_zero]; exact ha, Frame.refl _ _⟩ ?_ (fun m' h => by rw [← H.ptr_end]; exact h)
    rintro i m' - hi h
    refine Runs.rd_bind (H.ptr i (by omega)) (Runs.rd_bind (H.ptr (i + 1) hi) ?_)
    refine Runs.bind (P := fun r : Nat × Mem α => Holds r.2 A (stored e a (pst e N (i + 1))) ∧ Frame A.foot m r.2) ?_ (fun r hr => Runs.pure hr)
    refine Runs.forUp1 (fun k m' => Holds m' A (stored e a k) ∧ Frame A.foot m m') (H.ptr_mono i) h ?_ (fun m' h => h)
    rintro k m2 hk1 hk2 h
    have hkN : k < N := lt_of_lt_of_le hk2 (H.ptr_le _)
    have hm := (H.mem_seg hkN).mp ⟨hk1, hk2⟩
    have hd := H.minor k hkN
    exact Runs.rd_bind (H.ix k hkN) (Runs.rd_bind (H.v k hkN) (setElem_stored hw h (by rw [← hm]) (by omega) (by omega)))
  | csc =>
    rw [hk] at h2
    obtain ⟨hp, H⟩ := h2
    dsimp only
    refine Runs.bind (P := fun r : Nat × Mem α => Holds r.2 A (stored e a N) ∧ Frame A.foot m r.2) ?_ (fun r hr => Runs.pure ⟨rfl, hr⟩)
    rw [hp]
    let f : Nat → Ent α := fun p => (e p).flip
    refine Runs.forUp1 (fun i m' => Holds m' A (stored e a (pst f N i)) ∧ Frame A.foot m m') (Nat.zero_le _)
      ⟨by simp only [pst, f, H.ptr_zero]; exact ha, Frame.refl _ _⟩ ?_ (fun m' h => by rw [← H.ptr_end]; exact h)
    rintro j m' - hj h
    refine Runs.rd_bind (H.ptr j (by omega)) (Runs.rd_bind (H.ptr (j + 1) hj) ?_)
    refine Runs.bind (P := fun r : Nat × Mem α => Holds r.2 A (stored e a (pst f N (j + 1))) ∧ Frame A.foot m r.2) ?_ (fun r hr => Runs.pure hr)
    refine Runs.forUp1 (fun k m' => Holds m' A (stored e a k) ∧ Frame A.foot m m') (H.ptr_mono j) h ?_ (fun m' h => h)
    rintro k m2 hk1 hk2 h
    have hkN : k < N := lt_of_lt_of_le hk2 (H.ptr_le _)
    have hm : (f k).1 = j := (H.mem_seg hkN).mp ⟨hk1, hk2⟩
    have hd : (f k).2.1 < B.rows := H.minor k hkN
    exact Runs.rd_bind (H.ix k hkN) (Runs.rd_bind (H.v k hkN)
      (setElem_stored hw h (by rw [← hm]; simp only [f, Ent.flip]) (by simp only [f] at hd; omega) (by omega)))

/-- C77 in full but for the elements that are not stored (see `C77_old_values_false`): for all three formats every stored entry is found at
its place in the dense matrix (of several entries for one place the last one), elements that are not stored keep their value, and nothing
else changes. -/
theorem C77_todense_partial {A : View} {B : Sp α} {N : Nat} {e : Nat → Ent α} {m : Mem α} {a : Nat → Nat → α} (h : SpIs B N e)
    (hr : A.rows = B.rows) (hc : A.cols = B.cols) (hw : A.WF) (ha : Holds m A a) :
    Runs (todense A B m) (fun r => r.1 = 0 ∧ Frame A.foot m r.2 ∧ ∃ a', Holds r.2 A a' ∧
      (∀ p, p < N → LastFor N e p → a' (e p).1 (e p).2.1 = (e p).2.2) ∧ ∀ i j, NotStored N e i j → a' i j = a i j) := by
  refine (todense_run h hr hc hw ha).mono fun r hr => ⟨hr.1, hr.2.2, _, hr.2.1, fun p hp hl => ?_, fun i j hn => ?_⟩
  · rw [stored_keep e a (k := p + 1) hp (fun q h1 h2 => hl q (by omega) h2)]
    simp [stored]
  · exact stored_keep e a (k := 0) (Nat.zero_le _) (fun p _ h2 => hn p h2)

/-- C77 for a dense matrix that was zero before and a sparse matrix without duplicates: the dense matrix becomes the matrix that the entries
stand for. -/
theorem C77_zeroed_partial [AddCommMonoid α] {A : View} {B : Sp α} {N : Nat} {e : Nat → Ent α} {m : Mem α} (h : SpIs B N e)
    (hr : A.rows = B.rows) (hc : A.cols = B.cols) (hw : A.WF) (ha : Holds m A (fun _ _ => 0)) (hl : ∀ p, p < N → LastFor N e p) :
    Runs (todense A B m) (fun r => r.1 = 0 ∧ Frame A.foot m r.2 ∧ Holds r.2 A (dense N e)) := by
  refine (C77_todense_partial h hr hc hw ha).mono fun r hr => ⟨hr.1, hr.2.1, ?_⟩
  obtain ⟨a', h1, h2, h3⟩ := hr.2.2
  refine h1.congr fun i j _ _ => ?_
  unfold dense
  by_cases c : NotStored N e i j
  · rw [h3 i j c, sum_eq_zero]
    intro p hp
    rw [mem_range] at hp
    rw [if_neg]
    rintro ⟨e1, e2⟩; exact c p hp ⟨e1.symm, e2.symm⟩
  · unfold NotStored at c
    push Not at c
    obtain ⟨p, hp, rfl, rfl⟩ := c
    rw [h2 p hp (hl p hp), sum_eq_single p]
    · rw [if_pos ⟨rfl, rfl⟩]
    · intro q hq hne
      rw [mem_range] at hq
      rw [if_neg]
      rintro ⟨e1, e2⟩
      rcases Nat.lt_or_gt_of_ne hne with c | c
      · exact hl q hq p c hp ⟨e1, e2⟩
      · exact hl p hp q c hq ⟨e1.symm, e2.symm⟩
    · intro c; exact absurd (mem_range.mpr hp) c

example := C77_todense_partial (A := ⟨0, 4, 3, 3⟩) (m := tot (fun p => (p : ℚ))) (demoTri_is false).is rfl rfl (Or.inl (by decide)) (holds_tot _ _)

example := C77_zeroed_partial (A := ⟨0, 4, 3, 3⟩) (m := tot (fun _ => (0 : ℚ))) (demoTri_is false).is rfl rfl (Or.inl (by decide)) (holds_tot _ _)
  (by intro p hp q h1 h2
      have : ∀ q, q < 7 → ∀ p, p < q → ¬ ((demoTriEnt p).1 = (demoTriEnt q).1 ∧ (demoTriEnt p).2.1 = (demoTriEnt q).2.1) := by decide
      exact this q h2 p h1)

/-- Matrices of different size are rejected, and nothing changes. -/
theorem C77_reject (A : View) (B : Sp α) (m : Mem α) (h : A.rows ≠ B.rows ∨ A.cols ≠ B.cols) : todense A B m = .ok (-1, m) := by
  unfold todense; rw [if_pos h]; rfl

example : todense ⟨0, 4, 2, 3⟩ demoTri noMem = .ok (-1, noMem) := C77_reject _ _ _ (by decide)

/-- Elements that are not stored are not set to zero: a 1 × 1 dense matrix that holds 5 still holds 5 after the copy of an empty sparse
matrix. -/
theorem C77_old_values_false :
    SpIs (⟨.csr, 1, 1, 0, 1, 0, 24, 0, 2, noMem, fun k => [0, 0][k]?, noMem, noMem⟩ : Sp ℚ) 0 (fun _ => (0, 0, 0)) ∧
    cellsOf (todense ⟨0, 1, 1, 1⟩ (⟨.csr, 1, 1, 0, 1, 0, 24, 0, 2, noMem, fun k => [0, 0][k]?, noMem, noMem⟩ : Sp ℚ)
      (fun p => if p = 0 then some 5 else none)) 0 1 = some [some 5] ∧ dense 0 (fun _ => ((0, 0, 0) : Ent ℚ)) 0 0 = 0 := by
  refine ⟨⟨rfl, rfl, ⟨fun p q _ h => by omega, fun p h => by omega, fun p h => by omega, fun k hk => ?_, fun p h => by omega, fun p h => by omega⟩⟩,
    by decide +kernel, rfl⟩
  have hk : k ≤ 1 := hk
  have : k = 0 ∨ k = 1 := by omega
  rcases this with rfl | rfl <;> rfl

/-! ## C78 -/

/-- The elements selected by the flags: a triangle with its diagonal, or everything. -/
def selected (lower upper : Bool) (i j : Nat) : Prop :=
  (lower = true → upper = false → j ≤ i) ∧ (upper = true → lower = false → i ≤ j)

instance (lower upper : Bool) (i j : Nat) : Decidable (selected lower upper i j) := by unfold selected; infer_instance

private theorem sel_iff (lower upper : Bool) (A : View) (h : upper = true → lower = false → A.cols ≤ A.rows) {j : Nat} (hj : j < A.cols) (i : Nat) :
    (applyFrom lower upper j ≤ i ∧ i < applyTo lower upper A j) ↔ (i < A.rows ∧ selected lower upper i j) := by
  unfold applyFrom applyTo selected
  cases lower <;> cases upper <;> simp <;> simp at h <;> omega

private theorem to_le (lower upper : Bool) (A : View) (h : upper = true → lower = false → A.cols ≤ A.rows) {j : Nat} (hj : j < A.cols) :
    applyTo lower upper A j ≤ A.rows := by
  unfold applyTo
  cases lower <;> cases upper <;> simp <;> simp at h; omega

/-- C78 for `armas_apply` and `armas_apply2`, if with `ARMAS_UPPER` there are not more columns than rows (see `C78_upper_false`): the selected
elements are replaced by the operator's value, all others keep theirs. -/
theorem C78_apply_partial (oper : α → α) {A : View} {lower upper : Bool} {m : Mem α} {a : Nat → Nat → α} (hw : A.WF) (ha : Holds m A a)
    (h : upper = true → lower = false → A.cols ≤ A.rows) :
    Runs (apply oper A lower upper m) (fun r => r.1 = 0 ∧ Frame A.foot m r.2 ∧
      Holds r.2 A (fun i j => if selected lower upper i j then oper (a i j) else a i j)) := by
  unfold apply
  by_cases h0 : A.size = 0
  · rw [if_pos h0]
    refine Runs.pure ⟨rfl, Frame.refl _ _, fun i j hi hj => ?_⟩
    exfalso
    unfold View.size at h0
    rcases Nat.mul_eq_zero.mp h0 with e | e
    · omega
    · omega
  rw [if_neg h0]
  let g : Nat → Nat → Nat → α := fun c i j => if j < c ∧ selected lower upper i j then oper (a i j) else a i j
  refine Runs.bind (P := fun r : Nat × Mem α => Holds r.2 A (g A.cols) ∧ Frame A.foot m r.2) ?_
    (fun r hr => Runs.pure ⟨rfl, hr.2, hr.1.congr fun i j _ hj => by simp [g, hj]⟩)
  refine Runs.forUp1 (fun j m' => Holds m' A (g j) ∧ Frame A.foot m m') (Nat.zero_le _)
    ⟨ha.congr fun i j _ _ => by simp [g], Frame.refl _ _⟩ ?_ (fun m' h => h)
  rintro j m' - hj hm
  refine Runs.bind (P := fun r : Nat × Mem α => Holds r.2 A (g (j + 1)) ∧ Frame A.foot m r.2) ?_ (fun r hr => Runs.pure hr)
  have hto := to_le lower upper A h hj
  by_cases hft : applyFrom lower upper j ≤ applyTo lower upper A j
  · refine Runs.forUp1 (fun i m' => Holds m' A (fun p q => if q < j ∨ (q = j ∧ p < i) then (if selected lower upper p q then oper (a p q) else a p q)
      else a p q) ∧ Frame A.foot m m') hft ⟨hm.1.congr fun p q hp hq => ?_, hm.2⟩ ?_ (fun m' hm => ⟨hm.1.congr fun p q hp hq => ?_, hm.2⟩)
    · simp only [g]
      by_cases c : q < j
      · simp [c]
      · rw [if_neg (fun h => c h.1)]
        by_cases c2 : q = j ∧ p < applyFrom lower upper j
        · rw [if_pos (Or.inr c2), if_neg]
          intro hs
          have := (sel_iff lower upper A h hj p).mpr ⟨hp, by rw [← c2.1]; exact hs⟩
          omega
        · rw [if_neg (by rintro (h | h); exacts [c h, c2 h])]
    · rintro i m2 h1 h2 hm
      have hi : i < A.rows := by omega
      have hs := ((sel_iff lower upper A h hj i).mp ⟨h1, h2⟩).2
      refine Runs.rd_bind (hm.1 i j hi hj) (Runs.wr (hm.1 i j hi hj) ⟨?_, hm.2.trans (Frame.set (View.at_mem_foot hi hj) _)⟩)
      refine (hm.1.cell hw hi hj _).congr fun p q _ _ => ?_
      by_cases c : p = i ∧ q = j
      · obtain ⟨rfl, rfl⟩ := c
        rw [if_pos ⟨rfl, rfl⟩]
        dsimp only
        rw [if_neg (by omega), if_pos (by omega), if_pos hs]
      · rw [if_neg c]
        by_cases c2 : q < j ∨ (q = j ∧ p < i)
        · rw [if_pos c2, if_pos (c := q < j ∨ (q = j ∧ p < i + 1)) (by omega)]
        · rw [if_neg c2, if_neg (by omega)]
    · simp only [g]
      by_cases c : q < j
      · simp [c, show q < j + 1 by omega]
      · by_cases c2 : q = j
        · subst c2
          by_cases hs : selected lower upper p q
          · have := (sel_iff lower upper A h hj p).mpr ⟨hp, hs⟩
            rw [if_pos (Or.inr ⟨rfl, this.2⟩), if_pos hs, if_pos ⟨by omega, hs⟩]
          · rw [if_neg hs, ite_self, if_neg (fun h => hs h.2)]
        · rw [if_neg (by omega), if_neg (by omega)]
  · have : forUp (applyFrom lower upper j) (applyTo lower upper A j) 1 (fun i m => do
        let t ← rd m (A.at' i j)
        wr m (A.at' i j) (oper t)) m' = .ok (applyFrom lower upper j, m') := by
      rw [forUp_eq, if_neg (by omega)]
    rw [this]
    refine Runs.ok ⟨hm.1.congr fun p q hp hq => ?_, hm.2⟩
    simp only [g]
    by_cases c : q < j
    · simp [c, show q < j + 1 by omega]
    · rw [if_neg (fun h => c h.1), if_neg]
      rintro ⟨h1, hs⟩
      have e : q = j := by omega
      subst e
      have := (sel_iff lower upper A h hj p).mpr ⟨hp, hs⟩
      omega

/-- C78 for `armas_iterate`, under the same condition: the operator gets the selected elements column by column, in the order of the rows,
until it returns a negative number; the return value tells whether it did. -/
theorem C78_iterate_partial {σ : Type} (oper : α → σ → Int × σ) {A : View} {lower upper : Bool} {m : Mem α} {a : Nat → Nat → α} (ha : Holds m A a)
    (h : upper = true → lower = false → A.cols ≤ A.rows) (s : σ) :
    iterate oper A lower upper m s = .ok (
      let r := visit oper ((List.range A.cols).flatMap fun j =>
        ((List.range A.rows).filter fun i => decide (selected lower upper i j)).map fun i => a i j) s
      (if r.1 then -1 else 0, r.2)) := by
  unfold iterate
  by_cases h0 : A.size = 0
  · rw [if_pos h0]
    unfold View.size at h0
    rcases Nat.mul_eq_zero.mp h0 with e | e
    · have : ((List.range A.cols).flatMap fun j => ((List.range A.rows).filter fun i => decide (selected lower upper i j)).map fun i => a i j) = [] := by
        rw [e]; simp
      rw [this]; rfl
    · rw [e]; rfl
  rw [if_neg h0]
  have key : ∀ j s, j < A.cols → loopUntil (fun i s => do
        let x ← rd m (A.at' i j)
        let (r, s) := oper x s
        pure (decide (r < 0), s)) (applyTo lower upper A j - applyFrom lower upper j) (applyFrom lower upper j) s =
      .ok (visit oper (((List.range A.rows).filter fun i => decide (selected lower upper i j)).map fun i => a i j) s) := by
    intro j s hj
    have hto := to_le lower upper A h hj
    rw [loopUntil_spec (oper := oper) (L := fun i => [a i j])]
    · congr 2
      have e1 : ∀ l : List Nat, l.flatMap (fun i => [a i j]) = l.map fun i => a i j := fun l => by
        induction l with
        | nil => rfl
        | cons x l ih => simp [List.flatMap_cons, ih]
      rw [e1]
      congr 1
      unfold applyFrom applyTo selected
      cases lower <;> cases upper <;> simp at h ⊢
      · exact List.range_eq_range'.symm
      · rw [filter_le _ _ (by omega), List.range_eq_range']
      · exact (filter_ge _ _).symm
      · exact List.range_eq_range'.symm
    · intro i s h1 h2
      rw [rd_ok (ha i j (by omega) hj), Res.ok_bind]
      simp only [visit]
      rcases hop : oper (a i j) s with ⟨r, s'⟩
      by_cases c : r < 0
      · simp [c]
      · simp [c]
  rw [loopUntil_spec (oper := oper)
    (L := fun j => ((List.range A.rows).filter fun i => decide (selected lower upper i j)).map fun i => a i j) (fun j s _ h2 => key j s (by omega)),
    Res.ok_bind, ← List.range_eq_range']
  rfl

example := C78_apply_partial (A := ⟨0, 4, 3, 2⟩) (lower := false) (upper := true) (m := tot (fun p => (p : ℚ))) (fun x => x * x) (Or.inl (by decide))
  (holds_tot _ _) (by decide)

example := C78_iterate_partial (A := ⟨0, 4, 3, 2⟩) (lower := false) (upper := true) (m := tot (fun p => (p : ℚ)))
  (fun x (s : ℚ) => (if x > 3 then -1 else 0, s + x)) (holds_tot _ _) (by decide) 0

/-- With `ARMAS_UPPER` the loop over the rows of column `j` goes to row `j` even if there is no such row: for the 1 × 2 matrix in the cells 0
and 1, cell 2 is changed, which does not belong to it; with two cells only, the behaviour is undefined. -/
theorem C78_upper_false :
    cellsOf (apply (fun x : ℚ => x + 1) ⟨0, 1, 1, 2⟩ false true (fun p => if p < 3 then some 0 else none)) 0 3 = some [some 1, some 1, some 1] ∧
    isUB (apply (fun x : ℚ => x + 1) ⟨0, 1, 1, 2⟩ false true (fun p => if p < 2 then some 0 else none)) = true ∧
    isUB (iterate (fun (x : ℚ) (s : ℚ) => (0, s + x)) ⟨0, 1, 1, 2⟩ false true (fun p => if p < 2 then some 0 else none) 0) = true := by
  decide +kernel

/-! ## C79 -/

/-- Sums of the absolute values of the columns. -/
def colSums (A : View) (a : Nat → Nat → ℝ) : Set ℝ := {s | ∃ j, j < A.cols ∧ s = ∑ i ∈ range A.rows, |a i j|}

/-- Sums of the absolute values of the rows. -/
def rowSums (A : View) (a : Nat → Nat → ℝ) : Set ℝ := {s | ∃ i, i < A.rows ∧ s = ∑ j ∈ range A.cols, |a i j|}

private theorem asum_col {m : Mem ℝ} {A : View} {a : Nat → Nat → ℝ} (ha : Holds m A a) {blas1min : Nat} (hmin : 0 < blas1min) (opt : SumOpt)
    {fuel : Nat} (hf : A.size < fuel) {j : Nat} (hj : j < A.cols) (nr : Nat) (hnr : nr = A.rows) :
    asum fuel m blas1min opt (A.sub 0 j nr 1) = .ok (∑ i ∈ range A.rows, |a i j|) := by
  subst hnr
  have e : (A.sub 0 j A.rows 1).size = A.rows := by simp [View.size]
  have := C08_asum blas1min opt hmin (Or.inr rfl) (Holds.toV_col (ha.sub (r := 0) (c := j) (nr := A.rows) (nc := 1) (by omega) (by omega))) fuel (by
    rw [e]; unfold View.size at hf; exact lt_of_le_of_lt (Nat.le_mul_of_pos_right _ (by omega)) hf)
  rw [this, e]
  simp

private theorem asum_row {m : Mem ℝ} {A : View} {a : Nat → Nat → ℝ} (ha : Holds m A a) {blas1min : Nat} (hmin : 0 < blas1min) (opt : SumOpt)
    {fuel : Nat} (hf : A.size < fuel) {i : Nat} (hi : i < A.rows) (nc : Nat) (hnc : nc = A.cols) :
    asum fuel m blas1min opt (A.sub i 0 1 nc) = .ok (∑ j ∈ range A.cols, |a i j|) := by
  subst hnc
  have e : (A.sub i 0 1 A.cols).size = A.cols := by simp [View.size]
  have := C08_asum blas1min opt hmin (Or.inl rfl) (Holds.toV_row (ha.sub (r := i) (c := 0) (nr := 1) (nc := A.cols) (by omega) (by omega))) fuel (by
    rw [e]; unfold View.size at hf; exact lt_of_le_of_lt (Nat.le_mul_of_pos_left _ (by omega)) hf)
  rw [this, e]
  simp

/-- C79 for matrices that are not vectors: the 1-norm is the greatest column sum, the infinity norm the greatest row sum, the Frobenius norm
the square root of the sum of all squares, over the reals with the exact square root.  The 2-norm is not implemented (see `C79_errors`). -/
theorem C79_mnorm_partial {m : Mem ℝ} {A : View} {a : Nat → Nat → ℝ} (ha : Holds m A a) {blas1min : Nat} (hmin : 0 < blas1min) (opt : SumOpt)
    {fuel : Nat} (hf : A.size < fuel) (h0 : 0 < A.size) (hv : ¬ (A.rows = 1 ∨ A.cols = 1)) :
    Runs (mnorm Real.sqrt fuel blas1min opt m A .one) (fun r => r.1 = 0 ∧ IsGreatest (colSums A a) r.2) ∧
    Runs (mnorm Real.sqrt fuel blas1min opt m A .inf) (fun r => r.1 = 0 ∧ IsGreatest (rowSums A a) r.2) ∧
    Runs (mnorm Real.sqrt fuel blas1min opt m A .frb) (fun r => r.1 = 0 ∧
      r.2 = Real.sqrt (∑ j ∈ range A.cols, ∑ i ∈ range A.rows, a i j ^ 2)) := by
  have hr : 0 < A.rows := Nat.pos_of_mul_pos_right (by unfold View.size at h0; exact h0)
  have hc : 0 < A.cols := Nat.pos_of_mul_pos_left (by unfold View.size at h0; exact h0)
  unfold mnorm
  simp only [if_neg (Nat.ne_of_gt h0), if_neg hv]
  refine ⟨?_, ?_, ?_⟩
  · refine Runs.bind (P := fun v => IsGreatest (colSums A a) v) ?_ (fun v h => Runs.pure ⟨rfl, h⟩)
    unfold matrixNormOne
    refine Runs.bind (maxLoop_spec (g := fun j => ∑ i ∈ range A.rows, |a i j|) hc (fun j _ => sum_nonneg fun i _ => abs_nonneg _) ?_) ?_
    · intro j v hj
      rw [asum_col ha hmin opt hf hj _ rfl, Res.ok_bind]
      split <;> rfl
    · rintro ⟨_, v⟩ ⟨h1, k, hk, h2⟩
      refine Runs.pure ⟨⟨k, hk, h2⟩, ?_⟩
      rintro s ⟨j, hj, rfl⟩
      exact h1 j hj
  · refine Runs.bind (P := fun v => IsGreatest (rowSums A a) v) ?_ (fun v h => Runs.pure ⟨rfl, h⟩)
    unfold matrixNormInf
    refine Runs.bind (maxLoop_spec (g := fun i => ∑ j ∈ range A.cols, |a i j|) hr (fun j _ => sum_nonneg fun i _ => abs_nonneg _) ?_) ?_
    · intro i v hi
      rw [asum_row ha hmin opt hf hi _ rfl, Res.ok_bind]
      split <;> rfl
    · rintro ⟨_, v⟩ ⟨h1, k, hk, h2⟩
      refine Runs.pure ⟨⟨k, hk, h2⟩, ?_⟩
      rintro s ⟨j, hj, rfl⟩
      exact h1 j hj
  · refine Runs.bind (matrixNormFrb_spec Real.sqrt (fun v hv => ⟨Real.sqrt_nonneg v, Real.mul_self_sqrt hv⟩) ha) fun v h => Runs.pure ⟨rfl, ?_⟩
    have : ∑ j ∈ range A.cols, ∑ i ∈ range A.rows, a i j ^ 2 = v ^ 2 := by
      rw [sq v, h.2]; exact sum_congr rfl fun j _ => sum_congr rfl fun i _ => sq _
    dsimp only
    rw [this, Real.sqrt_sq h.1]

/-- C79 for vectors, rows and columns alike: sum of absolute values, Euclidean norm (for two names), greatest absolute value. -/
theorem C79_vector {m : Mem ℝ} {A : View} {x : Nat → ℝ} (hx : HoldsV m A x) {blas1min : Nat} (hmin : 0 < blas1min) (opt : SumOpt)
    {fuel : Nat} (hf : A.size < fuel) (h0 : 0 < A.size) (hv : A.rows = 1 ∨ A.cols = 1) :
    mnorm Real.sqrt fuel blas1min opt m A .one = .ok (0, ∑ k ∈ range A.size, |x k|) ∧
    Runs (mnorm Real.sqrt fuel blas1min opt m A .inf) (fun r => r.1 = 0 ∧ IsGreatest {s | ∃ k, k < A.size ∧ s = |x k|} r.2) ∧
    mnorm Real.sqrt fuel blas1min opt m A .two = .ok (0, Real.sqrt (∑ k ∈ range A.size, x k ^ 2)) ∧
    mnorm Real.sqrt fuel blas1min opt m A .frb = .ok (0, Real.sqrt (∑ k ∈ range A.size, x k ^ 2)) := by
  have hv' : A.isVec := hv
  unfold mnorm
  simp only [if_neg (Nat.ne_of_gt h0), if_pos hv]
  refine ⟨?_, ?_, ?_, ?_⟩
  · rw [C08_asum blas1min opt hmin hv' hx fuel hf]; rfl
  · refine Runs.bind (C08_amax hv' h0 hx) fun v h => Runs.pure ⟨rfl, h.2, ?_⟩
    rintro s ⟨k, hk, rfl⟩
    exact h.1 k hk
  · rw [C08_nrm2 hv' hx]; rfl
  · rw [C08_nrm2 hv' hx]; rfl

/-- The 2-norm of a matrix that is not a vector is refused with `ARMAS_EIMP`, an unknown norm with `ARMAS_EINVAL`; an empty matrix has norm 0
without error. -/
theorem C79_errors (sqrt : ℝ → ℝ) (fuel blas1min : Nat) (opt : SumOpt) (m : Mem ℝ) (A : View) :
    (0 < A.size → ¬ (A.rows = 1 ∨ A.cols = 1) → mnorm sqrt fuel blas1min opt m A .two = .ok (4, 0)) ∧
    (0 < A.size → mnorm sqrt fuel blas1min opt m A .other = .ok (3, 0)) ∧
    (A.size = 0 → ∀ w, mnorm sqrt fuel blas1min opt m A w = .ok (0, 0)) := by
  unfold mnorm
  refine ⟨fun h0 hv => ?_, fun h0 => ?_, fun h0 w => ?_⟩
  · simp only [if_neg (Nat.ne_of_gt h0), if_neg hv]; rfl
  · simp only [if_neg (Nat.ne_of_gt h0)]; rfl
  · rw [if_pos h0]; rfl

example := C79_mnorm_partial (A := ⟨0, 4, 3, 2⟩) (m := tot (fun p => (p : ℝ) - 3)) (blas1min := 2) (fuel := 7) (holds_tot _ _) (by decide) .recursive
  (by decide) (by decide) (by decide)

example := C79_vector (A := ⟨0, 4, 1, 3⟩) (m := tot (fun p => (p : ℝ) - 3)) (blas1min := 2) (fuel := 7) (holdsV_tot _ _) (by decide) .recursive
  (by decide) (by decide) (by decide)

example := (C79_errors Real.sqrt 7 2 .naive (tot (fun p => (p : ℝ))) ⟨0, 4, 3, 2⟩).1 (by decide) (by decide)

end Armas.Props
