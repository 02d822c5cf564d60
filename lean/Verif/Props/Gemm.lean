import Verif.GemmLemmas
import Verif.Demo
import Mathlib.Algebra.Order.Ring.Abs
import Mathlib.Algebra.Order.Ring.Int

/-!
# C16, C17: matrix-matrix multiplication

`Cache.Ready c m` says that the two copy buffers are allocated, do not overlap, have a stride that
fits and positive block sizes; nothing else is assumed of the block sizes.  `Frame S m m'` says that
cells outside of `S` are the same in `m` and `m'`.
-/

namespace Armas.Props

open Armas Finset

variable {α : Type}

/-- C16: `C = beta*C + alpha*op(A)*op(B)` for every transpose combination, all sizes and strides, and
every positive configuration of block sizes; only `C` and the copy buffers are written, only `A`, `B`,
`C` and the buffers are read (all other cells of `m` may be unallocated).
Missing: inner dimension zero (C17), a block size of zero (`C16_zero_block_false`), and one of the
flags `ARMAS_ABSA`, `ARMAS_ABSB` alone (`C16_absA_false`); for these the claim is false. -/
theorem C16_mult_partial [CommRing α] [DecidableEq α] (ab : α → α) {c : Cache} {m : Mem α}
    {C A B : View} {a b f : Nat → Nat → α} (beta alpha : α) {fl : Flags}
    (hfa : fl.absA = false) (hfb : fl.absB = false)
    (hw : C.WF) (hc : c.Ready m) (hA : Holds m A a) (hB : Holds m B b) (hC : Holds m C f)
    (hdA : Disjoint A.foot c.foot) (hdB : Disjoint B.foot c.foot) (hdC : Disjoint C.foot c.foot)
    (hdAC : Disjoint A.foot C.foot) (hdBC : Disjoint B.foot C.foot)
    (hr : C.rows = if fl.transA then A.cols else A.rows)
    (hn : C.cols = if fl.transB then B.rows else B.cols)
    {P : Nat} (hP : P = if fl.transA then A.rows else A.cols)
    (hP' : P = if fl.transB then B.cols else B.rows) (h0 : P ≠ 0) :
    Runs (mult ab m beta C alpha A B fl (some c)) (fun r => r.1 = 0 ∧
      Holds r.2 C (fun i j => beta * f i j + alpha * ∑ k ∈ range P,
        (if fl.transA then a k i else a i k) * (if fl.transB then b j k else b k j)) ∧
      Frame (C.foot ∪ c.foot) m r.2 ∧ c.Ready r.2) := by
  unfold mult
  by_cases hs : A.size = 0 ∨ B.size = 0 ∨ C.size = 0
  · rw [if_pos hs]
    have hC0 : C.rows = 0 ∨ C.cols = 0 := by
      simp only [View.size, mul_eq_zero] at hs
      revert hr hn hP hP'
      cases fl.transA <;> cases fl.transB <;> intros <;> simp at * <;> omega
    refine Runs.ok ⟨rfl, ?_, Frame.refl _ _, hc⟩
    intro i j hi hj
    omega
  · rw [if_neg hs, if_neg (by
      unfold multSizes
      revert hr hn hP hP'
      cases fl.transA <;> cases fl.transB <;> intros <;> simp at * <;> omega)]
    refine Runs.bind (multKernel_spec ab fl beta alpha hw hc hA hB hC hdA hdB hdC hdAC hdBC hr hn
      (by rw [← hP, hP'])) ?_
    rintro m' ⟨h1, h2, h3⟩
    refine Runs.pure ⟨rfl, h1.congr ?_, h2, h3⟩
    intro i j _ _
    rw [← hP]
    simp only [Flags.elt_id hfa hfb, opM]

/-- A 7x6 product of inner dimension 5 with blocks of 2x3 and a row block of 1, `A` transposed; the
buffers start at 500 and 600. -/
example := C16_mult_partial (α := ℤ) (m := tot (fun p => (p : ℤ))) (C := ⟨0, 8, 7, 6⟩)
    (A := ⟨100, 5, 5, 7⟩) (B := ⟨200, 9, 5, 6⟩) (fl := { transA := true })
    (c := ⟨500, 600, 4, 2, 3, 2, 1⟩) id 3 (-2) rfl rfl (Or.inl (by decide))
    ⟨by decide, by decide, by decide, by decide, by decide, ⟨_, holds_tot _ _⟩, ⟨_, holds_tot _ _⟩,
      View.disj_below (by decide)⟩
    (holds_tot _ _) (holds_tot _ _) (holds_tot _ _)
    (Set.disjoint_union_right.mpr ⟨View.disj_below (by decide), View.disj_below (by decide)⟩)
    (Set.disjoint_union_right.mpr ⟨View.disj_below (by decide), View.disj_below (by decide)⟩)
    (Set.disjoint_union_right.mpr ⟨View.disj_below (by decide), View.disj_below (by decide)⟩)
    (View.disj_below (by decide)).symm (View.disj_below (by decide)).symm (by rfl) (by rfl)
    (P := 5) (by rfl) (by rfl) (by decide)

/-- C16: the result does not depend on the blocking: two configurations leave the same `C`. -/
theorem C16_blocking_independent [CommRing α] [DecidableEq α] (ab : α → α) {c c' : Cache} {m : Mem α}
    {C A B : View} {a b f : Nat → Nat → α} (beta alpha : α) {fl : Flags}
    (hw : C.WF) (hc : c.Ready m) (hc' : c'.Ready m) (hA : Holds m A a) (hB : Holds m B b)
    (hC : Holds m C f)
    (hdA : Disjoint A.foot (c.foot ∪ c'.foot)) (hdB : Disjoint B.foot (c.foot ∪ c'.foot))
    (hdC : Disjoint C.foot (c.foot ∪ c'.foot))
    (hdAC : Disjoint A.foot C.foot) (hdBC : Disjoint B.foot C.foot) (hs : multSizes C A B fl) :
    ∃ m1 m2, mult ab m beta C alpha A B fl (some c) = .ok (0, m1) ∧
      mult ab m beta C alpha A B fl (some c') = .ok (0, m2) ∧
      ∀ i j, i < C.rows → j < C.cols → m1 (C.at' i j) = m2 (C.at' i j) := by
  unfold mult
  by_cases h0 : A.size = 0 ∨ B.size = 0 ∨ C.size = 0
  · exact ⟨m, m, by rw [if_pos h0], by rw [if_pos h0], fun _ _ _ _ => rfl⟩
  simp only [if_neg h0, hs, not_true_eq_false, if_false]
  rw [Set.disjoint_union_right] at hdA hdB hdC
  have hsz : (C.rows = if fl.transA then A.cols else A.rows) ∧
      (C.cols = if fl.transB then B.rows else B.cols) ∧
      (if fl.transA then A.rows else A.cols) = if fl.transB then B.cols else B.rows := by
    unfold multSizes at hs
    cases h1 : fl.transA <;> cases h2 : fl.transB <;> rw [h1, h2] at hs <;> simp at hs ⊢ <;> omega
  obtain ⟨m1, e1, h1, -⟩ := multKernel_spec ab fl beta alpha hw hc hA hB hC hdA.1 hdB.1 hdC.1 hdAC hdBC
    hsz.1 hsz.2.1 hsz.2.2
  obtain ⟨m2, e2, h2, -⟩ := multKernel_spec ab fl beta alpha hw hc' hA hB hC hdA.2 hdB.2 hdC.2 hdAC hdBC
    hsz.1 hsz.2.1 hsz.2.2
  refine ⟨m1, m2, by rw [e1]; rfl, by rw [e2]; rfl, fun i j hi hj => ?_⟩
  rw [h1 i j hi hj, h2 i j hi hj]

example := C16_blocking_independent (α := ℤ) (m := tot (fun p => (p : ℤ))) (C := ⟨0, 8, 7, 6⟩)
    (A := ⟨100, 5, 5, 7⟩) (B := ⟨200, 9, 5, 6⟩) (fl := { transA := true })
    (c := ⟨500, 600, 4, 2, 3, 2, 1⟩) (c' := ⟨500, 600, 8, 7, 1, 4, 4⟩) id 3 (-2) (Or.inl (by decide))
    ⟨by decide, by decide, by decide, by decide, by decide, ⟨_, holds_tot _ _⟩, ⟨_, holds_tot _ _⟩,
      View.disj_below (by decide)⟩
    ⟨by decide, by decide, by decide, by decide, by decide, ⟨_, holds_tot _ _⟩, ⟨_, holds_tot _ _⟩,
      View.disj_below (by decide)⟩
    (holds_tot _ _) (holds_tot _ _) (holds_tot _ _)
    (Set.disjoint_union_right.mpr ⟨
      Set.disjoint_union_right.mpr ⟨View.disj_below (by decide), View.disj_below (by decide)⟩,
      Set.disjoint_union_right.mpr ⟨View.disj_below (by decide), View.disj_below (by decide)⟩⟩)
    (Set.disjoint_union_right.mpr ⟨
      Set.disjoint_union_right.mpr ⟨View.disj_below (by decide), View.disj_below (by decide)⟩,
      Set.disjoint_union_right.mpr ⟨View.disj_below (by decide), View.disj_below (by decide)⟩⟩)
    (Set.disjoint_union_right.mpr ⟨
      Set.disjoint_union_right.mpr ⟨View.disj_below (by decide), View.disj_below (by decide)⟩,
      Set.disjoint_union_right.mpr ⟨View.disj_below (by decide), View.disj_below (by decide)⟩⟩)
    (View.disj_below (by decide)).symm (View.disj_below (by decide)).symm (by rfl)

/-- C16 with `ARMAS_ABSA` or `ARMAS_ABSB` or both: always the product of the absolute values of both
operands, which is the documented result only if both flags are given. -/
theorem C16_mult_abs_partial [CommRing α] [DecidableEq α] [Lattice α] {c : Cache} {m : Mem α}
    {C A B : View} {a b f : Nat → Nat → α} (beta alpha : α) {fl : Flags}
    (hab : fl.absA = true ∨ fl.absB = true)
    (hw : C.WF) (hc : c.Ready m) (hA : Holds m A a) (hB : Holds m B b) (hC : Holds m C f)
    (hdA : Disjoint A.foot c.foot) (hdB : Disjoint B.foot c.foot) (hdC : Disjoint C.foot c.foot)
    (hdAC : Disjoint A.foot C.foot) (hdBC : Disjoint B.foot C.foot) (hs : multSizes C A B fl)
    (h0 : A.size ≠ 0 ∧ B.size ≠ 0 ∧ C.size ≠ 0) :
    Runs (mult (fun x : α => |x|) m beta C alpha A B fl (some c)) (fun r => r.1 = 0 ∧
      Holds r.2 C (fun i j => beta * f i j +
        alpha * ∑ k ∈ range (if fl.transA then A.rows else A.cols),
        |if fl.transA then a k i else a i k| * |if fl.transB then b j k else b k j|) ∧
      Frame (C.foot ∪ c.foot) m r.2) := by
  unfold mult
  have hsz : (C.rows = if fl.transA then A.cols else A.rows) ∧
      (C.cols = if fl.transB then B.rows else B.cols) ∧
      (if fl.transA then A.rows else A.cols) = if fl.transB then B.cols else B.rows := by
    unfold multSizes at hs
    cases h1 : fl.transA <;> cases h2 : fl.transB <;> rw [h1, h2] at hs <;> simp at hs ⊢ <;> omega
  rw [if_neg (by omega), if_neg (by simp [hs])]
  refine Runs.bind (multKernel_spec (fun x : α => |x|) fl beta alpha hw hc hA hB hC hdA hdB hdC hdAC
    hdBC hsz.1 hsz.2.1 hsz.2.2) ?_
  rintro m' ⟨h1, h2, -⟩
  refine Runs.pure ⟨rfl, h1.congr ?_, h2⟩
  intro i j _ _
  simp only [Flags.elt, hab, if_true, opM]

example := C16_mult_abs_partial (α := ℤ) (m := tot (fun p => (p : ℤ) - 103)) (C := ⟨0, 8, 7, 6⟩)
    (A := ⟨100, 5, 5, 7⟩) (B := ⟨200, 9, 5, 6⟩) (fl := { transA := true, absA := true, absB := true })
    (c := ⟨500, 600, 4, 2, 3, 2, 1⟩) 3 (-2) (Or.inl rfl) (Or.inl (by decide))
    ⟨by decide, by decide, by decide, by decide, by decide, ⟨_, holds_tot _ _⟩, ⟨_, holds_tot _ _⟩,
      View.disj_below (by decide)⟩
    (holds_tot _ _) (holds_tot _ _) (holds_tot _ _)
    (Set.disjoint_union_right.mpr ⟨View.disj_below (by decide), View.disj_below (by decide)⟩)
    (Set.disjoint_union_right.mpr ⟨View.disj_below (by decide), View.disj_below (by decide)⟩)
    (Set.disjoint_union_right.mpr ⟨View.disj_below (by decide), View.disj_below (by decide)⟩)
    (View.disj_below (by decide)).symm (View.disj_below (by decide)).symm (by rfl) (by decide)

/-- C16: with `ARMAS_ABSA` alone the elements of `B` are replaced by their absolute values as well:
1x1 matrices `A = 1`, `B = -1`, `C = 0` give 1 instead of -1. -/
theorem C16_absA_false : ∃ (m m' : Mem ℤ) (C A B : View) (c : Cache), c.Ready m ∧
    Holds m C (fun _ _ => 0) ∧ Holds m A (fun _ _ => 1) ∧ Holds m B (fun _ _ => -1) ∧
    mult (fun x => |x|) m 1 C 1 A B { absA := true } (some c) = .ok (0, m') ∧
    Holds m' C (fun _ _ => 1) ∧
    ¬ Holds m' C (fun i j => 1 * 0 + 1 * ∑ _k ∈ range 1, |(1 : ℤ)| * (-1)) := by
  have cell : ∀ {m : Mem ℤ} {p : Nat} {v : ℤ}, m p = some v → Holds m ⟨p, 1, 1, 1⟩ (fun _ _ => v) := by
    intro m p v hv i j hi hj
    simp only at hi hj
    have : View.at' ⟨p, 1, 1, 1⟩ i j = p := by simp only [View.at']; omega
    rw [this, hv]
  have hR : Cache.Ready ⟨10, 20, 1, 1, 1, 1, 1⟩ (tot (fun p => if p = 0 then (0 : ℤ) else
      if p = 3 then 1 else -1)) := ⟨by decide, by decide, by decide, by decide, by decide,
      ⟨_, holds_tot _ _⟩, ⟨_, holds_tot _ _⟩, View.disj_below (by decide)⟩
  have h0 : Holds (tot (fun p => if p = 0 then (0 : ℤ) else if p = 3 then 1 else -1)) ⟨0, 1, 1, 1⟩
      (fun _ _ => 0) := cell rfl
  have h1 : Holds (tot (fun p => if p = 0 then (0 : ℤ) else if p = 3 then 1 else -1)) ⟨3, 1, 1, 1⟩
      (fun _ _ => 1) := cell rfl
  have h2 : Holds (tot (fun p => if p = 0 then (0 : ℤ) else if p = 3 then 1 else -1)) ⟨6, 1, 1, 1⟩
      (fun _ _ => -1) := cell rfl
  obtain ⟨⟨r, m'⟩, e, rfl, h, -⟩ := C16_mult_abs_partial (α := ℤ) (fl := { absA := true }) 1 1
    (Or.inl rfl) (Or.inl (by decide)) hR h1 h2 h0
    (Set.disjoint_union_right.mpr ⟨View.disj_below (by decide), View.disj_below (by decide)⟩)
    (Set.disjoint_union_right.mpr ⟨View.disj_below (by decide), View.disj_below (by decide)⟩)
    (Set.disjoint_union_right.mpr ⟨View.disj_below (by decide), View.disj_below (by decide)⟩)
    (View.disj_below (by decide)).symm (View.disj_below (by decide)).symm (by rfl) (by decide)
  have h' : Holds m' ⟨0, 1, 1, 1⟩ (fun _ _ => 1) := h.congr (by intros; simp)
  refine ⟨_, m', ⟨0, 1, 1, 1⟩, ⟨3, 1, 1, 1⟩, ⟨6, 1, 1, 1⟩, ⟨10, 20, 1, 1, 1, 1, 1⟩, hR, h0, h1, h2, e, h', ?_⟩
  intro hx
  have e1 := hx 0 0 (by decide) (by decide)
  rw [h' 0 0 (by decide) (by decide)] at e1
  simp at e1

/-- C16: a block size of zero makes the loop over the columns of `C` run forever.
`armas_cache_setup2` produces `NB = 0` for some accepted settings (see C25). -/
theorem C16_zero_block_false [CommRing α] [DecidableEq α] (ab : α → α) {c : Cache} {m : Mem α}
    {C A B : View} (beta alpha : α) {fl : Flags} (ha : alpha ≠ 0) (hn : c.NB = 0)
    (h0 : A.size ≠ 0 ∧ B.size ≠ 0 ∧ C.size ≠ 0) (hs : multSizes C A B fl) :
    mult ab m beta C alpha A B fl (some c) = .diverge := by
  unfold mult multKernel
  have hn0 : 0 < C.cols := by
    have := h0.2.2
    simp only [View.size, ne_eq, mul_eq_zero, not_or] at this
    omega
  rw [if_neg (by omega), if_neg (by simp [hs])]
  simp only [if_neg ha, forUp, hn, hn0, and_self, if_true, Res.diverge_bind]

example := C16_zero_block_false (α := ℤ) (m := tot (fun p => (p : ℤ))) (C := ⟨0, 8, 7, 6⟩)
    (A := ⟨100, 5, 5, 7⟩) (B := ⟨200, 9, 5, 6⟩) (fl := { transA := true })
    (c := ⟨500, 600, 4, 2, 0, 2, 1⟩) id 3 (-2) (by decide) rfl (by decide) (by rfl)

/-- C17: with an empty inner dimension `armas_mult` does nothing at all.  The claim `C = beta*C`
follows only if `beta` is one.  Missing: every other `beta`, see `C17_inner_zero_false`. -/
theorem C17_inner_zero_partial [CommRing α] [DecidableEq α] (ab : α → α) (cbuf : Option Cache) {m : Mem α}
    {C A B : View} {f : Nat → Nat → α} {beta : α} (alpha : α) {fl : Flags} (hb : beta = 1)
    (hC : Holds m C f) (hP : (if fl.transA then A.rows else A.cols) = 0) :
    Runs (mult ab m beta C alpha A B fl cbuf) (fun r => r.1 = 0 ∧
      Holds r.2 C (fun i j => beta * f i j) ∧ Frame C.foot m r.2) := by
  unfold mult
  rw [if_pos (Or.inl (by unfold View.size; split at hP <;> simp [hP]))]
  exact Runs.ok ⟨rfl, hC.congr (by simp [hb]), Frame.refl _ _⟩

example := C17_inner_zero_partial (α := ℤ) (m := tot (fun p => (p : ℤ))) (C := ⟨0, 8, 7, 6⟩)
    (A := ⟨100, 7, 7, 0⟩) (B := ⟨200, 9, 0, 6⟩) (fl := {}) id none 5 rfl (holds_tot _ _) (by rfl)

/-- C17 is false: for every nonempty `C` with some element `x` such that `beta*x ≠ x` and every empty
inner dimension `armas_mult` reports success and leaves that element as it was. -/
theorem C17_inner_zero_false [CommRing α] [DecidableEq α] (ab : α → α) (cbuf : Option Cache) {m : Mem α}
    {C A B : View} {f : Nat → Nat → α} (beta alpha : α) {fl : Flags} (hC : Holds m C f)
    (hP : (if fl.transA then A.rows else A.cols) = 0) {i j : Nat} (hi : i < C.rows) (hj : j < C.cols)
    (hx : beta * f i j ≠ f i j) :
    ∃ m', mult ab m beta C alpha A B fl cbuf = .ok (0, m') ∧
      ¬ Holds m' C (fun i j => beta * f i j) := by
  refine ⟨m, ?_, fun h => hx ?_⟩
  · unfold mult
    rw [if_pos (Or.inl (by unfold View.size; split at hP <;> simp [hP]))]
  · have := h i j hi hj
    rw [hC i j hi hj] at this
    exact (Option.some.inj this).symm

example := C17_inner_zero_false (α := ℤ) (m := tot (fun p => (p : ℤ))) (C := ⟨0, 8, 7, 6⟩)
    (A := ⟨100, 7, 7, 0⟩) (B := ⟨200, 9, 0, 6⟩) (fl := {}) id none 0 5 (holds_tot _ _) (by rfl) (i := 1) (j := 1) (by decide) (by decide)
    (by decide)

end Armas.Props
