import Verif.Blas1Lemmas
import Verif.Demo
import Mathlib.Analysis.Real.Sqrt

/-!
# C05 .. C09: copies and vector operations

Vocabulary of the statements (`Verif/Mem.lean`, `Verif/Logic.lean`):
* `Holds m V a` / `HoldsV m X f`: every element of the matrix (vector) view is allocated and has the
  value `a i j` (`f k`);
* `Frame S m m'`: no cell outside `S` changed;
* `Runs r Q`: the call ends normally, without undefined behaviour, and its result satisfies `Q`;
* `V.WF`: distinct elements of the view are distinct cells; `V.foot`: the set of its cells.
Row vectors (`rows = 1`, any stride) and column vectors (`cols = 1`) are both covered by `isVec`.
-/

namespace Armas.Props

open Armas Finset

variable {α : Type}

/-! ## C05 -/

theorem holds_toV {m : Mem α} {X : View} {a : Nat → Nat → α} (h : Holds m X a) (hv : X.isVec) :
    HoldsV m X (fun k => if X.rows = 1 then a 0 k else a k 0) := by
  rw [holdsV_iff hv]
  refine h.congr (fun i j hi hj => ?_)
  by_cases h1 : X.rows = 1
  · have : i = 0 := by omega
    simp [h1, this]
  · have h2 : X.cols = 1 := hv.resolve_left h1
    have : j = 0 := by omega
    simp [h1, this]

theorem holds_ofV {m : Mem α} {X : View} {a : Nat → Nat → α} (hv : X.isVec)
    (h : HoldsV m X (fun k => if X.rows = 1 then a 0 k else a k 0)) : Holds m X a := by
  rw [holdsV_iff hv] at h
  refine h.congr (fun i j hi hj => ?_)
  by_cases h1 : X.rows = 1
  · have : i = 0 := by omega
    simp [h1, this]
  · have h2 : X.cols = 1 := hv.resolve_left h1
    have : j = 0 := by omega
    simp [h1, this]

/-- C05: `armas_mcopy(A, B, 0)` on operands of equal size succeeds, makes `A` equal to `B` and
changes no other cell. -/
theorem C05_mcopy {m : Mem α} {A B : View} {a b : Nat → Nat → α} (hAw : A.WF)
    (hA : Holds m A a) (hB : Holds m B b) (hd : Disjoint B.foot A.foot)
    (hr : A.rows = B.rows) (hc : A.cols = B.cols) :
    Runs (mcopy m A B false) (fun r => r.1 = 0 ∧ Holds r.2 A b ∧ Frame A.foot m r.2) := by
  unfold mcopy
  by_cases hv : A.isVec ∧ B.isVec
  · have hs : A.size = B.size := by simp [View.size, hr, hc]
    rw [if_pos hv, if_neg (not_not.mpr hs)]
    refine Runs.bind (vectorCopy_spec hv.1 hv.2 hAw (le_refl _) (le_of_eq hs) (holds_toV hA hv.1)
      (holds_toV hB hv.2) hd) ?_
    rintro m' ⟨h1, h2⟩
    refine Runs.pure ⟨rfl, holds_ofV hv.1 (h1.congr ?_), h2⟩
    intro k hk
    rw [if_pos hk, hr]
  · rw [if_neg hv]
    simp only [hr, hc, and_self, not_true, if_false, Bool.false_eq_true]
    refine Runs.bind (P := fun m' => Holds m' A b ∧ Frame A.foot m m') ?_
      (fun m' h => Runs.pure ⟨rfl, h.1, h.2⟩)
    rw [← hr, ← hc]
    exact copyPlain_spec hAw (le_of_eq hr) (le_of_eq hc) hA hB hd

example : Runs (mcopy (tot (fun p => (p : ℤ))) ⟨0, 7, 5, 6⟩ ⟨100, 9, 5, 6⟩ false)
    (fun r => r.1 = 0 ∧ Holds r.2 ⟨0, 7, 5, 6⟩ (fun i j => (100 + i + j * 9 : ℕ)) ∧
      Frame (View.foot ⟨0, 7, 5, 6⟩) (tot (fun p => (p : ℤ))) r.2) :=
  C05_mcopy (Or.inl (by decide)) (holds_tot _ _) (holds_tot _ _)
    (View.disj_below (by decide)).symm rfl rfl

/-- C05: `armas_mcopy(A, B, ARMAS_TRANS)` makes `A` the transpose of `B`. -/
theorem C05_mcopy_trans {m : Mem α} {A B : View} {a b : Nat → Nat → α} (hAw : A.WF)
    (hA : Holds m A a) (hB : Holds m B b) (hd : Disjoint B.foot A.foot)
    (hr : A.rows = B.cols) (hc : A.cols = B.rows) :
    Runs (mcopy m A B true)
      (fun r => r.1 = 0 ∧ Holds r.2 A (fun i j => b j i) ∧ Frame A.foot m r.2) := by
  unfold mcopy
  by_cases hv : A.isVec ∧ B.isVec
  · have hs : A.size = B.size := by simp [View.size, hr, hc, Nat.mul_comm]
    rw [if_pos hv, if_neg (not_not.mpr hs)]
    refine Runs.bind (vectorCopy_spec hv.1 hv.2 hAw (le_refl _) (le_of_eq hs) (holds_toV hA hv.1)
      (holds_toV hB hv.2) hd) ?_
    rintro m' ⟨h1, h2⟩
    refine Runs.pure ⟨rfl, holds_ofV hv.1 (h1.congr ?_), h2⟩
    intro k hk
    rw [if_pos hk]
    by_cases h1 : B.rows = 1
    · by_cases h2 : A.rows = 1
      · have : A.size = 1 := by rw [View.size_row h2, hc, h1]
        have : k = 0 := by omega
        simp [h1, h2, this]
      · simp [h1, h2]
    · have h3 : A.rows = 1 := by rw [hr]; exact hv.2.resolve_left h1
      simp [h1, h3]
  · rw [if_neg hv]
    simp only [hr, hc, and_self, not_true, if_false, if_true]
    refine Runs.bind (P := fun m' => Holds m' A (fun i j => b j i) ∧ Frame A.foot m m') ?_
      (fun m' h => Runs.pure ⟨rfl, h.1, h.2⟩)
    rw [← hr, ← hc]
    exact copyTrans4x1_spec hAw (le_of_eq hc) (le_of_eq hr) hA hB hd

example : Runs (mcopy (tot (fun p => (p : ℤ))) ⟨0, 7, 7, 6⟩ ⟨100, 9, 6, 7⟩ true)
    (fun r => r.1 = 0 ∧ Holds r.2 ⟨0, 7, 7, 6⟩ (fun i j => (100 + j + i * 9 : ℕ)) ∧
      Frame (View.foot ⟨0, 7, 7, 6⟩) (tot (fun p => (p : ℤ))) r.2) :=
  C05_mcopy_trans (Or.inl (by decide)) (holds_tot _ _) (holds_tot _ _)
    (View.disj_below (by decide)).symm rfl rfl

/-- C05: between vectors of equal length, in whatever orientation, elements are copied in order. -/
theorem C05_mcopy_vector {m : Mem α} {A B : View} {a b : Nat → α} (trans : Bool) (hAw : A.WF)
    (hAv : A.isVec) (hBv : B.isVec)
    (hA : HoldsV m A a) (hB : HoldsV m B b) (hd : Disjoint B.foot A.foot) (hs : A.size = B.size) :
    Runs (mcopy m A B trans) (fun r => r.1 = 0 ∧ HoldsV r.2 A b ∧ Frame A.foot m r.2) := by
  unfold mcopy
  rw [if_pos ⟨hAv, hBv⟩, if_neg (not_not.mpr hs)]
  refine Runs.bind (vectorCopy_spec hAv hBv hAw (le_refl _) (le_of_eq hs) hA hB hd) ?_
  rintro m' ⟨h1, h2⟩
  exact Runs.pure ⟨rfl, h1.congr (fun k hk => by rw [if_pos hk]), h2⟩

example : Runs (mcopy (tot (fun p => (p : ℤ))) ⟨0, 3, 1, 6⟩ ⟨100, 9, 6, 1⟩ false)
    (fun r => r.1 = 0 ∧ HoldsV r.2 ⟨0, 3, 1, 6⟩ (fun k => (100 + k * 1 : ℕ)) ∧
      Frame (View.foot ⟨0, 3, 1, 6⟩) (tot (fun p => (p : ℤ))) r.2) :=
  C05_mcopy_vector false (Or.inl (by decide)) (by decide) (by decide) (holdsV_tot _ _)
    (holdsV_tot _ _) (View.disj_below (by decide)).symm rfl

/-- C05: on a size mismatch nothing is changed and an error is returned. -/
theorem C05_mcopy_mismatch {m : Mem α} {A B : View} (trans : Bool)
    (h : if A.isVec ∧ B.isVec then A.size ≠ B.size
      else if trans then ¬ (A.rows = B.cols ∧ A.cols = B.rows)
      else ¬ (A.rows = B.rows ∧ A.cols = B.cols)) :
    mcopy m A B trans = .ok (-1, m) := by
  unfold mcopy
  by_cases hv : A.isVec ∧ B.isVec
  · rw [if_pos hv] at h ⊢
    rw [if_pos h]; rfl
  · rw [if_neg hv] at h ⊢
    cases trans
    · simp only [Bool.false_eq_true, if_false] at h ⊢
      rw [if_pos h]; rfl
    · simp only [if_true] at h ⊢
      rw [if_pos h]; rfl

example : mcopy (tot (fun p => (p : ℤ))) ⟨0, 3, 3, 4⟩ ⟨100, 4, 4, 3⟩ false
    = .ok (-1, tot (fun p => (p : ℤ))) := C05_mcopy_mismatch false (by decide)

/-- C05: `armas_copy(Y, X)` copies as many elements as the shorter vector has. -/
theorem C05_copy {m : Mem α} {Y X : View} {y x : Nat → α} (hYw : Y.WF) (hYv : Y.isVec)
    (hXv : X.isVec) (hY : HoldsV m Y y) (hX : HoldsV m X x) (hd : Disjoint X.foot Y.foot) :
    Runs (copyVec m Y X) (fun r => r.1 = 0 ∧
      HoldsV r.2 Y (fun k => if k < X.size then x k else y k) ∧ Frame Y.foot m r.2) := by
  unfold copyVec
  by_cases h0 : X.size = 0 ∨ Y.size = 0
  · rw [if_pos h0]
    refine Runs.ok ⟨rfl, hY.congr (fun k hk => ?_), Frame.refl _ _⟩
    rw [if_neg (by omega)]
  · rw [if_neg h0, if_neg (not_not.mpr ⟨hXv, hYv⟩)]
    refine Runs.bind (vectorCopy_spec (N := if X.size < Y.size then X.size else Y.size) hYv hXv hYw
      (by split <;> omega) (by split <;> omega) hY hX hd) ?_
    rintro m' ⟨h1, h2⟩
    refine Runs.pure ⟨rfl, h1.congr (fun k hk => ?_), h2⟩
    have : (k < if X.size < Y.size then X.size else Y.size) ↔ k < X.size := by split <;> omega
    simp only [this]

example : Runs (copyVec (tot (fun p => (p : ℤ))) ⟨0, 3, 1, 6⟩ ⟨100, 9, 4, 1⟩)
    (fun r => r.1 = 0 ∧ HoldsV r.2 ⟨0, 3, 1, 6⟩
      (fun k => if k < 4 then ((100 + k * 1 : ℕ) : ℤ) else ((0 + k * 3 : ℕ) : ℤ)) ∧
      Frame (View.foot ⟨0, 3, 1, 6⟩) (tot (fun p => (p : ℤ))) r.2) :=
  C05_copy (Or.inl (by decide)) (by decide) (by decide) (holdsV_tot _ _)
    (holdsV_tot _ _) (View.disj_below (by decide)).symm

/-! ## C06 -/

/-- C06: `armas_axpby`: `y[k] := beta*y[k] + alpha*x[k]`, nothing else changes. -/
theorem C06_axpby [CommRing α] {m : Mem α} {X Y : View} {x y : Nat → α} (beta alpha : α)
    (hX : X.isVec) (hY : Y.isVec) (hYw : Y.WF) (hs : X.size = Y.size)
    (hx : HoldsV m X x) (hy : HoldsV m Y y) (hd : Disjoint X.foot Y.foot) :
    Runs (axpby m beta Y alpha X) (fun r => r.1 = 0 ∧
      HoldsV r.2 Y (fun k => beta * y k + alpha * x k) ∧ Frame Y.foot m r.2) := by
  unfold axpby
  rw [if_neg (not_not.mpr ⟨hX, hY⟩), if_neg (not_not.mpr hs)]
  refine Runs.bind (axpbyUnsafe_spec beta alpha hX hY hYw (le_of_eq hs.symm) hx hy hd) ?_
  rintro m' ⟨h1, h2⟩
  exact Runs.pure ⟨rfl, h1.congr (fun k _ => by ring), h2⟩

example : Runs (axpby (tot (fun p => (p : ℤ))) 2 ⟨0, 3, 1, 6⟩ (-1) ⟨100, 9, 6, 1⟩)
    (fun r => r.1 = 0 ∧ HoldsV r.2 ⟨0, 3, 1, 6⟩
      (fun k => 2 * ((0 + k * 3 : ℕ) : ℤ) + (-1) * ((100 + k * 1 : ℕ) : ℤ)) ∧
      Frame (View.foot ⟨0, 3, 1, 6⟩) (tot (fun p => (p : ℤ))) r.2) :=
  C06_axpby 2 (-1) (by decide) (by decide) (Or.inl (by decide)) rfl (holdsV_tot _ _)
    (holdsV_tot _ _) (View.disj_below (by decide)).symm

/-- C06, both operands the same vector. -/
theorem C06_axpby_self [CommRing α] {m : Mem α} {Y : View} {y : Nat → α} (beta alpha : α)
    (hY : Y.isVec) (hYw : Y.WF) (hy : HoldsV m Y y) :
    Runs (axpby m beta Y alpha Y) (fun r => r.1 = 0 ∧
      HoldsV r.2 Y (fun k => beta * y k + alpha * y k) ∧ Frame Y.foot m r.2) := by
  unfold axpby
  rw [if_neg (not_not.mpr ⟨hY, hY⟩), if_neg (not_not.mpr rfl)]
  refine Runs.bind (axpbyUnsafe_self_spec beta alpha hY hYw hy) ?_
  rintro m' ⟨h1, h2⟩
  exact Runs.pure ⟨rfl, h1.congr (fun k _ => by ring), h2⟩

example : Runs (axpby (tot (fun p => (p : ℤ))) 2 ⟨0, 3, 1, 7⟩ 5 ⟨0, 3, 1, 7⟩)
    (fun r => r.1 = 0 ∧ HoldsV r.2 ⟨0, 3, 1, 7⟩
      (fun k => 2 * ((0 + k * 3 : ℕ) : ℤ) + 5 * ((0 + k * 3 : ℕ) : ℤ)) ∧
      Frame (View.foot ⟨0, 3, 1, 7⟩) (tot (fun p => (p : ℤ))) r.2) :=
  C06_axpby_self 2 5 (by decide) (Or.inl (by decide)) (holdsV_tot _ _)

/-- C06: `armas_axpy`: `y[k] := y[k] + alpha*x[k]`. -/
theorem C06_axpy [CommRing α] {m : Mem α} {X Y : View} {x y : Nat → α} (alpha : α)
    (hX : X.isVec) (hY : Y.isVec) (hYw : Y.WF) (hs : X.size = Y.size)
    (hx : HoldsV m X x) (hy : HoldsV m Y y) (hd : Disjoint X.foot Y.foot) :
    Runs (axpy m Y alpha X) (fun r => r.1 = 0 ∧
      HoldsV r.2 Y (fun k => y k + alpha * x k) ∧ Frame Y.foot m r.2) := by
  refine (C06_axpby 1 alpha hX hY hYw hs hx hy hd).mono ?_
  rintro r ⟨h1, h2, h3⟩
  exact ⟨h1, h2.congr (fun k _ => by rw [one_mul]), h3⟩

example : Runs (axpy (tot (fun p => (p : ℤ))) ⟨0, 9, 6, 1⟩ 4 ⟨100, 9, 1, 6⟩)
    (fun r => r.1 = 0 ∧ HoldsV r.2 ⟨0, 9, 6, 1⟩
      (fun k => ((0 + k * 1 : ℕ) : ℤ) + 4 * ((100 + k * 9 : ℕ) : ℤ)) ∧
      Frame (View.foot ⟨0, 9, 6, 1⟩) (tot (fun p => (p : ℤ))) r.2) :=
  C06_axpy 4 (by decide) (by decide) (Or.inl (by decide)) rfl (holdsV_tot _ _)
    (holdsV_tot _ _) (View.disj_below (by decide)).symm

/-- C06: operands that are not vectors, or of different length, are rejected without any change. -/
theorem C06_axpby_error [CommRing α] {m : Mem α} {X Y : View} (beta alpha : α)
    (h : ¬ (X.isVec ∧ Y.isVec) ∨ X.size ≠ Y.size) :
    ∃ e : Int, e < 0 ∧ axpby m beta Y alpha X = .ok (e, m) := by
  unfold axpby
  by_cases hv : X.isVec ∧ Y.isVec
  · rw [if_neg (not_not.mpr hv), if_pos (h.resolve_left (not_not.mpr hv))]
    exact ⟨_, by decide, rfl⟩
  · rw [if_pos hv]
    exact ⟨_, by decide, rfl⟩

example : ∃ e : Int, e < 0 ∧ axpby (tot (fun p => (p : ℤ))) 1 ⟨0, 9, 6, 1⟩ 4 ⟨100, 9, 1, 7⟩
    = .ok (e, tot (fun p => (p : ℤ))) := C06_axpby_error 1 4 (Or.inr (by decide))

/-- C06: `armas_scale`: `x[k] := alpha*x[k]`; an empty vector is a no-op. -/
theorem C06_scale [CommRing α] {m : Mem α} {X : View} {x : Nat → α} (alpha : α)
    (hX : X.isVec) (hXw : X.WF) (hx : HoldsV m X x) :
    Runs (scale m X alpha) (fun r => r.1 = 0 ∧
      HoldsV r.2 X (fun k => alpha * x k) ∧ Frame X.foot m r.2) := by
  unfold scale
  by_cases h0 : X.size = 0
  · rw [if_pos h0]
    exact Runs.ok ⟨rfl, fun k hk => by omega, Frame.refl _ _⟩
  · rw [if_neg h0, if_neg (not_not.mpr hX)]
    refine Runs.bind (vecScale_spec alpha hX hXw (le_refl _) hx) ?_
    rintro m' ⟨h1, h2⟩
    exact Runs.pure ⟨rfl, h1.congr (fun k hk => by rw [if_pos hk, mul_comm]), h2⟩

example : Runs (scale (tot (fun p => (p : ℤ))) ⟨0, 3, 1, 7⟩ 5)
    (fun r => r.1 = 0 ∧ HoldsV r.2 ⟨0, 3, 1, 7⟩ (fun k => 5 * ((0 + k * 3 : ℕ) : ℤ)) ∧
      Frame (View.foot ⟨0, 3, 1, 7⟩) (tot (fun p => (p : ℤ))) r.2) :=
  C06_scale 5 (by decide) (Or.inl (by decide)) (holdsV_tot _ _)

/-! ## C07 -/

/-- C07: `armas_adot` adds `alpha * Σ x[k]*y[k]` to `*value`, for every recursion threshold,
summation option, stride and orientation; the recursion depth is at most `size + 1`. -/
theorem C07_adot [CommRing α] {m : Mem α} {X Y : View} {x y : Nat → α} (blas1min : Nat)
    (naive : Bool) (value alpha : α) (hX : X.isVec) (hY : Y.isVec) (hs : X.size = Y.size)
    (hx : HoldsV m X x) (hy : HoldsV m Y y) (fuel : Nat) (hf : X.size < fuel) :
    adot fuel m blas1min naive value alpha X Y
      = .ok (0, value + alpha * ∑ k ∈ range X.size, x k * y k) := by
  have e : ∑ k ∈ range X.size, x k * y k = ∑ k ∈ range Y.size, y k * x k := by
    rw [hs]; exact sum_congr rfl (fun k _ => mul_comm _ _)
  unfold adot
  rw [if_neg (not_not.mpr hX), if_neg (not_not.mpr hY), if_neg (not_not.mpr hs), e]
  by_cases hn : naive ∨ blas1min = 0
  · rw [if_pos hn, vecDot_spec (le_refl _) (le_of_eq hs.symm) hy hx]; rfl
  · rw [if_neg hn]
    have hn' := not_or.mp hn
    rw [vecDotRec_spec (by omega) fuel Y.size (by omega) hY hX (le_refl _) (le_of_eq hs.symm) hy hx]
    rfl

example : adot 8 (tot (fun p => (p : ℤ))) 2 false 10 3 ⟨0, 3, 1, 7⟩ ⟨100, 9, 7, 1⟩
    = .ok (0, 10 + 3 * ∑ k ∈ range (View.size ⟨0, 3, 1, 7⟩),
      (View.vat ⟨0, 3, 1, 7⟩ k : ℤ) * (View.vat ⟨100, 9, 7, 1⟩ k : ℤ)) :=
  C07_adot (x := fun k => (View.vat ⟨0, 3, 1, 7⟩ k : ℤ)) (y := fun k => (View.vat ⟨100, 9, 7, 1⟩ k : ℤ))
    2 false 10 3 (by decide) (by decide) (by rfl) (holdsV_tot _ _) (holdsV_tot _ _) 8 (by decide)

/-- C07: `armas_dot` is the sum of the products. -/
theorem C07_dot [CommRing α] {m : Mem α} {X Y : View} {x y : Nat → α} (blas1min : Nat)
    (naive : Bool) (hX : X.isVec) (hY : Y.isVec) (hs : X.size = Y.size)
    (hx : HoldsV m X x) (hy : HoldsV m Y y) (fuel : Nat) (hf : X.size < fuel) :
    dot fuel m blas1min naive X Y = .ok (∑ k ∈ range X.size, x k * y k) := by
  unfold dot
  rw [C07_adot blas1min naive 0 1 hX hY hs hx hy fuel hf]
  simp

example : dot 8 (tot (fun p => (p : ℤ))) 2 false ⟨0, 3, 1, 7⟩ ⟨100, 9, 7, 1⟩
    = .ok (∑ k ∈ range (View.size ⟨0, 3, 1, 7⟩),
      (View.vat ⟨0, 3, 1, 7⟩ k : ℤ) * (View.vat ⟨100, 9, 7, 1⟩ k : ℤ)) :=
  C07_dot (x := fun k => (View.vat ⟨0, 3, 1, 7⟩ k : ℤ)) (y := fun k => (View.vat ⟨100, 9, 7, 1⟩ k : ℤ))
    2 false (by decide) (by decide) (by rfl) (holdsV_tot _ _) (holdsV_tot _ _) 8 (by decide)

/-- C07: non-vectors and different lengths give an error and leave `*value` alone. -/
theorem C07_adot_error [CommRing α] {m : Mem α} {X Y : View} (blas1min : Nat)
    (naive : Bool) (value alpha : α) (fuel : Nat)
    (h : ¬ X.isVec ∨ ¬ Y.isVec ∨ X.size ≠ Y.size) :
    adot fuel m blas1min naive value alpha X Y = .ok (-1, value) := by
  unfold adot
  by_cases h1 : X.isVec
  · rw [if_neg (not_not.mpr h1)]
    by_cases h2 : Y.isVec
    · rw [if_neg (not_not.mpr h2), if_pos]
      rcases h with h | h | h
      · exact absurd h1 h
      · exact absurd h2 h
      · exact h
    · rw [if_pos h2]
  · rw [if_pos h1]

example : adot 8 (tot (fun p => (p : ℤ))) 2 false 10 3 ⟨0, 3, 1, 7⟩ ⟨100, 9, 6, 1⟩ = .ok (-1, 10) :=
  C07_adot_error 2 false 10 3 8 (Or.inr (Or.inr (by decide)))

/-! ## C08 -/

section
variable [Field α] [LinearOrder α]

/-- C08: `armas_asum` is the sum of absolute values for every summation method and every
positive recursion threshold. -/
theorem C08_asum {m : Mem α} {X : View} {x : Nat → α} (blas1min : Nat) (opt : SumOpt)
    (hmin : 0 < blas1min) (hX : X.isVec) (hx : HoldsV m X x) (fuel : Nat) (hf : X.size < fuel) :
    asum fuel m blas1min opt X = .ok (∑ k ∈ range X.size, |x k|) := by
  unfold asum
  rw [if_neg (not_not.mpr hX)]
  cases opt
  · exact vecAsum_spec (le_refl _) hx
  · exact vecAsumKahan_spec (le_refl _) hx
  · exact vecAsumRec_spec hmin fuel _ hf hX (le_refl _) hx

/-- C08: a zero threshold (which `armas_asum`, unlike `armas_adot`, does not guard against) makes
the recursive summation run forever, whatever the vector.  `armas_env_init` never stores 0, so this
is a precondition on the environment. -/
theorem C08_asum_threshold_zero_diverges (fuel : Nat) (m : Mem α) (X : View) (hX : X.isVec) :
    asum fuel m 0 .recursive X = .diverge := by
  unfold asum
  rw [if_neg (not_not.mpr hX)]
  have : ∀ fuel (X : View) n, vecAsumRec m 0 fuel X n = .diverge := by
    intro fuel
    induction fuel with
    | zero => intros; rfl
    | succ f ih =>
      intro X n
      rw [vecAsumRec, if_neg (by omega), if_neg (by omega), if_neg (by omega), ih]
      rfl
  exact this fuel X _

variable [IsStrictOrderedRing α]

/-- C08: `armas_iamax` returns the first index whose absolute value is maximal. -/
theorem C08_iamax {m : Mem α} {X : View} {x : Nat → α} (hX : X.isVec) (h0 : 0 < X.size)
    (hx : HoldsV m X x) :
    Runs (iamax m X) (fun r => ∃ i : Nat, r = i ∧ i < X.size ∧ (∀ k, k < X.size → |x k| ≤ |x i|) ∧
      ∀ k, k < i → |x k| < |x i|) := by
  unfold iamax
  rw [if_neg (not_not.mpr hX), if_neg (by omega)]
  exact Runs.bind (vecIamax2_spec (le_refl _) h0 hx) (fun i h => Runs.pure ⟨i, rfl, h⟩)

/-- C08: `armas_amax` is the maximal absolute value. -/
theorem C08_amax {m : Mem α} {X : View} {x : Nat → α} (hX : X.isVec) (h0 : 0 < X.size)
    (hx : HoldsV m X x) :
    Runs (amax m X) (fun v => (∀ k, k < X.size → |x k| ≤ v) ∧ ∃ k, k < X.size ∧ v = |x k|) := by
  unfold amax
  refine Runs.bind (C08_iamax hX h0 hx) ?_
  rintro r ⟨i, rfl, h1, h2, -⟩
  rw [if_pos (by omega)]
  refine Runs.rd_bind (v := x i) (by simpa using hx i h1) ?_
  exact Runs.pure ⟨h2, i, h1, rfl⟩

omit [IsStrictOrderedRing α] in
/-- C08: `armas_iamin` returns an index of minimal absolute value, provided the elements are
adjacent in memory (column vectors, or row vectors of stride 1).  Missing: row vectors of larger
stride, for which it is false (`C08_iamin_row_false`). -/
theorem C08_iamin_partial {m : Mem α} {X : View} {x : Nat → α} (hX : X.isVec) (h0 : 0 < X.size)
    (hinc : X.rows ≠ 1 ∨ X.step = 1) (hx : HoldsV m X x) :
    Runs (iamin m X) (fun r => ∃ i : Nat, r = i ∧ i < X.size ∧ (∀ k, k < X.size → |x i| ≤ |x k|) ∧
      ∀ k, k < i → |x i| < |x k|) := by
  unfold iamin
  rw [if_neg (not_not.mpr hX), if_neg (by omega)]
  have : X.inc = 1 := by
    simp only [View.inc]
    split
    · rename_i h; exact hinc.resolve_left (not_not.mpr h)
    · rfl
  exact Runs.bind (vecIamin2_spec (le_refl _) h0 this hx) (fun i h => Runs.pure ⟨i, rfl, h⟩)

end

example : asum 8 (tot (fun p => -(p : ℚ))) 2 .recursive ⟨0, 3, 1, 7⟩
    = .ok (∑ k ∈ range 7, |-((0 + k * 3 : ℕ) : ℚ)|) :=
  C08_asum 2 .recursive (by decide) (by decide) (holdsV_tot _ _) 8 (by decide)

example (fuel : Nat) : asum fuel (tot (fun p => (p : ℚ))) 0 .recursive ⟨0, 3, 1, 7⟩ = .diverge :=
  C08_asum_threshold_zero_diverges fuel _ _ (by decide)

example : Runs (iamax (tot (fun p => (p : ℚ) - 9)) ⟨0, 3, 1, 7⟩) (fun r => ∃ i : Nat, r = i ∧ i < 7 ∧
    (∀ k, k < 7 → |((0 + k * 3 : ℕ) : ℚ) - 9| ≤ |((0 + i * 3 : ℕ) : ℚ) - 9|) ∧
      ∀ k, k < i → |((0 + k * 3 : ℕ) : ℚ) - 9| < |((0 + i * 3 : ℕ) : ℚ) - 9|) :=
  C08_iamax (by decide) (by decide) (holdsV_tot _ _)

example : Runs (amax (tot (fun p => (p : ℚ) - 9)) ⟨0, 3, 1, 7⟩) (fun v =>
    (∀ k, k < 7 → |((0 + k * 3 : ℕ) : ℚ) - 9| ≤ v) ∧ ∃ k, k < 7 ∧ v = |((0 + k * 3 : ℕ) : ℚ) - 9|) :=
  C08_amax (by decide) (by decide) (holdsV_tot _ _)

example : Runs (iamin (tot (fun p => (p : ℚ) - 3)) ⟨0, 7, 7, 1⟩) (fun r => ∃ i : Nat, r = i ∧ i < 7 ∧
    (∀ k, k < 7 → |((0 + i * 1 : ℕ) : ℚ) - 3| ≤ |((0 + k * 1 : ℕ) : ℚ) - 3|) ∧
      ∀ k, k < i → |((0 + i * 1 : ℕ) : ℚ) - 3| < |((0 + k * 1 : ℕ) : ℚ) - 3|) :=
  C08_iamin_partial (by decide) (by decide) (Or.inl (by decide)) (holdsV_tot _ _)

/-- C08 is false for `armas_iamin` on row vectors: the 1x3 row `(5, 1, 7)` of stride 2 stored as
`5 9 1 9 7`; the answer is index 0, although element 1 is smaller. -/
theorem C08_iamin_row_false :
    ∃ (m : Mem ℚ) (X : View) (x : Nat → ℚ), X.isVec ∧ X.WF ∧ HoldsV m X x ∧
      iamin m X = .ok 0 ∧ 1 < X.size ∧ |x 1| < |x 0| := by
  let g : Nat → ℚ := fun p => if p = 0 then 5 else if p = 2 then 1 else if p = 4 then 7 else 9
  refine ⟨tot g, ⟨0, 2, 1, 3⟩, _, by decide, Or.inl (by decide), holdsV_tot _ _, ?_, by decide, ?_⟩
  · have hs : View.size ⟨0, 2, 1, 3⟩ = 3 := rfl
    have hi : View.inc ⟨0, 2, 1, 3⟩ = 2 := rfl
    unfold iamin vecIamin2
    rw [if_neg (by decide), if_neg (by decide), hs, if_neg (by decide), hi]
    simp [forUp, forUpN, rd, tot, g]
    norm_num
  · simp [View.vat, View.inc, g]

/-- C08: `armas_nrm2` is the Euclidean norm (over the reals, with the exact square root). -/
theorem C08_nrm2 {m : Mem ℝ} {X : View} {x : Nat → ℝ} (hX : X.isVec) (hx : HoldsV m X x) :
    nrm2 Real.sqrt m X = .ok (Real.sqrt (∑ k ∈ range X.size, x k ^ 2)) := by
  obtain ⟨v, e, h0, h1⟩ := nrm2_spec Real.sqrt hX
    (fun v hv => ⟨Real.sqrt_nonneg v, Real.mul_self_sqrt hv⟩) hx
  rw [e]
  have : ∑ k ∈ range X.size, x k ^ 2 = v ^ 2 := by
    rw [sq v, h1]; exact sum_congr rfl (fun k _ => sq _)
  rw [this, Real.sqrt_sq h0]

example : nrm2 Real.sqrt (tot (fun p => (p : ℝ) - 4)) ⟨0, 3, 1, 7⟩
    = .ok (Real.sqrt (∑ k ∈ range 7, (((0 + k * 3 : ℕ) : ℝ) - 4) ^ 2)) :=
  C08_nrm2 (by decide) (holdsV_tot _ _)

/-! ## C09 -/

/-- C09: `armas_swap` exchanges the vectors and touches nothing else. -/
theorem C09_swap {m : Mem α} {X Y : View} {x y : Nat → α} (hX : X.isVec) (hY : Y.isVec)
    (hXw : X.WF) (hYw : Y.WF) (hs : X.size = Y.size) (hx : HoldsV m X x) (hy : HoldsV m Y y)
    (hd : Disjoint X.foot Y.foot) :
    Runs (swap m X Y) (fun r => r.1 = 0 ∧ HoldsV r.2 X y ∧ HoldsV r.2 Y x ∧
      Frame (X.foot ∪ Y.foot) m r.2) := by
  unfold swap
  rw [if_neg (not_not.mpr hY), if_neg (not_not.mpr hX), if_neg (not_not.mpr hs.symm)]
  by_cases h0 : Y.size = 0 ∨ X.size = 0
  · rw [if_pos h0]
    exact Runs.ok ⟨rfl, fun k hk => by omega, fun k hk => by omega, Frame.refl _ _⟩
  · rw [if_neg h0]
    exact Runs.bind (vecSwap_spec hX hY hXw hYw hs hx hy hd) (fun m' h => Runs.pure ⟨rfl, h⟩)

example : Runs (swap (tot (fun p => (p : ℤ))) ⟨0, 3, 1, 7⟩ ⟨100, 9, 7, 1⟩) (fun r => r.1 = 0 ∧
    HoldsV r.2 ⟨0, 3, 1, 7⟩ (fun k => ((100 + k * 1 : ℕ) : ℤ)) ∧
    HoldsV r.2 ⟨100, 9, 7, 1⟩ (fun k => ((0 + k * 3 : ℕ) : ℤ)) ∧
    Frame (View.foot ⟨0, 3, 1, 7⟩ ∪ View.foot ⟨100, 9, 7, 1⟩) (tot (fun p => (p : ℤ))) r.2) :=
  C09_swap (by decide) (by decide) (Or.inl (by decide)) (Or.inl (by decide)) rfl (holdsV_tot _ _)
    (holdsV_tot _ _) (View.disj_below (by decide))

/-- C09: swapping twice restores the whole memory. -/
theorem C09_swap_involutive {m : Mem α} {X Y : View} {x y : Nat → α} (hX : X.isVec) (hY : Y.isVec)
    (hXw : X.WF) (hYw : Y.WF) (hs : X.size = Y.size) (hx : HoldsV m X x) (hy : HoldsV m Y y)
    (hd : Disjoint X.foot Y.foot) :
    Runs (swap m X Y) (fun r => Runs (swap r.2 X Y) (fun r' => r' = (0, m))) := by
  refine (C09_swap hX hY hXw hYw hs hx hy hd).mono ?_
  rintro r ⟨-, h1, h2, h3⟩
  refine (C09_swap hX hY hXw hYw hs h1 h2 hd).mono ?_
  rintro ⟨e, m''⟩ ⟨h4, h5, h6, h7⟩
  dsimp only at h4 h5 h6 h7
  have : m'' = m := by
    funext p
    by_cases hp : p ∈ X.foot ∪ Y.foot
    · rcases hp with hp | hp
      · rw [View.foot_vec hX] at hp
        obtain ⟨k, hk, rfl⟩ := hp
        rw [h5 k hk, hx k hk]
      · rw [View.foot_vec hY] at hp
        obtain ⟨k, hk, rfl⟩ := hp
        rw [h6 k hk, hy k hk]
    · rw [h7 p hp, h3 p hp]
  rw [h4, this]

example : Runs (swap (tot (fun p => (p : ℤ))) ⟨0, 3, 1, 7⟩ ⟨100, 9, 7, 1⟩) (fun r =>
    Runs (swap r.2 ⟨0, 3, 1, 7⟩ ⟨100, 9, 7, 1⟩) (fun r' => r' = (0, tot (fun p => (p : ℤ))))) :=
  C09_swap_involutive (by decide) (by decide) (Or.inl (by decide)) (Or.inl (by decide)) rfl
    (holdsV_tot _ _) (holdsV_tot _ _) (View.disj_below (by decide))

/-- C09: unequal lengths (and non-vectors) are rejected without any change. -/
theorem C09_swap_error {m : Mem α} {X Y : View} (h : ¬ X.isVec ∨ ¬ Y.isVec ∨ X.size ≠ Y.size) :
    ∃ e : Int, e < 0 ∧ swap m X Y = .ok (e, m) := by
  unfold swap
  by_cases h1 : Y.isVec
  · rw [if_neg (not_not.mpr h1)]
    by_cases h2 : X.isVec
    · rw [if_neg (not_not.mpr h2), if_pos]
      · exact ⟨_, by decide, rfl⟩
      · rcases h with h | h | h
        · exact absurd h2 h
        · exact absurd h1 h
        · exact h.symm
    · rw [if_pos h2]; exact ⟨_, by decide, rfl⟩
  · rw [if_pos h1]; exact ⟨_, by decide, rfl⟩

example : ∃ e : Int, e < 0 ∧ swap (tot (fun p => (p : ℤ))) ⟨0, 3, 1, 7⟩ ⟨100, 9, 6, 1⟩
    = .ok (e, tot (fun p => (p : ℤ))) := C09_swap_error (Or.inr (Or.inr (by decide)))

end Armas.Props
