import Verif.SparseSymLemmas
import Verif.Props.SparseMv

/-!
# Property C71: symmetric sparse matrix times vector
-/

namespace Armas.Props

open Armas Finset

variable {α : Type}

/-- C71 for a square matrix whose rows (columns) are sorted and contain their diagonal element (`C71_empty_column_false` shows what happens
otherwise) and operands of the right size: for both formats `armassp_mvmult_sym` computes `y = beta*y + alpha*S*x`, where `S` is the symmetric
matrix given by the upper triangle of `A` with `ARMAS_UPPER` and by the lower triangle otherwise; elements stored outside the triangle have no
influence; only `y` changes. -/
theorem C71_mvmult_sym_partial [Field α] [DecidableEq α] {A : Sp α} {n N : Nat} {e : Nat → Ent α} {upper lower trans : Bool}
    (T : Triangular A n N e true) {X Y : View} {m : Mem α} {x y : Nat → α} (beta alpha : α) (hXc : X.cols = 1) (hYc : Y.cols = 1)
    (hYr : Y.rows = n) (hXr : X.rows = n) (hy : HoldsV m Y y) (hx : HoldsV m X x) (hd : Disjoint Y.foot X.foot) :
    Runs (spMvmultSym beta Y alpha A X upper lower trans m) (fun r => r.1 = 0 ∧ Frame Y.foot m r.2 ∧
      HoldsV r.2 Y (fun i => beta * y i + alpha * ∑ j ∈ range n, symm (upper && !lower) (dense N e) i j * x j)) := by
  have hdj := View.colDisj hXc hYc hd
  rw [← vecAt_col hYc, hYr] at hy
  rw [← vecAt_col hXc, hXr] at hx
  rw [hYr, hXr] at hdj
  unfold spMvmultSym
  have hok : spMvOk Y.size X.size A trans = true := by
    unfold spMvOk
    rw [View.colSize hXc, View.colSize hYc, hXr, hYr, T.rows, T.cols]
    cases trans <;> simp
  rw [if_neg T.kind, hok, View.colFoot hYc, hYr]
  simp only [Bool.not_true, Bool.false_eq_true, if_false]
  have fin : ∀ {r : Res (Mem α)} {s : Nat → α} {m0 : Mem α}, Runs r (fun m' => VecAt m' Y.base n s ∧ Frame (rng Y.base n) m0 m') → m0 = m →
      (∀ i, i < n → s i = beta * y i + alpha * ∑ j ∈ range n, symm (upper && !lower) (dense N e) i j * x j) →
      Runs (r >>= fun m => pure ((0 : Int), m)) (fun r => r.1 = 0 ∧ Frame (rng Y.base n) m r.2 ∧
        HoldsV r.2 Y (fun i => beta * y i + alpha * ∑ j ∈ range n, symm (upper && !lower) (dense N e) i j * x j)) := by
    rintro r s _ h rfl hs
    refine Runs.bind h fun m' h' => Runs.pure ⟨rfl, h'.2, ?_⟩
    rw [← vecAt_col hYc, hYr]
    exact h'.1.congr hs
  cases hk : A.kind with
  | coo => exact absurd hk T.kind
  | csr =>
    have M := triMat_csr T hk
    simp only [if_true]
    cases hu : (upper && !lower) with
    | true =>
      rw [hu] at fin
      simp only [if_true]
      exact fin (cscMvmultLsym_spec M.comp M.sd T.rows T.cols beta alpha hy hx hdj) rfl fun i hi => by rw [symAdd_lower hi]
    | false =>
      rw [hu] at fin
      simp only [Bool.false_eq_true, if_false]
      exact fin (cscMvmultUsym_spec M.comp M.sd T.rows T.cols beta alpha hy hx hdj) rfl fun i hi => by rw [symAdd_upper hi]
  | csc =>
    have M := triMat_csc T hk
    simp only [show ¬ (SpKind.csc = SpKind.csr) by decide, if_false]
    cases hu : (upper && !lower) with
    | true =>
      rw [hu] at fin
      simp only [if_true]
      refine fin (cscMvmultUsym_spec M.comp M.sd T.rows T.cols beta alpha hy hx hdj) rfl fun i hi => ?_
      rw [symAdd_upper hi]; simp only [symm_flip, Bool.not_false]
    | false =>
      rw [hu] at fin
      simp only [Bool.false_eq_true, if_false]
      refine fin (cscMvmultLsym_spec M.comp M.sd T.rows T.cols beta alpha hy hx hdj) rfl fun i hi => ?_
      rw [symAdd_lower hi]; simp only [symm_flip, Bool.not_true]

example := C71_mvmult_sym_partial (upper := true) (lower := false) (trans := false) (demoTri_is true) (Y := ⟨0, 3, 3, 1⟩) (X := ⟨100, 3, 3, 1⟩)
  (m := tot (fun p => (p : ℚ))) 2 3 rfl rfl rfl rfl (holdsV_tot _ _) (holdsV_tot _ _) (View.disj_below (by decide))

/-- Operands that are rejected: a matrix in coordinate format; `x` of wrong size for a square matrix. -/
theorem C71_reject_partial [Field α] [DecidableEq α] {A : Sp α} {X Y : View} {m : Mem α} {upper lower trans : Bool} {beta alpha : α}
    (h : A.kind = .coo ∨ (A.rows = A.cols ∧ X.size ≠ A.rows)) :
    ∃ c : Int, c < 0 ∧ spMvmultSym beta Y alpha A X upper lower trans m = .ok (c, m) := by
  unfold spMvmultSym
  rcases h with h | ⟨h1, h2⟩
  · rw [if_pos h]; exact ⟨_, by decide, rfl⟩
  · by_cases hk : A.kind = .coo
    · rw [if_pos hk]; exact ⟨_, by decide, rfl⟩
    · rw [if_neg hk, if_pos]
      · exact ⟨_, by decide, rfl⟩
      · unfold spMvOk
        rw [← h1]
        simp [h2]

example : ∃ c : Int, c < 0 ∧ spMvmultSym 2 ⟨0, 3, 3, 1⟩ 3 demoTri ⟨100, 4, 4, 1⟩ true false false (tot (fun p => (p : ℚ))) =
    .ok (c, tot (fun p => (p : ℚ))) := C71_reject_partial (Or.inr ⟨rfl, by decide⟩)

/-- `y` of wrong size is accepted for a square matrix and written out of bounds: one element of `y` for the 2 × 2 unit matrix. -/
theorem C71_reject_false :
    isUB (spMvmultSym 1 ⟨0, 1, 1, 1⟩ (1 : ℚ)
      ⟨.csr, 2, 2, 2, 2, 2, 36, 2, 3, fun k => [(1 : ℚ), 1][k]?, fun k => [0, 1, 2][k]?, fun k => [0, 1][k]?, noMem⟩ ⟨10, 2, 2, 1⟩ false true false
      (fun p => if p < 1 then some 7 else if p = 10 ∨ p = 11 then some 1 else none)) = true := by decide +kernel

/-- A column without an element on or below the diagonal.  The code reads the index before it tests the bound, and then takes the next
column's first element for the diagonal.  First: `A` = (1 0; 0 0) in compressed columns without stored zeros, the index array is read behind
its end.  Second: `A` = (0 5; 0 1) with `ARMAS_LOWER`, so `S` = (0 0; 0 1); for `x` = (1, 1) the result is (5, 1) instead of (0, 1). -/
theorem C71_empty_column_false :
    isUB (spMvmultSym 0 ⟨0, 2, 2, 1⟩ (1 : ℚ)
      ⟨.csc, 2, 2, 1, 2, 1, 24, 1, 3, fun k => [(1 : ℚ)][k]?, fun k => [0, 1, 1][k]?, fun k => [0][k]?, noMem⟩ ⟨10, 2, 2, 1⟩ false true false
      (fun p => if p < 2 then some 7 else if p = 10 ∨ p = 11 then some 1 else none)) = true ∧
    cellsOf (spMvmultSym 0 ⟨0, 2, 2, 1⟩ (1 : ℚ)
      ⟨.csc, 2, 2, 2, 2, 2, 36, 2, 3, fun k => [(5 : ℚ), 1][k]?, fun k => [0, 0, 2][k]?, fun k => [0, 1][k]?, noMem⟩ ⟨10, 2, 2, 1⟩ false true false
      (fun p => if p < 2 then some 7 else if p = 10 ∨ p = 11 then some 1 else none)) 0 2 = some [some 5, some 1] := by
  constructor <;> decide +kernel

/-- `x` must be a column vector with adjacent elements: a row vector of the right size passes the size test, but the code reads the cells
after its first element.  Unit matrix of order 2, `x` = (1, 1) with distance 3 between its elements: undefined. -/
theorem C71_row_vector_false :
    isUB (spMvmultSym 0 ⟨0, 2, 2, 1⟩ (1 : ℚ)
      ⟨.csr, 2, 2, 2, 2, 2, 36, 2, 3, fun k => [(1 : ℚ), 1][k]?, fun k => [0, 1, 2][k]?, fun k => [0, 1][k]?, noMem⟩ ⟨10, 3, 1, 2⟩ false true false
      (fun p => if p < 2 then some 7 else if p = 10 ∨ p = 13 then some 1 else none)) = true := by decide +kernel

end Armas.Props
