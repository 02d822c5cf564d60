import Verif.Props.SparseMv
import Verif.SparseSymLemmas
import Verif.SparseTrmvLemmas

/-!
# C76: triangular sparse matrix times vector
-/

namespace Armas.Props

open Finset Armas

variable {α : Type}

private theorem dflip [AddCommMonoid α] (N : Nat) (e : Nat → Ent α) (i j : Nat) :
    dense N (fun p => (e p).flip) i j = dense N e j i := by
  unfold dense
  refine sum_congr rfl fun p _ => ?_
  unfold Ent.flip
  dsimp only
  by_cases c : (e p).1 = j
  · by_cases c' : (e p).2.1 = i
    · rw [if_pos ⟨c', c⟩, if_pos ⟨c, c'⟩]
    · rw [if_neg (fun h => c' h.1), if_neg (fun h => c' h.2)]
  · rw [if_neg (fun h => c h.2), if_neg (fun h => c h.1)]

/-- C76 for a stored diagonal (see `C76_missing_diagonal_false`), a square matrix (see `C76_square_false`) and a column vector (see
`C76_row_vector_false`), and with `ARMAS_UNIT` not for upper compressed rows without transposition and not for lower compressed columns
(see `C76_unit_false`): for every `alpha` the result is `alpha*op(T)*x`, where `T` is the selected triangle of the matrix, with ones on the
diagonal for `ARMAS_UNIT`; elements stored outside the triangle are ignored, and nothing else changes. -/
theorem C76_trmv_partial [Field α] {A : Sp α} {n N : Nat} {e : Nat → Ent α} {upper lower trans unit : Bool} (T : Triangular A n N e true)
    (hul : ¬ (upper = true ∧ lower = true))
    (hunit : unit = true → ¬ (A.kind = .csr ∧ upper = true ∧ trans = false) ∧ ¬ (A.kind = .csc ∧ upper = false))
    {X : View} {m : Mem α} {xv : Nat → α} (alpha : α) (hXc : X.cols = 1) (hXr : X.rows = n) (hx : HoldsV m X xv) :
    Runs (spMvmultTrm X alpha A upper lower trans unit m) (fun r => r.1 = 0 ∧ Frame X.foot m r.2 ∧ HoldsV r.2 X (fun i =>
      alpha * ∑ j ∈ range n, (if trans then triOf upper unit (dense N e) j i else triOf upper unit (dense N e) i j) * xv j)) := by
  rw [← vecAt_col hXc, hXr] at hx
  unfold spMvmultTrm
  rw [if_neg T.kind, View.colSize hXc, hXr, T.rows, T.cols, if_neg (by simp), View.colFoot hXc, hXr]
  suffices h : Runs (spTrmSwitch A X.base alpha upper lower trans unit m) (fun m' => VecAt m' X.base n (fun i =>
      alpha * ∑ j ∈ range n, (if trans then triOf upper unit (dense N e) j i else triOf upper unit (dense N e) i j) * xv j) ∧
      Frame (rng X.base n) m m') by
    refine Runs.bind h fun m' h' => Runs.pure ⟨rfl, h'.2, ?_⟩
    rw [← vecAt_col hXc, hXr]; exact h'.1
  have conv : ∀ {r : Res (Mem α)} {g g' : Nat → α}, Runs r (fun m' => VecAt m' X.base n g ∧ Frame (rng X.base n) m m') →
      (∀ k, k < n → g k = g' k) → Runs r (fun m' => VecAt m' X.base n g' ∧ Frame (rng X.base n) m m') :=
    fun h hE => h.mono fun m' h' => ⟨h'.1.congr hE, h'.2⟩
  unfold spTrmSwitch
  cases h : A.kind with
  | coo => exact absurd h T.kind
  | csr =>
    have M := triMat_csr T h
    rw [T.rows]
    cases upper with
    | true =>
      cases lower with
      | true => exact absurd ⟨rfl, rfl⟩ hul
      | false =>
        cases trans with
        | true =>
          simp only [Bool.and_false, Bool.and_true, Bool.false_eq_true, if_false, if_true]
          refine conv (trmDown_scat (N := N) (f := e) (unit := unit) (alpha := alpha) (fun j m x hj hx => ?_) hx) fun k hk => ?_
          · obtain ⟨D, hD⟩ := M.diagAt hj
            exact csrTrmUtStep_spec M.comp M.sd hD hx hj alpha unit
          · simp only [triOf_swap true, Bool.not_true]
            rw [tri_lower hk, mul_comm (xv k)]; rfl
        | false =>
          cases unit with
          | true => exact absurd ⟨h, rfl, rfl⟩ (hunit rfl).1
          | false =>
            simp only [Bool.and_false, Bool.false_eq_true, if_false, if_true]
            refine conv (trmUp_gath (N := N) (f := e) (unit := false) (alpha := alpha) (fun j m x hj hx => ?_) hx) fun k hk => ?_
            · obtain ⟨D, hD⟩ := M.diagAt hj
              exact trmSkipStep_spec M.comp M.sd M.nnz hD hx hj alpha
            · rw [tri_upper hk, mul_comm (xv k)]; rfl
    | false =>
      cases trans with
      | true =>
        simp only [Bool.and_true, Bool.false_and, Bool.false_eq_true, if_false, if_true]
        refine conv (trmUp_scat (N := N) (f := e) (unit := unit) (alpha := alpha) (fun j m x hj hx => ?_) hx) fun k hk => ?_
        · obtain ⟨D, hD⟩ := M.diagAt hj
          exact csrTrmLtStep_spec M.comp M.sd hD hx hj alpha unit
        · simp only [triOf_swap false, Bool.not_false]
          rw [tri_upper hk, mul_comm (xv k)]; rfl
      | false =>
        simp only [Bool.and_false, Bool.false_and, Bool.false_eq_true, if_false, if_true]
        refine conv (trmDown_gath (N := N) (f := e) (unit := unit) (alpha := alpha) (fun j m x hj hx => ?_) hx) fun k hk => ?_
        · obtain ⟨D, hD⟩ := M.diagAt hj
          exact trmHeadStep_spec M.comp M.sd hD hx hj alpha unit
        · rw [tri_lower hk, mul_comm (xv k)]; rfl
  | csc =>
    have M := triMat_csc T h
    have hc : ¬ (SpKind.csc = SpKind.csr) := by decide
    rw [T.cols]
    cases upper with
    | true =>
      cases lower with
      | true => exact absurd ⟨rfl, rfl⟩ hul
      | false =>
        cases trans with
        | true =>
          simp only [Bool.and_false, Bool.and_true, Bool.false_eq_true, if_false, if_true, if_neg hc]
          refine conv (trmDown_gath (N := N) (f := fun p => (e p).flip) (unit := unit) (alpha := alpha) (fun j m x hj hx => ?_) hx) fun k hk => ?_
          · obtain ⟨D, hD⟩ := M.diagAt hj
            exact trmHeadStep_spec M.comp M.sd hD hx hj alpha unit
          · simp only [triOf_swap true, Bool.not_true]
            rw [tri_lower hk, mul_comm (xv k)]
            simp only [rowProd, dflip, dg]
        | false =>
          simp only [Bool.and_false, Bool.false_eq_true, if_false, if_true, if_neg hc]
          refine conv (trmUp_scat (N := N) (f := fun p => (e p).flip) (unit := unit) (alpha := alpha) (fun j m x hj hx => ?_) hx) fun k hk => ?_
          · obtain ⟨D, hD⟩ := M.diagAt hj
            exact cscTrmUnStep_spec M.comp M.sd hD hx hj alpha unit
          · rw [tri_upper hk, mul_comm (xv k)]
            simp only [colProd, dflip, dg]
    | false =>
      cases unit with
      | true => exact absurd ⟨h, rfl⟩ (hunit rfl).2
      | false =>
        cases trans with
        | true =>
          simp only [Bool.and_true, Bool.false_and, Bool.false_eq_true, if_false, if_true, if_neg hc]
          refine conv (trmUp_gath (N := N) (f := fun p => (e p).flip) (unit := false) (alpha := alpha) (fun j m x hj hx => ?_) hx) fun k hk => ?_
          · obtain ⟨D, hD⟩ := M.diagAt hj
            exact trmSkipStep_spec M.comp M.sd M.nnz hD hx hj alpha
          · simp only [triOf_swap false, Bool.not_false]
            rw [tri_upper hk, mul_comm (xv k)]
            simp only [rowProd, dflip, dg]
        | false =>
          simp only [Bool.and_false, Bool.false_and, Bool.false_eq_true, if_false, if_true, if_neg hc]
          refine conv (trmDown_scat (N := N) (f := fun p => (e p).flip) (unit := false) (alpha := alpha) (fun j m x hj hx => ?_) hx) fun k hk => ?_
          · obtain ⟨D, hD⟩ := M.diagAt hj
            exact cscTrmLnStep_spec M.comp M.sd M.nnz hD hx hj alpha
          · rw [tri_lower hk, mul_comm (xv k)]
            simp only [colProd, dflip, dg]

example := C76_trmv_partial (upper := true) (lower := false) (trans := true) (unit := true) (demoTri_is true) (by decide) (by decide)
  (X := ⟨20, 3, 3, 1⟩) (m := tot (fun p => (p : ℚ))) 2 rfl rfl (holdsV_tot _ _)

example := C76_trmv_partial (upper := true) (lower := false) (trans := false) (unit := false) (demoTri_is true) (by decide) (by decide)
  (X := ⟨20, 3, 3, 1⟩) (m := tot (fun p => (p : ℚ))) 2 rfl rfl (holdsV_tot _ _)

/-- A matrix that is not in a compressed format and a vector of the wrong length are reported, and nothing changes. -/
theorem C76_reject [Field α] (X : View) (alpha : α) (A : Sp α) (upper lower trans unit : Bool) (m : Mem α) :
    (A.kind = .coo → spMvmultTrm X alpha A upper lower trans unit m = .ok (-3, m)) ∧
    (A.kind ≠ .coo → X.size ≠ (if trans then A.rows else A.cols) → spMvmultTrm X alpha A upper lower trans unit m = .ok (-1, m)) := by
  unfold spMvmultTrm
  constructor
  · intro h; rw [if_pos h]; rfl
  · intro h h'
    rw [if_neg h]
    cases trans with
    | true => rw [if_pos (by simpa using h')]; rfl
    | false => rw [if_pos (by simpa using h')]; rfl

example := (C76_reject (⟨20, 2, 2, 1⟩ : View) (2 : ℚ) demoTri true false false false noMem).2 (by decide) (by decide)

/-- With `ARMAS_UNIT` the search for the first element behind the diagonal runs past the end of the index array in the last row or
column: upper compressed rows (the 3 × 3 matrix of `demoTri`), lower compressed columns, and lower compressed columns transposed. -/
theorem C76_unit_false :
    isUB (spMvmultTrm ⟨20, 3, 3, 1⟩ (2 : ℚ) demoTri true false false true (tot fun p => (p : ℚ))) = true ∧
    isUB (spMvmultTrm ⟨20, 1, 1, 1⟩ (2 : ℚ)
      ⟨.csc, 1, 1, 1, 1, 1, 24, 1, 2, fun k => [(1 : ℚ)][k]?, fun k => [0, 1][k]?, fun k => [0][k]?, noMem⟩ false true false true
      (tot fun p => (p : ℚ))) = true ∧
    isUB (spMvmultTrm ⟨20, 1, 1, 1⟩ (2 : ℚ)
      ⟨.csc, 1, 1, 1, 1, 1, 24, 1, 2, fun k => [(1 : ℚ)][k]?, fun k => [0, 1][k]?, fun k => [0][k]?, noMem⟩ false true true true
      (tot fun p => (p : ℚ))) = true := by decide +kernel

/-- A diagonal element that is not stored counts as zero only if the column (row) holds another element: with an empty first column the
product with an upper matrix in compressed columns reads the element before the index array. -/
theorem C76_missing_diagonal_false :
    isUB (spMvmultTrm ⟨0, 2, 2, 1⟩ (1 : ℚ)
      ⟨.csc, 2, 2, 1, 2, 1, 24, 1, 3, fun k => [(1 : ℚ)][k]?, fun k => [0, 0, 1][k]?, fun k => [1][k]?, noMem⟩ true false false false
      (fun p => if p < 2 then some 1 else none)) = true := by decide +kernel

/-- The sizes are checked against one dimension of the matrix only: a 2 × 1 matrix in compressed rows and a vector with one element are
accepted, and the second element of the vector, which does not exist, is written. -/
theorem C76_square_false :
    isUB (spMvmultTrm ⟨0, 1, 1, 1⟩ (1 : ℚ)
      ⟨.csr, 2, 1, 2, 2, 2, 24, 2, 3, fun k => [(1 : ℚ), 1][k]?, fun k => [0, 1, 2][k]?, fun k => [0, 0][k]?, noMem⟩ false true false false
      (fun p => if p < 1 then some 1 else none)) = true := by decide +kernel

/-- A row vector is taken for a column vector: with the unit matrix, `alpha` = 2 and the row vector with the elements 1, 1 in cells 0 and 3,
cell 1 changes, which is not part of the vector, and cell 3 does not. -/
theorem C76_row_vector_false :
    cellsOf (spMvmultTrm ⟨0, 3, 1, 2⟩ (2 : ℚ)
      ⟨.csr, 2, 2, 2, 2, 2, 24, 2, 3, fun k => [(1 : ℚ), 1][k]?, fun k => [0, 1, 2][k]?, fun k => [0, 1][k]?, noMem⟩ false true false false
      (fun p => if p < 6 then some 1 else none)) 0 4 = some [some 2, some 2, some 1, some 1] := by decide +kernel

end Armas.Props
