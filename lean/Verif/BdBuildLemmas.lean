import Verif.BdMult
import Verif.TrdMultLemmas

/-!
# Lemmas about building the orthogonal matrices of a bidiagonal reduction
-/

namespace Armas

section field

variable {α : Type} [Field α] [DecidableEq α]

/-- `A` after the rows behind row `k` have been shifted. -/
def shiftedT (k : Nat) (f : Nat → Nat → α) (i j : Nat) : α :=
  if k < i then (if j = 0 then 0 else if i ≤ j then f (i - 1) j else f i j) else f i j

theorem bdShiftRow_spec {m : Mem α} {A : View} {n k : Nat} {f : Nat → Nat → α} (wA : A.WF) (hr : A.rows = n) (hc : A.cols = n) (hk : k + 1 < n)
    (hA : Holds m A (shiftedT (k + 1) f)) :
    Runs (bdShiftRow A (k + 1) m) (fun m' => Holds m' A (shiftedT k f) ∧ Frame A.foot m m') := by
  unfold bdShiftRow
  rw [Nat.add_sub_cancel, hc]
  have sD : (A.sub (k + 1) (k + 1) 1 (n - (k + 1))).foot ⊆ A.foot := View.sub_foot (by omega) (by omega)
  have hD : HoldsV m (A.sub (k + 1) (k + 1) 1 (n - (k + 1))) (fun i => shiftedT (k + 1) f (k + 1) (k + 1 + i)) := by
    rw [holdsV_iff (Or.inl rfl)]
    exact (hA.part (by omega) (by omega)).congr fun i j hi hj => by
      rw [View.sub_rows] at hi
      obtain rfl : i = 0 := by omega
      simp only [Nat.add_zero, Nat.zero_add]
  have hS : HoldsV m (A.sub k (k + 1) 1 (n - (k + 1))) (fun i => shiftedT (k + 1) f k (k + 1 + i)) := by
    rw [holdsV_iff (Or.inl rfl)]
    exact (hA.part (by omega) (by omega)).congr fun i j hi hj => by
      rw [View.sub_rows] at hi
      obtain rfl : i = 0 := by omega
      simp only [Nat.add_zero, Nat.zero_add]
  refine (Props.C05_copy (wA.sub (by omega) (by omega)) (Or.inl rfl) (Or.inl rfl) hD hS
    (View.sub_disj wA (by omega) (by omega) (by omega) (by omega) (by omega))).bind ?_
  rintro ⟨e, m1⟩ ⟨-, h1, F1⟩
  dsimp only at h1 F1 ⊢
  rw [holdsV_iff (Or.inl rfl)] at h1
  have hA1 := hA.patch wA (by omega) (by omega) h1 F1
  have he := hA1 (k + 1) 0 (by omega) (by omega)
  refine Runs.wr (m := m1) (p := A.at' (k + 1) 0) he ?_
  refine ⟨(hA1.write wA (by omega) (by omega) 0).congr fun i j hi hj => ?_, (F1.mono sD).trans (Frame.set (View.at_mem_foot (by omega) (by omega)) _)⟩
  rw [hr] at hi
  rw [hc] at hj
  have hz : (A.sub k (k + 1) 1 (n - (k + 1))).size = n - (k + 1) := by rw [View.size, View.sub_rows, View.sub_cols, Nat.one_mul]
  by_cases c1 : i = k + 1 ∧ j = 0
  · rw [if_pos c1]
    unfold shiftedT
    rw [if_pos (by omega), if_pos c1.2]
  rw [if_neg c1]
  by_cases c2 : k + 1 ≤ i ∧ i < k + 1 + 1 ∧ k + 1 ≤ j ∧ j < k + 1 + (n - (k + 1))
  · rw [if_pos c2, hz, if_pos (by omega)]
    unfold shiftedT
    rw [if_neg (by omega), if_pos (by omega), if_neg (by omega), if_pos (by omega)]
    congr 1 <;> omega
  · rw [if_neg c2]
    unfold shiftedT
    split_ifs <;> first | rfl | (exfalso; omega)

/-- The shift of all rows. -/
theorem bdShiftRow_all {m : Mem α} {A : View} {p : Nat} {f : Nat → Nat → α} (wA : A.WF) (hr : A.rows = p + 1) (hc : A.cols = p + 1) (hA : Holds m A f) :
    Runs (forDown p (fun d => bdShiftRow A (d + 1)) m) (fun m' => Holds m' A (shiftedT 0 f) ∧ Frame A.foot m m') := by
  refine Runs.forDown (I := fun k m' => Holds m' A (shiftedT k f) ∧ Frame A.foot m m') ⟨hA.congr fun i j hi hj => ?_, Frame.refl _ _⟩ ?_ (fun _ h => h)
  · unfold shiftedT
    rw [if_neg (by omega)]
  · rintro k m1 hk ⟨h1, F1⟩
    refine (bdShiftRow_spec wA hr hc (by omega) h1).mono ?_
    rintro m2 ⟨h2, F2⟩
    exact ⟨h2, F1.trans F2⟩

/-- Only the square part is used. -/
theorem bdBuildP_sub (ab : α → α) (env : Env) (elb fuel : Nat) (m : Mem α) (A tau : View) (K w ws : Nat) (cbuf : Option Cache) :
    bdBuildP ab env elb fuel m A tau K w ws cbuf = bdBuildP ab env elb fuel m (A.sub 0 0 A.cols A.cols) tau K w ws cbuf := by
  unfold bdBuildP bdShiftRow
  simp only [View.sub_sub, View.at_sub, View.sub_cols, Nat.zero_add]

theorem bdBuildQ_sub (ab : α → α) (env : Env) (elb fuel : Nat) (m : Mem α) (A tau : View) (K w ws : Nat) (cbuf : Option Cache) (h : 0 < A.rows) :
    bdBuildQ ab env elb fuel m A tau K w ws cbuf = trdbuildW ab env elb fuel m (A.sub 0 0 A.rows A.rows) (tau.sub 0 0 A.rows 1) K w ws cbuf := by
  unfold bdBuildQ trdbuildW bdShiftCol trdShift
  simp only [View.sub_sub, View.at_sub, View.sub_cols, View.sub_rows, Nat.zero_add, View.size, Nat.mul_one]
  rw [if_neg (Nat.mul_ne_zero (by omega) (by omega)), if_neg (by omega), if_neg (by omega)]

end field

end Armas
