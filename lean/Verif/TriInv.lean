import Verif.LapackLemmas
import Mathlib.LinearAlgebra.Matrix.Block
import Mathlib.LinearAlgebra.Matrix.NonsingularInverse

/-!
# Inverses of triangular matrices
-/

namespace Armas

open Finset

variable {α : Type} [Field α]

/-- `g` is the inverse of the triangular `n x n` matrix `t` and is triangular itself. -/
structure TriInv (up : Bool) (n : Nat) (t g : Nat → Nat → α) : Prop where
  zero : ∀ i j, i < n → j < n → (if up then j < i else i < j) → g i j = 0
  right : ∀ i j, i < n → j < n → ∑ p ∈ range n, t i p * g p j = if i = j then 1 else 0
  left : ∀ i j, i < n → j < n → ∑ p ∈ range n, g i p * t p j = if i = j then 1 else 0

theorem triInv_exists (up : Bool) (n : Nat) {t : Nat → Nat → α}
    (hz : ∀ i j, i < n → j < n → (if up then j < i else i < j) → t i j = 0)
    (hd : ∀ i, i < n → t i i ≠ 0) : ∃ g, TriInv up n t g := by
  classical
  let M : Matrix (Fin n) (Fin n) α := Matrix.of fun i j => t i j
  have hu : IsUnit M.det := by
    rw [isUnit_iff_ne_zero]
    have : M.det = ∏ i : Fin n, M i i := by
      cases up
      · exact Matrix.det_of_lowerTriangular M (fun i j h => hz i j i.2 j.2 h)
      · exact Matrix.det_of_upperTriangular (fun i j h => hz i j i.2 j.2 h)
    rw [this]
    exact Finset.prod_ne_zero_iff.mpr (fun i _ => hd i i.2)
  have hl := Matrix.nonsing_inv_mul M hu
  have hr := Matrix.mul_nonsing_inv M hu
  have iM : Invertible M := Matrix.invertibleOfIsUnitDet M hu
  let g : Nat → Nat → α := fun i j => if h : i < n ∧ j < n then M⁻¹ ⟨i, h.1⟩ ⟨j, h.2⟩ else 0
  have gv : ∀ (i j : Fin n), g i j = M⁻¹ i j := by
    intro i j
    show (if h : (i : Nat) < n ∧ (j : Nat) < n then _ else _) = _
    rw [dif_pos ⟨i.2, j.2⟩]
  refine ⟨g, fun i j hi hj h => ?_, fun i j hi hj => ?_, fun i j hi hj => ?_⟩
  · rw [gv ⟨i, hi⟩ ⟨j, hj⟩]
    cases up
    · exact Matrix.blockTriangular_inv_of_blockTriangular (M := M) (b := OrderDual.toDual)
        (fun i j h => hz i j i.2 j.2 h) h
    · exact Matrix.blockTriangular_inv_of_blockTriangular (M := M) (b := id)
        (fun i j h => hz i j i.2 j.2 h) h
  · have e := congrFun (congrFun hr ⟨i, hi⟩) ⟨j, hj⟩
    rw [Matrix.mul_apply, Matrix.one_apply] at e
    rw [Finset.sum_range]
    refine Eq.trans (Finset.sum_congr rfl (fun p _ => ?_)) (e.trans ?_)
    · rw [gv p ⟨j, hj⟩]; rfl
    · simp [Fin.ext_iff]
  · have e := congrFun (congrFun hl ⟨i, hi⟩) ⟨j, hj⟩
    rw [Matrix.mul_apply, Matrix.one_apply] at e
    rw [Finset.sum_range]
    refine Eq.trans (Finset.sum_congr rfl (fun p _ => ?_)) (e.trans ?_)
    · rw [gv ⟨i, hi⟩ p]; rfl
    · simp [Fin.ext_iff]

theorem TriInv.diag {up : Bool} {n : Nat} {t g : Nat → Nat → α} (h : TriInv up n t g)
    (hz : ∀ i j, i < n → j < n → (if up then j < i else i < j) → t i j = 0) {i : Nat} (hi : i < n) :
    g i i * t i i = 1 := by
  have e := h.left i i hi hi
  rw [if_pos rfl, Finset.sum_eq_single i] at e
  · exact e
  · intro p hp hne
    rw [Finset.mem_range] at hp
    rcases Nat.lt_or_gt_of_ne hne with c | c
    · cases up
      · rw [hz p i hp hi c, mul_zero]
      · rw [h.zero i p hi hp c, zero_mul]
    · cases up
      · rw [h.zero i p hi hp c, zero_mul]
      · rw [hz p i hp hi c, mul_zero]
  · intro hn; exact absurd (Finset.mem_range.mpr hi) hn

/-- A right inverse is the inverse. -/
theorem TriInv.unique {up : Bool} {n : Nat} {t g x : Nat → Nat → α} (h : TriInv up n t g)
    (hx : ∀ i j, i < n → j < n → ∑ p ∈ range n, t i p * x p j = if i = j then 1 else 0) :
    ∀ i j, i < n → j < n → x i j = g i j := by
  intro i j hi hj
  have e : ∑ q ∈ range n, g i q * ∑ p ∈ range n, t q p * x p j = x i j := by
    simp only [Finset.mul_sum]
    rw [Finset.sum_comm]
    have : ∀ p ∈ range n, ∑ q ∈ range n, g i q * (t q p * x p j) = (if i = p then 1 else 0) * x p j := by
      intro p hp
      rw [← h.left i p hi (Finset.mem_range.mp hp), Finset.sum_mul]
      exact Finset.sum_congr rfl (fun q _ => by ring)
    rw [Finset.sum_congr rfl this, Finset.sum_eq_single i]
    · simp
    · intro p _ hne; rw [if_neg (fun e => hne e.symm), zero_mul]
    · intro hn; exact absurd (Finset.mem_range.mpr hi) hn
  rw [← e]
  have : ∀ q ∈ range n, g i q * ∑ p ∈ range n, t q p * x p j = if q = j then g i j else 0 := by
    intro q hq
    rw [hx q j (Finset.mem_range.mp hq) hj]
    split
    · rename_i e; rw [e, mul_one]
    · rw [mul_zero]
  rw [Finset.sum_congr rfl this, Finset.sum_ite_eq' (range n) j (fun _ => g i j),
    if_pos (Finset.mem_range.mpr hj)]

/-- The inverse of a diagonal block is the diagonal block of the inverse. -/
theorem TriInv.block {up : Bool} {n : Nat} {t g : Nat → Nat → α} (h : TriInv up n t g)
    (hz : ∀ i j, i < n → j < n → (if up then j < i else i < j) → t i j = 0) {k nb : Nat} (hk : k + nb ≤ n) :
    TriInv up nb (fun i j => t (k + i) (k + j)) (fun i j => g (k + i) (k + j)) := by
  have key : ∀ (a b : Nat → Nat → α), (∀ i j, i < n → j < n → (if up then j < i else i < j) → a i j = 0) →
      (∀ i j, i < n → j < n → (if up then j < i else i < j) → b i j = 0) → ∀ i j, i < nb → j < nb →
      ∑ p ∈ range nb, a (k + i) (k + p) * b (k + p) (k + j) = ∑ p ∈ range n, a (k + i) p * b p (k + j) := by
    intro a b ha hb i j hi hj
    have : ∑ p ∈ range n, a (k + i) p * b p (k + j) = ∑ p ∈ Ico k (k + nb), a (k + i) p * b p (k + j) := by
      symm
      refine Finset.sum_subset (fun p hp => ?_) (fun p hp hn => ?_)
      · rw [Finset.mem_Ico] at hp; rw [Finset.mem_range]; omega
      · rw [Finset.mem_range] at hp
        rw [Finset.mem_Ico] at hn
        rcases Nat.lt_or_ge p k with c | c
        · cases up
          · rw [hb p (k + j) hp (by omega) (by simp; omega), mul_zero]
          · rw [ha (k + i) p (by omega) hp (by simp; omega), zero_mul]
        · cases up
          · rw [ha (k + i) p (by omega) hp (by simp; omega), zero_mul]
          · rw [hb p (k + j) hp (by omega) (by simp; omega), mul_zero]
    rw [this, Finset.sum_Ico_eq_sum_range, Nat.add_sub_cancel_left]
  refine ⟨fun i j hi hj hc => h.zero _ _ (by omega) (by omega) (by cases up <;> simp at hc ⊢ <;> omega),
    fun i j hi hj => ?_, fun i j hi hj => ?_⟩
  · rw [key t g hz h.zero i j hi hj, h.right _ _ (by omega) (by omega)]; simp
  · rw [key g t h.zero hz i j hi hj, h.left _ _ (by omega) (by omega)]; simp

theorem trm_tri (up unit : Bool) (a : Nat → Nat → α) {i j : Nat} (h : if up then j < i else i < j) :
    trm up unit a i j = 0 := by
  unfold trm
  cases up <;> simp at h ⊢ <;> rw [if_neg (by omega), if_neg (by omega)]

end Armas
