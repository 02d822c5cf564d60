import Verif.QrSolve
import Verif.Props.QrBuild
import Mathlib.LinearAlgebra.Matrix.Block
import Mathlib.LinearAlgebra.Matrix.ToLinearEquiv

/-!
# Algebra of the least squares and minimum norm solutions from a QR factorization
-/

namespace Armas

open Finset

section field

variable {α : Type} [Field α]

/-- The product of the reflectors is orthogonal: `Q Qᵀ b = Qᵀ Q b = b`. -/
def QrOrth (M N : Nat) (t : Nat → α) (f : Nat → Nat → α) : Prop :=
  (∀ b i j, i < M → qrProd M N t f (qrProdT M N t f b) i j = b i j) ∧
  (∀ b i j, i < M → qrProdT M N t f (qrProd M N t f b) i j = b i j)

theorem qrOrth_of {M N : Nat} {t : Nat → α} {f : Nat → Nat → α}
    (h : ∀ k, k < N → t k = 0 ∨ t k * ∑ i ∈ range M, qrw f k i ^ 2 = 2) : QrOrth M N t f :=
  ⟨fun b i j hi => qrProd_qrProdT h b j i hi, fun b i j hi => qrProdT_qrProd h b j i hi⟩

/-- `Q (U X - d) = (Q U) X - Q d`. -/
theorem qrProd_resid {M : Nat} (k : Nat) (t : Nat → α) (f U X d : Nat → Nat → α) (N j : Nat) : ∀ i, i < M →
    qrProd M k t f (fun p q => (∑ l ∈ range N, U p l * X l q) - d p q) i j =
      (∑ l ∈ range N, qrProd M k t f U i l * X l j) - qrProd M k t f d i j := by
  intro i hi
  rw [Props.qrProd_lin k t f _ j i hi, Props.qrProd_lin k t f d j i hi]
  simp only [mul_sub, sum_sub_distrib]
  congr 1
  simp only [Props.qrProd_lin k t f U _ i hi, sum_mul, mul_sum]
  rw [sum_comm]
  exact sum_congr rfl fun p _ => sum_congr rfl fun l _ => by ring

/-- The normal equations: `R X = (Qᵀ b)` in the first `N` rows gives `aᵀ (a X - b) = 0` for `a = Q R`. -/
theorem lsq_normal {M N : Nat} (hN : N ≤ M) {t : Nat → α} {f b X : Nat → Nat → α}
    (ho : QrOrth M N t f) {j : Nat}
    (hX : ∀ i, i < N → ∑ l ∈ range N, upperPart f i l * X l j = qrProdT M N t f b i j) : ∀ p, p < N →
    ∑ i ∈ range M, qrProd M N t f (upperPart f) i p * ((∑ l ∈ range N, qrProd M N t f (upperPart f) i l * X l j) - b i j) = 0 := by
  intro p hp
  have e : ∀ i, i ∈ range M → qrProd M N t f (upperPart f) i p * ((∑ l ∈ range N, qrProd M N t f (upperPart f) i l * X l j) - b i j) =
      qrProd M N t f (fun p q => (∑ l ∈ range N, upperPart f p l * X l q) - qrProdT M N t f b p q) i j * qrProd M N t f (upperPart f) i p := by
    intro i hi
    rw [qrProd_resid N t f (upperPart f) X (qrProdT M N t f b) N j i (mem_range.mp hi), ho.1 b i j (mem_range.mp hi), mul_comm]
  rw [sum_congr rfl e, Props.sum_qrProd_mul]
  refine sum_eq_zero fun i hi => ?_
  rw [ho.2 (upperPart f) i p (mem_range.mp hi)]
  by_cases c : i < N
  · rw [hX i c, sub_self, zero_mul]
  · rw [upperPart, if_pos (by omega), mul_zero]

/-- `Rᵀ Y = b` and `X = Q (Y; 0)` give `aᵀ X = b`. -/
theorem mn_solves {M N : Nat} (hN : N ≤ M) {t : Nat → α} {f b Y : Nat → Nat → α}
    (ho : QrOrth M N t f) {j : Nat}
    (hY : ∀ p, p < N → ∑ l ∈ range N, upperPart f l p * Y l j = b p j) (p : Nat) (hp : p < N) :
    ∑ i ∈ range M, qrProd M N t f (upperPart f) i p * qrProd M N t f (fun p q => if p < N then Y p q else 0) i j = b p j := by
  rw [Props.sum_qrProd_mul, ← hY p hp, ← sum_subset (range_subset_range.mpr hN)]
  · refine sum_congr rfl fun i hi => ?_
    rw [ho.2 _ i j (by have := mem_range.mp hi; omega), if_pos (mem_range.mp hi)]
  · intro i hi hn
    rw [upperPart, if_pos (by have := mt mem_range.mpr hn; omega), zero_mul]

/-- A lower triangular system `Rᵀ d = 0` with a nonzero diagonal has only the zero solution. -/
theorem upperT_inj {N : Nat} {f : Nat → Nat → α} {d : Nat → α} (hd : ∀ k, k < N → f k k ≠ 0)
    (h : ∀ p, p < N → ∑ l ∈ range N, upperPart f l p * d l = 0) : ∀ p, p < N → d p = 0 := by
  intro p
  induction p using Nat.strong_induction_on with
  | _ p ih =>
    intro hp
    have e := h p hp
    rw [sum_eq_single p] at e
    · rw [upperPart, if_neg (by omega)] at e
      exact (mul_eq_zero.mp e).resolve_left (hd p hp)
    · intro l hl hn
      rcases Nat.lt_or_ge l p with c | c
      · rw [ih l c (mem_range.mp hl), mul_zero]
      · rw [upperPart, if_pos (by omega), zero_mul]
    · intro hn; exact absurd (mem_range.mpr hp) hn

/-- Every `z` with `aᵀ z = b` has the inner product `‖X‖²` with the solution `X = Q (Y; 0)`. -/
theorem mn_inner {M N : Nat} (hN : N ≤ M) {t : Nat → α} {f b Y : Nat → Nat → α}
    (ho : QrOrth M N t f) {j : Nat} (hd : ∀ k, k < N → f k k ≠ 0)
    (hY : ∀ p, p < N → ∑ l ∈ range N, upperPart f l p * Y l j = b p j) (z : Nat → α)
    (hz : ∀ p, p < N → ∑ i ∈ range M, qrProd M N t f (upperPart f) i p * z i = b p j) :
    ∑ i ∈ range M, qrProd M N t f (fun p q => if p < N then Y p q else 0) i j * z i =
      ∑ i ∈ range M, qrProd M N t f (fun p q => if p < N then Y p q else 0) i j ^ 2 := by
  have e1 : ∀ p, p < N → ∑ l ∈ range N, upperPart f l p * qrProdT M N t f (fun i _ => z i) l 0 = b p j := by
    intro p hp
    rw [← hz p hp, Props.sum_qrProd_mul M N t f (upperPart f) (fun i _ => z i) p 0, ← sum_subset (range_subset_range.mpr hN)]
    intro i hi hn
    rw [upperPart, if_pos (by have := mt mem_range.mpr hn; omega), zero_mul]
  have e2 := upperT_inj (d := fun l => qrProdT M N t f (fun i _ => z i) l 0 - Y l j) hd fun p hp => by
    simp only [mul_sub, sum_sub_distrib]
    rw [e1 p hp, hY p hp, sub_self]
  simp only [pow_two]
  rw [Props.sum_qrProd_mul M N t f _ (fun i _ => z i) j 0, Props.sum_qrProd_mul]
  refine sum_congr rfl fun i hi => ?_
  rw [ho.2 _ i j (mem_range.mp hi)]
  by_cases c : i < N
  · simp only [if_pos c]
    rw [sub_eq_zero.mp (e2 i c)]
  · simp only [if_neg c, zero_mul]

/-- Linearly independent columns of `a = Q R` have no zero on the diagonal of `R`. -/
theorem diag_of_indep {M N : Nat} (hN : N ≤ M) {t : Nat → α} {f : Nat → Nat → α}
    (h : ∀ y : Nat → α, (∀ i, i < M → ∑ l ∈ range N, qrProd M N t f (upperPart f) i l * y l = 0) → ∀ l, l < N → y l = 0) :
    ∀ k, k < N → f k k ≠ 0 := by
  intro k hk h0
  set R : Matrix (Fin N) (Fin N) α := Matrix.of fun i j => upperPart f i j with hR
  have hdet : R.det = 0 := by
    rw [Matrix.det_of_upperTriangular (M := R)]
    · refine prod_eq_zero (mem_univ ⟨k, hk⟩) ?_
      simp [hR, upperPart, h0]
    · intro i j hij
      have : (j : Nat) < i := hij
      exact if_pos this
  obtain ⟨v, hv, hz⟩ := Matrix.exists_mulVec_eq_zero_iff.mpr hdet
  refine hv (funext fun i => ?_)
  have := h (fun l => if hl : l < N then v ⟨l, hl⟩ else 0) (fun i hi => ?_) i i.2
  · simpa using this
  have e := qrProd_resid N t f (upperPart f) (fun l _ => if hl : l < N then v ⟨l, hl⟩ else 0) (fun _ _ => (0 : α)) N 0 i hi
  have e0 : qrProd M N t f (fun _ _ => (0 : α)) i 0 = 0 := by
    rw [Props.qrProd_lin N t f _ 0 i hi]; simp
  rw [e0, sub_zero] at e
  rw [← e, Props.qrProd_lin N t f _ 0 i hi]
  refine sum_eq_zero fun p hp => ?_
  rw [sub_zero]
  by_cases c : p < N
  · have := congrFun hz ⟨p, c⟩
    simp only [Matrix.mulVec, dotProduct, hR, Matrix.of_apply, Pi.zero_apply] at this
    rw [← Fin.sum_univ_eq_sum_range (fun l => upperPart f p l * if hl : l < N then v ⟨l, hl⟩ else 0) N]
    simp only [Fin.is_lt, dite_true]
    rw [this, mul_zero]
  · rw [sum_eq_zero fun l hl => by rw [upperPart, if_pos (by have := mem_range.mp hl; omega), zero_mul], mul_zero]

end field

/-- The normal equations make the residual smallest. -/
theorem lsq_min {M N : Nat} {a : Nat → Nat → ℝ} {b X : Nat → ℝ}
    (h : ∀ p, p < N → ∑ i ∈ range M, a i p * ((∑ l ∈ range N, a i l * X l) - b i) = 0) (y : Nat → ℝ) :
    ∑ i ∈ range M, (b i - ∑ l ∈ range N, a i l * X l) ^ 2 ≤ ∑ i ∈ range M, (b i - ∑ l ∈ range N, a i l * y l) ^ 2 := by
  have e : ∑ i ∈ range M, (b i - ∑ l ∈ range N, a i l * y l) ^ 2 = ∑ i ∈ range M, (b i - ∑ l ∈ range N, a i l * X l) ^ 2 +
      ∑ i ∈ range M, (∑ l ∈ range N, a i l * (X l - y l)) ^ 2 -
      2 * ∑ i ∈ range M, (∑ l ∈ range N, a i l * (X l - y l)) * ((∑ l ∈ range N, a i l * X l) - b i) := by
    rw [mul_sum, ← sum_add_distrib, ← sum_sub_distrib]
    refine sum_congr rfl fun i _ => ?_
    simp only [mul_sub, sum_sub_distrib]
    ring
  have e0 : ∑ i ∈ range M, (∑ l ∈ range N, a i l * (X l - y l)) * ((∑ l ∈ range N, a i l * X l) - b i) = 0 := by
    simp only [sum_mul]
    rw [sum_comm]
    refine sum_eq_zero fun l hl => ?_
    rw [show (∑ i ∈ range M, a i l * (X l - y l) * ((∑ l ∈ range N, a i l * X l) - b i)) =
      (X l - y l) * ∑ i ∈ range M, a i l * ((∑ l ∈ range N, a i l * X l) - b i) from by
        rw [mul_sum]; exact sum_congr rfl fun i _ => by ring, h l (mem_range.mp hl), mul_zero]
  rw [e, e0]
  have := sum_nonneg (s := range M) fun i _ => sq_nonneg (∑ l ∈ range N, a i l * (X l - y l))
  linarith

/-- A vector whose inner product with `z` is its own square norm is no longer than `z`. -/
theorem norm_min {M : Nat} {x z : Nat → ℝ} (h : ∑ i ∈ range M, x i * z i = ∑ i ∈ range M, x i ^ 2) :
    ∑ i ∈ range M, x i ^ 2 ≤ ∑ i ∈ range M, z i ^ 2 := by
  have e : ∑ i ∈ range M, (z i - x i) ^ 2 = ∑ i ∈ range M, z i ^ 2 - 2 * ∑ i ∈ range M, x i * z i + ∑ i ∈ range M, x i ^ 2 := by
    rw [mul_sum, ← sum_sub_distrib, ← sum_add_distrib]
    exact sum_congr rfl fun i _ => by ring
  have := sum_nonneg (s := range M) fun i _ => sq_nonneg (z i - x i)
  rw [e, h] at this
  linarith

end Armas
