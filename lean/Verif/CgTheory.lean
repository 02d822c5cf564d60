import Mathlib.Data.Matrix.Mul
import Mathlib.LinearAlgebra.FiniteDimensional.Basic
import Mathlib.LinearAlgebra.Dimension.Constructions
import Mathlib.LinearAlgebra.Dimension.StrongRankCondition
import Mathlib.Algebra.Order.Field.Basic
import Mathlib.LinearAlgebra.Matrix.Symmetric
import Mathlib.Tactic.FieldSimp
import Mathlib.Tactic.Ring
import Mathlib.Tactic.Linarith
import Mathlib.Tactic.LinearCombination
import Mathlib.Tactic.Positivity

/-!
# The conjugate gradient recurrences

Pure facts on the two term recurrences of the conjugate gradient method with preconditioner `B`: orthogonality of the residuals, conjugacy
of the directions and, in exact arithmetic, a zero residual after at most `n` steps.
-/

namespace Armas

open Matrix Finset

variable {α : Type} {n : Nat}

/-- A symmetric positive definite matrix. -/
structure Spd [Field α] [LinearOrder α] (S : Matrix (Fin n) (Fin n) α) : Prop where
  symm : S.IsSymm
  pos : ∀ v : Fin n → α, v ≠ 0 → 0 < v ⬝ᵥ S *ᵥ v

/-- Residual and direction after `k` steps. -/
def cgSeq [Field α] (S B : Matrix (Fin n) (Fin n) α) (r0 : Fin n → α) : Nat → (Fin n → α) × (Fin n → α)
  | 0 => (r0, B *ᵥ r0)
  | k + 1 =>
    let r := (cgSeq S B r0 k).1
    let p := (cgSeq S B r0 k).2
    let r' := r - ((r ⬝ᵥ B *ᵥ r) / (p ⬝ᵥ S *ᵥ p)) • (S *ᵥ p)
    (r', B *ᵥ r' + ((r' ⬝ᵥ B *ᵥ r') / (r ⬝ᵥ B *ᵥ r)) • p)

/-- Residual after `k` steps. -/
def cgR [Field α] (S B : Matrix (Fin n) (Fin n) α) (r0 : Fin n → α) (k : Nat) : Fin n → α := (cgSeq S B r0 k).1

/-- Direction after `k` steps. -/
def cgP [Field α] (S B : Matrix (Fin n) (Fin n) α) (r0 : Fin n → α) (k : Nat) : Fin n → α := (cgSeq S B r0 k).2

/-- Length of step `k`. -/
def cgA [Field α] (S B : Matrix (Fin n) (Fin n) α) (r0 : Fin n → α) (k : Nat) : α :=
  (cgR S B r0 k ⬝ᵥ B *ᵥ cgR S B r0 k) / (cgP S B r0 k ⬝ᵥ S *ᵥ cgP S B r0 k)

/-- Factor of the previous direction. -/
def cgB [Field α] (S B : Matrix (Fin n) (Fin n) α) (r0 : Fin n → α) (k : Nat) : α :=
  (cgR S B r0 (k + 1) ⬝ᵥ B *ᵥ cgR S B r0 (k + 1)) / (cgR S B r0 k ⬝ᵥ B *ᵥ cgR S B r0 k)

section
variable [Field α] {S B : Matrix (Fin n) (Fin n) α} {r0 : Fin n → α}

theorem cgR_zero : cgR S B r0 0 = r0 := rfl

theorem cgP_zero : cgP S B r0 0 = B *ᵥ r0 := rfl

theorem cgR_succ (k : Nat) : cgR S B r0 (k + 1) = cgR S B r0 k - cgA S B r0 k • (S *ᵥ cgP S B r0 k) := rfl

theorem cgP_succ (k : Nat) : cgP S B r0 (k + 1) = B *ᵥ cgR S B r0 (k + 1) + cgB S B r0 k • cgP S B r0 k := rfl

theorem dot_symm (h : S.IsSymm) (u v : Fin n → α) : u ⬝ᵥ S *ᵥ v = v ⬝ᵥ S *ᵥ u := by
  rw [dotProduct_mulVec, ← mulVec_transpose, h.eq, dotProduct_comm]

end

variable [Field α] [LinearOrder α] [IsStrictOrderedRing α] {S B : Matrix (Fin n) (Fin n) α} {r0 : Fin n → α}

theorem Spd.ne {v : Fin n → α} (h : Spd S) (hv : v ≠ 0) : v ⬝ᵥ S *ᵥ v ≠ 0 := ne_of_gt (h.pos v hv)

/-- Residuals are conjugate with respect to `B`, directions with respect to `S`. -/
theorem cg_inv (hS : Spd S) (hB : Spd B) (k : Nat) (h : ∀ i, i < k → cgR S B r0 i ≠ 0) :
    (∀ j, j ≤ k → cgP S B r0 j ⬝ᵥ cgR S B r0 j = cgR S B r0 j ⬝ᵥ B *ᵥ cgR S B r0 j) ∧
    (∀ i j, i < j → j ≤ k → cgR S B r0 i ⬝ᵥ B *ᵥ cgR S B r0 j = 0) ∧
    (∀ i j, i < j → j ≤ k → cgP S B r0 i ⬝ᵥ S *ᵥ cgP S B r0 j = 0) := by
  induction k with
  | zero =>
    refine ⟨fun j hj => ?_, fun i j a b => by omega, fun i j a b => by omega⟩
    have : j = 0 := by omega
    subst this
    rw [cgP_zero, cgR_zero, dotProduct_comm]
  | succ k ih =>
    obtain ⟨i1, i2, i3⟩ := ih (fun i hi => h i (by omega))
    have hr : ∀ i, i ≤ k → cgR S B r0 i ≠ 0 := fun i hi => h i (by omega)
    have hrho : ∀ i, i ≤ k → cgR S B r0 i ⬝ᵥ B *ᵥ cgR S B r0 i ≠ 0 := fun i hi => hB.ne (hr i hi)
    have hp : ∀ i, i ≤ k → cgP S B r0 i ≠ 0 := by
      intro i hi e
      have := i1 i hi
      rw [e, zero_dotProduct] at this
      exact hrho i hi this.symm
    have hsig : ∀ i, i ≤ k → cgP S B r0 i ⬝ᵥ S *ᵥ cgP S B r0 i ≠ 0 := fun i hi => hS.ne (hp i hi)
    have ha : ∀ i, i ≤ k → cgA S B r0 i * (cgP S B r0 i ⬝ᵥ S *ᵥ cgP S B r0 i) = cgR S B r0 i ⬝ᵥ B *ᵥ cgR S B r0 i := by
      intro i hi; unfold cgA; rw [div_mul_cancel₀ _ (hsig i hi)]
    have hane : ∀ i, i ≤ k → cgA S B r0 i ≠ 0 := fun i hi => div_ne_zero (hrho i hi) (hsig i hi)
    have hb : cgB S B r0 k * (cgR S B r0 k ⬝ᵥ B *ᵥ cgR S B r0 k) = cgR S B r0 (k + 1) ⬝ᵥ B *ᵥ cgR S B r0 (k + 1) := by
      unfold cgB; rw [div_mul_cancel₀ _ (hrho k (le_refl _))]
    have hpr : cgP S B r0 k ⬝ᵥ cgR S B r0 (k + 1) = 0 := by
      rw [cgR_succ, dotProduct_sub, dotProduct_smul, smul_eq_mul, ha k (le_refl _), i1 k (le_refl _), sub_self]
    have h1 : cgP S B r0 (k + 1) ⬝ᵥ cgR S B r0 (k + 1) = cgR S B r0 (k + 1) ⬝ᵥ B *ᵥ cgR S B r0 (k + 1) := by
      rw [cgP_succ, add_dotProduct, smul_dotProduct, hpr, smul_zero, add_zero, dotProduct_comm]
    -- the preconditioned residual against the image of the last direction
    have hbs : ∀ i, i ≤ k → (B *ᵥ cgR S B r0 i) ⬝ᵥ S *ᵥ cgP S B r0 k = cgP S B r0 i ⬝ᵥ S *ᵥ cgP S B r0 k := by
      intro i hi
      cases i with
      | zero => rfl
      | succ i =>
        have : B *ᵥ cgR S B r0 (i + 1) = cgP S B r0 (i + 1) - cgB S B r0 i • cgP S B r0 i := by rw [cgP_succ]; simp
        rw [this, sub_dotProduct, smul_dotProduct, i3 i k (by omega) (le_refl _), smul_zero, sub_zero]
    have h2 : ∀ i, i ≤ k → cgR S B r0 i ⬝ᵥ B *ᵥ cgR S B r0 (k + 1) = 0 := by
      intro i hi
      rw [dot_symm hB.symm, dotProduct_comm, cgR_succ, dotProduct_sub, dotProduct_smul, smul_eq_mul, hbs i hi,
        dotProduct_comm, ← dot_symm hB.symm]
      rcases Nat.lt_or_eq_of_le hi with c | c
      · rw [i2 i k c (le_refl _), i3 i k c (le_refl _)]; ring
      · subst c; rw [ha i (le_refl _)]; ring
    have hsp : ∀ i, i ≤ k → cgA S B r0 i * ((S *ᵥ cgP S B r0 i) ⬝ᵥ B *ᵥ cgR S B r0 (k + 1)) =
        - (cgR S B r0 (i + 1) ⬝ᵥ B *ᵥ cgR S B r0 (k + 1)) := by
      intro i hi
      rw [cgR_succ i, sub_dotProduct, smul_dotProduct, h2 i hi, smul_eq_mul]; ring
    have h3 : ∀ i, i ≤ k → cgP S B r0 i ⬝ᵥ S *ᵥ cgP S B r0 (k + 1) = 0 := by
      intro i hi
      have e : cgP S B r0 i ⬝ᵥ S *ᵥ cgP S B r0 (k + 1) =
          (S *ᵥ cgP S B r0 i) ⬝ᵥ B *ᵥ cgR S B r0 (k + 1) + cgB S B r0 k * (cgP S B r0 i ⬝ᵥ S *ᵥ cgP S B r0 k) := by
        rw [dot_symm hS.symm, dotProduct_comm]
        conv_lhs => rw [cgP_succ]
        rw [dotProduct_add, dotProduct_smul, smul_eq_mul, dotProduct_comm (S *ᵥ cgP S B r0 i) (cgP S B r0 k), dot_symm hS.symm]
      have hs := hsp i hi
      rcases Nat.lt_or_eq_of_le hi with c | c
      · rw [h2 (i + 1) (by omega), neg_zero, mul_eq_zero] at hs
        rw [e, i3 i k c (le_refl _), hs.resolve_left (hane i hi)]; ring
      · subst c
        rw [e]
        have h0 := hane i (le_refl _)
        have e2 := ha i (le_refl _)
        have : cgA S B r0 i * ((S *ᵥ cgP S B r0 i) ⬝ᵥ B *ᵥ cgR S B r0 (i + 1) + cgB S B r0 i * (cgP S B r0 i ⬝ᵥ S *ᵥ cgP S B r0 i)) = 0 := by
          rw [mul_add, hs, ← hb, ← e2]; ring
        exact (mul_eq_zero.mp this).resolve_left h0
    refine ⟨fun j hj => ?_, fun i j hij hj => ?_, fun i j hij hj => ?_⟩
    · rcases Nat.lt_or_eq_of_le hj with c | c
      · exact i1 j (by omega)
      · subst c; exact h1
    · rcases Nat.lt_or_eq_of_le hj with c | c
      · exact i2 i j hij (by omega)
      · subst c; exact h2 i (by omega)
    · rcases Nat.lt_or_eq_of_le hj with c | c
      · exact i3 i j hij (by omega)
      · subst c; exact h3 i (by omega)

/-- In exact arithmetic a residual is zero after at most `n` steps. -/
theorem cg_term (hS : Spd S) (hB : Spd B) : ∃ k, k ≤ n ∧ cgR S B r0 k = 0 := by
  by_contra hc
  push Not at hc
  obtain ⟨-, h2, -⟩ := cg_inv (r0 := r0) hS hB n (fun i hi => hc i (by omega))
  have hli : LinearIndependent α (fun i : Fin (n + 1) => cgR S B r0 i) := by
    rw [Fintype.linearIndependent_iff]
    intro g hg j
    have e : (∑ i : Fin (n + 1), g i • cgR S B r0 i) ⬝ᵥ B *ᵥ cgR S B r0 j = 0 := by rw [hg, zero_dotProduct]
    rw [sum_dotProduct, Finset.sum_eq_single j] at e
    · rw [smul_dotProduct, smul_eq_mul, mul_eq_zero] at e
      exact e.resolve_right (hB.ne (hc j (by omega)))
    · intro i _ hij
      rw [smul_dotProduct]
      have hij' : (i : Nat) ≠ j := fun h => hij (Fin.ext h)
      rcases Nat.lt_or_gt_of_ne hij' with c | c
      · rw [h2 i j c (by omega), smul_zero]
      · rw [dot_symm hB.symm, h2 j i c (by omega), smul_zero]
    · intro h; exact absurd (mem_univ j) h
  have := hli.fintype_card_le_finrank
  rw [Fintype.card_fin, Module.finrank_fin_fun] at this
  omega

/-- As long as the residual is not zero, the direction has positive energy. -/
theorem cg_dir_pos (hS : Spd S) (hB : Spd B) {k : Nat} (h : ∀ i, i ≤ k → cgR S B r0 i ≠ 0) :
    cgP S B r0 k ≠ 0 ∧ 0 < cgP S B r0 k ⬝ᵥ S *ᵥ cgP S B r0 k := by
  obtain ⟨h1, -, -⟩ := cg_inv (r0 := r0) hS hB k (fun i hi => h i (by omega))
  have hp : cgP S B r0 k ≠ 0 := by
    intro e
    have := h1 k (le_refl _)
    rw [e, zero_dotProduct] at this
    exact hB.ne (h k (le_refl _)) this.symm
  exact ⟨hp, hS.pos _ hp⟩

/-- The energy of `x`: `x·(S x) - 2 b·x`, smallest at the solution of `S x = b`. -/
def energy [Field α] (S : Matrix (Fin n) (Fin n) α) (b x : Fin n → α) : α := x ⬝ᵥ S *ᵥ x - 2 * (b ⬝ᵥ x)

/-- Every step lowers the energy. -/
theorem cg_energy (hS : Spd S) (hB : Spd B) {k : Nat} (h : ∀ i, i ≤ k → cgR S B r0 i ≠ 0) {b x : Fin n → α}
    (hx : cgR S B r0 k = b - S *ᵥ x) : energy S b (x + cgA S B r0 k • cgP S B r0 k) < energy S b x := by
  obtain ⟨h1, -, -⟩ := cg_inv (r0 := r0) hS hB k (fun i hi => h i (by omega))
  have hpr := h1 k (le_refl _)
  have hsig := (cg_dir_pos hS hB h).2
  have hrho := hB.pos _ (h k (le_refl _))
  have ha : cgA S B r0 k * (cgP S B r0 k ⬝ᵥ S *ᵥ cgP S B r0 k) = cgR S B r0 k ⬝ᵥ B *ᵥ cgR S B r0 k := by
    unfold cgA; rw [div_mul_cancel₀ _ (ne_of_gt hsig)]
  have hapos : 0 < cgA S B r0 k := div_pos hrho hsig
  rw [← hpr] at ha hrho
  have e1 : cgP S B r0 k ⬝ᵥ cgR S B r0 k = cgP S B r0 k ⬝ᵥ b - cgP S B r0 k ⬝ᵥ S *ᵥ x := by
    conv_lhs => rw [hx]
    rw [dotProduct_sub]
  unfold energy
  rw [mulVec_add, mulVec_smul, dotProduct_add, add_dotProduct, add_dotProduct, dotProduct_smul, dotProduct_smul, smul_dotProduct,
    smul_dotProduct, dotProduct_add, dotProduct_smul]
  simp only [smul_eq_mul]
  rw [dot_symm hS.symm x (cgP S B r0 k), dotProduct_comm b (cgP S B r0 k), ha]
  have : cgA S B r0 k * (cgP S B r0 k ⬝ᵥ cgR S B r0 k) > 0 := mul_pos hapos hrho
  rw [e1] at this ⊢
  nlinarith [this]

/-- The unit matrix as a preconditioner. -/
theorem spd_one : Spd (1 : Matrix (Fin n) (Fin n) α) := by
  refine ⟨isSymm_one, fun v hv => ?_⟩
  rw [one_mulVec]
  obtain ⟨i, hi⟩ := Function.ne_iff.mp hv
  exact Finset.sum_pos' (fun i _ => mul_self_nonneg _) ⟨i, mem_univ i, mul_self_pos.mpr hi⟩

end Armas
