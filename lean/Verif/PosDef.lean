import Verif.Schur
import Mathlib.Analysis.Real.Sqrt
import Mathlib.Algebra.Order.BigOperators.Ring.Finset

/-!
# Positive definite and regular matrices, in terms of elimination
-/

namespace Armas

open Finset

/-- The symmetric matrix `g` of order `n` is positive definite. -/
def PosDefn (n : Nat) (g : Nat → Nat → ℝ) : Prop :=
  ∀ x : Nat → ℝ, (∃ i, i < n ∧ x i ≠ 0) → 0 < ∑ i ∈ range n, ∑ j ∈ range n, x i * g i j * x j

/-- Every leading block of the matrix `g` of order `n` is nonsingular. -/
def LeadingRegular {α : Type} [Field α] (n : Nat) (g : Nat → Nat → α) : Prop :=
  ∀ k, k ≤ n → ∀ x : Nat → α, (∀ i, i < k → ∑ j ∈ range k, g i j * x j = 0) → ∀ i, i < k → x i = 0

section field
variable {α : Type} [Field α]

/-- Extension of a vector by the unknown that the first elimination step removed. -/
def liftVec (f : Nat → Nat → α) (n : Nat) (y : Nat → α) : Nat → α
  | 0 => -(∑ j ∈ range n, f 0 (j + 1) * y j) / f 0 0
  | i + 1 => y i

theorem lift_zero {f : Nat → Nat → α} (h : f 0 0 ≠ 0) (n : Nat) (y : Nat → α) :
    ∑ j ∈ range (n + 1), f 0 j * liftVec f n y j = 0 := by
  rw [Finset.sum_range_succ']
  simp only [liftVec]
  field_simp
  ring

theorem lift_succ {f : Nat → Nat → α} (h : f 0 0 ≠ 0) (n : Nat) (y : Nat → α) (i : Nat) :
    ∑ j ∈ range (n + 1), f (i + 1) j * liftVec f n y j =
      ∑ j ∈ range n, schur f 1 (1 + i) (1 + j) * y j := by
  rw [Finset.sum_range_succ']
  simp only [liftVec, schur]
  have : ∀ j, (f (1 + i) (1 + j) - f (1 + i) 0 * f 0 (1 + j) / f 0 0) * y j =
      f (i + 1) (j + 1) * y j - f (i + 1) 0 / f 0 0 * (f 0 (j + 1) * y j) := by
    intro j; rw [add_comm 1 i, add_comm 1 j]; ring
  rw [Finset.sum_congr rfl (fun j _ => this j), Finset.sum_sub_distrib, ← Finset.mul_sum]
  ring

theorem LeadingRegular.pivots {n : Nat} {f : Nat → Nat → α} (h : LeadingRegular n f) :
    ∀ p, p < n → schur f p p p ≠ 0 := by
  induction n generalizing f with
  | zero => intro p hp; omega
  | succ n ih =>
    have h0 : f 0 0 ≠ 0 := by
      intro e
      have := h 1 (by omega) (fun _ => 1) (fun i hi => by
        have : i = 0 := by omega
        subst this; simp [e]) 0 (by omega)
      exact one_ne_zero this
    have hs : LeadingRegular n (fun i j => schur f 1 (1 + i) (1 + j)) := by
      intro k hk y hy i hi
      refine h (k + 1) (by omega) (liftVec f k y) (fun j hj => ?_) (i + 1) (by omega)
      cases j with
      | zero => exact lift_zero h0 _ _
      | succ j => rw [lift_succ h0]; exact hy j (by omega)
    intro p hp
    cases p with
    | zero => exact h0
    | succ p =>
      have := ih hs p (by omega)
      rw [schur_shift, add_comm 1 p] at this
      exact this

/-- Nonzero pivots make the leading blocks nonsingular. -/
theorem leadingRegular_of_pivots {n : Nat} {f : Nat → Nat → α} (h : ∀ p, p < n → schur f p p p ≠ 0) :
    LeadingRegular n f := by
  intro k hk x hx
  have hU : ∀ p, p < k → ∑ j ∈ range k, schur f p p j * x j = 0 := by
    intro p
    induction p using Nat.strong_induction_on with
    | _ p ih =>
      intro hp
      have h1 := hx p hp
      rw [Finset.sum_congr rfl (fun j _ => by
        rw [show f p j = schur f 0 p j from rfl, schur_sum f (Nat.zero_le p) p j, add_mul, Finset.sum_mul]),
        Finset.sum_add_distrib, Finset.sum_comm] at h1
      rw [Finset.sum_eq_zero (s := Ico 0 p), zero_add] at h1
      · exact h1
      · intro q hq
        have hq' := (Finset.mem_Ico.mp hq).2
        rw [Finset.sum_congr rfl (fun j _ => show schur f q p q * schur f q q j / schur f q q q * x j =
          schur f q p q / schur f q q q * (schur f q q j * x j) by ring), ← Finset.mul_sum,
          ih q hq' (by omega), mul_zero]
  refine upper_unique (T := fun p j => schur f p p j) (z := fun _ => 0)
    (fun p j hp hj => schur_zero (fun q hq => h q (by omega)) (Or.inr hj)) (fun p hp => h p (by omega))
    (fun p hp => by rw [hU p hp]; simp)

end field

theorem PosDefn.pivots {n : Nat} {f : Nat → Nat → ℝ} (h : PosDefn n f) :
    ∀ p, p < n → 0 < schur f p p p := by
  induction n generalizing f with
  | zero => intro p hp; omega
  | succ n ih =>
    have h0 : 0 < f 0 0 := by
      have := h (fun i => if i = 0 then 1 else 0) ⟨0, by omega, by simp⟩
      simpa using this
    have hs : PosDefn n (fun i j => schur f 1 (1 + i) (1 + j)) := by
      intro y ⟨i, hi, hy⟩
      have := h (liftVec f n y) ⟨i + 1, by omega, hy⟩
      simp only [mul_assoc, ← Finset.mul_sum] at this ⊢
      rw [Finset.sum_range_succ', lift_zero h0.ne', mul_zero, add_zero] at this
      simp only [lift_succ h0.ne'] at this
      exact this
    intro p hp
    cases p with
    | zero => exact h0
    | succ p =>
      have := ih hs p (by omega)
      rw [schur_shift, add_comm 1 p] at this
      exact this

theorem posDefn_of_factor {n : Nat} {f G : Nat → Nat → ℝ}
    (hf : ∀ i j, i < n → j < n → ∑ p ∈ range n, G i p * G j p = f i j)
    (hG : ∀ i p, i < p → p < n → G i p = 0) (hd : ∀ i, i < n → G i i ≠ 0) : PosDefn n f := by
  intro x ⟨i0, hi0, hx0⟩
  have e : ∑ i ∈ range n, ∑ j ∈ range n, x i * f i j * x j = ∑ p ∈ range n, (∑ i ∈ range n, G i p * x i) ^ 2 := by
    rw [Finset.sum_congr rfl (fun i hi => Finset.sum_congr rfl (fun j hj => by
      rw [← hf i j (Finset.mem_range.mp hi) (Finset.mem_range.mp hj), Finset.mul_sum, Finset.sum_mul]))]
    rw [Finset.sum_congr rfl (fun i _ => Finset.sum_comm), Finset.sum_comm]
    refine Finset.sum_congr rfl (fun p _ => ?_)
    rw [sq, Finset.sum_mul_sum]
    refine Finset.sum_congr rfl (fun i _ => Finset.sum_congr rfl (fun j _ => ?_))
    ring
  rw [e]
  refine lt_of_le_of_ne (Finset.sum_nonneg (fun p _ => sq_nonneg _)) (fun h => hx0 ?_)
  have hz := (Finset.sum_eq_zero_iff_of_nonneg (fun p _ => sq_nonneg _)).mp h.symm
  refine upper_unique (T := fun p i => G i p) (x := x) (z := fun _ => 0) (n := n)
    (fun p i hp hi => hG i p hi hp) hd (fun p hp => ?_) i0 hi0
  have := hz p (Finset.mem_range.mpr hp)
  rw [pow_eq_zero_iff (by decide)] at this
  rw [this]; simp

end Armas
