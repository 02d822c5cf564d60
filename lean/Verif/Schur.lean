import Verif.TrsmLemmas
import Mathlib.Algebra.BigOperators.Intervals
import Mathlib.Tactic.FieldSimp
import Mathlib.Tactic.LinearCombination

/-!
# Gaussian elimination on matrices, independent of the code

`schur f k` is the matrix left by `k` steps of elimination on `f` without pivoting; the factorizations
of `src/lapack` store parts of these matrices.
-/

namespace Armas

open Finset

variable {α : Type}

section schur
variable [Field α]

/-- The Schur complements of a matrix: step `k` eliminates row and column `k`. -/
def schur (f : Nat → Nat → α) : Nat → Nat → Nat → α
  | 0 => f
  | k + 1 => fun i j => schur f k i j - schur f k i k * schur f k k j / schur f k k k

theorem schur_succ (f : Nat → Nat → α) (k i j : Nat) :
    schur f (k + 1) i j = schur f k i j - schur f k i k * schur f k k j / schur f k k k := rfl

/-- What elimination steps `a ≤ p < b` have taken away. -/
theorem schur_sum (f : Nat → Nat → α) {a b : Nat} (h : a ≤ b) (i j : Nat) :
    schur f a i j = ∑ p ∈ Ico a b, schur f p i p * schur f p p j / schur f p p p + schur f b i j := by
  induction b, h using Nat.le_induction with
  | base => simp
  | succ b h ih => rw [ih, Finset.sum_Ico_succ_top h, schur_succ]; ring

theorem schur_shift (f : Nat → Nat → α) (k p i j : Nat) :
    schur (fun i j => schur f k (k + i) (k + j)) p i j = schur f (k + p) (k + i) (k + j) := by
  induction p generalizing i j with
  | zero => rfl
  | succ p ih => rw [schur_succ, ih, ih, ih, ih]; rfl

theorem schur_symm {f : Nat → Nat → α} (h : ∀ i j, f i j = f j i) (k i j : Nat) :
    schur f k i j = schur f k j i := by
  induction k generalizing i j with
  | zero => exact h i j
  | succ k ih => rw [schur_succ, schur_succ, ih i j, ih i k, ih k j]; ring

/-- Eliminated rows and columns are zero. -/
theorem schur_zero {f : Nat → Nat → α} {k : Nat} (h : ∀ p, p < k → schur f p p p ≠ 0) {i j : Nat}
    (hij : i < k ∨ j < k) : schur f k i j = 0 := by
  induction k generalizing i j with
  | zero => omega
  | succ k ih =>
    have hk := h k (by omega)
    have ih' := fun {i j} => ih (fun p hp => h p (by omega)) (i := i) (j := j)
    rw [schur_succ]
    rcases hij with hi | hj
    · by_cases e : i = k
      · subst e; field_simp; ring
      · rw [ih' (Or.inl (by omega)), ih' (i := i) (j := k) (Or.inl (by omega))]; simp
    · by_cases e : j = k
      · subst e; field_simp; ring
      · rw [ih' (Or.inr (by omega)), ih' (i := k) (j := j) (Or.inr (by omega))]; simp

/-- Elimination only looks at the rows and columns of the element and the earlier ones. -/
theorem schur_congr {f g : Nat → Nat → α} {r c : Nat} (h : ∀ i j, i < r → j < c → f i j = g i j) {k : Nat}
    (hr : k ≤ r) (hc : k ≤ c) {i j : Nat} (hi : i < r) (hj : j < c) : schur f k i j = schur g k i j := by
  induction k generalizing i j with
  | zero => exact h i j hi hj
  | succ k ih =>
    rw [schur_succ, schur_succ, ih (by omega) (by omega) hi hj, ih (by omega) (by omega) hi (by omega),
      ih (by omega) (by omega) (i := k) (by omega) hj, ih (by omega) (by omega) (i := k) (by omega) (by omega)]

/-- An element is the sum over the steps up to its own. -/
theorem schur_full {f : Nat → Nat → α} {a k : Nat} (h : ∀ p, p < k → schur f p p p ≠ 0) {i j : Nat}
    (hij : i < k ∨ j < k) (ha : a ≤ k) :
    schur f a i j = ∑ p ∈ Ico a k, schur f p i p * schur f p p j / schur f p p p := by
  rw [schur_sum f ha, schur_zero h hij, add_zero]

end schur

/-! ## Triangular systems have one solution -/

section unique
variable [Field α]

theorem lower_unique {T : Nat → Nat → α} {x z : Nat → α} {n : Nat} (hT : ∀ i k, i < n → i < k → T i k = 0)
    (hnz : ∀ i, i < n → T i i ≠ 0)
    (h : ∀ i, i < n → ∑ k ∈ range n, T i k * x k = ∑ k ∈ range n, T i k * z k) :
    ∀ i, i < n → x i = z i := by
  intro i
  induction i using Nat.strong_induction_on with
  | _ i ih =>
    intro hi
    have h1 := h i hi
    have e : ∀ y : Nat → α, ∑ k ∈ range n, T i k * y k = ∑ k ∈ range i, T i k * y k + T i i * y i := by
      intro y
      rw [← Finset.sum_range_succ]
      symm
      apply Finset.sum_subset (Finset.range_subset_range.mpr hi)
      intro k _ hk
      rw [hT i k hi (by simpa using hk), zero_mul]
    rw [e x, e z, Finset.sum_congr rfl (fun k hk => by
      rw [ih k (Finset.mem_range.mp hk) ((Finset.mem_range.mp hk).trans hi)])] at h1
    exact mul_left_cancel₀ (hnz i hi) (add_left_cancel h1)

theorem upper_unique {T : Nat → Nat → α} {x z : Nat → α} {n : Nat} (hT : ∀ i k, i < n → k < i → T i k = 0)
    (hnz : ∀ i, i < n → T i i ≠ 0)
    (h : ∀ i, i < n → ∑ k ∈ range n, T i k * x k = ∑ k ∈ range n, T i k * z k) :
    ∀ i, i < n → x i = z i := by
  intro i hi
  have := lower_unique (T := fun i k => if k < n then T (n - 1 - i) (n - 1 - k) else 0)
    (x := fun k => x (n - 1 - k)) (z := fun k => z (n - 1 - k)) (n := n)
    (fun i k hi hk => by
      beta_reduce
      split
      · exact hT _ _ (by omega) (by omega)
      · rfl)
    (fun i hi => by rw [if_pos hi]; exact hnz _ (by omega))
    (fun i hi => by
      have h1 := h (n - 1 - i) (by omega)
      rw [← Finset.sum_range_reflect, ← Finset.sum_range_reflect (fun k => _ * z k)] at h1
      have e : ∀ y : Nat → α, ∑ k ∈ range n, (if k < n then T (n - 1 - i) (n - 1 - k) else 0) * y k =
          ∑ k ∈ range n, T (n - 1 - i) (n - 1 - k) * y k := fun y =>
        Finset.sum_congr rfl (fun k hk => by rw [if_pos (Finset.mem_range.mp hk)])
      rw [e, e]
      exact h1) (n - 1 - i) (by omega)
  simpa [show n - 1 - (n - 1 - i) = i by omega] using this

theorem tri_unique (fl : Flags) (a : Nat → Nat → α) {x z : Nat → α} {n : Nat}
    (hnz : ∀ i, i < n → trE fl a i i ≠ 0)
    (h : ∀ i, i < n → ∑ k ∈ range n, trE fl a i k * x k = ∑ k ∈ range n, trE fl a i k * z k) :
    ∀ i, i < n → x i = z i := by
  cases hup : fl.up
  · exact lower_unique (fun i k _ hk => trE_down hup a hk) hnz h
  · exact upper_unique (fun i k _ hk => trE_up hup a hk) hnz h

end unique

end Armas
