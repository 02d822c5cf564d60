import Mathlib.Algebra.Ring.Defs
import Mathlib.Algebra.BigOperators.Group.Finset.Basic

/-!
# What a QR factorization means

Definitions of the statement of C55; they do not mention the model.
-/

namespace Armas

open Finset

variable {α : Type} [CommRing α]

/-- `(I - t w wᵀ) b`, for vectors of length `n`. -/
def refl (n : Nat) (t : α) (w : Nat → α) (b : Nat → Nat → α) (i j : Nat) : α :=
  b i j - t * w i * ∑ l ∈ range n, w l * b l j

/-- Vector of reflector `k` as stored in column `k` of the factored matrix `f`: zeros above the diagonal, one on it. -/
def qrw (f : Nat → Nat → α) (k i : Nat) : α := if i < k then 0 else if i = k then 1 else f i k

/-- `H_0 H_1 ... H_{k-1} b` where `H_l = I - t_l w_l w_lᵀ`. -/
def qrProd (M : Nat) : Nat → (Nat → α) → (Nat → Nat → α) → (Nat → Nat → α) → Nat → Nat → α
  | 0, _, _, b => b
  | k + 1, t, f, b => qrProd M k t f (refl M (t k) (qrw f k) b)

/-- `H_{k-1} ... H_1 H_0 b`. -/
def qrProdT (M : Nat) : Nat → (Nat → α) → (Nat → Nat → α) → (Nat → Nat → α) → Nat → Nat → α
  | 0, _, _, b => b
  | k + 1, t, f, b => refl M (t k) (qrw f k) (qrProdT M k t f b)

/-- `(I - Y T Yᵀ) b` where the columns of `Y` are the first `K` reflector vectors. -/
def blockProd (M K : Nat) (T f b : Nat → Nat → α) (i j : Nat) : α :=
  b i j - ∑ p ∈ range K, qrw f p i * ∑ q ∈ range K, T p q * ∑ r ∈ range M, qrw f q r * b r j

/-- Upper triangular (or trapezoidal) part. -/
def upperPart (f : Nat → Nat → α) (i j : Nat) : α := if j < i then 0 else f i j

end Armas
