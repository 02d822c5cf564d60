import Verif.QrSpec

/-!
# What a QL factorization means

Definitions of the statement of C117; they do not mention the model.
-/

namespace Armas

open Finset

variable {α : Type} [CommRing α]

/-- Vector of reflector `k` of `N` as stored in column `k` of the factored `M × N` matrix `f`: one on the diagonal that ends in the bottom right corner, zeros
below it. -/
def qlw (M N : Nat) (f : Nat → Nat → α) (k i : Nat) : α := if M - N + k < i then 0 else if i = M - N + k then 1 else f i k

/-- `H_{N-1} H_{N-2} ... H_{N-d} b` where `H_l = I - t_l w_l w_lᵀ`; for `d = N` the product of all reflectors. -/
def qlProd (M N : Nat) : Nat → (Nat → α) → (Nat → Nat → α) → (Nat → Nat → α) → Nat → Nat → α
  | 0, _, _, b => b
  | d + 1, t, f, b => qlProd M N d t f (refl M (t (N - 1 - d)) (qlw M N f (N - 1 - d)) b)

/-- `H_{N-d} ... H_{N-2} H_{N-1} b`. -/
def qlProdT (M N : Nat) : Nat → (Nat → α) → (Nat → Nat → α) → (Nat → Nat → α) → Nat → Nat → α
  | 0, _, _, b => b
  | d + 1, t, f, b => refl M (t (N - 1 - d)) (qlw M N f (N - 1 - d)) (qlProdT M N d t f b)

/-- `L`: the part on and below the diagonal that ends in the bottom right corner, zeros above. -/
def qlLower (M N : Nat) (f : Nat → Nat → α) (i j : Nat) : α := if i < M - N + j then 0 else f i j

end Armas
