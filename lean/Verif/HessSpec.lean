import Verif.QrSpec

/-!
# What a Hessenberg reduction means

Definitions of the statement of C109; they do not mention the model.
-/

namespace Armas

open Finset

variable {α : Type} [CommRing α]

/-- `b (I - t w wᵀ)`, for vectors of length `n`. -/
def reflRt (n : Nat) (t : α) (w : Nat → α) (b : Nat → Nat → α) (i j : Nat) : α :=
  b i j - t * (∑ l ∈ range n, b i l * w l) * w j

/-- `H b H` where `H = I - t w wᵀ`. -/
def reflConj (n : Nat) (t : α) (w : Nat → α) (b : Nat → Nat → α) : Nat → Nat → α := refl n t w (reflRt n t w b)

/-- Vector of reflector `k` as stored in column `k` of the reduced matrix `f`: zeros down to the diagonal, one below it. -/
def hessw (f : Nat → Nat → α) (k i : Nat) : α := if i ≤ k then 0 else if i = k + 1 then 1 else f i k

/-- `Qᵀ b Q` where `Q = H_0 H_1 ... H_{k-1}`. -/
def hessTo (n : Nat) : Nat → (Nat → α) → (Nat → Nat → α) → (Nat → Nat → α) → Nat → Nat → α
  | 0, _, _, b => b
  | k + 1, t, f, b => reflConj n (t k) (hessw f k) (hessTo n k t f b)

/-- `Q b Qᵀ` where `Q = H_0 H_1 ... H_{k-1}`. -/
def hessFrom (n : Nat) : Nat → (Nat → α) → (Nat → Nat → α) → (Nat → Nat → α) → Nat → Nat → α
  | 0, _, _, b => b
  | k + 1, t, f, b => hessFrom n k t f (reflConj n (t k) (hessw f k) b)

/-- Upper Hessenberg part: zeros below the first subdiagonal. -/
def hessPart (f : Nat → Nat → α) (i j : Nat) : α := if j + 1 < i then 0 else f i j

/-- `Q b = H_0 H_1 ... H_{k-1} b`. -/
def hessProd (n : Nat) : Nat → (Nat → α) → (Nat → Nat → α) → (Nat → Nat → α) → Nat → Nat → α
  | 0, _, _, b => b
  | k + 1, t, f, b => hessProd n k t f (refl n (t k) (hessw f k) b)

/-- `Qᵀ b = H_{k-1} ... H_1 H_0 b`. -/
def hessProdT (n : Nat) : Nat → (Nat → α) → (Nat → Nat → α) → (Nat → Nat → α) → Nat → Nat → α
  | 0, _, _, b => b
  | k + 1, t, f, b => refl n (t k) (hessw f k) (hessProdT n k t f b)

end Armas
