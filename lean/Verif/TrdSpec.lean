import Verif.HessSpec

/-!
# What a reduction to tridiagonal form means

Definitions of the statement of C111; they do not mention the model.
-/

namespace Armas

variable {α : Type} [CommRing α]

/-- The symmetric tridiagonal matrix whose diagonal and subdiagonal are those of `f`. -/
def trdPart (f : Nat → Nat → α) (i j : Nat) : α :=
  if i = j then f i i else if i = j + 1 then f i j else if j = i + 1 then f j i else 0

/-- The symmetric matrix with the lower triangle of `f`. -/
def symLower (f : Nat → Nat → α) (i j : Nat) : α := if j ≤ i then f i j else f j i

end Armas
