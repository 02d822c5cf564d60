import Verif.HessSpec

/-!
# What a reduction to bidiagonal form means

Definitions of the statements of C114, C115 and C116; they do not mention the model.
-/

namespace Armas

variable {α : Type} [CommRing α]

/-- `H_{k-1} ... H_1 H_0 b G_0 G_1 ... G_{k-1}` for a matrix `b` with `M` rows and `N` columns.  `H_l = I - s_l u_l u_lᵀ`,
`u_l = (0 ... 0 1 f(l+1.., l))` with the one at `l`; `G_l = I - t_l v_l v_lᵀ`, `v_l = (0 ... 0 1 f(l, l+2..))` with the one at `l + 1`. -/
def bdTo (M N : Nat) : Nat → (Nat → α) → (Nat → α) → (Nat → Nat → α) → (Nat → Nat → α) → Nat → Nat → α
  | 0, _, _, _, b => b
  | k + 1, s, t, f, b => reflRt N (t k) (hessw (fun i j => f j i) k) (refl M (s k) (qrw f k) (bdTo M N k s t f b))

/-- `H_0 H_1 ... H_{k-1} b G_{k-1} ... G_1 G_0`. -/
def bdFrom (M N : Nat) : Nat → (Nat → α) → (Nat → α) → (Nat → Nat → α) → (Nat → Nat → α) → Nat → Nat → α
  | 0, _, _, _, b => b
  | k + 1, s, t, f, b => bdFrom M N k s t f (refl M (s k) (qrw f k) (reflRt N (t k) (hessw (fun i j => f j i) k) b))

/-- The upper bidiagonal matrix whose diagonal and superdiagonal are those of `f`. -/
def bdPart (f : Nat → Nat → α) (i j : Nat) : α := if j = i ∨ j = i + 1 then f i j else 0

/-- `b` multiplied by the matrix `Q` that is given by the maps `P b = Q b` and `PT b = Qᵀ b`: `Q b`, with `trans` `Qᵀ b`, with `right` `b Q = (Qᵀ bᵀ)ᵀ`, with
both `b Qᵀ`. -/
def applied (right trans : Bool) (P PT : (Nat → Nat → α) → Nat → Nat → α) (b : Nat → Nat → α) (i j : Nat) : α :=
  if right then (if trans then P (fun p q => b q p) j i else PT (fun p q => b q p) j i) else (if trans then PT b i j else P b i j)

end Armas
