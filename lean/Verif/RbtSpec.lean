import Mathlib.Algebra.BigOperators.Group.Finset.Basic
import Mathlib.Algebra.BigOperators.Group.Finset.Sigma
import Mathlib.Algebra.BigOperators.Ring.Finset
import Mathlib.Algebra.BigOperators.Group.Finset.Piecewise
import Mathlib.Tactic.Ring

/-!
# Random butterfly matrices

The matrices the documentation of `armas_mult_rbt` defines (`src/lapack/rbtgm.c:327-352`), without the factor `1/sqrt(2)`.  Nothing here is taken from
the model.
-/

namespace Armas

open Finset

variable {α : Type} [CommRing α]

/-- The block diagonal matrix with blocks `[R0 R1; R0 -R1]` of size `s`, the scalars on the diagonals of `R0` and `R1` are the elements of `r`. -/
def bflyMat (s : Nat) (r : Nat → α) (p q : Nat) : α :=
  if p = q then (if p % s < s / 2 then r p else -r p)
  else if p % s < s / 2 ∧ q = p + s / 2 then r q
  else if s / 2 ≤ p % s ∧ q + s / 2 = p then r q
  else 0

/-- Product of the leading `N` rows and columns of the butterfly matrix with `a`. -/
def bfly (N s : Nat) (r : Nat → α) (a : Nat → Nat → α) (i j : Nat) : α := ∑ q ∈ range N, bflyMat s r i q * a q j

/-- Product of the transpose with `a`. -/
def bflyT (N s : Nat) (r : Nat → α) (a : Nat → Nat → α) (i j : Nat) : α := ∑ p ∈ range N, bflyMat s r p i * a p j

/-- `B_0 B_1 ⋯ B_{d-1} a`; the blocks of `B_c` have the size `w * 2^(c+1)` and the scalars of column `c` of `r`. -/
def rbtMul (N w : Nat) (r : Nat → Nat → α) : Nat → (Nat → Nat → α) → Nat → Nat → α
  | 0, a => a
  | d + 1, a => rbtMul N w r d (bfly N (w * 2 ^ (d + 1)) (fun i => r i d) a)

/-- `(B_0 B_1 ⋯ B_{d-1})ᵀ a`. -/
def rbtMulT (N w : Nat) (r : Nat → Nat → α) : Nat → (Nat → Nat → α) → Nat → Nat → α
  | 0, a => a
  | d + 1, a => bflyT N (w * 2 ^ (d + 1)) (fun i => r i d) (rbtMulT N w r d a)

/-- `B_{d-1} ⋯ B_1 B_0 a`, the factors in the other order. -/
def rbtRev (N w : Nat) (r : Nat → Nat → α) : Nat → (Nat → Nat → α) → Nat → Nat → α
  | 0, a => a
  | d + 1, a => bfly N (w * 2 ^ (d + 1)) (fun i => r i d) (rbtRev N w r d a)

/-- `(B_{d-1} ⋯ B_1 B_0)ᵀ a`. -/
def rbtRevT (N w : Nat) (r : Nat → Nat → α) : Nat → (Nat → Nat → α) → Nat → Nat → α
  | 0, a => a
  | d + 1, a => rbtRevT N w r d (bflyT N (w * 2 ^ (d + 1)) (fun i => r i d) a)

/-- Inner product of two columns. -/
def cdot (N : Nat) (a b : Nat → Nat → α) (j k : Nat) : α := ∑ i ∈ range N, a i j * b i k

theorem cdot_bfly (N s : Nat) (r : Nat → α) (a b : Nat → Nat → α) (j k : Nat) : cdot N (bfly N s r a) b j k = cdot N a (bflyT N s r b) j k := by
  unfold cdot bfly bflyT
  simp only [Finset.sum_mul, Finset.mul_sum]
  rw [Finset.sum_comm]
  refine Finset.sum_congr rfl fun p _ => Finset.sum_congr rfl fun q _ => ?_
  ring

/-- The two products are transposed to each other. -/
theorem cdot_rbt (N w : Nat) (r : Nat → Nat → α) (d : Nat) (a b : Nat → Nat → α) (j k : Nat) :
    cdot N (rbtMul N w r d a) b j k = cdot N a (rbtMulT N w r d b) j k := by
  induction d generalizing a with
  | zero => rfl
  | succ d ih => rw [rbtMul, rbtMulT, ih, cdot_bfly]

theorem cdot_rev (N w : Nat) (r : Nat → Nat → α) (d : Nat) (a b : Nat → Nat → α) (j k : Nat) :
    cdot N (rbtRev N w r d a) b j k = cdot N a (rbtRevT N w r d b) j k := by
  induction d generalizing b with
  | zero => rfl
  | succ d ih => rw [rbtRev, rbtRevT, cdot_bfly, ih]

/-- The transpose. -/
def flip2 (a : Nat → Nat → α) (i j : Nat) : α := a j i

/-- One level of the two sided update: `f Bᵀ a C` with the butterfly matrices `B` (scalars `u`) and `C` (scalars `v`). -/
def bfly2 (f : α) (N s : Nat) (u v : Nat → α) (a : Nat → Nat → α) (i j : Nat) : α :=
  f * ∑ p ∈ range N, ∑ q ∈ range N, bflyMat s u p i * a p q * bflyMat s v q j

/-- `f^d (B_0 ⋯ B_{d-1})ᵀ a (C_0 ⋯ C_{d-1})`, level by level. -/
def rbt2 (f : α) (N w : Nat) (u v : Nat → Nat → α) : Nat → (Nat → Nat → α) → Nat → Nat → α
  | 0, a => a
  | d + 1, a => bfly2 f N (w * 2 ^ (d + 1)) (fun i => u i d) (fun i => v i d) (rbt2 f N w u v d a)

theorem bflyT_comm (N s s' : Nat) (u v : Nat → α) (a : Nat → Nat → α) :
    bflyT N s u (flip2 (bflyT N s' v (flip2 a))) = flip2 (bflyT N s' v (flip2 (bflyT N s u a))) := by
  funext i j
  simp only [bflyT, flip2, Finset.mul_sum]
  rw [Finset.sum_comm]
  refine Finset.sum_congr rfl fun p _ => Finset.sum_congr rfl fun q _ => ?_
  ring

theorem rbtMulT_comm (N w s : Nat) (u : Nat → α) (v : Nat → Nat → α) (d : Nat) (a : Nat → Nat → α) :
    bflyT N s u (flip2 (rbtMulT N w v d (flip2 a))) = flip2 (rbtMulT N w v d (flip2 (bflyT N s u a))) := by
  induction d with
  | zero => rfl
  | succ d ih =>
    rw [rbtMulT, rbtMulT]
    have := bflyT_comm N s (w * 2 ^ (d + 1)) u (fun i => v i d) (flip2 (rbtMulT N w v d (flip2 a)))
    rw [ih] at this
    exact this

theorem bflyT_smul (N s : Nat) (u : Nat → α) (c : α) (a : Nat → Nat → α) : bflyT N s u (fun i j => c * a i j) = fun i j => c * bflyT N s u a i j := by
  funext i j
  simp only [bflyT, Finset.mul_sum]
  exact Finset.sum_congr rfl fun p _ => by ring

theorem bfly2_eq (f : α) (N s : Nat) (u v : Nat → α) (a : Nat → Nat → α) :
    bfly2 f N s u v a = fun i j => f * flip2 (bflyT N s v (flip2 (bflyT N s u a))) i j := by
  funext i j
  simp only [bfly2, bflyT, flip2, Finset.mul_sum]
  rw [Finset.sum_comm]
  refine Finset.sum_congr rfl fun p _ => Finset.sum_congr rfl fun q _ => ?_
  ring

/-- The levels together: `f^d Uᵀ a V`. -/
theorem rbt2_eq (f : α) (N w : Nat) (u v : Nat → Nat → α) (d : Nat) (a : Nat → Nat → α) :
    rbt2 f N w u v d a = fun i j => f ^ d * rbtMulT N w v d (flip2 (rbtMulT N w u d a)) j i := by
  induction d with
  | zero => funext i j; simp [rbt2, rbtMulT, flip2]
  | succ d ih =>
    rw [rbt2, ih, bfly2_eq, bflyT_smul]
    funext i j
    have e : (fun i j => f ^ d * bflyT N (w * 2 ^ (d + 1)) (fun i => u i d) (fun i j => rbtMulT N w v d (flip2 (rbtMulT N w u d a)) j i) i j) =
        fun i j => f ^ d * flip2 (rbtMulT N w v d (flip2 (bflyT N (w * 2 ^ (d + 1)) (fun i => u i d) (rbtMulT N w u d a)))) i j := by
      rw [← rbtMulT_comm]
      rfl
    rw [e]
    have e2 : ∀ x : Nat → Nat → α, flip2 (fun i j => f ^ d * x i j) = fun i j => f ^ d * flip2 x i j := fun x => rfl
    rw [e2, bflyT_smul]
    show f * (f ^ d * _) = f ^ (d + 1) * _
    rw [pow_succ f d, ← mul_assoc, mul_comm f (f ^ d)]
    rfl

end Armas
