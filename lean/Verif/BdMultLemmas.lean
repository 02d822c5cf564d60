import Verif.BiredSpec
import Verif.HessMultLemmas

/-!
# Lemmas about multiplication with the orthogonal matrices of a bidiagonal reduction
-/

namespace Armas

open Finset

variable {α : Type} [CommRing α]

theorem reflRt_refl2 (n k : Nat) (t s : α) (w v : Nat → α) (b : Nat → Nat → α) (i j : Nat) :
    reflRt n t w (refl k s v b) i j = refl k s v (reflRt n t w b) i j := by
  have e1 : ∑ l ∈ range n, (b i l - s * v i * ∑ q ∈ range k, v q * b q l) * w l =
      ∑ l ∈ range n, b i l * w l - s * v i * ∑ l ∈ range n, ∑ q ∈ range k, v q * b q l * w l := by
    rw [mul_sum, ← sum_sub_distrib]
    refine sum_congr rfl fun l _ => ?_
    rw [← sum_mul]
    ring
  have e2 : ∑ q ∈ range k, v q * (b q j - t * (∑ l ∈ range n, b q l * w l) * w j) =
      ∑ q ∈ range k, v q * b q j - t * w j * ∑ l ∈ range n, ∑ q ∈ range k, v q * b q l * w l := by
    rw [sum_comm, mul_sum, ← sum_sub_distrib]
    refine sum_congr rfl fun q _ => ?_
    rw [sum_congr rfl fun l _ => mul_assoc (v q) (b q l) (w l), ← mul_sum]
    ring
  unfold reflRt refl
  rw [e1, e2]
  ring

theorem reflRt_hessProdT2 {n k : Nat} {t : Nat → α} {f : Nat → Nat → α} (s : α) (w : Nat → α) : ∀ (l : Nat) (b : Nat → Nat → α) (i j : Nat),
    reflRt k s w (hessProdT n l t f b) i j = hessProdT n l t f (reflRt k s w b) i j
  | 0, _, _, _ => rfl
  | l + 1, b, i, j => by
    unfold hessProdT
    rw [reflRt_refl2]
    congr 1
    funext i j
    exact reflRt_hessProdT2 s w l b i j

/-- `Qᵀ b P` by two multiplications. -/
theorem bdTo_eq {M N : Nat} {s t : Nat → α} {f : Nat → Nat → α} : ∀ (k : Nat) (b : Nat → Nat → α) (i j : Nat),
    bdTo M N k s t f b i j = hessProdT N k t (fun i j => f j i) (fun p q => qrProdT M k s f b q p) j i
  | 0, _, _, _ => rfl
  | k + 1, b, i, j => by
    have e : bdTo M N k s t f b = fun i j => hessProdT N k t (fun i j => f j i) (fun p q => qrProdT M k s f b q p) j i := by
      funext i j
      exact bdTo_eq k b i j
    have e1 : refl M (s k) (qrw f k) (bdTo M N k s t f b) =
        fun i j => hessProdT N k t (fun i j => f j i) (fun p q => refl M (s k) (qrw f k) (qrProdT M k s f b) q p) j i := by
      funext i j
      rw [e]
      have := reflRt_hessProdT2 (n := N) (k := M) (t := t) (f := fun i j => f j i) (s k) (qrw f k) k (fun p q => qrProdT M k s f b q p) j i
      rw [reflRt_eq] at this
      rw [this]
      congr 1
      funext p q
      rw [reflRt_eq]
    show reflRt N (t k) (hessw (fun i j => f j i) k) (refl M (s k) (qrw f k) (bdTo M N k s t f b)) i j = _
    rw [e1, reflRt_eq]
    rfl

/-- The last reflector from the right has nothing to do. -/
theorem hessProdT_pred {n : Nat} {t : Nat → α} {f b : Nat → Nat → α} {i : Nat} (j : Nat) (hi : i < n) :
    hessProdT n n t f b i j = hessProdT n (n - 1) t f b i j := by
  obtain ⟨p, rfl⟩ : ∃ p, n = p + 1 := ⟨n - 1, by omega⟩
  rw [Nat.add_sub_cancel]
  show refl (p + 1) (t p) (hessw f p) (hessProdT (p + 1) p t f b) i j = _
  unfold refl
  rw [show hessw f p i = 0 from if_pos (by omega)]
  ring

end Armas
