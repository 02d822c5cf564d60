import Verif.HessMult
import Verif.HessLemmas

/-!
# Lemmas about multiplication with the orthogonal matrix of a Hessenberg reduction
-/

namespace Armas

open Finset

variable {α : Type} [CommRing α]

theorem refl_shift1 {p : Nat} {t : α} {w : Nat → α} (h : w 0 = 0) (b : Nat → Nat → α) (i j : Nat) :
    refl (p + 1) t w b (i + 1) j = refl p t (fun i => w (i + 1)) (fun i j => b (i + 1) j) i j := by
  unfold refl
  rw [sum_range_succ', h, zero_mul, add_zero]

theorem refl_zero {n : Nat} {t : α} {w : Nat → α} (h : w 0 = 0) (b : Nat → Nat → α) (j : Nat) : refl n t w b 0 j = b 0 j := by
  unfold refl
  rw [h]
  ring

theorem hessw_zero (f : Nat → Nat → α) (k : Nat) : hessw f k 0 = 0 := if_pos (Nat.zero_le _)

theorem hessw_succ (f : Nat → Nat → α) (k : Nat) : (fun i => hessw f k (i + 1)) = qrw (fun i j => f (i + 1) j) k := by
  funext i
  unfold hessw qrw
  by_cases c1 : i < k
  · rw [if_pos (by omega), if_pos c1]
  · rw [if_neg (by omega), if_neg c1]
    by_cases c2 : i = k
    · rw [if_pos (by omega), if_pos c2]
    · rw [if_neg (by omega), if_neg c2]

theorem hessProd_succ {p : Nat} {t : Nat → α} {f : Nat → Nat → α} : ∀ (k : Nat) (b : Nat → Nat → α) (i j : Nat),
    hessProd (p + 1) k t f b (i + 1) j = qrProd p k t (fun i j => f (i + 1) j) (fun i j => b (i + 1) j) i j
  | 0, _, _, _ => rfl
  | k + 1, b, i, j => by
    unfold hessProd qrProd
    rw [hessProd_succ k, ← hessw_succ]
    congr 1
    funext i j
    exact refl_shift1 (hessw_zero f k) b i j

theorem hessProd_zero {n : Nat} {t : Nat → α} {f : Nat → Nat → α} : ∀ (k : Nat) (b : Nat → Nat → α) (j : Nat), hessProd n k t f b 0 j = b 0 j
  | 0, _, _ => rfl
  | k + 1, b, j => by
    unfold hessProd
    rw [hessProd_zero k, refl_zero (hessw_zero f k)]

theorem hessProdT_succ {p : Nat} {t : Nat → α} {f : Nat → Nat → α} : ∀ (k : Nat) (b : Nat → Nat → α) (i j : Nat),
    hessProdT (p + 1) k t f b (i + 1) j = qrProdT p k t (fun i j => f (i + 1) j) (fun i j => b (i + 1) j) i j
  | 0, _, _, _ => rfl
  | k + 1, b, i, j => by
    unfold hessProdT qrProdT
    rw [refl_shift1 (hessw_zero f k), ← hessw_succ]
    congr 1
    funext i j
    exact hessProdT_succ k b i j

theorem hessProdT_zero {n : Nat} {t : Nat → α} {f : Nat → Nat → α} : ∀ (k : Nat) (b : Nat → Nat → α) (j : Nat), hessProdT n k t f b 0 j = b 0 j
  | 0, _, _ => rfl
  | k + 1, b, j => by
    unfold hessProdT
    rw [refl_zero (hessw_zero f k), hessProdT_zero k]

theorem hessProdT_congr {n : Nat} {t : Nat → α} {f : Nat → Nat → α} : ∀ (k : Nat) (b b' : Nat → Nat → α) (j : Nat), (∀ i, i < n → b i j = b' i j) →
    ∀ i, i < n → hessProdT n k t f b i j = hessProdT n k t f b' i j
  | 0, _, _, _, h => h
  | k + 1, b, b', j, h => fun i hi => by
    unfold hessProdT
    exact refl_congr hi (fun _ _ => rfl) (hessProdT_congr k b b' j h)

theorem reflRt_hessProdT {n : Nat} {t : Nat → α} {f : Nat → Nat → α} (s : α) (w : Nat → α) : ∀ (k : Nat) (b : Nat → Nat → α) (i j : Nat),
    reflRt n s w (hessProdT n k t f b) i j = hessProdT n k t f (reflRt n s w b) i j
  | 0, _, _, _ => rfl
  | k + 1, b, i, j => by
    unfold hessProdT
    rw [reflRt_refl]
    congr 1
    funext i j
    exact reflRt_hessProdT s w k b i j

/-- `Qᵀ b Q` by two multiplications. -/
theorem hessTo_eq {n : Nat} {t : Nat → α} {f : Nat → Nat → α} : ∀ (k : Nat) (b : Nat → Nat → α) (i j : Nat),
    hessTo n k t f b i j = hessProdT n k t f (fun p q => hessProdT n k t f (fun p q => b q p) q p) i j
  | 0, _, _, _ => rfl
  | k + 1, b, i, j => by
    have e : hessTo n k t f b = hessProdT n k t f (fun p q => hessProdT n k t f (fun p q => b q p) q p) := by
      funext i j
      exact hessTo_eq k b i j
    have e2 : reflRt n (t k) (hessw f k) (fun p q => hessProdT n k t f (fun p q => b q p) q p) = fun p q =>
        refl n (t k) (hessw f k) (hessProdT n k t f fun p q => b q p) q p := by
      funext p q
      rw [reflRt_eq]
    unfold hessTo reflConj
    rw [e]
    show _ = refl n (t k) (hessw f k) (hessProdT n k t f _) i j
    congr 1
    funext i j
    rw [reflRt_hessProdT, e2]
    rfl

/-- The multiplications the other way round. -/
theorem hessTo_eq' {n : Nat} {t : Nat → α} {f : Nat → Nat → α} : ∀ (k : Nat) (b : Nat → Nat → α) (i j : Nat),
    hessTo n k t f b i j = hessProdT n k t f (fun p q => hessProdT n k t f b q p) j i
  | 0, _, _, _ => rfl
  | k + 1, b, i, j => by
    have e : hessTo n k t f b = fun i j => hessProdT n k t f (fun p q => hessProdT n k t f b q p) j i := by
      funext i j
      exact hessTo_eq' k b i j
    have e2 : (fun p q => refl n (t k) (hessw f k) (hessProdT n k t f b) q p) =
        reflRt n (t k) (hessw f k) (fun p q => hessProdT n k t f b q p) := by
      funext p q
      rw [reflRt_eq]
    unfold hessTo reflConj
    rw [e, ← reflRt_refl, reflRt_eq]
    show _ = refl n (t k) (hessw f k) (hessProdT n k t f fun p q => refl n (t k) (hessw f k) (hessProdT n k t f b) q p) j i
    congr 1
    funext a c
    rw [e2, ← reflRt_hessProdT, reflRt_eq]

end Armas
