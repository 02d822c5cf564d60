import Verif.TrdMult
import Verif.TrdLemmas
import Verif.HessMultLemmas
import Verif.Props.Blas1
import Verif.Props.House

/-!
# Lemmas about the orthogonal matrix of a tridiagonal reduction
-/

namespace Armas

open Finset

section ring

variable {α : Type} [CommRing α]

theorem reflRt_hessProd {n : Nat} {t : Nat → α} {f : Nat → Nat → α} (s : α) (w : Nat → α) : ∀ (k : Nat) (b : Nat → Nat → α) (i j : Nat),
    reflRt n s w (hessProd n k t f b) i j = hessProd n k t f (reflRt n s w b) i j
  | 0, _, _, _ => rfl
  | k + 1, b, i, j => by
    unfold hessProd
    rw [reflRt_hessProd s w k]
    congr 1
    funext i j
    exact reflRt_refl ..

/-- `Q b Qᵀ` by two multiplications. -/
theorem hessFrom_eq {n : Nat} {t : Nat → α} {f : Nat → Nat → α} : ∀ (k : Nat) (b : Nat → Nat → α) (i j : Nat),
    hessFrom n k t f b i j = hessProd n k t f (fun p q => hessProd n k t f (fun p q => b q p) q p) i j
  | 0, _, _, _ => rfl
  | k + 1, b, i, j => by
    show hessFrom n k t f (reflConj n (t k) (hessw f k) b) i j = hessProd n k t f (refl n (t k) (hessw f k) fun p q =>
      hessProd n k t f (refl n (t k) (hessw f k) fun p q => b q p) q p) i j
    rw [hessFrom_eq k]
    congr 1
    funext p q
    have e1 : (fun p q => reflConj n (t k) (hessw f k) b q p) = reflRt n (t k) (hessw f k) (refl n (t k) (hessw f k) fun p q => b q p) := by
      funext p q
      unfold reflConj
      rw [reflRt_eq]
      congr 1
      funext p q
      rw [reflRt_eq]
    rw [e1, ← reflRt_hessProd, reflRt_eq]

theorem refl_lin {n : Nat} (t : α) (w : Nat → α) (b : Nat → Nat → α) {i : Nat} (j : Nat) (hi : i < n) :
    refl n t w b i j = ∑ p ∈ range n, refl n t w (fun p q => if p = q then 1 else 0) i p * b p j := by
  have e : ∀ p, p ∈ range n → refl n t w (fun p q => if p = q then 1 else 0) i p * b p j = (if i = p then b p j else 0) - t * w i * (w p * b p j) := by
    intro p hp
    unfold refl
    beta_reduce
    rw [sum_eq_single p (fun l _ h => by rw [if_neg h, mul_zero]) fun h => absurd hp h, if_pos rfl]
    split_ifs <;> ring
  rw [sum_congr rfl e, sum_sub_distrib, sum_ite_eq, if_pos (mem_range.mpr hi), ← mul_sum]
  rfl

theorem hessProd_lin {n : Nat} {t : Nat → α} {f : Nat → Nat → α} : ∀ (k : Nat) (b : Nat → Nat → α) (i j : Nat), i < n →
    hessProd n k t f b i j = ∑ p ∈ range n, hessProd n k t f (fun p q => if p = q then 1 else 0) i p * b p j
  | 0, b, i, j, hi => by
    show b i j = ∑ p ∈ range n, (if i = p then 1 else 0) * b p j
    rw [sum_congr rfl fun p _ => ite_mul _ _ _ _, sum_congr rfl fun p _ => by rw [one_mul, zero_mul], sum_ite_eq, if_pos (mem_range.mpr hi)]
  | k + 1, b, i, j, hi => by
    unfold hessProd
    rw [hessProd_lin k _ i j hi, sum_congr rfl fun p hp => by rw [refl_lin (t k) (hessw f k) b j (mem_range.mp hp), mul_sum], sum_comm]
    refine sum_congr rfl fun p hp => ?_
    rw [hessProd_lin k (refl n (t k) (hessw f k) _) i p hi, sum_mul]
    exact sum_congr rfl fun q _ => by ring

/-- One column of a product of reflectors; only their vectors matter. -/
theorem qrProd_colw {M : Nat} {t : Nat → α} {f f' : Nat → Nat → α} {j j' : Nat} : ∀ (k : Nat) (b b' : Nat → Nat → α),
    (∀ l i, l < k → i < M → qrw f l i = qrw f' l i) → (∀ i, i < M → b i j = b' i j') → ∀ i, i < M → qrProd M k t f b i j = qrProd M k t f' b' i j'
  | 0, _, _, _, hb => hb
  | k + 1, b, b', hw, hb => by
    intro i hi
    unfold qrProd
    refine qrProd_colw k _ _ (fun l i hl hi => hw l i (by omega) hi) (fun i hi => ?_) i hi
    unfold refl
    rw [hb i hi, hw k i (by omega) hi, sum_congr rfl fun l hl => by rw [hb l (mem_range.mp hl), hw k l (by omega) (mem_range.mp hl)]]

theorem hessTo_last {n : Nat} {t : Nat → α} {f b : Nat → Nat → α} (k : Nat) (h : t k = 0) (i j : Nat) :
    hessTo n (k + 1) t f b i j = hessTo n k t f b i j := by
  show reflConj n (t k) (hessw f k) (hessTo n k t f b) i j = _
  unfold reflConj refl reflRt
  rw [h]
  simp

theorem hessFrom_last {n : Nat} {t : Nat → α} {f b : Nat → Nat → α} (k : Nat) (h : t k = 0) :
    hessFrom n (k + 1) t f b = hessFrom n k t f b := by
  have e : reflConj n (t k) (hessw f k) b = b := by
    funext i j
    unfold reflConj refl reflRt
    rw [h]
    simp
  show hessFrom n k t f (reflConj n (t k) (hessw f k) b) = _
  rw [e]

end ring

/-- Inner products of columns are kept by orthogonal reflectors. -/
theorem hessProd_inner {n : Nat} {t : Nat → ℝ} {f : Nat → Nat → ℝ} : ∀ (k : Nat), (∀ l, l < k → Props.OrthogonalRefl n (t l) (hessw f l)) →
    ∀ (b : Nat → Nat → ℝ) (p q : Nat), ∑ i ∈ range n, hessProd n k t f b i p * hessProd n k t f b i q = ∑ i ∈ range n, b i p * b i q
  | 0, _, _, _, _ => rfl
  | k + 1, h, b, p, q => by
    unfold hessProd
    rw [hessProd_inner k fun l hl => h l (by omega)]
    exact h k (by omega) (fun i => b i p) (fun i => b i q)

section field

variable {α : Type} [Field α] [DecidableEq α]

/-- `A` after the columns behind column `k` have been shifted. -/
def shifted (k : Nat) (f : Nat → Nat → α) (i j : Nat) : α :=
  if k < j then (if i = 0 then 0 else if j ≤ i then f i (j - 1) else f i j) else f i j

theorem trdShift_spec {m : Mem α} {A : View} {n k : Nat} {f : Nat → Nat → α} (wA : A.WF) (hr : A.rows = n) (hc : A.cols = n) (hk : k + 1 < n)
    (hA : Holds m A (shifted (k + 1) f)) :
    Runs (trdShift A (k + 1) m) (fun m' => Holds m' A (shifted k f) ∧ Frame A.foot m m') := by
  unfold trdShift
  rw [Nat.add_sub_cancel, hr]
  have sD : (A.sub (k + 1) (k + 1) (n - (k + 1)) 1).foot ⊆ A.foot := View.sub_foot (by omega) (by omega)
  have hD : HoldsV m (A.sub (k + 1) (k + 1) (n - (k + 1)) 1) (fun i => shifted (k + 1) f (k + 1 + i) (k + 1)) := by
    rw [holdsV_iff (Or.inr rfl)]
    exact (hA.part (by omega) (by omega)).congr fun i j hi hj => by
      rw [View.sub_cols] at hj
      obtain rfl : j = 0 := by omega
      rfl
  have hS : HoldsV m (A.sub (k + 1) k (n - (k + 1)) 1) (fun i => shifted (k + 1) f (k + 1 + i) k) := by
    rw [holdsV_iff (Or.inr rfl)]
    exact (hA.part (by omega) (by omega)).congr fun i j hi hj => by
      rw [View.sub_cols] at hj
      obtain rfl : j = 0 := by omega
      rfl
  refine (Props.C05_copy (wA.sub (by omega) (by omega)) (Or.inr rfl) (Or.inr rfl) hD hS
    (View.sub_disj wA (by omega) (by omega) (by omega) (by omega) (by omega))).bind ?_
  rintro ⟨e, m1⟩ ⟨-, h1, F1⟩
  dsimp only at h1 F1 ⊢
  rw [holdsV_iff (Or.inr rfl)] at h1
  have hA1 := hA.patch wA (by omega) (by omega) h1 F1
  have he := hA1 0 (k + 1) (by omega) (by omega)
  refine Runs.wr (m := m1) (p := A.at' 0 (k + 1)) he ?_
  refine ⟨(hA1.write wA (by omega) (by omega) 0).congr fun i j hi hj => ?_, (F1.mono sD).trans (Frame.set (View.at_mem_foot (by omega) (by omega)) _)⟩
  rw [hr] at hi
  rw [hc] at hj
  have hz : (A.sub (k + 1) k (n - (k + 1)) 1).size = n - (k + 1) := by rw [View.size, View.sub_rows, View.sub_cols, Nat.mul_one]
  by_cases c1 : i = 0 ∧ j = k + 1
  · rw [if_pos c1]
    unfold shifted
    rw [if_pos (by omega), if_pos c1.1]
  rw [if_neg c1]
  by_cases c2 : k + 1 ≤ i ∧ i < k + 1 + (n - (k + 1)) ∧ k + 1 ≤ j ∧ j < k + 1 + 1
  · rw [if_pos c2, hz, if_pos (by omega)]
    unfold shifted
    rw [if_neg (by omega), if_pos (by omega), if_neg (by omega), if_pos (by omega)]
    congr 1 <;> omega
  · rw [if_neg c2]
    unfold shifted
    split_ifs <;> first | rfl | (exfalso; omega)

/-- The shift of all columns and the unit vector in the first. -/
theorem trdShift_all {m : Mem α} {A : View} {p : Nat} {f : Nat → Nat → α} (wA : A.WF) (hr : A.rows = p + 1) (hc : A.cols = p + 1) (hA : Holds m A f) :
    Runs (forDown p (fun d => trdShift A (d + 1)) m) (fun m' => Holds m' A (shifted 0 f) ∧ Frame A.foot m m') := by
  refine Runs.forDown (I := fun k m' => Holds m' A (shifted k f) ∧ Frame A.foot m m') ⟨hA.congr fun i j hi hj => ?_, Frame.refl _ _⟩ ?_ (fun _ h => h)
  · unfold shifted
    rw [if_neg (by omega)]
  · rintro k m1 hk ⟨h1, F1⟩
    refine (trdShift_spec wA hr hc (by omega) h1).mono ?_
    rintro m2 ⟨h2, F2⟩
    exact ⟨h2, F1.trans F2⟩

end field

end Armas
