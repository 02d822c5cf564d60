import Verif.Kernel
import Verif.Blas1Lemmas
import Verif.GemvLemmas
import Mathlib.Algebra.BigOperators.Intervals
import Mathlib.Tactic.Ring

/-! # Specification of the multiplication kernels -/

namespace Armas

open Finset

variable {α : Type}

/-- `n` consecutive cells from `p`. -/
def Cells (m : Mem α) (p n : Nat) (f : Nat → α) : Prop := ∀ k, k < n → m (p + k) = some (f k)

theorem Cells.col {m : Mem α} {V : View} {a : Nat → Nat → α} (h : Holds m V a) {j n : Nat}
    (hn : n ≤ V.rows) (hj : j < V.cols) : Cells m (V.at' 0 j) n (fun k => a k j) := by
  intro k hk
  have := h k j (by omega) hj
  rw [← this]; congr 1
  simp only [View.at']; omega

theorem Runs.mac_bind {β : Type} [Mul α] [Add α] {m : Mem α} {a b : Nat} {y u v : α}
    {F : α → Res β} {Q : β → Prop} (ha : m a = some u) (hb : m b = some v)
    (h : Runs (F (y + u * v)) Q) : Runs (Armas.mac m a b y >>= F) Q := by
  unfold Armas.mac
  simp only [bind_assoc]
  exact Runs.rd_bind ha (Runs.rd_bind hb h)

section
variable [CommRing α]

/-- One accumulation into an element of a matrix that is being updated. -/
theorem Upd.addTo {m0 m : Mem α} {C : View} {f g : Nat → Nat → α} {S : Nat → Nat → Prop}
    (h : Upd m0 C f g S m) (hw : C.WF) {i j : Nat} (hi : i < C.rows) (hj : j < C.cols)
    (hS : ¬ S i j) {p : Nat} (hp : p = C.at' i j) {v : α} (hv : f i j + v = g i j) :
    Runs (Armas.addTo m p v) (Upd m0 C f g (fun r c => S r c ∨ (r = i ∧ c = j))) := by
  subst hp
  have h1 := h.old hi hj hS
  unfold Armas.addTo
  refine Runs.rd_bind h1 ?_
  exact Runs.wr h1 (h.set hw hi hj hv)

theorem mult1c1_spec {m0 m : Mem α} {C : View} {f g : Nat → Nat → α} {S : Nat → Nat → Prop}
    {c a b nR : Nat} {fa fb : Nat → α} (alpha : α) (hw : C.WF)
    (h : Upd m0 C f g S m) {i j : Nat} (hi : i < C.rows) (hj : j < C.cols) (hS : ¬ S i j)
    (hc : c = C.at' i j) (ha : Cells m a nR fa) (hb : Cells m b nR fb)
    (hg : g i j = f i j + alpha * ∑ k ∈ range nR, fa k * fb k) :
    Runs (mult1c1 m c a b alpha nR) (Upd m0 C f g (fun r c => S r c ∨ (r = i ∧ c = j))) := by
  unfold mult1c1
  refine Runs.bind (Runs.forUp (fun k (y : α × α × α × α) =>
      y.1 + y.2.1 + y.2.2.1 + y.2.2.2 = ∑ l ∈ range k, fa l * fb l ∧ k ≤ nR) (by omega)
      ⟨by simp, by omega⟩ ?_ (Q := fun p => p.2.1 + p.2.2.1 + p.2.2.2.1 + p.2.2.2.2 =
        ∑ l ∈ range p.1, fa l * fb l ∧ p.1 ≤ nR ∧ nR - 3 ≤ p.1)
      (fun k st h1 _ h2 => ⟨h2.1, h2.2, h1⟩)) ?_
  · rintro k y - hk ⟨e, hle⟩
    refine Runs.mac_bind (ha k (by omega)) (hb k (by omega)) ?_
    refine Runs.mac_bind (ha (k + 1) (by omega)) (hb (k + 1) (by omega)) ?_
    refine Runs.mac_bind (ha (k + 2) (by omega)) (hb (k + 2) (by omega)) ?_
    refine Runs.mac_bind (ha (k + 3) (by omega)) (hb (k + 3) (by omega)) ?_
    refine Runs.pure ⟨?_, by omega⟩
    rw [sum_range_add4, ← e, Nat.add_zero]; ring
  · rintro ⟨k, y⟩ ⟨e, hle, hge⟩
    dsimp only at e hle hge ⊢
    refine Runs.bind (P := fun z : α × α × α × α =>
      z.1 + z.2.1 + z.2.2.1 + z.2.2.2 = ∑ l ∈ range nR, fa l * fb l) ?_ ?_
    · have h4 : nR - k = 0 ∨ nR - k = 1 ∨ nR - k = 2 ∨ nR - k = 3 := by omega
      rcases h4 with h4 | h4 | h4 | h4 <;> rw [h4]
      · have : k = nR := by omega
        subst this; exact Runs.pure e
      · have : nR = k + 1 := by omega
        subst this
        refine Runs.mac_bind (ha k (by omega)) (hb k (by omega)) (Runs.pure ?_)
        rw [Finset.sum_range_succ, ← e]; ring
      · have : nR = k + 2 := by omega
        subst this
        refine Runs.mac_bind (ha k (by omega)) (hb k (by omega)) ?_
        refine Runs.mac_bind (ha (k + 1) (by omega)) (hb (k + 1) (by omega)) (Runs.pure ?_)
        rw [Finset.sum_range_succ, Finset.sum_range_succ, ← e]; ring
      · have : nR = k + 3 := by omega
        subst this
        refine Runs.mac_bind (ha k (by omega)) (hb k (by omega)) ?_
        refine Runs.mac_bind (ha (k + 1) (by omega)) (hb (k + 1) (by omega)) ?_
        refine Runs.mac_bind (ha (k + 2) (by omega)) (hb (k + 2) (by omega)) (Runs.pure ?_)
        rw [Finset.sum_range_succ, Finset.sum_range_succ, Finset.sum_range_succ, ← e]; ring
    · intro z hz
      refine h.addTo hw hi hj hS hc ?_
      rw [hg, ← hz]; ring

theorem mult1c2_spec {m0 m : Mem α} {C : View} {f g : Nat → Nat → α} {S : Nat → Nat → Prop}
    {c0 c1 a b0 b1 nR : Nat} {fa fb0 fb1 : Nat → α} (alpha : α) (hw : C.WF)
    (h : Upd m0 C f g S m) {i j : Nat} (hi : i < C.rows) (hj : j + 1 < C.cols)
    (hS : ∀ l, l < 2 → ¬ S i (j + l))
    (hc0 : c0 = C.at' i j) (hc1 : c1 = C.at' i (j + 1)) (ha : Cells m a nR fa)
    (hb0 : Cells m b0 nR fb0) (hb1 : Cells m b1 nR fb1)
    (hg0 : g i j = f i j + alpha * ∑ k ∈ range nR, fa k * fb0 k)
    (hg1 : g i (j + 1) = f i (j + 1) + alpha * ∑ k ∈ range nR, fa k * fb1 k) :
    Runs (mult1c2 m c0 c1 a b0 b1 alpha nR)
      (Upd m0 C f g (fun r c => S r c ∨ (r = i ∧ j ≤ c ∧ c < j + 2))) := by
  unfold mult1c2
  refine Runs.bind (Runs.forUp (fun k (y : (α × α × α × α) × (α × α × α × α)) =>
      y.1.1 + y.1.2.1 + y.1.2.2.1 + y.1.2.2.2 = ∑ l ∈ range k, fa l * fb0 l ∧
      y.2.1 + y.2.2.1 + y.2.2.2.1 + y.2.2.2.2 = ∑ l ∈ range k, fa l * fb1 l ∧ k ≤ nR) (by omega)
      ⟨by simp, by simp, by omega⟩ ?_ (Q := fun p =>
        p.2.1.1 + p.2.1.2.1 + p.2.1.2.2.1 + p.2.1.2.2.2 = ∑ l ∈ range p.1, fa l * fb0 l ∧
        p.2.2.1 + p.2.2.2.1 + p.2.2.2.2.1 + p.2.2.2.2.2 = ∑ l ∈ range p.1, fa l * fb1 l ∧
        p.1 ≤ nR ∧ nR - 3 ≤ p.1)
      (fun k st h1 _ h2 => ⟨h2.1, h2.2.1, h2.2.2, h1⟩)) ?_
  · rintro k y - hk ⟨e0, e1, hle⟩
    refine Runs.mac_bind (ha k (by omega)) (hb0 k (by omega)) ?_
    refine Runs.mac_bind (ha k (by omega)) (hb1 k (by omega)) ?_
    refine Runs.mac_bind (ha (k + 1) (by omega)) (hb0 (k + 1) (by omega)) ?_
    refine Runs.mac_bind (ha (k + 1) (by omega)) (hb1 (k + 1) (by omega)) ?_
    refine Runs.mac_bind (ha (k + 2) (by omega)) (hb0 (k + 2) (by omega)) ?_
    refine Runs.mac_bind (ha (k + 2) (by omega)) (hb1 (k + 2) (by omega)) ?_
    refine Runs.mac_bind (ha (k + 3) (by omega)) (hb0 (k + 3) (by omega)) ?_
    refine Runs.mac_bind (ha (k + 3) (by omega)) (hb1 (k + 3) (by omega)) ?_
    refine Runs.pure ⟨?_, ?_, by omega⟩
    · rw [sum_range_add4, ← e0, Nat.add_zero]; ring
    · rw [sum_range_add4, ← e1, Nat.add_zero]; ring
  · rintro ⟨k, y⟩ ⟨e0, e1, hle, hge⟩
    dsimp only at e0 e1 hle hge ⊢
    refine Runs.bind (P := fun z : (α × α × α × α) × (α × α × α × α) =>
      z.1.1 + z.1.2.1 + z.1.2.2.1 + z.1.2.2.2 = ∑ l ∈ range nR, fa l * fb0 l ∧
      z.2.1 + z.2.2.1 + z.2.2.2.1 + z.2.2.2.2 = ∑ l ∈ range nR, fa l * fb1 l) ?_ ?_
    · have h4 : nR - k = 0 ∨ nR - k = 1 ∨ nR - k = 2 ∨ nR - k = 3 := by omega
      rcases h4 with h4 | h4 | h4 | h4 <;> rw [h4]
      · have : k = nR := by omega
        subst this; exact Runs.pure ⟨e0, e1⟩
      · have : nR = k + 1 := by omega
        subst this
        refine Runs.mac_bind (ha k (by omega)) (hb0 k (by omega)) ?_
        refine Runs.mac_bind (ha k (by omega)) (hb1 k (by omega)) (Runs.pure ⟨?_, ?_⟩)
        · rw [Finset.sum_range_succ, ← e0]; ring
        · rw [Finset.sum_range_succ, ← e1]; ring
      · have : nR = k + 2 := by omega
        subst this
        refine Runs.mac_bind (ha k (by omega)) (hb0 k (by omega)) ?_
        refine Runs.mac_bind (ha k (by omega)) (hb1 k (by omega)) ?_
        refine Runs.mac_bind (ha (k + 1) (by omega)) (hb0 (k + 1) (by omega)) ?_
        refine Runs.mac_bind (ha (k + 1) (by omega)) (hb1 (k + 1) (by omega)) (Runs.pure ⟨?_, ?_⟩)
        · rw [Finset.sum_range_succ, Finset.sum_range_succ, ← e0]; ring
        · rw [Finset.sum_range_succ, Finset.sum_range_succ, ← e1]; ring
      · have : nR = k + 3 := by omega
        subst this
        refine Runs.mac_bind (ha k (by omega)) (hb0 k (by omega)) ?_
        refine Runs.mac_bind (ha k (by omega)) (hb1 k (by omega)) ?_
        refine Runs.mac_bind (ha (k + 1) (by omega)) (hb0 (k + 1) (by omega)) ?_
        refine Runs.mac_bind (ha (k + 1) (by omega)) (hb1 (k + 1) (by omega)) ?_
        refine Runs.mac_bind (ha (k + 2) (by omega)) (hb0 (k + 2) (by omega)) ?_
        refine Runs.mac_bind (ha (k + 2) (by omega)) (hb1 (k + 2) (by omega)) (Runs.pure ⟨?_, ?_⟩)
        · rw [Finset.sum_range_succ, Finset.sum_range_succ, Finset.sum_range_succ, ← e0]; ring
        · rw [Finset.sum_range_succ, Finset.sum_range_succ, Finset.sum_range_succ, ← e1]; ring
    · rintro z ⟨hz0, hz1⟩
      refine Runs.bind (h.addTo hw (i := i) (j := j) hi (by omega) (hS 0 (by omega)) hc0 ?_) (fun m1 h1 => ?_)
      · rw [hg0, ← hz0]; ring
      refine (h1.addTo hw hi (by omega) ?_ hc1 ?_).mono (fun m2 h2 => h2.congr ?_)
      · have := hS 1 (by omega); grind
      · rw [hg1, ← hz1]; ring
      · intros; grind

theorem mult2c2_spec {m0 m : Mem α} {C : View} {f g : Nat → Nat → α} {S : Nat → Nat → Prop}
    {c0 c1 a0 a1 b0 b1 nR : Nat} {fa : Nat → Nat → α} {fb : Nat → Nat → α} (alpha : α) (hw : C.WF)
    (h : Upd m0 C f g S m) {i j : Nat} (hi : i + 1 < C.rows) (hj : j + 1 < C.cols)
    (hS : ∀ k l, k < 2 → l < 2 → ¬ S (i + k) (j + l))
    (hc0 : c0 = C.at' i j) (hc1 : c1 = C.at' i (j + 1)) (ha0 : Cells m a0 nR (fa 0))
    (ha1 : Cells m a1 nR (fa 1))
    (hb0 : Cells m b0 nR (fb 0)) (hb1 : Cells m b1 nR (fb 1))
    (hg : ∀ k l, k < 2 → l < 2 →
      g (i + k) (j + l) = f (i + k) (j + l) + alpha * ∑ p ∈ range nR, fa k p * fb l p) :
    Runs (mult2c2 m c0 c1 a0 a1 b0 b1 alpha nR)
      (Upd m0 C f g (fun r c => S r c ∨ (i ≤ r ∧ r < i + 2 ∧ j ≤ c ∧ c < j + 2))) := by
  unfold mult2c2
  refine Runs.bind (Runs.forUp (fun k (y : (α × α) × (α × α) × (α × α) × (α × α)) =>
      (y.1.1 + y.1.2 = ∑ l ∈ range k, fa 0 l * fb 0 l ∧
      y.2.1.1 + y.2.1.2 = ∑ l ∈ range k, fa 0 l * fb 1 l ∧
      y.2.2.1.1 + y.2.2.1.2 = ∑ l ∈ range k, fa 1 l * fb 0 l ∧
      y.2.2.2.1 + y.2.2.2.2 = ∑ l ∈ range k, fa 1 l * fb 1 l) ∧ k ≤ nR) (by omega)
      ⟨by simp, by omega⟩ ?_ (Q := fun p =>
        (p.2.1.1 + p.2.1.2 = ∑ l ∈ range p.1, fa 0 l * fb 0 l ∧
        p.2.2.1.1 + p.2.2.1.2 = ∑ l ∈ range p.1, fa 0 l * fb 1 l ∧
        p.2.2.2.1.1 + p.2.2.2.1.2 = ∑ l ∈ range p.1, fa 1 l * fb 0 l ∧
        p.2.2.2.2.1 + p.2.2.2.2.2 = ∑ l ∈ range p.1, fa 1 l * fb 1 l) ∧ p.1 ≤ nR ∧ nR - 1 ≤ p.1)
      (fun k st h1 _ h2 => ⟨h2.1, h2.2, h1⟩)) ?_
  · rintro k y - hk ⟨⟨e0, e1, e2, e3⟩, hle⟩
    refine Runs.mac_bind (ha0 k (by omega)) (hb0 k (by omega)) ?_
    refine Runs.mac_bind (ha0 k (by omega)) (hb1 k (by omega)) ?_
    refine Runs.mac_bind (ha0 (k + 1) (by omega)) (hb0 (k + 1) (by omega)) ?_
    refine Runs.mac_bind (ha0 (k + 1) (by omega)) (hb1 (k + 1) (by omega)) ?_
    refine Runs.mac_bind (ha1 k (by omega)) (hb0 k (by omega)) ?_
    refine Runs.mac_bind (ha1 k (by omega)) (hb1 k (by omega)) ?_
    refine Runs.mac_bind (ha1 (k + 1) (by omega)) (hb0 (k + 1) (by omega)) ?_
    refine Runs.mac_bind (ha1 (k + 1) (by omega)) (hb1 (k + 1) (by omega)) ?_
    refine Runs.pure ⟨⟨?_, ?_, ?_, ?_⟩, by omega⟩
    · rw [Finset.sum_range_succ, Finset.sum_range_succ, ← e0]; ring
    · rw [Finset.sum_range_succ, Finset.sum_range_succ, ← e1]; ring
    · rw [Finset.sum_range_succ, Finset.sum_range_succ, ← e2]; ring
    · rw [Finset.sum_range_succ, Finset.sum_range_succ, ← e3]; ring
  · rintro ⟨k, y⟩ ⟨⟨e0, e1, e2, e3⟩, hle, hge⟩
    dsimp only at e0 e1 e2 e3 hle hge ⊢
    refine Runs.bind (P := fun z : (α × α) × (α × α) × (α × α) × (α × α) =>
      z.1.1 + z.1.2 = ∑ l ∈ range nR, fa 0 l * fb 0 l ∧
      z.2.1.1 + z.2.1.2 = ∑ l ∈ range nR, fa 0 l * fb 1 l ∧
      z.2.2.1.1 + z.2.2.1.2 = ∑ l ∈ range nR, fa 1 l * fb 0 l ∧
      z.2.2.2.1 + z.2.2.2.2 = ∑ l ∈ range nR, fa 1 l * fb 1 l) ?_ ?_
    · by_cases h4 : k = nR
      · rw [if_pos h4]; subst h4; exact Runs.pure ⟨e0, e1, e2, e3⟩
      · rw [if_neg h4]
        have : nR = k + 1 := by omega
        subst this
        refine Runs.mac_bind (ha0 k (by omega)) (hb0 k (by omega)) ?_
        refine Runs.mac_bind (ha0 k (by omega)) (hb1 k (by omega)) ?_
        refine Runs.mac_bind (ha1 k (by omega)) (hb0 k (by omega)) ?_
        refine Runs.mac_bind (ha1 k (by omega)) (hb1 k (by omega)) (Runs.pure ⟨?_, ?_, ?_, ?_⟩)
        · rw [Finset.sum_range_succ, ← e0]; ring
        · rw [Finset.sum_range_succ, ← e1]; ring
        · rw [Finset.sum_range_succ, ← e2]; ring
        · rw [Finset.sum_range_succ, ← e3]; ring
    · rintro z ⟨z0, z1, z2, z3⟩
      refine Runs.bind (h.addTo hw (i := i) (j := j) (by omega) (by omega) (hS 0 0 (by omega) (by omega)) hc0 ?_)
        (fun m1 h1 => ?_)
      · rw [show g i j = _ from hg 0 0 (by omega) (by omega), ← z0]; simp only [Nat.add_zero]; ring
      refine Runs.bind (h1.addTo hw (i := i) (j := j + 1) (by omega) (by omega) ?_ hc1 ?_) (fun m2 h2 => ?_)
      · have := hS 0 1 (by omega) (by omega); grind
      · rw [show g i (j + 1) = _ from hg 0 1 (by omega) (by omega), ← z1]; simp only [Nat.add_zero]; ring
      refine Runs.bind (h2.addTo hw (i := i + 1) (j := j) (by omega) (by omega) ?_
        (by rw [hc0]; simp only [View.at']; omega) ?_) (fun m3 h3 => ?_)
      · have := hS 1 0 (by omega) (by omega); grind
      · rw [show g (i + 1) j = _ from hg 1 0 (by omega) (by omega), ← z2]; simp only [Nat.add_zero]; ring
      refine (h3.addTo hw (i := i + 1) (j := j + 1) (by omega) (by omega) ?_
        (by rw [hc1]; simp only [View.at']; omega) ?_).mono (fun m4 h4 => h4.congr ?_)
      · have := hS 1 1 (by omega) (by omega); grind
      · rw [hg 1 1 (by omega) (by omega), ← z3]; ring
      · intros; grind

theorem mult1c4_spec {m0 m : Mem α} {C : View} {f g : Nat → Nat → α} {S : Nat → Nat → Prop}
    {c0 c1 c2 c3 a b0 b1 b2 b3 nR : Nat} {fa : Nat → α} {fb : Nat → Nat → α} (alpha : α) (hw : C.WF)
    (h : Upd m0 C f g S m) {i j : Nat} (hi : i < C.rows) (hj : j + 3 < C.cols)
    (hS : ∀ l, l < 4 → ¬ S i (j + l))
    (hc0 : c0 = C.at' i j) (hc1 : c1 = C.at' i (j + 1)) (hc2 : c2 = C.at' i (j + 2))
    (hc3 : c3 = C.at' i (j + 3)) (ha : Cells m a nR fa)
    (hb0 : Cells m b0 nR (fb 0)) (hb1 : Cells m b1 nR (fb 1)) (hb2 : Cells m b2 nR (fb 2))
    (hb3 : Cells m b3 nR (fb 3))
    (hg : ∀ l, l < 4 → g i (j + l) = f i (j + l) + alpha * ∑ p ∈ range nR, fa p * fb l p) :
    Runs (mult1c4 m c0 c1 c2 c3 a b0 b1 b2 b3 alpha nR)
      (Upd m0 C f g (fun r c => S r c ∨ (r = i ∧ j ≤ c ∧ c < j + 4))) := by
  unfold mult1c4
  refine Runs.bind (Runs.forUp1 (fun k (y : α × α × α × α) =>
      y.1 = ∑ l ∈ range k, fa l * fb 0 l ∧ y.2.1 = ∑ l ∈ range k, fa l * fb 1 l ∧
      y.2.2.1 = ∑ l ∈ range k, fa l * fb 2 l ∧ y.2.2.2 = ∑ l ∈ range k, fa l * fb 3 l) (Nat.zero_le _)
      (by simp) ?_ (Q := fun p => p.2.1 = ∑ l ∈ range nR, fa l * fb 0 l ∧
      p.2.2.1 = ∑ l ∈ range nR, fa l * fb 1 l ∧
      p.2.2.2.1 = ∑ l ∈ range nR, fa l * fb 2 l ∧ p.2.2.2.2 = ∑ l ∈ range nR, fa l * fb 3 l)
      (fun st h2 => h2)) ?_
  · rintro k y - hk ⟨e0, e1, e2, e3⟩
    refine Runs.mac_bind (ha k (by omega)) (hb0 k (by omega)) ?_
    refine Runs.mac_bind (ha k (by omega)) (hb1 k (by omega)) ?_
    refine Runs.mac_bind (ha k (by omega)) (hb2 k (by omega)) ?_
    refine Runs.mac_bind (ha k (by omega)) (hb3 k (by omega)) ?_
    refine Runs.pure ⟨?_, ?_, ?_, ?_⟩
    · rw [Finset.sum_range_succ, ← e0]
    · rw [Finset.sum_range_succ, ← e1]
    · rw [Finset.sum_range_succ, ← e2]
    · rw [Finset.sum_range_succ, ← e3]
  · rintro ⟨k, z⟩ ⟨z0, z1, z2, z3⟩
    dsimp only at z0 z1 z2 z3 ⊢
    refine Runs.bind (h.addTo hw (i := i) (j := j) (by omega) (by omega) (hS 0 (by omega)) hc0 ?_)
      (fun m1 h1 => ?_)
    · rw [show g i j = _ from hg 0 (by omega), z0]; simp only [Nat.add_zero]; ring
    refine Runs.bind (h1.addTo hw (i := i) (j := j + 1) (by omega) (by omega) ?_ hc1 ?_) (fun m2 h2 => ?_)
    · have := hS 1 (by omega); grind
    · rw [hg 1 (by omega), z1]; ring
    refine Runs.bind (h2.addTo hw (i := i) (j := j + 2) (by omega) (by omega) ?_ hc2 ?_) (fun m3 h3 => ?_)
    · have := hS 2 (by omega); grind
    · rw [hg 2 (by omega), z2]; ring
    refine (h3.addTo hw (i := i) (j := j + 3) (by omega) (by omega) ?_ hc3 ?_).mono
      (fun m4 h4 => h4.congr ?_)
    · have := hS 3 (by omega); grind
    · rw [hg 3 (by omega), z3]; ring
    · intros; grind

theorem mult2c4_spec {m0 m : Mem α} {C : View} {f g : Nat → Nat → α} {S : Nat → Nat → Prop}
    {c0 c1 c2 c3 a0 a1 b0 b1 b2 b3 nR : Nat} {fa : Nat → Nat → α} {fb : Nat → Nat → α} (alpha : α)
    (hw : C.WF) (h : Upd m0 C f g S m) {i j : Nat} (hi : i + 1 < C.rows) (hj : j + 3 < C.cols)
    (hS : ∀ k l, k < 2 → l < 4 → ¬ S (i + k) (j + l))
    (hc0 : c0 = C.at' i j) (hc1 : c1 = C.at' i (j + 1)) (hc2 : c2 = C.at' i (j + 2))
    (hc3 : c3 = C.at' i (j + 3)) (ha0 : Cells m a0 nR (fa 0)) (ha1 : Cells m a1 nR (fa 1))
    (hb0 : Cells m b0 nR (fb 0)) (hb1 : Cells m b1 nR (fb 1)) (hb2 : Cells m b2 nR (fb 2))
    (hb3 : Cells m b3 nR (fb 3))
    (hg : ∀ k l, k < 2 → l < 4 →
      g (i + k) (j + l) = f (i + k) (j + l) + alpha * ∑ p ∈ range nR, fa k p * fb l p) :
    Runs (mult2c4 m c0 c1 c2 c3 a0 a1 b0 b1 b2 b3 alpha nR)
      (Upd m0 C f g (fun r c => S r c ∨ (i ≤ r ∧ r < i + 2 ∧ j ≤ c ∧ c < j + 4))) := by
  unfold mult2c4
  refine Runs.bind (Runs.forUp1 (fun k (y : (α × α × α × α) × (α × α × α × α)) =>
      y.1.1 = ∑ l ∈ range k, fa 0 l * fb 0 l ∧ y.1.2.1 = ∑ l ∈ range k, fa 0 l * fb 1 l ∧
      y.1.2.2.1 = ∑ l ∈ range k, fa 0 l * fb 2 l ∧ y.1.2.2.2 = ∑ l ∈ range k, fa 0 l * fb 3 l ∧
      y.2.1 = ∑ l ∈ range k, fa 1 l * fb 0 l ∧ y.2.2.1 = ∑ l ∈ range k, fa 1 l * fb 1 l ∧
      y.2.2.2.1 = ∑ l ∈ range k, fa 1 l * fb 2 l ∧ y.2.2.2.2 = ∑ l ∈ range k, fa 1 l * fb 3 l)
      (Nat.zero_le _) (by simp) ?_ (Q := fun p =>
      p.2.1.1 = ∑ l ∈ range nR, fa 0 l * fb 0 l ∧ p.2.1.2.1 = ∑ l ∈ range nR, fa 0 l * fb 1 l ∧
      p.2.1.2.2.1 = ∑ l ∈ range nR, fa 0 l * fb 2 l ∧ p.2.1.2.2.2 = ∑ l ∈ range nR, fa 0 l * fb 3 l ∧
      p.2.2.1 = ∑ l ∈ range nR, fa 1 l * fb 0 l ∧ p.2.2.2.1 = ∑ l ∈ range nR, fa 1 l * fb 1 l ∧
      p.2.2.2.2.1 = ∑ l ∈ range nR, fa 1 l * fb 2 l ∧ p.2.2.2.2.2 = ∑ l ∈ range nR, fa 1 l * fb 3 l)
      (fun st h2 => h2)) ?_
  · rintro k y - hk ⟨e0, e1, e2, e3, e4, e5, e6, e7⟩
    refine Runs.mac_bind (ha0 k (by omega)) (hb0 k (by omega)) ?_
    refine Runs.mac_bind (ha0 k (by omega)) (hb1 k (by omega)) ?_
    refine Runs.mac_bind (ha0 k (by omega)) (hb2 k (by omega)) ?_
    refine Runs.mac_bind (ha0 k (by omega)) (hb3 k (by omega)) ?_
    refine Runs.mac_bind (ha1 k (by omega)) (hb0 k (by omega)) ?_
    refine Runs.mac_bind (ha1 k (by omega)) (hb1 k (by omega)) ?_
    refine Runs.mac_bind (ha1 k (by omega)) (hb2 k (by omega)) ?_
    refine Runs.mac_bind (ha1 k (by omega)) (hb3 k (by omega)) ?_
    refine Runs.pure ⟨?_, ?_, ?_, ?_, ?_, ?_, ?_, ?_⟩
    · rw [Finset.sum_range_succ, ← e0]
    · rw [Finset.sum_range_succ, ← e1]
    · rw [Finset.sum_range_succ, ← e2]
    · rw [Finset.sum_range_succ, ← e3]
    · rw [Finset.sum_range_succ, ← e4]
    · rw [Finset.sum_range_succ, ← e5]
    · rw [Finset.sum_range_succ, ← e6]
    · rw [Finset.sum_range_succ, ← e7]
  · rintro ⟨k, z⟩ ⟨z0, z1, z2, z3, z4, z5, z6, z7⟩
    dsimp only at z0 z1 z2 z3 z4 z5 z6 z7 ⊢
    have hg0 : ∀ l, l < 4 → g i (j + l) = f i (j + l) + alpha * ∑ p ∈ range nR, fa 0 p * fb l p :=
      fun l hl => hg 0 l (by omega) hl
    have hS0 : ∀ l, l < 4 → ¬ S i (j + l) := fun l hl => hS 0 l (by omega) hl
    refine Runs.bind (h.addTo hw (i := i) (j := j) (by omega) (by omega) (hS0 0 (by omega)) hc0 ?_)
      (fun m1 h1 => ?_)
    · rw [show g i j = _ from hg0 0 (by omega), z0]; simp only [Nat.add_zero]; ring
    refine Runs.bind (h1.addTo hw (i := i) (j := j + 1) (by omega) (by omega) ?_ hc1 ?_) (fun m2 h2 => ?_)
    · have := hS0 1 (by omega); grind
    · rw [hg0 1 (by omega), z1]; ring
    refine Runs.bind (h2.addTo hw (i := i) (j := j + 2) (by omega) (by omega) ?_ hc2 ?_) (fun m3 h3 => ?_)
    · have := hS0 2 (by omega); grind
    · rw [hg0 2 (by omega), z2]; ring
    refine Runs.bind (h3.addTo hw (i := i) (j := j + 3) (by omega) (by omega) ?_ hc3 ?_) (fun m4 h4 => ?_)
    · have := hS0 3 (by omega); grind
    · rw [hg0 3 (by omega), z3]; ring
    refine Runs.bind (h4.addTo hw (i := i + 1) (j := j) (by omega) (by omega) ?_
      (by rw [hc0]; simp only [View.at']; omega) ?_) (fun m5 h5 => ?_)
    · have := hS 1 0 (by omega) (by omega); grind
    · rw [show g (i + 1) j = _ from hg 1 0 (by omega) (by omega), z4]; simp only [Nat.add_zero]; ring
    refine Runs.bind (h5.addTo hw (i := i + 1) (j := j + 1) (by omega) (by omega) ?_
      (by rw [hc1]; simp only [View.at']; omega) ?_) (fun m6 h6 => ?_)
    · have := hS 1 1 (by omega) (by omega); grind
    · rw [hg 1 1 (by omega) (by omega), z5]; ring
    refine Runs.bind (h6.addTo hw (i := i + 1) (j := j + 2) (by omega) (by omega) ?_
      (by rw [hc2]; simp only [View.at']; omega) ?_) (fun m7 h7 => ?_)
    · have := hS 1 2 (by omega) (by omega); grind
    · rw [hg 1 2 (by omega) (by omega), z6]; ring
    refine (h7.addTo hw (i := i + 1) (j := j + 3) (by omega) (by omega) ?_
      (by rw [hc3]; simp only [View.at']; omega) ?_).mono (fun m8 h8 => h8.congr ?_)
    · have := hS 1 3 (by omega) (by omega); grind
    · rw [hg 1 3 (by omega) (by omega), z7]; ring
    · intro r c _ _; by_cases hs : S r c
      · simp [hs]
      · simp only [hs, false_or]; omega

/-- Data of one call of the inner kernel: `C` is to become `g = f + alpha*A^T*B`. -/
structure KData (m0 : Mem α) (C A B : View) (a b f g : Nat → Nat → α) (alpha : α) : Prop where
  wf : C.WF
  holdA : Holds m0 A a
  holdB : Holds m0 B b
  colA : C.rows ≤ A.cols
  colB : C.cols ≤ B.cols
  rowB : A.rows ≤ B.rows
  disA : Disjoint A.foot C.foot
  disB : Disjoint B.foot C.foot
  val : ∀ i j, i < C.rows → j < C.cols → g i j = f i j + alpha * ∑ k ∈ range A.rows, a k i * b k j

namespace KData
variable {m0 m : Mem α} {C A B : View} {a b f g : Nat → Nat → α} {alpha : α} {S : Nat → Nat → Prop}

theorem cellA (d : KData m0 C A B a b f g alpha) (h : Upd m0 C f g S m) {kp nK i : Nat}
    (hi : kp + i < C.rows) :
    Cells m ((A.sub 0 kp A.rows nK).at' 0 i) A.rows (fun k => a k (kp + i)) := by
  rw [View.at_sub]
  have := d.colA
  exact Cells.col (h.otherM d.holdA d.disA) (le_refl _) (by omega)

theorem cellB (d : KData m0 C A B a b f g alpha) (h : Upd m0 C f g S m) {j : Nat}
    (hj : j < C.cols) : Cells m (B.at' 0 j) A.rows (fun k => b k j) := by
  have := d.colB
  exact Cells.col (h.otherM d.holdB d.disB) d.rowB (by omega)

theorem cmult1 (d : KData m0 C A B a b f g alpha) (h : Upd m0 C f g S m) {kp nK col : Nat}
    (hk : kp + nK ≤ C.rows) (hc : col < C.cols) (hS : ∀ i, i < nK → ¬ S (kp + i) col) :
    Runs (Armas.cmult1 m (C.sub kp 0 nK C.cols) (A.sub 0 kp A.rows nK) B alpha col nK A.rows)
      (Upd m0 C f g (fun r c => S r c ∨ (kp ≤ r ∧ r < kp + nK ∧ col ≤ c ∧ c < col + 1))) := by
  unfold Armas.cmult1
  refine Runs.bind (Runs.forUp1 (fun i m => Upd m0 C f g (fun r c => S r c ∨
    (kp ≤ r ∧ r < kp + i ∧ col ≤ c ∧ c < col + 1)) m) (Nat.zero_le _) (h.congr ?_) ?_
    (Q := fun p => Upd m0 C f g (fun r c => S r c ∨
    (kp ≤ r ∧ r < kp + nK ∧ col ≤ c ∧ c < col + 1)) p.2) (fun st h => h)) (fun p hp => Runs.pure hp)
  · intros; grind
  · intro i m1 _ hi h1
    refine (mult1c1_spec (i := kp + i) (j := col) alpha d.wf h1 (by omega) hc ?_
      (by rw [View.at_sub, Nat.zero_add]) (d.cellA h1 (by omega)) (d.cellB h1 hc)
      (d.val _ _ (by omega) hc)).mono (fun m2 h2 => h2.congr ?_)
    · have := hS i hi; grind
    · intros; grind

theorem cmult2 (d : KData m0 C A B a b f g alpha) (h : Upd m0 C f g S m) {kp nK col : Nat}
    (hk : kp + nK ≤ C.rows) (hc : col + 1 < C.cols)
    (hS : ∀ i l, i < nK → l < 2 → ¬ S (kp + i) (col + l)) :
    Runs (Armas.cmult2 m (C.sub kp 0 nK C.cols) (A.sub 0 kp A.rows nK) B alpha col nK A.rows)
      (Upd m0 C f g (fun r c => S r c ∨ (kp ≤ r ∧ r < kp + nK ∧ col ≤ c ∧ c < col + 2))) := by
  unfold Armas.cmult2
  refine Runs.bind (Runs.forUp (fun i m => i ≤ nK ∧ Upd m0 C f g (fun r c => S r c ∨
    (kp ≤ r ∧ r < kp + i ∧ col ≤ c ∧ c < col + 2)) m) (by omega) ⟨by omega, h.congr ?_⟩ ?_
    (Q := fun p => nK - 1 ≤ p.1 ∧ p.1 ≤ nK ∧ Upd m0 C f g (fun r c => S r c ∨
    (kp ≤ r ∧ r < kp + p.1 ∧ col ≤ c ∧ c < col + 2)) p.2) (fun k st h1 _ h => ⟨h1, h⟩)) ?_
  · intros; grind
  · rintro i m1 - hi ⟨-, h1⟩
    refine (mult2c2_spec (i := kp + i) (j := col) (fa := fun l k => a k (kp + (i + l)))
      (fb := fun l k => b k (col + l)) alpha d.wf h1 (by omega) hc ?_
      (by rw [View.at_sub, Nat.zero_add]) (by rw [View.at_sub, Nat.zero_add])
      (d.cellA h1 (by omega)) (d.cellA h1 (by omega)) (d.cellB h1 (by omega)) (d.cellB h1 (by omega))
      (fun k l hk hl => ?_)).mono (fun m2 h2 => ⟨by omega, h2.congr ?_⟩)
    · intro k l hk hl
      have := hS (i + k) l (by omega) hl
      grind
    · rw [d.val _ _ (by omega) (by omega)]; simp only [Nat.add_assoc]
    · intros; grind
  · rintro ⟨i, m1⟩ ⟨hge, hle, h1⟩
    dsimp only at hge hle h1 ⊢
    by_cases e : i = nK
    · rw [if_pos e]; subst e; exact Runs.pure h1
    · rw [if_neg e]
      refine (mult1c2_spec (i := kp + i) (j := col) alpha d.wf h1 (by omega) hc ?_
        (by rw [View.at_sub, Nat.zero_add]) (by rw [View.at_sub, Nat.zero_add])
        (d.cellA h1 (by omega)) (d.cellB h1 (by omega)) (d.cellB h1 (by omega))
        (d.val _ _ (by omega) (by omega)) (d.val _ _ (by omega) (by omega))).mono
        (fun m2 h2 => h2.congr ?_)
      · intro l hl
        have := hS i l (by omega) hl
        grind
      · intros; grind

theorem cmult4 (d : KData m0 C A B a b f g alpha) (h : Upd m0 C f g S m) {kp nK col : Nat}
    (hk : kp + nK ≤ C.rows) (hc : col + 3 < C.cols)
    (hS : ∀ i l, i < nK → l < 4 → ¬ S (kp + i) (col + l)) :
    Runs (Armas.cmult4 m (C.sub kp 0 nK C.cols) (A.sub 0 kp A.rows nK) B alpha col nK A.rows)
      (Upd m0 C f g (fun r c => S r c ∨ (kp ≤ r ∧ r < kp + nK ∧ col ≤ c ∧ c < col + 4))) := by
  unfold Armas.cmult4
  refine Runs.bind (Runs.forUp (fun i m => i ≤ nK ∧ Upd m0 C f g (fun r c => S r c ∨
    (kp ≤ r ∧ r < kp + i ∧ col ≤ c ∧ c < col + 4)) m) (by omega) ⟨by omega, h.congr ?_⟩ ?_
    (Q := fun p => nK - 1 ≤ p.1 ∧ p.1 ≤ nK ∧ Upd m0 C f g (fun r c => S r c ∨
    (kp ≤ r ∧ r < kp + p.1 ∧ col ≤ c ∧ c < col + 4)) p.2) (fun k st h1 _ h => ⟨h1, h⟩)) ?_
  · intros; grind
  · rintro i m1 - hi ⟨-, h1⟩
    refine (mult2c4_spec (i := kp + i) (j := col) (fa := fun l k => a k (kp + (i + l)))
      (fb := fun l k => b k (col + l)) alpha d.wf h1 (by omega) hc ?_
      (by rw [View.at_sub, Nat.zero_add]) (by rw [View.at_sub, Nat.zero_add])
      (by rw [View.at_sub, Nat.zero_add]) (by rw [View.at_sub, Nat.zero_add])
      (d.cellA h1 (by omega)) (d.cellA h1 (by omega)) (d.cellB h1 (by omega)) (d.cellB h1 (by omega))
      (d.cellB h1 (by omega)) (d.cellB h1 (by omega))
      (fun k l hk hl => ?_)).mono (fun m2 h2 => ⟨by omega, h2.congr ?_⟩)
    · intro k l hk hl
      have := hS (i + k) l (by omega) hl
      grind
    · rw [d.val _ _ (by omega) (by omega)]; simp only [Nat.add_assoc]
    · intros; grind
  · rintro ⟨i, m1⟩ ⟨hge, hle, h1⟩
    dsimp only at hge hle h1 ⊢
    by_cases e : i = nK
    · rw [if_pos e]; subst e; exact Runs.pure h1
    · rw [if_neg e]
      refine (mult1c4_spec (i := kp + i) (j := col) (fb := fun l k => b k (col + l)) alpha d.wf h1
        (by omega) hc ?_
        (by rw [View.at_sub, Nat.zero_add]) (by rw [View.at_sub, Nat.zero_add])
        (by rw [View.at_sub, Nat.zero_add]) (by rw [View.at_sub, Nat.zero_add])
        (d.cellA h1 (by omega)) (d.cellB h1 (by omega)) (d.cellB h1 (by omega))
        (d.cellB h1 (by omega)) (d.cellB h1 (by omega))
        (fun l hl => d.val _ _ (by omega) (by omega))).mono
        (fun m2 h2 => h2.congr ?_)
      · intro l hl
        have := hS i l (by omega) hl
        grind
      · intros; grind

/-- One row strip of the inner kernel. -/
theorem strip (d : KData m0 C A B a b f g alpha) {kp nK : Nat} (hk : kp + nK ≤ C.rows)
    (h : Upd m0 C f g (fun r _ => r < kp) m) :
    Runs (do
      let (j, m) ← forUp 0 (C.cols - 3) 4 (fun j m =>
        Armas.cmult4 m (C.sub kp 0 nK C.cols) (A.sub 0 kp A.rows nK) B alpha j nK A.rows) m
      if j = C.cols then pure m
      else do
        let (j, m) ← (if j < C.cols - 1 then do
            let m ← Armas.cmult2 m (C.sub kp 0 nK C.cols) (A.sub 0 kp A.rows nK) B alpha j nK A.rows
            pure (j + 2, m)
          else pure (j, m))
        if j < C.cols then
          Armas.cmult1 m (C.sub kp 0 nK C.cols) (A.sub 0 kp A.rows nK) B alpha j nK A.rows
        else pure m) (Upd m0 C f g (fun r _ => r < kp + nK)) := by
  refine Runs.bind (Runs.forUp (fun j m => j ≤ C.cols ∧ Upd m0 C f g (fun r c => r < kp ∨
    (kp ≤ r ∧ r < kp + nK ∧ c < j)) m) (by omega) ⟨by omega, h.congr ?_⟩ ?_
    (Q := fun p => C.cols - 3 ≤ p.1 ∧ p.1 ≤ C.cols ∧ Upd m0 C f g (fun r c => r < kp ∨
    (kp ≤ r ∧ r < kp + nK ∧ c < p.1)) p.2) (fun k st h1 _ h => ⟨h1, h⟩)) ?_
  · intros; omega
  · rintro j m1 - hj ⟨-, h1⟩
    refine (d.cmult4 h1 hk (by omega) ?_).mono (fun m2 h2 => ⟨by omega, h2.congr ?_⟩)
    · intros; omega
    · intros; omega
  · rintro ⟨j, m1⟩ ⟨hge, hle, h1⟩
    dsimp only at hge hle h1 ⊢
    by_cases e : j = C.cols
    · rw [if_pos e]; subst e
      exact Runs.pure (h1.congr (by intros; omega))
    · rw [if_neg e]
      refine Runs.bind (P := fun p : Nat × Mem α => p.1 ≤ C.cols ∧ C.cols ≤ p.1 + 1 ∧
        Upd m0 C f g (fun r c => r < kp ∨ (kp ≤ r ∧ r < kp + nK ∧ c < p.1)) p.2) ?_ ?_
      · split
        · refine Runs.bind (d.cmult2 h1 hk (by omega) (by intros; omega)) (fun m2 h2 =>
            Runs.pure ⟨by dsimp only; omega, by dsimp only; omega, h2.congr ?_⟩)
          intros; dsimp only; omega
        · exact Runs.pure ⟨by dsimp only; omega, by dsimp only; omega, h1⟩
      · rintro ⟨j2, m2⟩ ⟨h3, h4, h2⟩
        dsimp only at h3 h4 h2 ⊢
        split
        · refine (d.cmult1 h2 hk (by omega) (by intros; omega)).mono (fun m2 h2 => h2.congr ?_)
          intros; omega
        · have : j2 = C.cols := by omega
          subst this
          exact Runs.pure (h2.congr (by intros; omega))

end KData

/-- `armas_mult_kernel_inner`: `C := C + alpha*A^T*B` for packed blocks, for every row block `rb`. -/
theorem kernelInner_spec {m : Mem α} {C A B : View} {a b f : Nat → Nat → α} (alpha : α) {rb : Nat}
    (hrb : 0 < rb) (hw : C.WF) (hC : Holds m C f) (hA : Holds m A a) (hB : Holds m B b)
    (hAc : C.rows ≤ A.cols) (hBc : C.cols ≤ B.cols) (hBr : A.rows ≤ B.rows)
    (hdA : Disjoint A.foot C.foot) (hdB : Disjoint B.foot C.foot) :
    Runs (kernelInner m C alpha A B rb) (fun m' =>
      Holds m' C (fun i j => f i j + alpha * ∑ k ∈ range A.rows, a k i * b k j) ∧
      Frame C.foot m m') := by
  have d : KData m C A B a b f (fun i j => f i j + alpha * ∑ k ∈ range A.rows, a k i * b k j) alpha :=
    ⟨hw, hA, hB, hAc, hBc, hBr, hdA, hdB, fun _ _ _ _ => rfl⟩
  unfold kernelInner
  refine Runs.bind (Runs.forUp (fun kp m' => Upd m C f _ (fun r _ => r < kp) m') hrb
    ((Upd.init hC _).congr (by intros; simp)) ?_
    (Q := fun p => Upd m C f (fun i j => f i j + alpha * ∑ k ∈ range A.rows, a k i * b k j)
      (fun r _ => r < C.rows) p.2)
    (fun k st h1 _ h => h.congr (by intros; omega)))
    (fun p hp => Runs.pure ⟨hp.all (fun i j hi _ => hi), hp.frame⟩)
  intro kp m1 _ hkp h1
  refine (d.strip (kp := kp) (nK := min rb (C.rows - kp)) (by omega) h1).mono
    (fun m2 h2 => h2.congr ?_)
  intros; omega

end

end Armas
