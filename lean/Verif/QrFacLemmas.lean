import Verif.QrBlkLemmas
import Verif.Props.MatOps

/-!
# Lemmas on the blocked QR factorization
-/

namespace Armas

open Finset

section algebra

variable {α : Type} [CommRing α]

theorem refl_col {n : Nat} {t : α} {w w' : Nat → α} {b b' : Nat → Nat → α} {i j j' : Nat} (hi : i < n) (hw : ∀ l, l < n → w l = w' l)
    (hb : ∀ l, l < n → b l j = b' l j') : refl n t w b i j = refl n t w' b' i j' := by
  unfold refl
  rw [hw i hi, hb i hi, sum_congr rfl fun l hl => by rw [hw l (mem_range.mp hl), hb l (mem_range.mp hl)]]

theorem qrw_congr {M l : Nat} {f f' : Nat → Nat → α} (hf : ∀ i, i < M → f i l = f' i l) : ∀ i, i < M → qrw f l i = qrw f' l i :=
  fun i hi => by unfold qrw; rw [hf i hi]

theorem qrProd_col {M k : Nat} {t t' : Nat → α} {f f' b b' : Nat → Nat → α} {j j' : Nat} (ht : ∀ l, l < k → t l = t' l)
    (hf : ∀ i l, i < M → l < k → f i l = f' i l) (hb : ∀ i, i < M → b i j = b' i j') :
    ∀ i, i < M → qrProd M k t f b i j = qrProd M k t' f' b' i j' := by
  induction k generalizing b b' with
  | zero => exact hb
  | succ k ih =>
    intro i hi
    unfold qrProd
    refine ih (fun l hl => ht l (by omega)) (fun i l hi hl => hf i l hi (by omega)) (fun i hi => ?_) i hi
    rw [ht k (by omega)]
    exact refl_col hi (qrw_congr fun i hi => hf i k hi (by omega)) hb

theorem qrProdT_col {M k : Nat} {t t' : Nat → α} {f f' b b' : Nat → Nat → α} {j j' : Nat} (ht : ∀ l, l < k → t l = t' l)
    (hf : ∀ i l, i < M → l < k → f i l = f' i l) (hb : ∀ i, i < M → b i j = b' i j') :
    ∀ i, i < M → qrProdT M k t f b i j = qrProdT M k t' f' b' i j' := by
  induction k with
  | zero => exact hb
  | succ k ih =>
    intro i hi
    unfold qrProdT
    rw [ht k (by omega)]
    exact refl_col hi (qrw_congr fun i hi => hf i k hi (by omega))
      (ih (fun l hl => ht l (by omega)) fun i l hi hl => hf i l hi (by omega))

theorem qrProd_zero {M k : Nat} {t : Nat → α} {f b : Nat → Nat → α} {j : Nat} (hb : ∀ i, i < M → b i j = 0) :
    ∀ i, i < M → qrProd M k t f b i j = 0 := by
  induction k generalizing b with
  | zero => exact hb
  | succ k ih =>
    refine ih fun i hi => ?_
    unfold refl
    rw [hb i hi, sum_eq_zero fun l hl => by rw [hb l (mem_range.mp hl), mul_zero], mul_zero, sub_zero]

theorem qrProd_qrProdT {M k : Nat} {t : Nat → α} {f : Nat → Nat → α}
    (h : ∀ l, l < k → t l = 0 ∨ t l * ∑ i ∈ range M, qrw f l i ^ 2 = 2) (b : Nat → Nat → α) (j : Nat) :
    ∀ i, i < M → qrProd M k t f (qrProdT M k t f b) i j = b i j := by
  induction k with
  | zero => intro i _; rfl
  | succ k ih =>
    intro i hi
    unfold qrProd qrProdT
    rw [← ih (fun l hl => h l (by omega)) i hi]
    exact qrProd_col (fun _ _ => rfl) (fun _ _ _ _ => rfl) (fun i hi => refl_refl (h k (by omega)) _ i j) i hi

theorem qrProdT_qrProd {M k : Nat} {t : Nat → α} {f : Nat → Nat → α}
    (h : ∀ l, l < k → t l = 0 ∨ t l * ∑ i ∈ range M, qrw f l i ^ 2 = 2) (b : Nat → Nat → α) (j : Nat) :
    ∀ i, i < M → qrProdT M k t f (qrProd M k t f b) i j = b i j := by
  induction k generalizing b with
  | zero => intro i _; rfl
  | succ k ih =>
    intro i hi
    unfold qrProd qrProdT
    rw [← refl_refl (h k (by omega)) b i j]
    exact refl_col hi (fun _ _ => rfl) (ih (fun l hl => h l (by omega)) _)

theorem qrw_shift (f : Nat → Nat → α) (k l i : Nat) : qrw f (k + l) (k + i) = qrw (fun i j => f (k + i) (k + j)) l i := by
  unfold qrw
  by_cases h1 : i < l
  · rw [if_pos h1, if_pos (by omega)]
  · rw [if_neg h1, if_neg (by omega)]
    by_cases h2 : i = l
    · rw [if_pos h2, if_pos (by omega)]
    · rw [if_neg h2, if_neg (by omega)]

theorem sum_qrw_shift {M k : Nat} (hk : k ≤ M) (f : Nat → Nat → α) (l : Nat) (g : α → Nat → α) (g0 : ∀ r, g 0 r = 0) :
    ∑ r ∈ range M, g (qrw f (k + l) r) r = ∑ r ∈ range (M - k), g (qrw (fun i j => f (k + i) (k + j)) l r) (k + r) := by
  obtain ⟨p, rfl⟩ : ∃ p, M = k + p := ⟨M - k, by omega⟩
  rw [sum_range_add, sum_eq_zero (s := range k), zero_add, Nat.add_sub_cancel_left]
  · exact sum_congr rfl fun r _ => by rw [qrw_shift]
  · intro r hr
    rw [qrw, if_pos (by have := mem_range.mp hr; omega), g0]

theorem refl_shift {M k : Nat} (hk : k ≤ M) (t : α) (f b : Nat → Nat → α) (l i j : Nat) :
    refl M t (qrw f (k + l)) b i j = if i < k then b i j else
      refl (M - k) t (qrw (fun i j => f (k + i) (k + j)) l) (fun i j => b (k + i) j) (i - k) j := by
  by_cases h : i < k
  · rw [if_pos h, refl, qrw, if_pos (by omega)]
    ring
  · obtain ⟨p, rfl⟩ : ∃ p, i = k + p := ⟨i - k, by omega⟩
    rw [if_neg h, refl, refl, qrw_shift, Nat.add_sub_cancel_left, sum_qrw_shift hk f l (fun x r => x * b r j) (fun r => zero_mul _)]

theorem qrProd_shift {M k : Nat} (hk : k ≤ M) (n : Nat) (t : Nat → α) (f b : Nat → Nat → α) (j : Nat) :
    ∀ i, i < M → qrProd M (k + n) t f b i j = qrProd M k t f (fun i j => if i < k then b i j else
      qrProd (M - k) n (fun l => t (k + l)) (fun i j => f (k + i) (k + j)) (fun i j => b (k + i) j) (i - k) j) i j := by
  induction n generalizing b with
  | zero =>
    refine qrProd_col (fun _ _ => rfl) (fun _ _ _ _ => rfl) fun i hi => ?_
    by_cases h : i < k
    · rw [if_pos h]
    · rw [if_neg h, qrProd, show k + (i - k) = i by omega]
  | succ n ih =>
    intro i hi
    rw [← Nat.add_assoc, qrProd, ih _ i hi]
    refine qrProd_col (fun _ _ => rfl) (fun _ _ _ _ => rfl) (fun i hi => ?_) i hi
    by_cases h : i < k
    · rw [if_pos h, if_pos h, refl_shift hk, if_pos h]
    · rw [if_neg h, if_neg h, qrProd]
      refine qrProd_col (fun _ _ => rfl) (fun _ _ _ _ => rfl) (fun p hp => ?_) (i - k) (by omega)
      rw [refl_shift hk, if_neg (by omega), Nat.add_sub_cancel_left]

theorem qrProdT_shift {M k : Nat} (hk : k ≤ M) (n : Nat) (t : Nat → α) (f b : Nat → Nat → α) (j : Nat) :
    ∀ i, i < M → qrProdT M (k + n) t f b i j = if i < k then qrProdT M k t f b i j else
      qrProdT (M - k) n (fun l => t (k + l)) (fun i j => f (k + i) (k + j)) (fun i j => qrProdT M k t f b (k + i) j) (i - k) j := by
  induction n with
  | zero =>
    intro i hi
    by_cases h : i < k
    · rw [if_pos h]; rfl
    · rw [if_neg h, qrProdT, show k + (i - k) = i by omega]; rfl
  | succ n ih =>
    intro i hi
    rw [← Nat.add_assoc, qrProdT, refl_shift hk]
    by_cases h : i < k
    · rw [if_pos h, if_pos h, ih i hi, if_pos h]
    · rw [if_neg h, if_neg h, qrProdT]
      refine refl_col (by omega) (fun _ _ => rfl) fun p hp => ?_
      rw [ih (k + p) (by omega), if_neg (by omega), Nat.add_sub_cancel_left]

end algebra

/-- The matrix after a panel of `n` columns at `k`: `g` in the panel, `b` to the right of it. -/
def panel (k n : Nat) (g b f : Nat → Nat → ℝ) (i j : Nat) : ℝ :=
  if i < k ∨ j < k then f i j else if j < k + n then g (i - k) (j - k) else b (i - k) (j - k - n)

theorem QrInv.block {M N k n : Nat} {f0 f g : Nat → Nat → ℝ} {t s : Nat → ℝ} (hI : QrInv M N k f0 f t) (hM : k + n ≤ M)
    (h : QrInv (M - k) n n (fun i j => f (k + i) (k + j)) g s) :
    QrInv M N (k + n) f0 (panel k n g (qrProdT (M - k) n s g (fun i j => f (k + i) (k + n + j))) f)
      (fun l => if l < k then t l else s (l - k)) := by
  set b := qrProdT (M - k) n s g (fun i j => f (k + i) (k + n + j)) with hb
  set f' := panel k n g b f with hf'
  set t' : Nat → ℝ := fun l => if l < k then t l else s (l - k) with ht'
  have et : ∀ l, l < k → t' l = t l := fun l hl => by simp only [ht']; rw [if_pos hl]
  have es : ∀ l, t' (k + l) = s l := fun l => by simp only [ht']; rw [if_neg (by omega), Nat.add_sub_cancel_left]
  have ef : ∀ i l, l < k → f' i l = f i l := fun i l hl => by simp only [hf', panel]; rw [if_pos (Or.inr hl)]
  have ef' : ∀ i l, i < k → f' i l = f i l := fun i l hl => by simp only [hf', panel]; rw [if_pos (Or.inl hl)]
  have eg : ∀ i l, l < n → f' (k + i) (k + l) = g i l := fun i l hl => by
    simp only [hf', panel]; rw [if_neg (by omega), if_pos (by omega), Nat.add_sub_cancel_left, Nat.add_sub_cancel_left]
  have eb : ∀ i l, f' (k + i) (k + n + l) = b i l := fun i l => by
    simp only [hf', panel]
    rw [if_neg (by omega), if_neg (by omega), Nat.add_sub_cancel_left, show k + n + l - k - n = l by omega]
  constructor
  · intro i j hi hj
    rw [qrProd_shift (by omega) n t' f' _ j i hi, ← hI.prod i j hi hj]
    refine qrProd_col et (fun i l _ hl => ef i l hl) (fun i hi => ?_) i hi
    by_cases h1 : i < k
    · rw [if_pos h1, qrMid, qrMid, ef' i j h1]
      by_cases h2 : j < i
      · rw [if_pos ⟨by omega, h2⟩, if_pos ⟨by omega, h2⟩]
      · rw [if_neg (by omega), if_neg (by omega)]
    rw [if_neg h1]
    obtain ⟨p, rfl⟩ : ∃ p, i = k + p := ⟨i - k, by omega⟩
    rw [Nat.add_sub_cancel_left]
    by_cases h2 : j < k
    · rw [qrProd_zero (fun i _ => by rw [qrMid, if_pos (by omega)]) p (by omega), qrMid, if_pos (by omega)]
    rw [qrMid, if_neg (by omega)]
    obtain ⟨q, rfl⟩ : ∃ q, j = k + q := ⟨j - k, by omega⟩
    by_cases h3 : q < n
    · rw [← h.prod p q (by omega) h3]
      refine qrProd_col (fun l _ => es l) (fun i l _ hl => eg i l hl) (fun i hi => ?_) p (by omega)
      rw [qrMid, qrMid, eg i q h3]
      by_cases h4 : q < i
      · rw [if_pos (by omega), if_pos ⟨h3, h4⟩]
      · rw [if_neg (by omega), if_neg (by omega)]
    · obtain ⟨q, rfl⟩ : ∃ r, q = n + r := ⟨q - n, by omega⟩
      have := qrProd_qrProdT h.norm (fun i j => f (k + i) (k + n + j)) q p (by omega)
      rw [← Nat.add_assoc, ← this]
      refine qrProd_col (fun l _ => es l) (fun i l _ hl => eg i l hl) (fun i hi => ?_) p (by omega)
      rw [qrMid, if_neg (by omega), eb]
  · intro l hl
    by_cases h1 : l < k
    · rw [et l h1, sum_congr rfl fun i hi => by rw [qrw_congr (fun i _ => ef i l h1) i (mem_range.mp hi)]]
      exact hI.norm l h1
    · obtain ⟨p, rfl⟩ : ∃ p, l = k + p := ⟨l - k, by omega⟩
      rw [es p, sum_qrw_shift (M := M) (k := k) (by omega) f' p (fun x _ => x ^ 2) (fun _ => by simp),
        sum_congr rfl fun i hi => by rw [qrw_congr (f' := g) (fun i _ => eg i p (by omega)) i (mem_range.mp hi)]]
      exact h.norm p (by omega)
  · intro l hl hM'
    by_cases h1 : l < k
    · rw [et l h1]; exact hI.last l h1 hM'
    · obtain ⟨p, rfl⟩ : ∃ p, l = k + p := ⟨l - k, by omega⟩
      rw [es p]; exact h.last p (by omega) (by omega)
  · intro l hl h0 i hi hM'
    by_cases h1 : l < k
    · rw [et l h1] at h0
      rw [ef i l h1]; exact hI.unit l h1 h0 i hi hM'
    · obtain ⟨p, rfl⟩ : ∃ p, l = k + p := ⟨l - k, by omega⟩
      obtain ⟨q, rfl⟩ : ∃ q, i = k + q := ⟨i - k, by omega⟩
      rw [es p] at h0
      rw [eg q p (by omega)]; exact h.unit p (by omega) h0 q (by omega) (by omega)

theorem QrInv.tcongr {M N k : Nat} {f0 f : Nat → Nat → ℝ} {t t' : Nat → ℝ} (h : QrInv M N k f0 f t) (ht : ∀ l, l < k → t' l = t l) :
    QrInv M N k f0 f t' := by
  constructor
  · intro i j hi hj
    rw [← h.prod i j hi hj]
    exact qrProd_col ht (fun _ _ _ _ => rfl) (fun _ _ => rfl) i hi
  · intro l hl; rw [ht l hl]; exact h.norm l hl
  · intro l hl e; rw [ht l hl]; exact h.last l hl e
  · intro l hl e; rw [ht l hl] at e; exact h.unit l hl e

theorem holds_panel {m : Mem ℝ} {A : View} {k n : Nat} {g b f : Nat → Nat → ℝ} (hr : k + n ≤ A.rows)
    (h1 : Holds m (A.sub k k (A.rows - k) n) g) (h2 : Holds m (A.sub k (k + n) n (A.cols - k - n)) b)
    (h3 : Holds m (A.sub (k + n) (k + n) (A.rows - k - n) (A.cols - k - n)) (fun i j => b (n + i) j))
    (h4 : ∀ i j, i < A.rows → j < A.cols → i < k ∨ j < k → m (A.at' i j) = some (f i j)) : Holds m A (panel k n g b f) := by
  intro i j hi hj
  unfold panel
  by_cases c1 : i < k ∨ j < k
  · rw [if_pos c1]; exact h4 i j hi hj c1
  rw [if_neg c1]
  push Not at c1
  by_cases c2 : j < k + n
  · rw [if_pos c2]
    have := h1 (i - k) (j - k) (by simp only [View.sub_rows]; omega) (by simp only [View.sub_cols]; omega)
    rwa [View.at_sub, show k + (i - k) = i by omega, show k + (j - k) = j by omega] at this
  rw [if_neg c2]
  by_cases c3 : i < k + n
  · have := h2 (i - k) (j - k - n) (by simp only [View.sub_rows]; omega) (by simp only [View.sub_cols]; omega)
    rwa [View.at_sub, show k + (i - k) = i by omega, show k + n + (j - k - n) = j by omega] at this
  · have := h3 (i - k - n) (j - k - n) (by simp only [View.sub_rows]; omega) (by simp only [View.sub_cols]; omega)
    rw [View.at_sub, show k + n + (i - k - n) = i by omega, show k + n + (j - k - n) = j by omega] at this
    dsimp only at this
    rwa [show n + (i - k - n) = i - k by omega] at this

theorem WAlloc.view {α : Type} [Nonempty α] {m : Mem α} {W n : Nat} (h : WAlloc m W n) {r c : Nat} (hrc : r * c ≤ n) : ∃ w, Holds m ⟨W, r, r, c⟩ w := by
  choose! x hx using h
  refine ⟨fun i j => x (i + j * r), fun i j hi hj => ?_⟩
  dsimp only at hi hj
  rw [← hx]
  · simp only [View.at']; congr 1; ring
  · calc i + j * r < r + j * r := by omega
      _ = (j + 1) * r := by ring
      _ ≤ c * r := Nat.mul_le_mul_right _ hj
      _ ≤ n := by rw [Nat.mul_comm]; exact hrc

theorem view_wcells {W r c n : Nat} (h : r * c ≤ n) : (⟨W, r, r, c⟩ : View).foot ⊆ wcells W n := by
  rintro p ⟨i, j, hi, hj, rfl⟩
  dsimp only at hi hj
  refine ⟨by simp only [View.at']; omega, ?_⟩
  have : i + j * r < n := calc i + j * r < r + j * r := by omega
      _ = (j + 1) * r := by ring
      _ ≤ c * r := Nat.mul_le_mul_right _ hj
      _ ≤ n := by rw [Nat.mul_comm]; exact h
  simp only [View.at']; omega

/-- The cells of `tau` (a column). -/
def tcells (tau : View) (n : Nat) : Set Nat := {p | ∃ k, k < n ∧ p = tau.at' k 0}

/-- Arguments of the blocked QR factorization. -/
structure QrFacArgs (c : Cache) (A tau T : View) (W n lb : Nat) : Prop where
  wf : A.WF
  sh : A.cols ≤ A.rows
  tT : T.rows = lb ∧ T.cols = lb
  wT : T.WF
  blk : 0 < lb ∧ lb < A.cols
  size : (A.cols - lb) * lb ≤ n
  dA : Disjoint A.foot (tcells tau A.cols ∪ T.foot ∪ wcells W n ∪ c.foot)
  dt : Disjoint (tcells tau A.cols) (T.foot ∪ wcells W n ∪ c.foot)
  dT : Disjoint T.foot (wcells W n ∪ c.foot)
  dW : Disjoint (wcells W n) c.foot

/-- State of the blocked QR factorization before column `k`. -/
structure QrSt (c : Cache) (m0 m : Mem ℝ) (A tau T : View) (W n k : Nat) (f0 : Nat → Nat → ℝ) : Prop where
  fac : ∃ f t, Holds m A f ∧ (∀ l, l < A.cols → m (tau.at' l 0) = some (t l)) ∧ QrInv A.rows A.cols k f0 f t
  hT : ∃ τ, Holds m T τ
  hW : WAlloc m W n
  ready : c.Ready m
  frame : Frame (A.foot ∪ tcells tau A.cols ∪ T.foot ∪ wcells W n ∪ c.foot) m0 m

theorem blkQrStep_spec {safmin : ℝ} (nonneg : Bool) (h0 : 0 < safmin) (h1 : safmin < 1) (ab : ℝ → ℝ) {env : Env} {c : Cache}
    (hc : Conf3 env c) (hmin : 2 ≤ env.blas2min ∨ (env.naive = true ∧ env.recursive = false)) {fuel : Nat} {m0 m : Mem ℝ}
    {A tau T : View} {W n lb k : Nat} {f0 : Nat → Nat → ℝ} (H : QrFacArgs c A tau T W n lb) (hf : A.rows + A.cols + lb < fuel)
    (hk : k < A.cols - lb) (S : QrSt c m0 m A tau T W n k f0) :
    Runs (blkQrStep safmin nonneg ab env fuel A tau T W lb (some c) k m) (fun m' => QrSt c m0 m' A tau T W n (k + lb) f0) := by
  obtain ⟨wf, sh, tT, wT, blk, size, dA, dt, dT, dW⟩ := H
  obtain ⟨⟨f, t, hA, ht, hI⟩, hT, hW, R, F0⟩ := S
  have hn : lb ≤ n := le_trans (by nlinarith [Nat.sub_pos_of_lt blk.2]) size
  have hn2 : (A.cols - k - lb) * lb ≤ n := le_trans (Nat.mul_le_mul_right _ (by omega)) size
  have sL : (A.sub k k (A.rows - k) lb).foot ⊆ A.foot := View.sub_foot (by omega) (by omega)
  have sW : wcells W lb ⊆ wcells W n := fun p hp => ⟨hp.1, by have := hp.2; omega⟩
  have dAt : ∀ l, l < A.cols → tau.at' l 0 ∉ A.foot := fun l hl h => Set.disjoint_left.mp dA h (by simp only [Set.mem_union]; exact Or.inl (Or.inl (Or.inl ⟨l, hl, rfl⟩)))
  have dtS : ∀ l, l < A.cols → tau.at' l 0 ∉ T.foot ∧ tau.at' l 0 ∉ wcells W n ∧ tau.at' l 0 ∉ c.foot := by
    intro l hl
    have := Set.disjoint_left.mp dt (⟨l, hl, rfl⟩ : tau.at' l 0 ∈ tcells tau A.cols)
    simp only [Set.mem_union] at this
    tauto
  have dAT : Disjoint A.foot T.foot := dA.mono_right (by intro p h; simp only [Set.mem_union]; tauto)
  have dAW : Disjoint A.foot (wcells W n) := dA.mono_right (by intro p h; simp only [Set.mem_union]; tauto)
  have dAc : Disjoint A.foot c.foot := dA.mono_right (by intro p h; simp only [Set.mem_union]; tauto)
  have dTW : Disjoint T.foot (wcells W n) := dT.mono_right (by intro p h; simp only [Set.mem_union]; tauto)
  have dTc : Disjoint T.foot c.foot := dT.mono_right (by intro p h; simp only [Set.mem_union]; tauto)
  have et : ∀ p, (tau.sub k 0 lb 1).at' p 0 = tau.at' (k + p) 0 := fun p => by rw [View.at_sub]
  have mn : min (A.sub k k (A.rows - k) lb).rows (A.sub k k (A.rows - k) lb).cols = lb := by simp only [View.sub_rows, View.sub_cols]; omega
  have q1 := unblkQr_spec nonneg h0 h1 ab hmin (fuel := fuel) (m := m) (A := A.sub k k (A.rows - k) lb) (tau := tau.sub k 0 lb 1) (W := W)
    (f0 := fun i j => f (k + i) (k + j)) (s := fun p => t (k + p)) (by simp only [View.sub_cols]; omega)
    (by simp only [View.sub_rows]; omega) (wf.sub (by omega) (by omega)) (hA.part (by omega) (by omega))
    (by intro p hp; rw [et]; exact ht _ (by omega)) (hW.le hn)
    (by intro p hp; rw [et]; exact fun h => dAt _ (by omega) (sL h)) (dAW.mono sL sW)
    (by intro p hp; rw [et]; exact fun h => (dtS _ (by omega)).2.1 (sW h))
  unfold blkQrStep
  dsimp only
  refine q1.bind ?_
  rw [mn]
  simp only [View.sub_rows, View.sub_cols]
  rintro m1 ⟨g, s, hg, hs, hw1, F1, hI1⟩
  have hT1 : ∃ τ, Holds m1 T τ := by
    obtain ⟨τ, hτ⟩ := hT
    refine ⟨τ, hτ.frame F1 ?_⟩
    rw [Set.disjoint_union_right, Set.disjoint_union_right]
    refine ⟨⟨(dAT.mono_left sL).symm, ?_⟩, dTW.mono_right sW⟩
    rw [Set.disjoint_left]
    rintro p hp ⟨l, hl, rfl⟩
    rw [et] at hp
    exact (dtS _ (by omega)).1 hp
  obtain ⟨τ1, hτ1⟩ := hT1
  refine ((Props.C51_mscale_all (alpha := 0) (unit := false) wT hτ1).1).bind ?_
  rintro ⟨e2, m2⟩ ⟨-, hτ2, F2⟩
  dsimp only at hτ2 F2 ⊢
  have hL2 : Holds m2 (A.sub k k (A.rows - k) lb) g := hg.frame F2 (dAT.mono_left sL)
  have hs2 : ∀ p, p < lb → m2 ((tau.sub k 0 lb 1).at' p 0) = some (s p) := by
    intro p hp
    rw [F2 _ (by rw [et]; exact (dtS _ (by omega)).1)]
    exact hs p hp
  refine (qrReflector_spec ab (by rcases hc.min2 with h | h <;> [left; left] <;> omega) (t := s) wT (by simp only [View.sub_rows, View.sub_cols]; omega) (by simp only [View.sub_cols]; omega)
    (by simp only [View.sub_cols]; omega) (by simp only [View.sub_cols]; omega) hτ2 hL2 hs2 (dAT.mono_left sL)
    (by intro p hp; rw [et]; simp only [View.sub_cols] at hp; exact (dtS _ (by omega)).1)
    (by
      intro p hp
      simp only [View.sub_cols] at hp
      exact Or.inr (Or.inr (by simp only [View.sub_rows]; omega))) (by intro p i _ _ _; ring)).bind ?_
  rintro m3 ⟨τ3, hτ3, hB, F3⟩
  simp only [View.sub_rows, View.sub_cols] at hB
  have hL3 : Holds m3 (A.sub k k (A.rows - k) lb) g := hL2.frame F3 (dAT.mono_left sL)
  have F13 : Frame ((A.sub k k (A.rows - k) lb).foot ∪ {p | ∃ l, l < lb ∧ p = (tau.sub k 0 lb 1).at' l 0} ∪ wcells W lb ∪ T.foot) m m3 :=
    (F1.mono (by intro p h; simp only [Set.mem_union] at h ⊢; tauto)).trans ((F2.mono (by intro p h; simp only [Set.mem_union]; tauto)).trans
      (F3.mono (by intro p h; simp only [Set.mem_union]; tauto)))
  have tk : ∀ p, p ∈ {p | ∃ l, l < lb ∧ p = (tau.sub k 0 lb 1).at' l 0} → p ∈ tcells tau A.cols := by
    rintro p ⟨l, hl, rfl⟩
    rw [et]
    exact ⟨k + l, by omega, rfl⟩
  have hW3 : WAlloc m3 W n := by
    have w1 : WAlloc m1 W n := by
      intro p hp
      by_cases h : p < lb
      · exact hw1 p h
      · obtain ⟨x, hx⟩ := hW p hp
        refine ⟨x, ?_⟩
        rw [F1 _ ?_, hx]
        have hm : W + p ∈ wcells W n := ⟨by omega, by omega⟩
        simp only [Set.mem_union, not_or]
        refine ⟨⟨fun h' => Set.disjoint_left.mp dAW (sL h') hm, fun h' => ?_⟩, fun h' => by have := h'.2; omega⟩
        exact Set.disjoint_left.mp dt (tk _ h') (by simp only [Set.mem_union]; tauto)
    exact (w1.frame F2 dTW.symm).frame F3 dTW.symm
  have R3 : c.Ready m3 := by
    refine R.frame F13 ?_
    rw [Set.disjoint_left]
    intro p hp h
    simp only [Set.mem_union] at h
    rcases h with ((h | h) | h) | h
    · exact Set.disjoint_left.mp dAc (sL h) hp
    · exact Set.disjoint_left.mp dt (tk _ h) (by simp only [Set.mem_union]; tauto)
    · exact Set.disjoint_left.mp dW (sW h) hp
    · exact Set.disjoint_left.mp dTc h hp
  have keep : ∀ {r c' nr nc : Nat}, r + nr ≤ A.rows → c' + nc ≤ A.cols → k + lb ≤ c' →
      Holds m3 (A.sub r c' nr nc) (fun i j => f (r + i) (c' + j)) := by
    intro r c' nr nc e1 e2 e3
    refine (hA.part e1 e2).frame F13 ?_
    have e := View.sub_foot (V := A) e1 e2
    rw [Set.disjoint_left]
    intro p hp h
    simp only [Set.mem_union] at h
    rcases h with ((h | h) | h) | h
    · exact Set.disjoint_left.mp (View.sub_disj wf e1 e2 (by omega) (by omega) (Or.inr (Or.inr (Or.inr e3)))) hp h
    · exact Set.disjoint_left.mp dA (e hp) (by simp only [Set.mem_union]; exact Or.inl (Or.inl (Or.inl (tk _ h))))
    · exact Set.disjoint_left.mp dAW (e hp) (sW h)
    · exact Set.disjoint_left.mp dAT (e hp) h
  obtain ⟨w3, hw3⟩ := hW3.view hn2
  have swv := view_wcells (W := W) hn2
  have s1 : (A.sub k (k + lb) lb (A.cols - k - lb)).foot ⊆ A.foot := View.sub_foot (by omega) (by omega)
  have s2 : (A.sub (k + lb) (k + lb) (A.rows - k - lb) (A.cols - k - lb)).foot ⊆ A.foot := View.sub_foot (by omega) (by omega)
  have s3 : (A.sub k k lb lb).foot ⊆ A.foot := View.sub_foot (by omega) (by omega)
  have s4 : (A.sub (k + lb) k (A.rows - k - lb) lb).foot ⊆ A.foot := View.sub_foot (by omega) (by omega)
  have hw1' : (A.sub k (k + lb) lb (A.cols - k - lb)).WF := wf.sub (by omega) (by omega)
  have hw2' : (A.sub (k + lb) (k + lb) (A.rows - k - lb) (A.cols - k - lb)).WF := wf.sub (by omega) (by omega)
  have U : QrUpdArgs c m3 (A.sub k (k + lb) lb (A.cols - k - lb)) (A.sub (k + lb) (k + lb) (A.rows - k - lb) (A.cols - k - lb))
      (A.sub k k lb lb) (A.sub (k + lb) k (A.rows - k - lb) lb) T ⟨W, A.cols - k - lb, A.cols - k - lb, lb⟩ lb (A.rows - k - lb) (A.cols - k - lb) false g
      (fun i j => f (k + i) (k + lb + j)) τ3 w3 := by
    refine ⟨by simp, by simp, by simp, by simp, ⟨rfl, rfl⟩, ⟨rfl, rfl⟩, tT, ⟨rfl, rfl⟩, hw1', hw2', Or.inl (le_refl _), R3, ?_, ?_, ?_, ?_, hτ3, hw3, ?_, ?_, ?_,
      ?_, ?_, ?_, ?_⟩
    · simpa using keep (r := k) (c' := k + lb) (nr := lb) (nc := A.cols - k - lb) (by omega) (by omega) (by omega)
    · simpa [Nat.add_assoc] using keep (r := k + lb) (c' := k + lb) (nr := A.rows - k - lb) (nc := A.cols - k - lb) (by omega) (by omega) (by omega)
    · intro i j hi hj
      simp only [View.sub_rows, View.sub_cols] at hi hj
      have := hL3 i j (by simp only [View.sub_rows]; omega) (by simp only [View.sub_cols]; omega)
      rw [View.at_sub] at this ⊢; exact this
    · intro i j hi hj
      simp only [View.sub_rows, View.sub_cols] at hi hj
      have := hL3 (lb + i) j (by simp only [View.sub_rows]; omega) (by simp only [View.sub_cols]; omega)
      rw [View.at_sub] at this ⊢; rw [Nat.add_assoc]; exact this
    · exact View.sub_disj wf (by omega) (by omega) (by omega) (by omega) (by omega)
    · exact dAW.mono s1 swv
    · exact dAW.mono s2 swv
    · rw [Set.disjoint_union_right, Set.disjoint_union_right]
      exact ⟨⟨View.sub_disj wf (by omega) (by omega) (by omega) (by omega) (by omega), View.sub_disj wf (by omega) (by omega) (by omega) (by omega) (by omega)⟩, dAW.mono s3 swv⟩
    · rw [Set.disjoint_union_right, Set.disjoint_union_right]
      exact ⟨⟨View.sub_disj wf (by omega) (by omega) (by omega) (by omega) (by omega), View.sub_disj wf (by omega) (by omega) (by omega) (by omega) (by omega)⟩, dAW.mono s4 swv⟩
    · rw [Set.disjoint_union_right, Set.disjoint_union_right]
      exact ⟨⟨(dAT.mono_left s1).symm, (dAT.mono_left s2).symm⟩, dTW.mono_right swv⟩
    · simp only [Set.disjoint_union_left]
      exact ⟨⟨⟨⟨⟨dAc.mono_left s1, dAc.mono_left s2⟩, dW.mono_left swv⟩, dAc.mono_left s3⟩, dAc.mono_left s4⟩, dTc⟩
  rw [updateQrLeft_eq]
  refine (updQr_spec ab hc (tA := !true) U (by omega)).mono ?_
  rintro m4 ⟨c1, c2, F4, R4, w4, hw4⟩
  have ebp : ∀ i j, blockProd (lb + (A.rows - k - lb)) lb (fun p q => if (!true) = true then trm true false τ3 p q else trm true false τ3 q p) g (fun i j => f (k + i) (k + lb + j)) i j
      = qrProdT (A.rows - k) lb s g (fun i j => f (k + i) (k + lb + j)) i j := by
    intro i j
    rw [hB.prodT, show lb + (A.rows - k - lb) = A.rows - k by omega]
    simp
  simp only [ebp, Bool.false_eq_true, if_false] at c1 c2
  have F4A : Frame ((A.sub k (k + lb) (A.rows - k) (A.cols - k - lb)).foot ∪ wcells W n ∪ c.foot) m3 m4 := by
    refine F4.mono ?_
    intro p h
    simp only [Set.mem_union] at h ⊢
    rcases h with ((h | h) | h) | h
    · obtain ⟨i, j, hi, hj, rfl⟩ := h
      simp only [View.sub_rows, View.sub_cols] at hi hj
      exact Or.inl (Or.inl ⟨i, j, by simp only [View.sub_rows]; omega, hj, by rw [View.at_sub, View.at_sub]⟩)
    · obtain ⟨i, j, hi, hj, rfl⟩ := h
      simp only [View.sub_rows, View.sub_cols] at hi hj
      exact Or.inl (Or.inl ⟨lb + i, j, by simp only [View.sub_rows]; omega, hj, by rw [View.at_sub, View.at_sub, Nat.add_assoc]⟩)
    · exact Or.inl (Or.inr (swv h))
    · exact Or.inr h
  have sR : (A.sub k (k + lb) (A.rows - k) (A.cols - k - lb)).foot ⊆ A.foot := View.sub_foot (by omega) (by omega)
  have hL4 : Holds m4 (A.sub k k (A.rows - k) lb) g := by
    refine hL3.frame F4A ?_
    rw [Set.disjoint_union_right, Set.disjoint_union_right]
    exact ⟨⟨View.sub_disj wf (by omega) (by omega) (by omega) (by omega) (by omega), dAW.mono_left sL⟩, dAc.mono_left sL⟩
  have ht4 : ∀ l, l < A.cols → m4 (tau.at' l 0) = m3 (tau.at' l 0) := by
    intro l hl
    refine F4A _ ?_
    simp only [Set.mem_union, not_or]
    exact ⟨⟨fun h => dAt l hl (sR h), (dtS l hl).2.1⟩, (dtS l hl).2.2⟩
  refine ⟨⟨_, fun l => if k ≤ l ∧ l < k + lb then s (l - k) else t l, ?_, ?_, (hI.block (n := lb) (by omega) hI1).tcongr ?_⟩, ⟨τ3, hτ3.frame F4A ?_⟩, ?_, R4, F0.trans ((F13.mono ?_).trans (F4A.mono ?_))⟩
  · refine holds_panel (by omega) hL4 c1 c2 ?_
    intro i j hi hj hij
    have a1 : m4 (A.at' i j) = m3 (A.at' i j) := by
      refine F4A _ ?_
      simp only [Set.mem_union, not_or]
      refine ⟨⟨?_, Set.disjoint_left.mp dAW (View.at_mem_foot hi hj)⟩, Set.disjoint_left.mp dAc (View.at_mem_foot hi hj)⟩
      rw [View.mem_sub_foot wf (by omega) (by omega) hi hj]
      omega
    have a2 : m3 (A.at' i j) = m (A.at' i j) := by
      refine F13 _ ?_
      simp only [Set.mem_union, not_or]
      refine ⟨⟨⟨?_, fun h => Set.disjoint_left.mp dA (View.at_mem_foot hi hj) ?_⟩, fun h => Set.disjoint_left.mp dAW (View.at_mem_foot hi hj) (sW h)⟩, Set.disjoint_left.mp dAT (View.at_mem_foot hi hj)⟩
      · rw [View.mem_sub_foot wf (by omega) (by omega) hi hj]
        omega
      · simp only [Set.mem_union]; exact Or.inl (Or.inl (Or.inl (tk _ h)))
    rw [a1, a2]
    exact hA i j hi hj
  · intro l hl
    rw [ht4 l hl]
    dsimp only
    by_cases c1 : k ≤ l ∧ l < k + lb
    · have := hs2 (l - k) (by omega)
      rw [et, show k + (l - k) = l by omega] at this
      rw [if_pos c1, ← this]
      exact F3 _ (dtS l hl).1
    · rw [if_neg c1, ← ht l hl]
      refine F13 _ ?_
      simp only [Set.mem_union, not_or]
      refine ⟨⟨⟨fun h => dAt l hl (sL h), ?_⟩, fun h => (dtS l hl).2.1 (sW h)⟩, (dtS l hl).1⟩
      rintro ⟨p, hp, e⟩
      rw [et] at e
      simp only [View.at'] at e
      omega
  · intro l hl
    by_cases c1 : l < k
    · rw [if_neg (by omega), if_pos c1]
    · rw [if_pos (by omega), if_neg c1]
  · rw [Set.disjoint_union_right, Set.disjoint_union_right]
    exact ⟨⟨(dAT.mono_left sR).symm, dTW⟩, dTc⟩
  · intro p hp
    by_cases hm : W + p ∈ (⟨W, A.cols - k - lb, A.cols - k - lb, lb⟩ : View).foot
    · obtain ⟨i, j, hi, hj, e⟩ := hm
      rw [e]
      exact ⟨_, hw4 i j hi hj⟩
    · obtain ⟨x, hx⟩ := hW3 p hp
      have hm' : W + p ∈ wcells W n := ⟨by omega, by omega⟩
      refine ⟨x, ?_⟩
      rw [← hx]
      refine F4 _ ?_
      simp only [Set.mem_union, not_or]
      exact ⟨⟨⟨fun h => Set.disjoint_left.mp dAW (s1 h) hm', fun h => Set.disjoint_left.mp dAW (s2 h) hm'⟩, hm⟩, Set.disjoint_left.mp dW hm'⟩
  · intro p h
    simp only [Set.mem_union] at h ⊢
    rcases h with ((h | h) | h) | h
    · exact Or.inl (Or.inl (Or.inl (Or.inl (sL h))))
    · exact Or.inl (Or.inl (Or.inl (Or.inr (tk _ h))))
    · exact Or.inl (Or.inr (sW h))
    · exact Or.inl (Or.inl (Or.inr h))
  · intro p h
    simp only [Set.mem_union] at h ⊢
    rcases h with (h | h) | h
    · exact Or.inl (Or.inl (Or.inl (Or.inl (sR h))))
    · exact Or.inl (Or.inr h)
    · exact Or.inr h

theorem blkQr_spec {safmin : ℝ} (nonneg : Bool) (h0 : 0 < safmin) (h1 : safmin < 1) (ab : ℝ → ℝ) {env : Env} {c : Cache}
    (hc : Conf3 env c) (hmin : 2 ≤ env.blas2min ∨ (env.naive = true ∧ env.recursive = false)) {fuel : Nat} {m : Mem ℝ}
    {A tau T : View} {W n lb : Nat} {f0 : Nat → Nat → ℝ} {s0 : Nat → ℝ} (H : QrFacArgs c A tau T W n lb) (hf : A.rows + A.cols + lb < fuel)
    (hA : Holds m A f0) (ht : ∀ l, l < A.cols → m (tau.at' l 0) = some (s0 l)) (hT : ∃ τ, Holds m T τ) (hW : WAlloc m W n)
    (R : c.Ready m) :
    Runs (blkQr safmin nonneg ab env fuel m A tau T W lb (some c)) (fun m' => QrSt c m m' A tau T W n A.cols f0) := by
  unfold blkQr
  refine Runs.bind (P := fun r => A.cols - lb ≤ r.1 ∧ r.1 < A.cols ∧ QrSt c m r.2 A tau T W n r.1 f0) ?_ ?_
  · rw [Nat.min_eq_right H.sh]
    refine Runs.forUp (I := fun k m' => k < A.cols ∧ QrSt c m m' A tau T W n k f0) H.blk.1 ?_ ?_ ?_
    · exact ⟨by have := H.blk; omega, ⟨f0, s0, hA, ht, fun i j _ _ => by simp [qrProd, qrMid], fun l hl => by omega, fun l hl => by omega, fun l hl => by omega⟩, hT, hW, R,
        Frame.refl _ _⟩
    · rintro k m1 - hk ⟨-, S⟩
      exact (blkQrStep_spec nonneg h0 h1 ab hc hmin H hf hk S).mono fun m2 S2 => ⟨by omega, S2⟩
    · rintro k m1 hk - ⟨hk', S⟩
      exact ⟨hk, hk', S⟩
  rintro ⟨k, m1⟩ ⟨hk, hk', S⟩
  dsimp only at hk hk' S ⊢
  obtain ⟨wf, sh, tT, wT, blk, size, dA, dt, dT, dW⟩ := H
  obtain ⟨⟨f, t, hA1, ht1, hI⟩, ⟨τ, hT1⟩, hW1, R1, F0⟩ := S
  rw [if_pos (by omega)]
  have hn : A.cols - k ≤ n := by
    have : 1 * lb ≤ (A.cols - lb) * lb := Nat.mul_le_mul_right _ (by omega)
    omega
  have sL : (A.sub k k (A.rows - k) (A.cols - k)).foot ⊆ A.foot := View.sub_foot (by omega) (by omega)
  have sW : wcells W (A.cols - k) ⊆ wcells W n := fun p hp => ⟨hp.1, by have := hp.2; omega⟩
  have dAt : ∀ l, l < A.cols → tau.at' l 0 ∉ A.foot := fun l hl h => Set.disjoint_left.mp dA h (by simp only [Set.mem_union]; exact Or.inl (Or.inl (Or.inl ⟨l, hl, rfl⟩)))
  have dtS : ∀ l, l < A.cols → tau.at' l 0 ∉ T.foot ∧ tau.at' l 0 ∉ wcells W n ∧ tau.at' l 0 ∉ c.foot := by
    intro l hl
    have := Set.disjoint_left.mp dt (⟨l, hl, rfl⟩ : tau.at' l 0 ∈ tcells tau A.cols)
    simp only [Set.mem_union] at this
    tauto
  have dAT : Disjoint A.foot T.foot := dA.mono_right (by intro p h; simp only [Set.mem_union]; tauto)
  have dAW : Disjoint A.foot (wcells W n) := dA.mono_right (by intro p h; simp only [Set.mem_union]; tauto)
  have dAc : Disjoint A.foot c.foot := dA.mono_right (by intro p h; simp only [Set.mem_union]; tauto)
  have dTW : Disjoint T.foot (wcells W n) := dT.mono_right (by intro p h; simp only [Set.mem_union]; tauto)
  have et : ∀ p, (tau.sub k 0 (tau.rows - k) 1).at' p 0 = tau.at' (k + p) 0 := fun p => by rw [View.at_sub]
  have mn : min (A.sub k k (A.rows - k) (A.cols - k)).rows (A.sub k k (A.rows - k) (A.cols - k)).cols = A.cols - k := by
    simp only [View.sub_rows, View.sub_cols]; omega
  have q1 := unblkQr_spec nonneg h0 h1 ab hmin (fuel := fuel) (m := m1) (A := A.sub k k (A.rows - k) (A.cols - k))
    (tau := tau.sub k 0 (tau.rows - k) 1) (W := W)
    (f0 := fun i j => f (k + i) (k + j)) (s := fun p => t (k + p)) (by simp only [View.sub_cols]; omega)
    (by simp only [View.sub_rows]; omega) (wf.sub (by omega) (by omega)) (hA1.part (by omega) (by omega))
    (by intro p hp; rw [et]; exact ht1 _ (by omega)) (hW1.le hn)
    (by intro p hp; rw [et]; exact fun h => dAt _ (by omega) (sL h)) (dAW.mono sL sW)
    (by intro p hp; rw [et]; exact fun h => (dtS _ (by omega)).2.1 (sW h))
  refine q1.mono ?_
  rw [mn]
  simp only [View.sub_rows, View.sub_cols]
  rintro m2 ⟨g, s, hg, hs, hw2, F1, hI1⟩
  have tk : ∀ p, p ∈ {p | ∃ l, l < A.cols - k ∧ p = (tau.sub k 0 (tau.rows - k) 1).at' l 0} → p ∈ tcells tau A.cols := by
    rintro p ⟨l, hl, rfl⟩
    rw [et]
    exact ⟨k + l, by omega, rfl⟩
  have dg : ∀ p, p ∈ T.foot ∪ c.foot → p ∉ (A.sub k k (A.rows - k) (A.cols - k)).foot ∪
      {p | ∃ l, l < A.cols - k ∧ p = (tau.sub k 0 (tau.rows - k) 1).at' l 0} ∪ wcells W (A.cols - k) := by
    intro p hp h
    simp only [Set.mem_union] at h hp
    rcases h with (h | h) | h
    · exact Set.disjoint_left.mp dA (sL h) (by simp only [Set.mem_union]; tauto)
    · exact Set.disjoint_left.mp dt (tk _ h) (by simp only [Set.mem_union]; tauto)
    · rcases hp with hp | hp
      · exact Set.disjoint_left.mp dTW hp (sW h)
      · exact Set.disjoint_left.mp dW (sW h) hp
  have B := hI.block (n := A.cols - k) (by omega) hI1
  rw [show k + (A.cols - k) = A.cols by omega] at B
  refine ⟨⟨_, fun l => if l < k then t l else s (l - k), ?_, ?_, B⟩, ⟨τ, hT1.frame F1 ?_⟩, ?_, R1.frame F1 ?_, F0.trans (F1.mono ?_)⟩
  · refine holds_panel (by omega) hg ?_ ?_ ?_
    · intro i j _ hj; simp only [View.sub_cols] at hj; omega
    · intro i j _ hj; simp only [View.sub_cols] at hj; omega
    · intro i j hi hj hij
      rw [← hA1 i j hi hj]
      refine F1 _ ?_
      simp only [Set.mem_union, not_or]
      refine ⟨⟨?_, fun h => Set.disjoint_left.mp dA (View.at_mem_foot hi hj) ?_⟩, fun h => Set.disjoint_left.mp dAW (View.at_mem_foot hi hj) (sW h)⟩
      · rw [View.mem_sub_foot wf (by omega) (by omega) hi hj]
        omega
      · simp only [Set.mem_union]; exact Or.inl (Or.inl (Or.inl (tk _ h)))
  · intro l hl
    beta_reduce
    by_cases c1 : l < k
    · rw [if_pos c1, ← ht1 l hl]
      refine F1 _ ?_
      simp only [Set.mem_union, not_or]
      refine ⟨⟨fun h => dAt l hl (sL h), ?_⟩, fun h => (dtS l hl).2.1 (sW h)⟩
      rintro ⟨p, hp, e⟩
      rw [et] at e
      simp only [View.at'] at e
      omega
    · have := hs (l - k) (by omega)
      rw [et, show k + (l - k) = l by omega] at this
      rw [if_neg c1]; exact this
  · rw [Set.disjoint_left]; exact fun p hp => dg p (Or.inl hp)
  · intro p hp
    by_cases h : p < A.cols - k
    · exact hw2 p h
    · obtain ⟨x, hx⟩ := hW1 p hp
      refine ⟨x, ?_⟩
      rw [F1 _ ?_, hx]
      have hm : W + p ∈ wcells W n := ⟨by omega, by omega⟩
      simp only [Set.mem_union, not_or]
      refine ⟨⟨fun h' => Set.disjoint_left.mp dAW (sL h') hm, fun h' => ?_⟩, fun h' => by have := h'.2; omega⟩
      exact Set.disjoint_left.mp dt (tk _ h') (by simp only [Set.mem_union]; tauto)
  · rw [Set.disjoint_left]; exact fun p hp => dg p (Or.inr hp)
  · intro p h
    simp only [Set.mem_union] at h ⊢
    rcases h with (h | h) | h
    · exact Or.inl (Or.inl (Or.inl (Or.inl (sL h))))
    · exact Or.inl (Or.inl (Or.inl (Or.inr (tk _ h))))
    · exact Or.inl (Or.inr (sW h))

end Armas
