import Verif.HouseLemmas
import Verif.LuLemmas
import Verif.QrSpec

/-!
# Lemmas on QR factorization
-/

namespace Armas

open Classical Finset

/-- The cells `W ... W+n-1`. -/
def wcells (W n : Nat) : Set Nat := {p | W ≤ p ∧ p < W + n}

theorem work_foot (W n : Nat) : (⟨W, n, n, 1⟩ : View).foot = wcells W n := by
  ext p
  constructor
  · rintro ⟨i, j, hi, hj, rfl⟩
    dsimp only at hi hj
    have : j = 0 := by omega
    subst this
    constructor <;> simp [View.at'] <;> omega
  · rintro ⟨h1, h2⟩
    exact ⟨p - W, 0, by dsimp only; omega, Nat.one_pos, by simp [View.at']; omega⟩

/-- The work space is allocated. -/
def WAlloc {α : Type} (m : Mem α) (W n : Nat) : Prop := ∀ p, p < n → ∃ x, m (W + p) = some x

theorem WAlloc.holds {α : Type} [Nonempty α] {m : Mem α} {W n : Nat} (h : WAlloc m W n) : ∃ w, HoldsV m ⟨W, n, n, 1⟩ w := by
  choose! w hw using h
  refine ⟨w, fun k hk => ?_⟩
  simp only [View.size, mul_one] at hk
  rw [← hw k hk]
  congr 1
  simp only [View.vat, View.inc]
  split
  · rename_i h1; subst h1; simp
  · simp

theorem WAlloc.of_holds {α : Type} {m : Mem α} {W n : Nat} {w : Nat → α} (h : HoldsV m ⟨W, n, n, 1⟩ w) : WAlloc m W n := by
  intro p hp
  refine ⟨w p, ?_⟩
  rw [← h p (by simpa [View.size] using hp)]
  congr 1
  simp only [View.vat, View.inc]
  split
  · rename_i h1; subst h1; simp
  · simp

theorem WAlloc.le {α : Type} {m : Mem α} {W n n' : Nat} (h : WAlloc m W n) (hn : n' ≤ n) : WAlloc m W n' := fun p hp => h p (by omega)

theorem WAlloc.frame {α : Type} {m m' : Mem α} {W n : Nat} {S : Set Nat} (h : WAlloc m W n) (f : Frame S m m') (d : Disjoint (wcells W n) S) :
    WAlloc m' W n := by
  intro p hp
  rw [f _ (Set.disjoint_left.mp d ⟨by omega, by omega⟩)]
  exact h p hp

theorem sum_qrw {α : Type} [CommRing α] {M k : Nat} (f : Nat → Nat → α) (u : Nat → α) (hk : k < M) :
    ∑ l ∈ range M, qrw f k l * u l = u k + ∑ l ∈ range (M - k - 1), f (k + 1 + l) k * u (k + 1 + l) := by
  obtain ⟨p, rfl⟩ : ∃ p, M = k + 1 + p := ⟨M - k - 1, by omega⟩
  rw [sum_range_add, sum_range_succ, sum_eq_zero (s := range k) fun l hl => ?_]
  · rw [zero_add, show k + 1 + p - k - 1 = p by omega]
    congr 1
    · simp [qrw]
    · refine sum_congr rfl fun l _ => ?_
      simp only [qrw]
      rw [if_neg (by omega), if_neg (by omega)]
  · simp only [qrw]
    rw [if_pos (mem_range.mp hl), zero_mul]

/-- Result of step `k` of the factorization of `f`. -/
structure QrStep (M N k : Nat) (nonneg : Bool) (f f' : Nat → Nat → ℝ) (t : ℝ) : Prop where
  keep : ∀ i j, i < M → j < N → i < k ∨ j < k → f' i j = f i j
  norm : t = 0 ∨ t * ∑ l ∈ range M, qrw f' k l ^ 2 = 2
  app : ∀ i j, i < M → k ≤ j → j < N → refl M t (qrw f' k) f i j = if j = k ∧ k < i then 0 else f' i j
  sign : nonneg = true → (∃ i, k < i ∧ i < M ∧ f i k ≠ 0) → 0 ≤ f' k k
  last : k + 1 = M → t = 0
  unit : t = 0 → ∀ i, k < i → i < M → f' i k = 0

theorem unblkQrStep_spec {safmin : ℝ} (nonneg : Bool) (h0 : 0 < safmin) (h1 : safmin < 1) (ab : ℝ → ℝ) {env : Env}
    (hmin : 2 ≤ env.blas2min ∨ (env.naive = true ∧ env.recursive = false)) {fuel : Nat} {m : Mem ℝ} {A tau : View} {W k : Nat}
    {f : Nat → Nat → ℝ} {t0 : ℝ} (hf : A.cols < fuel) (hf' : A.rows < fuel) (wA : A.WF) (hk : k < A.rows) (hk' : k < A.cols)
    (hA : Holds m A f) (ht : m (tau.at' k 0) = some t0) (hW : WAlloc m W A.cols) (dt : tau.at' k 0 ∉ A.foot)
    (dW : Disjoint A.foot (wcells W A.cols)) (dtW : tau.at' k 0 ∉ wcells W A.cols) :
    Runs (unblkQrStep safmin nonneg ab env fuel A tau W k m) (fun m' => ∃ f' t, Holds m' A f' ∧ m' (tau.at' k 0) = some t ∧
      WAlloc m' W A.cols ∧ Frame (A.foot ∪ {tau.at' k 0} ∪ wcells W A.cols) m m' ∧ QrStep A.rows A.cols k nonneg f f' t) := by
  unfold unblkQrStep
  dsimp only
  set M := A.rows with hM
  set N := A.cols with hN
  have a11 : A.at' k k ∈ A.foot := View.at_mem_foot hk hk'
  have s21 : (A.sub (k + 1) k (M - k - 1) 1).foot ⊆ A.foot := View.sub_foot (by omega) (by omega)
  have s12 : (A.sub k (k + 1) 1 (N - k - 1)).foot ⊆ A.foot := View.sub_foot (by omega) (by omega)
  have s22 : (A.sub (k + 1) (k + 1) (M - k - 1) (N - k - 1)).foot ⊆ A.foot := View.sub_foot (by omega) (by omega)
  have z21 : (A.sub (k + 1) k (M - k - 1) 1).size = M - k - 1 := by simp [View.size]
  have z12 : (A.sub k (k + 1) 1 (N - k - 1)).size = N - k - 1 := by simp [View.size]
  have hx : HoldsV m (A.sub (k + 1) k (M - k - 1) 1) (fun l => f (k + 1 + l) k) :=
    ((hA.part (by omega) (by omega)).toV_col).congr fun l _ => rfl
  have wsub : ∀ r c nr nc, r + nr ≤ M → c + nc ≤ N → (A.sub r c nr nc).WF := fun r c nr nc h h' => wA.sub h h'
  have na11 : A.at' k k ∉ (A.sub (k + 1) k (M - k - 1) 1).foot := by
    rw [View.mem_sub_foot wA (by omega) (by omega) hk hk']; omega
  have ne : A.at' k k ≠ tau.at' k 0 := fun e => dt (e ▸ a11)
  unfold house
  rw [if_pos rfl]
  refine Runs.bind (householder_spec false nonneg h0 h1 (Or.inr rfl) (wsub _ _ _ _ (by omega) (by omega)) hx (hA k k hk hk') ht
    na11 (fun h => dt (s21 h)) ne) ?_
  rintro m1 ⟨v, t, b, hv, hb, htt, F1, hcase⟩
  rw [z21] at hcase
  have F1' : Frame (A.foot ∪ {tau.at' k 0}) m m1 := F1.mono (by
    rintro p (h | h | h)
    · exact Or.inl (s21 h)
    · rw [h]; exact Or.inl a11
    · exact Or.inr h)
  have keep1 : ∀ i j, i < M → j < N → ¬ (j = k ∧ k ≤ i) → m1 (A.at' i j) = some (f i j) := by
    intro i j hi hj hne
    rw [F1, hA i j hi hj]
    rintro (h | h | h)
    · rw [View.mem_sub_foot wA (by omega) (by omega) hi hj] at h; omega
    · have := View.at_inj wA hi hj hk hk' h; omega
    · exact dt (Set.mem_singleton_iff.mp h ▸ View.at_mem_foot hi hj)
  have h12 : HoldsV m1 (A.sub k (k + 1) 1 (N - k - 1)) (fun j => f k (k + 1 + j)) := by
    have : Holds m1 (A.sub k (k + 1) 1 (N - k - 1)) (fun i j => f (k + i) (k + 1 + j)) := by
      intro i j hi hj
      rw [View.sub_rows] at hi
      rw [View.sub_cols] at hj
      rw [View.at_sub]
      exact keep1 _ _ (by omega) (by omega) (by omega)
    exact this.toV_row.congr fun l _ => rfl
  have h22 : Holds m1 (A.sub (k + 1) (k + 1) (M - k - 1) (N - k - 1)) (fun i j => f (k + 1 + i) (k + 1 + j)) := by
    intro i j hi hj
    rw [View.sub_rows] at hi
    rw [View.sub_cols] at hj
    rw [View.at_sub]
    exact keep1 _ _ (by omega) (by omega) (by omega)
  have hW1 : WAlloc m1 W N := hW.frame F1' (by
    rw [Set.disjoint_union_right]
    exact ⟨dW.symm, Set.disjoint_singleton_right.mpr dtW⟩)
  obtain ⟨w, hw⟩ := (hW1.le (n' := N - k - 1) (by omega)).holds
  have csub : wcells W (N - k - 1) ⊆ wcells W N := fun p hp => ⟨hp.1, lt_of_lt_of_le hp.2 (by omega)⟩
  have dAc : Disjoint A.foot (wcells W (N - k - 1)) := dW.mono_right csub
  have ewf : (⟨W, N - k - 1, N - k - 1, 1⟩ : View).foot = wcells W (N - k - 1) := work_foot _ _
  refine (applyHH_left_spec ab hmin (v := A.sub (k + 1) k (M - k - 1) 1) (a1 := A.sub k (k + 1) 1 (N - k - 1))
    (A2 := A.sub (k + 1) (k + 1) (M - k - 1) (N - k - 1)) (w1 := ⟨W, N - k - 1, N - k - 1, 1⟩) (tau := tau.at' k 0)
    (by rw [View.sub_cols]; omega) (by rw [View.sub_rows]; omega) htt (Or.inr rfl) (Or.inl rfl) (Or.inr rfl) (Or.inr (le_refl 1))
    (wsub _ _ _ _ (by omega) (by omega)) (wsub _ _ _ _ (by omega) (by omega)) z21 z12 (by simp [View.size])
    hv h12 h22 hw (by rw [ewf]; exact dAc.mono_left s21)
    (View.sub_disj wA (by omega) (by omega) (by omega) (by omega) (by omega))
    (View.sub_disj wA (by omega) (by omega) (by omega) (by omega) (by omega))
    (by rw [ewf]; exact dAc.mono_left s12)
    (View.sub_disj wA (by omega) (by omega) (by omega) (by omega) (by omega))
    (by rw [ewf]; exact dAc.mono_left s22)).mono ?_
  rintro m2 ⟨g1, g2, ⟨w', hw'⟩, F2⟩
  rw [View.sub_rows] at g1 g2
  rw [ewf] at F2
  refine ⟨fun i j => if i < k ∨ j < k then f i j else if j = k then (if i = k then b else v (i - k - 1)) else
    if i = k then f k j - t * (f k j + ∑ l ∈ range (M - k - 1), v l * f (k + 1 + l) j) else
    f i j - v (i - k - 1) * (t * (f k j + ∑ l ∈ range (M - k - 1), v l * f (k + 1 + l) j)), t, ?_, ?_, ?_, ?_, ?_⟩
  · intro i j hi hj
    beta_reduce
    have nw : A.at' i j ∉ wcells W (N - k - 1) := Set.disjoint_left.mp dAc (View.at_mem_foot hi hj)
    have out : ¬ (k ≤ i ∧ k < j) → m2 (A.at' i j) = m1 (A.at' i j) := by
      intro hne
      refine F2 _ ?_
      rintro ((h | h) | h)
      · rw [View.mem_sub_foot wA (by omega) (by omega) hi hj] at h; omega
      · rw [View.mem_sub_foot wA (by omega) (by omega) hi hj] at h; omega
      · exact nw h
    by_cases c1 : i < k ∨ j < k
    · rw [if_pos c1, out (by omega), keep1 i j hi hj (by omega)]
    · rw [if_neg c1]
      by_cases c2 : j = k
      · rw [if_pos c2, out (by omega)]
        subst c2
        by_cases c3 : i = j
        · rw [if_pos c3, c3]; exact hb
        · rw [if_neg c3]
          have := (holdsV_iff (Or.inr rfl)).mp hv (i - j - 1) 0 (by rw [View.sub_rows]; omega) Nat.one_pos
          rw [View.at_sub, show j + 1 + (i - j - 1) = i by omega] at this
          exact this
      · rw [if_neg c2]
        by_cases c3 : i = k
        · subst c3
          rw [if_pos rfl]
          have := (holdsV_iff (Or.inl rfl)).mp g1 0 (j - i - 1) Nat.one_pos (by rw [View.sub_cols]; omega)
          rw [View.at_sub] at this
          simp only [zero_add, add_zero] at this
          rw [show i + 1 + (j - i - 1) = j by omega] at this
          exact this
        · rw [if_neg c3]
          have := g2 (i - k - 1) (j - k - 1) (by rw [View.sub_rows]; omega) (by rw [View.sub_cols]; omega)
          rw [View.at_sub] at this
          beta_reduce at this
          rw [show k + 1 + (j - k - 1) = j by omega, show k + 1 + (i - k - 1) = i by omega] at this
          exact this
  · rw [F2, htt]
    rintro ((h | h) | h)
    · exact dt (s12 h)
    · exact dt (s22 h)
    · exact dtW (csub h)
  · intro p hp
    by_cases c : p < N - k - 1
    · exact WAlloc.of_holds hw' p c
    · rw [F2]
      · exact hW1 p hp
      · have hin : W + p ∈ wcells W N := ⟨by omega, by omega⟩
        rintro ((h | h) | h)
        · exact Set.disjoint_left.mp dW (s12 h) hin
        · exact Set.disjoint_left.mp dW (s22 h) hin
        · have := h.2; omega
  · refine (F1'.mono Set.subset_union_left).trans (F2.mono ?_)
    rintro p ((h | h) | h)
    · exact Or.inl (Or.inl (s12 h))
    · exact Or.inl (Or.inl (s22 h))
    · exact Or.inr (csub h)
  · -- algebra
    set f' : Nat → Nat → ℝ := fun i j => if i < k ∨ j < k then f i j else if j = k then (if i = k then b else v (i - k - 1)) else
      if i = k then f k j - t * (f k j + ∑ l ∈ range (M - k - 1), v l * f (k + 1 + l) j) else
      f i j - v (i - k - 1) * (t * (f k j + ∑ l ∈ range (M - k - 1), v l * f (k + 1 + l) j)) with hf'd
    have fv : ∀ l, f' (k + 1 + l) k = v l := by
      intro l
      simp only [hf'd]
      rw [if_neg (by omega), if_pos trivial, if_neg (by omega), show k + 1 + l - k - 1 = l by omega]
    have fb : f' k k = b := by simp [hf'd]
    have sw : ∀ u : Nat → ℝ, ∑ l ∈ range M, qrw f' k l * u l = u k + ∑ l ∈ range (M - k - 1), v l * u (k + 1 + l) := by
      intro u
      rw [sum_qrw f' u hk]
      simp only [fv]
    have wk : ∀ i, k < i → qrw f' k i = v (i - k - 1) := by
      intro i hi
      rw [qrw, if_neg (by omega), if_neg (by omega)]
      have := fv (i - k - 1)
      rwa [show k + 1 + (i - k - 1) = i by omega] at this
    have wk0 : qrw f' k k = 1 := by simp [qrw]
    have wlt : ∀ i, i < k → qrw f' k i = 0 := fun i hi => by rw [qrw, if_pos hi]
    have sq : ∑ l ∈ range M, qrw f' k l ^ 2 = 1 + ∑ l ∈ range (M - k - 1), v l ^ 2 := by
      rw [sum_congr rfl fun l _ => pow_two (qrw f' k l), sw (qrw f' k), wk0]
      congr 1
      refine sum_congr rfl fun l _ => ?_
      rw [wk _ (by omega), show k + 1 + l - k - 1 = l by omega, pow_two]
    refine ⟨?_, ?_, ?_, ?_, ?_, ?_⟩
    · intro i j _ _ h
      simp only [hf'd]
      rw [if_pos h]
    · rcases hcase with ⟨_, ht0, _⟩ | ⟨_, hI⟩
      · exact Or.inl ht0
      · right; rw [sq]; exact hI.norm
    · intro i j hi hkj hj
      unfold refl
      rw [sw fun l => f l j]
      by_cases c1 : i < k
      · rw [wlt i c1, if_neg (by omega)]
        simp only [hf'd]
        rw [if_pos (Or.inl c1)]
        ring
      by_cases c2 : j = k
      · subst c2
        rcases hcase with ⟨hS, ht0, hba, hvx⟩ | ⟨_, hI⟩
        · rw [ht0]
          by_cases c3 : i = j
          · rw [c3, if_neg (by omega), fb, hba]; ring
          · rw [if_pos (by omega)]
            have := (sum_eq_zero_iff_of_nonneg (fun l _ => sq_nonneg (f (j + 1 + l) j))).mp hS (i - j - 1) (mem_range.mpr (by omega))
            rw [show j + 1 + (i - j - 1) = i by omega] at this
            rw [pow_eq_zero_iff (two_ne_zero)] at this
            rw [this]; ring
        · have hf1 := hI.first
          simp only [hhSigma] at hf1
          by_cases c3 : i = j
          · subst c3
            rw [if_neg (by omega), fb, wk0, mul_one, hf1]
            simp
          · rw [if_pos (by omega), wk i (by omega)]
            have := hI.rest (i - j - 1) (by omega)
            rw [show j + 1 + (i - j - 1) = i by omega] at this
            simp only [hhSigma] at this
            linear_combination -v (i - j - 1) * hf1 - this
      · rw [if_neg (by omega)]
        simp only [hf'd]
        rw [if_neg (by omega), if_neg c2]
        by_cases c3 : i = k
        · subst c3
          rw [if_pos rfl, wk0, mul_one]
        · rw [if_neg c3, wk i (by omega)]
          ring
    · intro hn hex
      rw [fb]
      rcases hcase with ⟨hS, _⟩ | ⟨_, hI⟩
      · obtain ⟨i, hi, hi', hne⟩ := hex
        have := (sum_eq_zero_iff_of_nonneg (fun l _ => sq_nonneg (f (k + 1 + l) k))).mp hS (i - k - 1) (mem_range.mpr (by omega))
        rw [show k + 1 + (i - k - 1) = i by omega] at this
        rw [pow_eq_zero_iff (two_ne_zero)] at this
        exact absurd this hne
      · exact hI.sign hn
    · intro hM
      rcases hcase with ⟨_, h⟩ | ⟨h, _⟩
      · exact h.1
      · simp [show M - k - 1 = 0 by omega] at h
    · intro h0 i hi hi'
      rcases hcase with ⟨hS, _, _, hvx⟩ | ⟨_, hI⟩
      · have e := fv (i - k - 1)
        rw [show k + 1 + (i - k - 1) = i by omega] at e
        have := (sum_eq_zero_iff_of_nonneg (fun l _ => sq_nonneg (f (k + 1 + l) k))).mp hS (i - k - 1) (mem_range.mpr (by omega))
        rw [pow_eq_zero_iff (two_ne_zero)] at this
        rw [e, hvx]; exact this
      · have := hI.norm
        rw [h0, zero_mul] at this
        norm_num at this

theorem refl_congr {α : Type} [CommRing α] {n : Nat} {t : α} {w w' : Nat → α} {b b' : Nat → Nat → α} {i j : Nat} (hi : i < n) (hw : ∀ l, l < n → w l = w' l)
    (hb : ∀ l, l < n → b l j = b' l j) : refl n t w b i j = refl n t w' b' i j := by
  unfold refl
  rw [hw i hi, hb i hi, sum_congr rfl fun l hl => by rw [hw l (mem_range.mp hl), hb l (mem_range.mp hl)]]

theorem refl_refl {α : Type} [CommRing α] {n : Nat} {t : α} {w : Nat → α} (h : t = 0 ∨ t * ∑ l ∈ range n, w l ^ 2 = 2) (b : Nat → Nat → α) (i j : Nat) :
    refl n t w (refl n t w b) i j = b i j := by
  have e : ∑ l ∈ range n, w l * refl n t w b l j = (1 - t * ∑ l ∈ range n, w l ^ 2) * ∑ l ∈ range n, w l * b l j := by
    unfold refl
    rw [sum_congr rfl fun l _ => show w l * (b l j - t * w l * ∑ l ∈ range n, w l * b l j) =
      w l * b l j - t * (∑ l ∈ range n, w l * b l j) * w l ^ 2 by ring, sum_sub_distrib, ← mul_sum]
    ring
  rw [refl, e, refl]
  rcases h with rfl | h
  · simp
  · rw [h]; ring

theorem qrProd_congr {α : Type} [CommRing α] {M N k : Nat} {t t' : Nat → α} {f f' b b' : Nat → Nat → α} (ht : ∀ l, l < k → t l = t' l)
    (hf : ∀ i l, i < M → l < k → f i l = f' i l) (hb : ∀ i j, i < M → j < N → b i j = b' i j) :
    ∀ i j, i < M → j < N → qrProd M k t f b i j = qrProd M k t' f' b' i j := by
  induction k generalizing b b' with
  | zero => exact hb
  | succ k ih =>
    intro i j hi hj
    unfold qrProd
    refine ih (fun l hl => ht l (by omega)) (fun i l hi hl => hf i l hi (by omega)) (fun i j hi hj => ?_) i j hi hj
    rw [ht k (by omega)]
    refine refl_congr hi (fun l hl => ?_) fun l hl => hb l j hl hj
    unfold qrw
    rw [hf l k hl (by omega)]

/-- The matrix before step `k`: the reflectors are taken as zeros. -/
def qrMid {α : Type} [CommRing α] (k : Nat) (f : Nat → Nat → α) (i j : Nat) : α := if j < k ∧ j < i then 0 else f i j

theorem QrStep.mid {M N k : Nat} {nonneg : Bool} {f f' : Nat → Nat → ℝ} {t : ℝ} (h : QrStep M N k nonneg f f' t) (hk : k < N) :
    ∀ i j, i < M → j < N → refl M t (qrw f' k) (qrMid k f) i j = qrMid (k + 1) f' i j := by
  intro i j hi hj
  by_cases c : j < k
  · unfold refl
    rw [sum_eq_zero, mul_zero, sub_zero]
    · unfold qrMid
      by_cases c' : j < i
      · rw [if_pos ⟨c, c'⟩, if_pos ⟨by omega, c'⟩]
      · rw [if_neg (by omega), if_neg (by omega), h.keep i j hi hj (Or.inr c)]
    · intro l _
      by_cases c' : l < k
      · rw [qrw, if_pos c', zero_mul]
      · rw [qrMid, if_pos ⟨c, by omega⟩, mul_zero]
  · rw [refl_congr (b' := f) (w' := qrw f' k) hi (fun _ _ => rfl) (fun l _ => by rw [qrMid, if_neg (by omega)]),
      h.app i j hi (by omega) hj, qrMid]
    by_cases c' : j = k ∧ k < i
    · rw [if_pos c', if_pos (by omega)]
    · rw [if_neg c', if_neg (by omega)]

/-- The state after `k` steps. -/
structure QrInv (M N k : Nat) (f0 f : Nat → Nat → ℝ) (t : Nat → ℝ) : Prop where
  prod : ∀ i j, i < M → j < N → qrProd M k t f (qrMid k f) i j = f0 i j
  norm : ∀ l, l < k → t l = 0 ∨ t l * ∑ i ∈ range M, qrw f l i ^ 2 = 2
  last : ∀ l, l < k → l + 1 = M → t l = 0
  unit : ∀ l, l < k → t l = 0 → ∀ i, l < i → i < M → f i l = 0

theorem QrInv.step {M N k : Nat} {nonneg : Bool} {f0 f f' : Nat → Nat → ℝ} {t : Nat → ℝ} {tk : ℝ} (hI : QrInv M N k f0 f t)
    (h : QrStep M N k nonneg f f' tk) (hk : k < N) : QrInv M N (k + 1) f0 f' (Function.update t k tk) := by
  have e : ∀ l, l < k → ∀ i, i < M → qrw f' l i = qrw f l i := by
    intro l hl i hi
    unfold qrw
    rw [h.keep i l hi (by omega) (Or.inr hl)]
  constructor
  · intro i j hi hj
    unfold qrProd
    rw [Function.update_self, ← hI.prod i j hi hj]
    refine qrProd_congr (N := N) (fun l hl => by rw [Function.update_of_ne (by omega)])
      (fun i l hi hl => h.keep i l hi (by omega) (Or.inr hl)) (fun i j hi hj => ?_) i j hi hj
    rw [refl_congr (b' := refl M tk (qrw f' k) (qrMid k f)) (w' := qrw f' k) hi (fun _ _ => rfl)
      (fun l hl => (h.mid hk l j hl hj).symm), refl_refl h.norm]
  · intro l hl
    by_cases c : l = k
    · subst c; rw [Function.update_self]; exact h.norm
    · rw [Function.update_of_ne c, sum_congr rfl fun i hi => by rw [e l (by omega) i (mem_range.mp hi)]]
      exact hI.norm l (by omega)
  · intro l hl hM
    by_cases c : l = k
    · subst c; rw [Function.update_self]; exact h.last hM
    · rw [Function.update_of_ne c]; exact hI.last l (by omega) hM
  · intro l hl h0 i hi hM
    by_cases c : l = k
    · subst c; rw [Function.update_self] at h0; exact h.unit h0 i hi hM
    · rw [Function.update_of_ne c] at h0
      rw [h.keep i l hM (by omega) (Or.inr (by omega))]
      exact hI.unit l (by omega) h0 i hi hM

theorem unblkQr_spec {safmin : ℝ} (nonneg : Bool) (h0 : 0 < safmin) (h1 : safmin < 1) (ab : ℝ → ℝ) {env : Env}
    (hmin : 2 ≤ env.blas2min ∨ (env.naive = true ∧ env.recursive = false)) {fuel : Nat} {m : Mem ℝ} {A tau : View} {W : Nat}
    {f0 : Nat → Nat → ℝ} {s : Nat → ℝ} (hf : A.cols < fuel) (hf' : A.rows < fuel) (wA : A.WF)
    (hA : Holds m A f0) (ht : ∀ k, k < min A.rows A.cols → m (tau.at' k 0) = some (s k)) (hW : WAlloc m W A.cols)
    (dt : ∀ k, k < min A.rows A.cols → tau.at' k 0 ∉ A.foot)
    (dW : Disjoint A.foot (wcells W A.cols)) (dtW : ∀ k, k < min A.rows A.cols → tau.at' k 0 ∉ wcells W A.cols) :
    Runs (unblkQr safmin nonneg ab env fuel m A tau W) (fun m' => ∃ f t, Holds m' A f ∧
      (∀ k, k < min A.rows A.cols → m' (tau.at' k 0) = some (t k)) ∧ WAlloc m' W A.cols ∧
      Frame (A.foot ∪ {p | ∃ k, k < min A.rows A.cols ∧ p = tau.at' k 0} ∪ wcells W A.cols) m m' ∧
      QrInv A.rows A.cols (min A.rows A.cols) f0 f t) := by
  unfold unblkQr
  set K := min A.rows A.cols with hK
  refine Runs.bind (P := fun r => ∃ f t, Holds r.2 A f ∧ (∀ k, k < K → r.2 (tau.at' k 0) = some (t k)) ∧ WAlloc r.2 W A.cols ∧
      Frame (A.foot ∪ {p | ∃ k, k < K ∧ p = tau.at' k 0} ∪ wcells W A.cols) m r.2 ∧ QrInv A.rows A.cols K f0 f t) ?_ ?_
  · refine Runs.forUp1 (i := 0) (n := K) (I := fun k m' => ∃ f t, Holds m' A f ∧ (∀ k, k < K → m' (tau.at' k 0) = some (t k)) ∧
      WAlloc m' W A.cols ∧ Frame (A.foot ∪ {p | ∃ k, k < K ∧ p = tau.at' k 0} ∪ wcells W A.cols) m m' ∧
      QrInv A.rows A.cols k f0 f t) (Nat.zero_le _) ?_ ?_ (fun st h => h)
    · exact ⟨f0, s, hA, ht, hW, Frame.refl _ _, fun i j _ _ => by simp [qrProd, qrMid], fun l hl => by omega, fun l hl => by omega, fun l hl => by omega⟩
    · rintro k m1 - hk ⟨f, t, hA1, ht1, hW1, F1, hI⟩
      refine (unblkQrStep_spec nonneg h0 h1 ab hmin hf hf' wA (by omega) (by omega) hA1 (ht1 k hk) hW1 (dt k hk) dW (dtW k hk)).mono ?_
      rintro m2 ⟨f', tk, hA2, ht2, hW2, F2, hs⟩
      refine ⟨f', Function.update t k tk, hA2, ?_, hW2, F1.trans (F2.mono ?_), hI.step hs (by omega)⟩
      · intro l hl
        by_cases c : l = k
        · subst c; rw [Function.update_self]; exact ht2
        · rw [Function.update_of_ne c, F2]
          · exact ht1 l hl
          · rintro ((h | h) | h)
            · exact dt l hl h
            · have h := Set.mem_singleton_iff.mp h
              simp only [View.at', zero_mul, add_zero] at h
              omega
            · exact dtW l hl h
      · rintro p ((h | h) | h)
        · exact Or.inl (Or.inl h)
        · exact Or.inl (Or.inr ⟨k, hk, h⟩)
        · exact Or.inr h
  · rintro ⟨k, m1⟩ h
    exact Runs.pure h

end Armas
