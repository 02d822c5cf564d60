import Verif.Ql
import Verif.QlSpec
import Verif.QrLemmas

/-!
# Lemmas on QL factorization
-/

namespace Armas

open Classical Finset

theorem IsHouse.rev {neg nonneg : Bool} {n : Nat} {a : ℝ} {x v : Nat → ℝ} {t b : ℝ} (h : IsHouse neg nonneg n a x v t b) :
    IsHouse neg nonneg n a (fun l => x (n - 1 - l)) (fun l => v (n - 1 - l)) t b := by
  obtain ⟨h1, h2, h3, h4, h5, h6⟩ := h
  refine ⟨?_, ?_, fun k hk => h3 _ (by omega), ?_, h5, h6⟩
  · rw [sum_range_reflect (fun l => v l ^ 2)]; exact h1
  · rw [sum_range_reflect (fun l => v l * x l)]; exact h2
  · rw [sum_range_reflect (fun l => x l ^ 2)]; exact h4

/-- The matrix after step `k` in terms of the vector of the reflector, its scalar and the new diagonal element. -/
noncomputable def qrNew (M k : Nat) (f : Nat → Nat → ℝ) (v : Nat → ℝ) (t b : ℝ) (i j : Nat) : ℝ :=
  if i < k ∨ j < k then f i j else if j = k then (if i = k then b else v (i - k - 1)) else
    if i = k then f k j - t * (f k j + ∑ l ∈ range (M - k - 1), v l * f (k + 1 + l) j) else
    f i j - v (i - k - 1) * (t * (f k j + ∑ l ∈ range (M - k - 1), v l * f (k + 1 + l) j))

theorem qrNew_step {M N k : Nat} {nonneg : Bool} {f : Nat → Nat → ℝ} {v : Nat → ℝ} {t b : ℝ} (hk : k < M)
    (hcase : (∑ l ∈ range (M - k - 1), f (k + 1 + l) k ^ 2 = 0 ∧ t = 0 ∧ b = f k k ∧ ∀ l, l < M - k - 1 → v l = f (k + 1 + l) k) ∨
      (0 < ∑ l ∈ range (M - k - 1), f (k + 1 + l) k ^ 2 ∧ IsHouse false nonneg (M - k - 1) (f k k) (fun l => f (k + 1 + l) k) v t b)) :
    QrStep M N k nonneg f (qrNew M k f v t b) t := by
  set f' : Nat → Nat → ℝ := qrNew M k f v t b with hf'd
  have fv : ∀ l, f' (k + 1 + l) k = v l := by
    intro l
    simp only [hf'd, qrNew]
    rw [if_neg (by omega), if_pos trivial, if_neg (by omega), show k + 1 + l - k - 1 = l by omega]
  have fb : f' k k = b := by simp [hf'd, qrNew]
  have sw : ∀ u : Nat → ℝ, ∑ l ∈ range M, qrw f' k l * u l = u k + ∑ l ∈ range (M - k - 1), v l * u (k + 1 + l) := by
    intro u
    rw [sum_qrw f' u hk]
    simp only [fv]
  have wk : ∀ i, k < i → qrw f' k i = v (i - k - 1) := by
    intro i hi
    rw [qrw, if_neg (by omega), if_neg (by omega)]
    have := fv (i - k - 1)
    rwa [show k + 1 + (i - k - 1) = i by omega] at this
  have wk0 : qrw f' k k = 1 := by simp [qrw]
  have wlt : ∀ i, i < k → qrw f' k i = 0 := fun i hi => by rw [qrw, if_pos hi]
  have sq : ∑ l ∈ range M, qrw f' k l ^ 2 = 1 + ∑ l ∈ range (M - k - 1), v l ^ 2 := by
    rw [sum_congr rfl fun l _ => pow_two (qrw f' k l), sw (qrw f' k), wk0]
    congr 1
    refine sum_congr rfl fun l _ => ?_
    rw [wk _ (by omega), show k + 1 + l - k - 1 = l by omega, pow_two]
  have zero : ∑ l ∈ range (M - k - 1), f (k + 1 + l) k ^ 2 = 0 → ∀ i, k < i → i < M → f i k = 0 := by
    intro hS i hi hi'
    have := (sum_eq_zero_iff_of_nonneg (fun l _ => sq_nonneg (f (k + 1 + l) k))).mp hS (i - k - 1) (mem_range.mpr (by omega))
    rw [show k + 1 + (i - k - 1) = i by omega] at this
    rwa [pow_eq_zero_iff (two_ne_zero)] at this
  refine ⟨?_, ?_, ?_, ?_, ?_, ?_⟩
  · intro i j _ _ h
    simp only [hf'd, qrNew]
    rw [if_pos h]
  · rcases hcase with ⟨_, ht0, _⟩ | ⟨_, hI⟩
    · exact Or.inl ht0
    · right; rw [sq]; exact hI.norm
  · intro i j hi hkj hj
    unfold refl
    rw [sw fun l => f l j]
    by_cases c1 : i < k
    · rw [wlt i c1, if_neg (by omega)]
      simp only [hf'd, qrNew]
      rw [if_pos (Or.inl c1)]
      ring
    by_cases c2 : j = k
    · subst c2
      rcases hcase with ⟨hS, ht0, hba, hvx⟩ | ⟨_, hI⟩
      · rw [ht0]
        by_cases c3 : i = j
        · rw [c3, if_neg (by omega), fb, hba]; ring
        · rw [if_pos (by omega), zero hS i (by omega) hi]; ring
      · have hf1 := hI.first
        simp only [hhSigma] at hf1
        by_cases c3 : i = j
        · subst c3
          rw [if_neg (by omega), fb, wk0, mul_one, hf1]
          simp
        · rw [if_pos (by omega), wk i (by omega)]
          have := hI.rest (i - j - 1) (by omega)
          rw [show j + 1 + (i - j - 1) = i by omega] at this
          simp only [hhSigma] at this
          linear_combination -v (i - j - 1) * hf1 - this
    · rw [if_neg (by omega)]
      simp only [hf'd, qrNew]
      rw [if_neg (by omega), if_neg c2]
      by_cases c3 : i = k
      · subst c3
        rw [if_pos rfl, wk0, mul_one]
      · rw [if_neg c3, wk i (by omega)]
        ring
  · intro hn hex
    rw [fb]
    rcases hcase with ⟨hS, _⟩ | ⟨_, hI⟩
    · obtain ⟨i, hi, hi', hne⟩ := hex
      exact absurd (zero hS i hi hi') hne
    · exact hI.sign hn
  · intro hM
    rcases hcase with ⟨_, h⟩ | ⟨h, _⟩
    · exact h.1
    · simp [show M - k - 1 = 0 by omega] at h
  · intro h0 i hi hi'
    rcases hcase with ⟨hS, _, _, hvx⟩ | ⟨_, hI⟩
    · have e := fv (i - k - 1)
      rw [show k + 1 + (i - k - 1) = i by omega] at e
      have h := hvx (i - k - 1) (by omega)
      rw [show k + 1 + (i - k - 1) = i by omega] at h
      rw [e, h]
      exact zero hS i hi hi'
    · have := hI.norm
      rw [h0, zero_mul] at this
      norm_num at this

theorem unblkQlStep_spec {safmin : ℝ} (nonneg : Bool) (h0 : 0 < safmin) (h1 : safmin < 1) (ab : ℝ → ℝ) {env : Env}
    (hmin : 2 ≤ env.blas2min ∨ (env.naive = true ∧ env.recursive = false)) {fuel : Nat} {m : Mem ℝ} {A tau : View} {W d M N : Nat}
    {F : Nat → Nat → ℝ} {t0 : ℝ} (hM : A.rows = M) (hN : A.cols = N) (hf : N < fuel) (hf' : M < fuel) (wA : A.WF) (hk : d < M) (hk' : d < N)
    (hA : Holds m A (fun i j => F (M - 1 - i) (N - 1 - j))) (ht : m (tau.at' (tau.rows - 1 - d) 0) = some t0) (hW : WAlloc m W N)
    (dt : tau.at' (tau.rows - 1 - d) 0 ∉ A.foot)
    (dW : Disjoint A.foot (wcells W N)) (dtW : tau.at' (tau.rows - 1 - d) 0 ∉ wcells W N) :
    Runs (unblkQlStep safmin nonneg ab env fuel A tau W d m) (fun m' => ∃ F' t, Holds m' A (fun i j => F' (M - 1 - i) (N - 1 - j)) ∧
      m' (tau.at' (tau.rows - 1 - d) 0) = some t ∧
      WAlloc m' W N ∧ Frame (A.foot ∪ {tau.at' (tau.rows - 1 - d) 0} ∪ wcells W N) m m' ∧ QrStep M N d nonneg F F' t) := by
  unfold unblkQlStep
  dsimp only
  rw [hM, hN]
  set tp := tau.at' (tau.rows - 1 - d) 0
  obtain ⟨r, hr⟩ : ∃ r, r = M - 1 - d := ⟨_, rfl⟩
  obtain ⟨k, hkk⟩ : ∃ k, k = N - 1 - d := ⟨_, rfl⟩
  rw [← hr, ← hkk]
  have a11 : A.at' r k ∈ A.foot := View.at_mem_foot (by omega) (by omega)
  have s01 : (A.sub 0 k r 1).foot ⊆ A.foot := View.sub_foot (by omega) (by omega)
  have s10 : (A.sub r 0 1 k).foot ⊆ A.foot := View.sub_foot (by omega) (by omega)
  have s00 : (A.sub 0 0 r k).foot ⊆ A.foot := View.sub_foot (by omega) (by omega)
  have z01 : (A.sub 0 k r 1).size = r := by simp [View.size]
  have z10 : (A.sub r 0 1 k).size = k := by simp [View.size]
  have hx : HoldsV m (A.sub 0 k r 1) (fun l => F (M - 1 - l) d) :=
    ((hA.part (by omega) (by omega)).toV_col).congr fun l _ => by rw [Nat.zero_add, Nat.add_zero, show N - 1 - k = d by omega]
  have wsub : ∀ r c nr nc, r + nr ≤ M → c + nc ≤ N → (A.sub r c nr nc).WF := fun r c nr nc h h' => wA.sub (by omega) (by omega)
  have na11 : A.at' r k ∉ (A.sub 0 k r 1).foot := by
    rw [View.mem_sub_foot wA (by omega) (by omega) (by omega) (by omega)]; omega
  have ne : A.at' r k ≠ tp := fun e => dt (e ▸ a11)
  have ha : m (A.at' r k) = some (F d d) := by
    rw [hA r k (by omega) (by omega)]
    beta_reduce
    rw [show M - 1 - r = d by omega, show N - 1 - k = d by omega]
  unfold house
  rw [if_pos rfl]
  refine Runs.bind (householder_spec false nonneg h0 h1 (Or.inr rfl) (wsub _ _ _ _ (by omega) (by omega)) hx ha ht
    na11 (fun h => dt (s01 h)) ne) ?_
  rintro m1 ⟨v, t, b, hv, hb, htt, F1, hcase⟩
  rw [z01] at hcase
  have F1' : Frame (A.foot ∪ {tp}) m m1 := F1.mono (by
    rintro p (h | h | h)
    · exact Or.inl (s01 h)
    · rw [h]; exact Or.inl a11
    · exact Or.inr h)
  have keep1 : ∀ i j, i < M → j < N → ¬ (j = k ∧ i ≤ r) → m1 (A.at' i j) = some (F (M - 1 - i) (N - 1 - j)) := by
    intro i j hi hj hne
    rw [F1, hA i j (by omega) (by omega)]
    rintro (h | h | h)
    · rw [View.mem_sub_foot wA (by omega) (by omega) (by omega) (by omega)] at h; omega
    · have := View.at_inj wA (by omega) (by omega) (by omega) (by omega) h; omega
    · exact dt (Set.mem_singleton_iff.mp h ▸ View.at_mem_foot (by omega) (by omega))
  have h10 : HoldsV m1 (A.sub r 0 1 k) (fun j => F d (N - 1 - j)) := by
    have : Holds m1 (A.sub r 0 1 k) (fun i j => F (M - 1 - (r + i)) (N - 1 - (0 + j))) := by
      intro i j hi hj
      rw [View.sub_rows] at hi
      rw [View.sub_cols] at hj
      rw [View.at_sub]
      exact keep1 _ _ (by omega) (by omega) (by omega)
    exact this.toV_row.congr fun l _ => by rw [Nat.zero_add, Nat.add_zero, show M - 1 - r = d by omega]
  have h00 : Holds m1 (A.sub 0 0 r k) (fun i j => F (M - 1 - i) (N - 1 - j)) := by
    intro i j hi hj
    rw [View.sub_rows] at hi
    rw [View.sub_cols] at hj
    rw [View.at_sub, Nat.zero_add, Nat.zero_add]
    exact keep1 _ _ (by omega) (by omega) (by omega)
  have hW1 : WAlloc m1 W N := hW.frame F1' (by
    rw [Set.disjoint_union_right]
    exact ⟨dW.symm, Set.disjoint_singleton_right.mpr dtW⟩)
  obtain ⟨w, hw⟩ := (hW1.le (n' := k) (by omega)).holds
  have csub : wcells W k ⊆ wcells W N := fun p hp => ⟨hp.1, lt_of_lt_of_le hp.2 (by omega)⟩
  have dAc : Disjoint A.foot (wcells W k) := dW.mono_right csub
  have ewf : (⟨W, k, k, 1⟩ : View).foot = wcells W k := work_foot _ _
  refine (applyHH_left_spec ab hmin (v := A.sub 0 k r 1) (a1 := A.sub r 0 1 k)
    (A2 := A.sub 0 0 r k) (w1 := ⟨W, k, k, 1⟩) (tau := tp)
    (by rw [View.sub_cols]; omega) (by rw [View.sub_rows]; omega) htt (Or.inr rfl) (Or.inl rfl) (Or.inr rfl) (Or.inr (le_refl 1))
    (wsub _ _ _ _ (by omega) (by omega)) (wsub _ _ _ _ (by omega) (by omega)) z01 z10 (by simp [View.size])
    hv h10 h00 hw (by rw [ewf]; exact dAc.mono_left s01)
    (View.sub_disj wA (by omega) (by omega) (by omega) (by omega) (by omega))
    (View.sub_disj wA (by omega) (by omega) (by omega) (by omega) (by omega))
    (by rw [ewf]; exact dAc.mono_left s10)
    (View.sub_disj wA (by omega) (by omega) (by omega) (by omega) (by omega))
    (by rw [ewf]; exact dAc.mono_left s00)).mono ?_
  rintro m2 ⟨g1, g2, ⟨w', hw'⟩, F2⟩
  rw [View.sub_rows] at g1 g2
  rw [ewf] at F2
  have rev : ∀ j, ∑ l ∈ range r, v l * F (M - 1 - l) j = ∑ l ∈ range (M - d - 1), v (r - 1 - l) * F (d + 1 + l) j := by
    intro j
    rw [show M - d - 1 = r by omega, ← sum_range_reflect]
    refine sum_congr rfl fun l hl => ?_
    have := mem_range.mp hl
    rw [show M - 1 - (r - 1 - l) = d + 1 + l by omega]
  refine ⟨qrNew M d F (fun l => v (r - 1 - l)) t b, t, ?_, ?_, ?_, ?_, qrNew_step hk ?_⟩
  · intro i j hi hj
    rw [hM] at hi
    rw [hN] at hj
    unfold qrNew
    beta_reduce
    have nw : A.at' i j ∉ wcells W k := Set.disjoint_left.mp dAc (View.at_mem_foot (by omega) (by omega))
    have out : ¬ (i ≤ r ∧ j < k) → m2 (A.at' i j) = m1 (A.at' i j) := by
      intro hne
      refine F2 _ ?_
      rintro ((h | h) | h)
      · rw [View.mem_sub_foot wA (by omega) (by omega) (by omega) (by omega)] at h; omega
      · rw [View.mem_sub_foot wA (by omega) (by omega) (by omega) (by omega)] at h; omega
      · exact nw h
    by_cases c1 : M - 1 - i < d ∨ N - 1 - j < d
    · rw [if_pos c1, out (by omega), keep1 i j hi hj (by omega)]
    · rw [if_neg c1]
      by_cases c2 : N - 1 - j = d
      · rw [if_pos c2, out (by omega)]
        have ej : j = k := by omega
        subst ej
        by_cases c3 : M - 1 - i = d
        · rw [if_pos c3, show i = r by omega]; exact hb
        · rw [if_neg c3]
          have := (holdsV_iff (Or.inr rfl)).mp hv i 0 (by rw [View.sub_rows]; omega) Nat.one_pos
          rw [View.at_sub, Nat.zero_add, Nat.add_zero] at this
          rw [this, show r - 1 - (M - 1 - i - d - 1) = i by omega]
          rfl
      · rw [if_neg c2]
        by_cases c3 : M - 1 - i = d
        · rw [if_pos c3]
          obtain rfl : i = r := by omega
          have := (holdsV_iff (Or.inl rfl)).mp g1 0 j Nat.one_pos (by rw [View.sub_cols]; omega)
          rw [View.at_sub] at this
          simp only [zero_add, add_zero] at this
          rw [this, rev]
        · rw [if_neg c3]
          have := g2 i j (by rw [View.sub_rows]; omega) (by rw [View.sub_cols]; omega)
          rw [View.at_sub, Nat.zero_add, Nat.zero_add] at this
          beta_reduce at this
          rw [this, rev, show r - 1 - (M - 1 - i - d - 1) = i by omega]
  · rw [F2, htt]
    rintro ((h | h) | h)
    · exact dt (s10 h)
    · exact dt (s00 h)
    · exact dtW (csub h)
  · intro p hp
    by_cases c : p < k
    · exact WAlloc.of_holds hw' p c
    · rw [F2]
      · exact hW1 p hp
      · have hin : W + p ∈ wcells W N := ⟨by omega, by omega⟩
        rintro ((h | h) | h)
        · exact Set.disjoint_left.mp dW (s10 h) hin
        · exact Set.disjoint_left.mp dW (s00 h) hin
        · have := h.2; omega
  · refine (F1'.mono Set.subset_union_left).trans (F2.mono ?_)
    rintro p ((h | h) | h)
    · exact Or.inl (Or.inl (s10 h))
    · exact Or.inl (Or.inl (s00 h))
    · exact Or.inr (csub h)
  · have er : ∀ l, l < r → F (M - 1 - (r - 1 - l)) d = F (d + 1 + l) d := fun l hl => by rw [show M - 1 - (r - 1 - l) = d + 1 + l by omega]
    have es : ∑ l ∈ range r, F (M - 1 - l) d ^ 2 = ∑ l ∈ range (M - d - 1), F (d + 1 + l) d ^ 2 := by
      rw [show M - d - 1 = r by omega, ← sum_range_reflect]
      exact sum_congr rfl fun l hl => by rw [er l (mem_range.mp hl)]
    rw [es] at hcase
    rcases hcase with ⟨c1, c2, c3, c4⟩ | ⟨c1, c2⟩
    · refine Or.inl ⟨c1, c2, c3, fun l hl => ?_⟩
      rw [c4]
      exact er l (by omega)
    · refine Or.inr ⟨c1, ?_⟩
      have := c2.rev
      rw [show M - d - 1 = r by omega]
      obtain ⟨g1, g2, g3, g4, g5, g6⟩ := this
      refine ⟨g1, ?_, fun l hl => ?_, ?_, g5, g6⟩
      · rw [← g2]
        exact congrArg _ (congrArg _ (sum_congr rfl fun l hl => by rw [er l (mem_range.mp hl)]))
      · rw [g3 l hl, er l hl]
      · rw [g4]
        exact congrArg _ (sum_congr rfl fun l hl => by rw [er l (mem_range.mp hl)])

theorem unblkQl_spec {safmin : ℝ} (nonneg : Bool) (h0 : 0 < safmin) (h1 : safmin < 1) (ab : ℝ → ℝ) {env : Env}
    (hmin : 2 ≤ env.blas2min ∨ (env.naive = true ∧ env.recursive = false)) {fuel : Nat} {m : Mem ℝ} {A tau : View} {W M N : Nat}
    {F0 : Nat → Nat → ℝ} {s : Nat → ℝ} (hM : A.rows = M) (hN : A.cols = N) (hf : N < fuel) (hf' : M < fuel) (wA : A.WF)
    (hA : Holds m A (fun i j => F0 (M - 1 - i) (N - 1 - j))) (hT : min M N ≤ tau.rows)
    (ht : ∀ k, k < min M N → m (tau.at' (tau.rows - 1 - k) 0) = some (s k)) (hW : WAlloc m W N)
    (dt : ∀ k, k < min M N → tau.at' (tau.rows - 1 - k) 0 ∉ A.foot)
    (dW : Disjoint A.foot (wcells W N)) (dtW : ∀ k, k < min M N → tau.at' (tau.rows - 1 - k) 0 ∉ wcells W N) :
    Runs (unblkQl safmin nonneg ab env fuel m A tau W) (fun m' => ∃ F t, Holds m' A (fun i j => F (M - 1 - i) (N - 1 - j)) ∧
      (∀ k, k < min M N → m' (tau.at' (tau.rows - 1 - k) 0) = some (t k)) ∧ WAlloc m' W N ∧
      Frame (A.foot ∪ {p | ∃ k, k < min M N ∧ p = tau.at' (tau.rows - 1 - k) 0} ∪ wcells W N) m m' ∧
      QrInv M N (min M N) F0 F t) := by
  unfold unblkQl
  rw [hM, hN]
  set K := min M N with hK
  set S : Set Nat := A.foot ∪ {p | ∃ k, k < K ∧ p = tau.at' (tau.rows - 1 - k) 0} ∪ wcells W N with hS
  refine Runs.bind (P := fun r => ∃ F t, Holds r.2 A (fun i j => F (M - 1 - i) (N - 1 - j)) ∧ (∀ k, k < K → r.2 (tau.at' (tau.rows - 1 - k) 0) = some (t k)) ∧
    WAlloc r.2 W N ∧ Frame S m r.2 ∧ QrInv M N K F0 F t) ?_ ?_
  · refine Runs.forUp1 (i := 0) (n := K) (I := fun k m' => ∃ F t, Holds m' A (fun i j => F (M - 1 - i) (N - 1 - j)) ∧
      (∀ k, k < K → m' (tau.at' (tau.rows - 1 - k) 0) = some (t k)) ∧ WAlloc m' W N ∧ Frame S m m' ∧
      QrInv M N k F0 F t) (Nat.zero_le _) ?_ ?_ (fun st h => h)
    · exact ⟨F0, s, hA, ht, hW, Frame.refl _ _, fun i j _ _ => by simp [qrProd, qrMid], fun l hl => by omega, fun l hl => by omega, fun l hl => by omega⟩
    · rintro k m1 - hk ⟨f, t, hA1, ht1, hW1, F1, hI⟩
      refine (unblkQlStep_spec nonneg h0 h1 ab hmin hM hN hf hf' wA (by omega) (by omega) hA1 (ht1 k hk) hW1 (dt k hk) dW (dtW k hk)).mono ?_
      rintro m2 ⟨f', tk, hA2, ht2, hW2, F2, hs⟩
      refine ⟨f', Function.update t k tk, hA2, ?_, hW2, F1.trans (F2.mono ?_), hI.step hs (by omega)⟩
      · intro l hl
        by_cases c : l = k
        · subst c; rw [Function.update_self]; exact ht2
        · rw [Function.update_of_ne c, F2]
          · exact ht1 l hl
          · rintro ((h | h) | h)
            · exact dt l hl h
            · have h := Set.mem_singleton_iff.mp h
              simp only [View.at', zero_mul, add_zero] at h
              omega
            · exact dtW l hl h
      · rintro p ((h | h) | h)
        · exact Or.inl (Or.inl h)
        · exact Or.inl (Or.inr ⟨k, hk, h⟩)
        · exact Or.inr h
  · rintro ⟨k, m1⟩ h
    exact Runs.pure h

end Armas
