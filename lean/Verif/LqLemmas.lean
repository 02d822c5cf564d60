import Verif.QrFacLemmas
import Verif.Lq

/-!
# Lemmas on LQ factorization

The statements are about the transpose: `F i j` is the element `(j, i)` of the matrix in memory.
-/

namespace Armas

open Classical Finset

/-- Applying a reflector from the right. -/
theorem applyHH_right_spec (ab : ℝ → ℝ) {env : Env} (hmin : 2 ≤ env.blas2min ∨ (env.naive = true ∧ env.recursive = false))
    {fuel : Nat} {m : Mem ℝ} {v a1 A2 w1 : View} {tau : Nat} {t : ℝ} {f g w : Nat → ℝ} {a : Nat → Nat → ℝ}
    (hf' : A2.rows < fuel) (ht : m tau = some t)
    (vv : v.isVec) (v1 : a1.isVec) (vw : w1.isVec) (w1w : w1.WF) (a1w : a1.WF) (A2w : A2.WF)
    (sv : v.size = A2.cols) (s1 : a1.size = A2.rows) (sw : w1.size = A2.rows)
    (hv : HoldsV m v f) (h1 : HoldsV m a1 g) (hA : Holds m A2 a) (hw : HoldsV m w1 w)
    (dvw : Disjoint v.foot w1.foot) (dv1 : Disjoint v.foot a1.foot) (dvA : Disjoint v.foot A2.foot)
    (d1w : Disjoint a1.foot w1.foot) (d1A : Disjoint a1.foot A2.foot) (dAw : Disjoint A2.foot w1.foot) :
    Runs (applyHH2x1 ab env fuel m (some tau) v a1 A2 w1 false) (fun m' =>
      HoldsV m' a1 (fun j => g j - t * (g j + ∑ l ∈ range A2.cols, f l * a j l)) ∧
      Holds m' A2 (fun j i => a j i - f i * (t * (g j + ∑ l ∈ range A2.cols, f l * a j l))) ∧
      (∃ w', HoldsV m' w1 w') ∧ Frame (a1.foot ∪ A2.foot ∪ w1.foot) m m') := by
  unfold applyHH2x1
  refine Runs.rd_bind ht ?_
  beta_reduce
  by_cases h0 : t = 0
  · rw [if_pos h0]
    refine Runs.pure ⟨fun k hk => ?_, fun i j hi hj => ?_, ⟨w, hw⟩, Frame.refl _ _⟩
    · rw [h1 k hk, h0]; simp
    · rw [hA i j hi hj, h0]; simp
  rw [if_neg h0]
  refine Runs.bind (Props.C06_axpby 0 1 v1 vw w1w (by rw [s1, sw]) h1 hw d1w) ?_
  rintro ⟨e, m1⟩ ⟨-, k1, k2⟩
  dsimp only at k1 k2 ⊢
  have hmin' : env.blas2min ≠ 1 ∨ env.naive = true := by
    rcases hmin with h | h
    · left; omega
    · exact Or.inr h.1
  refine Runs.bind (mvmult_one (A := A2) (X := v) ab hmin' 1 rfl (by omega) vw w1w vv (by simp [sw]) (by simp [sv]) k1
    (hA.frame k2 dAw) (hv.frame vv k2 dvw) dAw dvw) ?_
  rintro ⟨e, m2⟩ ⟨k3, k4⟩
  dsimp only at k3 k4 ⊢
  refine Runs.bind (Props.C06_scale t vw w1w k3) ?_
  rintro ⟨e, m3⟩ ⟨-, k5, k6⟩
  dsimp only at k5 k6 ⊢
  have F3 : Frame w1.foot m m3 := (k2.trans k4).trans k6
  refine Runs.bind (Props.C06_axpy (-1) vw v1 a1w (by rw [s1, sw]) k5 (h1.frame v1 F3 d1w) d1w.symm) ?_
  rintro ⟨e, m4⟩ ⟨-, k7, k8⟩
  dsimp only at k7 k8
  have F4 : Frame (a1.foot ∪ w1.foot) m m4 :=
    (F3.mono Set.subset_union_right).trans (k8.mono Set.subset_union_left)
  rw [if_neg (by simp)]
  refine Runs.bind (Props.C11_mvupdate_partial hmin 1 (-1) hf' A2w vw vv sw sv
    (hA.frame F4 (Set.disjoint_union_right.mpr ⟨d1A.symm, dAw⟩))
    (k5.frame vw k8 d1w.symm)
    (hv.frame vv F4 (Set.disjoint_union_right.mpr ⟨dv1, dvw⟩)) dAw.symm dvA) ?_
  rintro ⟨e, m5⟩ ⟨-, k9, k10⟩
  dsimp only at k9 k10 ⊢
  have e1 : ∀ k, ∑ j ∈ range A2.cols, a k j * f j = ∑ j ∈ range A2.cols, f j * a k j := fun k =>
    sum_congr rfl fun j _ => mul_comm _ _
  refine Runs.pure ⟨?_, ?_, ⟨_, (k5.frame vw k8 d1w.symm).frame vw k10 dAw.symm⟩, ?_⟩
  · refine (k7.frame v1 k10 d1A).congr fun k _ => ?_
    rw [sv]
    simp only [Bool.false_eq_true, if_false, e1]
    ring
  · refine k9.congr fun i j _ _ => ?_
    rw [sv]
    simp only [Bool.false_eq_true, if_false, e1]
    ring
  · refine (F4.mono ?_).trans (k10.mono ?_)
    · intro p hp
      rcases hp with h | h
      · exact Or.inl (Or.inl h)
      · exact Or.inr h
    · intro p hp
      exact Or.inl (Or.inr hp)

theorem unblkLqStep_spec {safmin : ℝ} (nonneg : Bool) (h0 : 0 < safmin) (h1 : safmin < 1) (ab : ℝ → ℝ) {env : Env}
    (hmin : 2 ≤ env.blas2min ∨ (env.naive = true ∧ env.recursive = false)) {fuel : Nat} {m : Mem ℝ} {A tau : View} {W k : Nat}
    {f : Nat → Nat → ℝ} {t0 : ℝ} (hf : A.cols < fuel) (hf' : A.rows < fuel) (wA : A.WF) (hk : k < A.rows) (hk' : k < A.cols)
    (hA : Holds m A fun i j => f j i) (ht : m (tau.at' k 0) = some t0) (hW : WAlloc m W A.rows) (dt : tau.at' k 0 ∉ A.foot)
    (dW : Disjoint A.foot (wcells W A.rows)) (dtW : tau.at' k 0 ∉ wcells W A.rows) :
    Runs (unblkLqStep safmin nonneg ab env fuel A tau W k m) (fun m' => ∃ f' t, (Holds m' A fun i j => f' j i) ∧ m' (tau.at' k 0) = some t ∧
      WAlloc m' W A.rows ∧ Frame (A.foot ∪ {tau.at' k 0} ∪ wcells W A.rows) m m' ∧ QrStep A.cols A.rows k nonneg f f' t) := by
  unfold unblkLqStep
  dsimp only
  set M := A.cols with hM
  set N := A.rows with hN
  have a11 : A.at' k k ∈ A.foot := View.at_mem_foot hk hk'
  have s21 : (A.sub k (k + 1) 1 (M - k - 1)).foot ⊆ A.foot := View.sub_foot (by omega) (by omega)
  have s12 : (A.sub (k + 1) k (N - k - 1) 1).foot ⊆ A.foot := View.sub_foot (by omega) (by omega)
  have s22 : (A.sub (k + 1) (k + 1) (N - k - 1) (M - k - 1)).foot ⊆ A.foot := View.sub_foot (by omega) (by omega)
  have z21 : (A.sub k (k + 1) 1 (M - k - 1)).size = M - k - 1 := by simp [View.size]
  have z12 : (A.sub (k + 1) k (N - k - 1) 1).size = N - k - 1 := by simp [View.size]
  have hx : HoldsV m (A.sub k (k + 1) 1 (M - k - 1)) (fun l => f (k + 1 + l) k) :=
    ((hA.part (by omega) (by omega)).toV_row).congr fun l _ => rfl
  have wsub : ∀ r c nr nc, r + nr ≤ N → c + nc ≤ M → (A.sub r c nr nc).WF := fun r c nr nc h h' => wA.sub h h'
  have na11 : A.at' k k ∉ (A.sub k (k + 1) 1 (M - k - 1)).foot := by
    rw [View.mem_sub_foot wA (by omega) (by omega) hk hk']; omega
  have ne : A.at' k k ≠ tau.at' k 0 := fun e => dt (e ▸ a11)
  unfold house
  rw [if_pos rfl]
  refine Runs.bind (householder_spec false nonneg h0 h1 (Or.inl rfl) (wsub _ _ _ _ (by omega) (by omega)) hx (hA k k hk hk') ht
    na11 (fun h => dt (s21 h)) ne) ?_
  rintro m1 ⟨v, t, b, hv, hb, htt, F1, hcase⟩
  rw [z21] at hcase
  have F1' : Frame (A.foot ∪ {tau.at' k 0}) m m1 := F1.mono (by
    rintro p (h | h | h)
    · exact Or.inl (s21 h)
    · rw [h]; exact Or.inl a11
    · exact Or.inr h)
  have keep1 : ∀ i j, i < M → j < N → ¬ (j = k ∧ k ≤ i) → m1 (A.at' j i) = some (f i j) := by
    intro i j hi hj hne
    rw [F1, hA j i hj hi]
    rintro (h | h | h)
    · rw [View.mem_sub_foot wA (by omega) (by omega) hj hi] at h; omega
    · have := View.at_inj wA hj hi hk hk' h; omega
    · exact dt (Set.mem_singleton_iff.mp h ▸ View.at_mem_foot hj hi)
  have h12 : HoldsV m1 (A.sub (k + 1) k (N - k - 1) 1) (fun j => f k (k + 1 + j)) := by
    have : Holds m1 (A.sub (k + 1) k (N - k - 1) 1) (fun j i => f (k + i) (k + 1 + j)) := by
      intro i j hi hj
      rw [View.sub_rows] at hi
      rw [View.sub_cols] at hj
      rw [View.at_sub]
      exact keep1 _ _ (by omega) (by omega) (by omega)
    exact this.toV_col.congr fun l _ => rfl
  have h22 : Holds m1 (A.sub (k + 1) (k + 1) (N - k - 1) (M - k - 1)) (fun j i => f (k + 1 + i) (k + 1 + j)) := by
    intro i j hi hj
    rw [View.sub_rows] at hi
    rw [View.sub_cols] at hj
    rw [View.at_sub]
    exact keep1 _ _ (by omega) (by omega) (by omega)
  have hW1 : WAlloc m1 W N := hW.frame F1' (by
    rw [Set.disjoint_union_right]
    exact ⟨dW.symm, Set.disjoint_singleton_right.mpr dtW⟩)
  obtain ⟨w, hw⟩ := (hW1.le (n' := N - k - 1) (by omega)).holds
  have csub : wcells W (N - k - 1) ⊆ wcells W N := fun p hp => ⟨hp.1, lt_of_lt_of_le hp.2 (by omega)⟩
  have dAc : Disjoint A.foot (wcells W (N - k - 1)) := dW.mono_right csub
  have ewf : (⟨W, N - k - 1, N - k - 1, 1⟩ : View).foot = wcells W (N - k - 1) := work_foot _ _
  refine (applyHH_right_spec ab hmin (v := A.sub k (k + 1) 1 (M - k - 1)) (a1 := A.sub (k + 1) k (N - k - 1) 1)
    (A2 := A.sub (k + 1) (k + 1) (N - k - 1) (M - k - 1)) (w1 := ⟨W, N - k - 1, N - k - 1, 1⟩) (tau := tau.at' k 0)
    (by rw [View.sub_rows]; omega) htt (Or.inl rfl) (Or.inr rfl) (Or.inr rfl) (Or.inr (le_refl 1))
    (wsub _ _ _ _ (by omega) (by omega)) (wsub _ _ _ _ (by omega) (by omega)) z21 z12 (by simp [View.size])
    hv h12 h22 hw (by rw [ewf]; exact dAc.mono_left s21)
    (View.sub_disj wA (by omega) (by omega) (by omega) (by omega) (by omega))
    (View.sub_disj wA (by omega) (by omega) (by omega) (by omega) (by omega))
    (by rw [ewf]; exact dAc.mono_left s12)
    (View.sub_disj wA (by omega) (by omega) (by omega) (by omega) (by omega))
    (by rw [ewf]; exact dAc.mono_left s22)).mono ?_
  rintro m2 ⟨g1, g2, ⟨w', hw'⟩, F2⟩
  rw [View.sub_cols] at g1 g2
  rw [ewf] at F2
  refine ⟨fun i j => if i < k ∨ j < k then f i j else if j = k then (if i = k then b else v (i - k - 1)) else
    if i = k then f k j - t * (f k j + ∑ l ∈ range (M - k - 1), v l * f (k + 1 + l) j) else
    f i j - v (i - k - 1) * (t * (f k j + ∑ l ∈ range (M - k - 1), v l * f (k + 1 + l) j)), t, ?_, ?_, ?_, ?_, ?_⟩
  · intro j i hj hi
    beta_reduce
    have nw : A.at' j i ∉ wcells W (N - k - 1) := Set.disjoint_left.mp dAc (View.at_mem_foot hj hi)
    have out : ¬ (k ≤ i ∧ k < j) → m2 (A.at' j i) = m1 (A.at' j i) := by
      intro hne
      refine F2 _ ?_
      rintro ((h | h) | h)
      · rw [View.mem_sub_foot wA (by omega) (by omega) hj hi] at h; omega
      · rw [View.mem_sub_foot wA (by omega) (by omega) hj hi] at h; omega
      · exact nw h
    by_cases c1 : i < k ∨ j < k
    · rw [if_pos c1, out (by omega), keep1 i j hi hj (by omega)]
    · rw [if_neg c1]
      by_cases c2 : j = k
      · rw [if_pos c2, out (by omega)]
        subst c2
        by_cases c3 : i = j
        · rw [if_pos c3, c3]; exact hb
        · rw [if_neg c3]
          have := (holdsV_iff (Or.inl rfl)).mp hv 0 (i - j - 1) Nat.one_pos (by rw [View.sub_cols]; omega)
          rw [View.at_sub, show j + 1 + (i - j - 1) = i by omega] at this
          simpa using this
      · rw [if_neg c2]
        by_cases c3 : i = k
        · subst c3
          rw [if_pos rfl]
          have := (holdsV_iff (Or.inr rfl)).mp g1 (j - i - 1) 0 (by rw [View.sub_rows]; omega) Nat.one_pos
          rw [View.at_sub] at this
          simp only [zero_add, add_zero] at this
          rw [show i + 1 + (j - i - 1) = j by omega] at this
          exact this
        · rw [if_neg c3]
          have := g2 (j - k - 1) (i - k - 1) (by rw [View.sub_rows]; omega) (by rw [View.sub_cols]; omega)
          rw [View.at_sub] at this
          beta_reduce at this
          rw [show k + 1 + (j - k - 1) = j by omega, show k + 1 + (i - k - 1) = i by omega] at this
          exact this
  · rw [F2, htt]
    rintro ((h | h) | h)
    · exact dt (s12 h)
    · exact dt (s22 h)
    · exact dtW (csub h)
  · intro p hp
    by_cases c : p < N - k - 1
    · exact WAlloc.of_holds hw' p c
    · rw [F2]
      · exact hW1 p hp
      · have hin : W + p ∈ wcells W N := ⟨by omega, by omega⟩
        rintro ((h | h) | h)
        · exact Set.disjoint_left.mp dW (s12 h) hin
        · exact Set.disjoint_left.mp dW (s22 h) hin
        · have := h.2; omega
  · refine (F1'.mono Set.subset_union_left).trans (F2.mono ?_)
    rintro p ((h | h) | h)
    · exact Or.inl (Or.inl (s12 h))
    · exact Or.inl (Or.inl (s22 h))
    · exact Or.inr (csub h)
  · -- algebra
    set f' : Nat → Nat → ℝ := fun i j => if i < k ∨ j < k then f i j else if j = k then (if i = k then b else v (i - k - 1)) else
      if i = k then f k j - t * (f k j + ∑ l ∈ range (M - k - 1), v l * f (k + 1 + l) j) else
      f i j - v (i - k - 1) * (t * (f k j + ∑ l ∈ range (M - k - 1), v l * f (k + 1 + l) j)) with hf'd
    have fv : ∀ l, f' (k + 1 + l) k = v l := by
      intro l
      simp only [hf'd]
      rw [if_neg (by omega), if_pos trivial, if_neg (by omega), show k + 1 + l - k - 1 = l by omega]
    have fb : f' k k = b := by simp [hf'd]
    have sw : ∀ u : Nat → ℝ, ∑ l ∈ range M, qrw f' k l * u l = u k + ∑ l ∈ range (M - k - 1), v l * u (k + 1 + l) := by
      intro u
      rw [sum_qrw f' u hk']
      simp only [fv]
    have wk : ∀ i, k < i → qrw f' k i = v (i - k - 1) := by
      intro i hi
      rw [qrw, if_neg (by omega), if_neg (by omega)]
      have := fv (i - k - 1)
      rwa [show k + 1 + (i - k - 1) = i by omega] at this
    have wk0 : qrw f' k k = 1 := by simp [qrw]
    have wlt : ∀ i, i < k → qrw f' k i = 0 := fun i hi => by rw [qrw, if_pos hi]
    have sq : ∑ l ∈ range M, qrw f' k l ^ 2 = 1 + ∑ l ∈ range (M - k - 1), v l ^ 2 := by
      rw [sum_congr rfl fun l _ => pow_two (qrw f' k l), sw (qrw f' k), wk0]
      congr 1
      refine sum_congr rfl fun l _ => ?_
      rw [wk _ (by omega), show k + 1 + l - k - 1 = l by omega, pow_two]
    refine ⟨?_, ?_, ?_, ?_, ?_, ?_⟩
    · intro i j _ _ h
      simp only [hf'd]
      rw [if_pos h]
    · rcases hcase with ⟨_, ht0, _⟩ | ⟨_, hI⟩
      · exact Or.inl ht0
      · right; rw [sq]; exact hI.norm
    · intro i j hi hkj hj
      unfold refl
      rw [sw fun l => f l j]
      by_cases c1 : i < k
      · rw [wlt i c1, if_neg (by omega)]
        simp only [hf'd]
        rw [if_pos (Or.inl c1)]
        ring
      by_cases c2 : j = k
      · subst c2
        rcases hcase with ⟨hS, ht0, hba, hvx⟩ | ⟨_, hI⟩
        · rw [ht0]
          by_cases c3 : i = j
          · rw [c3, if_neg (by omega), fb, hba]; ring
          · rw [if_pos (by omega)]
            have := (sum_eq_zero_iff_of_nonneg (fun l _ => sq_nonneg (f (j + 1 + l) j))).mp hS (i - j - 1) (mem_range.mpr (by omega))
            rw [show j + 1 + (i - j - 1) = i by omega] at this
            rw [pow_eq_zero_iff (two_ne_zero)] at this
            rw [this]; ring
        · have hf1 := hI.first
          simp only [hhSigma] at hf1
          by_cases c3 : i = j
          · subst c3
            rw [if_neg (by omega), fb, wk0, mul_one, hf1]
            simp
          · rw [if_pos (by omega), wk i (by omega)]
            have := hI.rest (i - j - 1) (by omega)
            rw [show j + 1 + (i - j - 1) = i by omega] at this
            simp only [hhSigma] at this
            linear_combination -v (i - j - 1) * hf1 - this
      · rw [if_neg (by omega)]
        simp only [hf'd]
        rw [if_neg (by omega), if_neg c2]
        by_cases c3 : i = k
        · subst c3
          rw [if_pos rfl, wk0, mul_one]
        · rw [if_neg c3, wk i (by omega)]
          ring
    · intro hn hex
      rw [fb]
      rcases hcase with ⟨hS, _⟩ | ⟨_, hI⟩
      · obtain ⟨i, hi, hi', hne⟩ := hex
        have := (sum_eq_zero_iff_of_nonneg (fun l _ => sq_nonneg (f (k + 1 + l) k))).mp hS (i - k - 1) (mem_range.mpr (by omega))
        rw [show k + 1 + (i - k - 1) = i by omega] at this
        rw [pow_eq_zero_iff (two_ne_zero)] at this
        exact absurd this hne
      · exact hI.sign hn
    · intro hM
      rcases hcase with ⟨_, h⟩ | ⟨h, _⟩
      · exact h.1
      · simp [show M - k - 1 = 0 by omega] at h
    · intro h0 i hi hi'
      rcases hcase with ⟨hS, _, _, hvx⟩ | ⟨_, hI⟩
      · have e := fv (i - k - 1)
        rw [show k + 1 + (i - k - 1) = i by omega] at e
        have := (sum_eq_zero_iff_of_nonneg (fun l _ => sq_nonneg (f (k + 1 + l) k))).mp hS (i - k - 1) (mem_range.mpr (by omega))
        rw [pow_eq_zero_iff (two_ne_zero)] at this
        rw [e, hvx]; exact this
      · have := hI.norm
        rw [h0, zero_mul] at this
        norm_num at this

theorem unblkLq_spec {safmin : ℝ} (nonneg : Bool) (h0 : 0 < safmin) (h1 : safmin < 1) (ab : ℝ → ℝ) {env : Env}
    (hmin : 2 ≤ env.blas2min ∨ (env.naive = true ∧ env.recursive = false)) {fuel : Nat} {m : Mem ℝ} {A tau : View} {W : Nat}
    {f0 : Nat → Nat → ℝ} {s : Nat → ℝ} (hf : A.cols < fuel) (hf' : A.rows < fuel) (wA : A.WF)
    (hA : Holds m A fun i j => f0 j i) (ht : ∀ k, k < min A.rows A.cols → m (tau.at' k 0) = some (s k)) (hW : WAlloc m W A.rows)
    (dt : ∀ k, k < min A.rows A.cols → tau.at' k 0 ∉ A.foot)
    (dW : Disjoint A.foot (wcells W A.rows)) (dtW : ∀ k, k < min A.rows A.cols → tau.at' k 0 ∉ wcells W A.rows) :
    Runs (unblkLq safmin nonneg ab env fuel m A tau W) (fun m' => ∃ f t, (Holds m' A fun i j => f j i) ∧
      (∀ k, k < min A.rows A.cols → m' (tau.at' k 0) = some (t k)) ∧ WAlloc m' W A.rows ∧
      Frame (A.foot ∪ {p | ∃ k, k < min A.rows A.cols ∧ p = tau.at' k 0} ∪ wcells W A.rows) m m' ∧
      QrInv A.cols A.rows (min A.rows A.cols) f0 f t) := by
  unfold unblkLq
  set K := min A.rows A.cols with hK
  refine Runs.bind (P := fun r => ∃ f t, (Holds r.2 A fun i j => f j i) ∧ (∀ k, k < K → r.2 (tau.at' k 0) = some (t k)) ∧ WAlloc r.2 W A.rows ∧
      Frame (A.foot ∪ {p | ∃ k, k < K ∧ p = tau.at' k 0} ∪ wcells W A.rows) m r.2 ∧ QrInv A.cols A.rows K f0 f t) ?_ ?_
  · refine Runs.forUp1 (i := 0) (n := K) (I := fun k m' => ∃ f t, (Holds m' A fun i j => f j i) ∧ (∀ k, k < K → m' (tau.at' k 0) = some (t k)) ∧
      WAlloc m' W A.rows ∧ Frame (A.foot ∪ {p | ∃ k, k < K ∧ p = tau.at' k 0} ∪ wcells W A.rows) m m' ∧
      QrInv A.cols A.rows k f0 f t) (Nat.zero_le _) ?_ ?_ (fun st h => h)
    · exact ⟨f0, s, hA, ht, hW, Frame.refl _ _, fun i j _ _ => by simp [qrProd, qrMid], fun l hl => by omega, fun l hl => by omega, fun l hl => by omega⟩
    · rintro k m1 - hk ⟨f, t, hA1, ht1, hW1, F1, hI⟩
      refine (unblkLqStep_spec nonneg h0 h1 ab hmin hf hf' wA (by omega) (by omega) hA1 (ht1 k hk) hW1 (dt k hk) dW (dtW k hk)).mono ?_
      rintro m2 ⟨f', tk, hA2, ht2, hW2, F2, hs⟩
      refine ⟨f', Function.update t k tk, hA2, ?_, hW2, F1.trans (F2.mono ?_), hI.step hs (by omega)⟩
      · intro l hl
        by_cases c : l = k
        · subst c; rw [Function.update_self]; exact ht2
        · rw [Function.update_of_ne c, F2]
          · exact ht1 l hl
          · rintro ((h | h) | h)
            · exact dt l hl h
            · have h := Set.mem_singleton_iff.mp h
              simp only [View.at', zero_mul, add_zero] at h
              omega
            · exact dtW l hl h
      · rintro p ((h | h) | h)
        · exact Or.inl (Or.inl h)
        · exact Or.inl (Or.inr ⟨k, hk, h⟩)
        · exact Or.inr h
  · rintro ⟨k, m1⟩ h
    exact Runs.pure h

end Armas
