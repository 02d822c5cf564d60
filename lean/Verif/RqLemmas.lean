import Verif.Rq
import Verif.QlLemmas
import Verif.LqLemmas

/-!
# Lemmas on RQ factorization
-/

namespace Armas

open Classical Finset

theorem unblkRqStep_spec {safmin : ℝ} (nonneg : Bool) (h0 : 0 < safmin) (h1 : safmin < 1) (ab : ℝ → ℝ) {env : Env}
    (hmin : 2 ≤ env.blas2min ∨ (env.naive = true ∧ env.recursive = false)) {fuel : Nat} {m : Mem ℝ} {A tau : View} {W d M N : Nat}
    {F : Nat → Nat → ℝ} {t0 : ℝ} (hM : A.cols = M) (hN : A.rows = N) (hf : N < fuel) (hf' : M < fuel) (wA : A.WF) (hk : d < M) (hk' : d < N)
    (hA : Holds m A (fun i j => F (M - 1 - j) (N - 1 - i))) (ht : m (tau.at' (tau.rows - 1 - d) 0) = some t0) (hW : WAlloc m W N)
    (dt : tau.at' (tau.rows - 1 - d) 0 ∉ A.foot)
    (dW : Disjoint A.foot (wcells W N)) (dtW : tau.at' (tau.rows - 1 - d) 0 ∉ wcells W N) :
    Runs (unblkRqStep safmin nonneg ab env fuel A tau W d m) (fun m' => ∃ F' t, Holds m' A (fun i j => F' (M - 1 - j) (N - 1 - i)) ∧
      m' (tau.at' (tau.rows - 1 - d) 0) = some t ∧
      WAlloc m' W N ∧ Frame (A.foot ∪ {tau.at' (tau.rows - 1 - d) 0} ∪ wcells W N) m m' ∧ QrStep M N d nonneg F F' t) := by
  unfold unblkRqStep
  dsimp only
  rw [hM, hN]
  set tp := tau.at' (tau.rows - 1 - d) 0
  obtain ⟨r, hr⟩ : ∃ r, r = M - 1 - d := ⟨_, rfl⟩
  obtain ⟨k, hkk⟩ : ∃ k, k = N - 1 - d := ⟨_, rfl⟩
  rw [← hr, ← hkk]
  have a11 : A.at' k r ∈ A.foot := View.at_mem_foot (by omega) (by omega)
  have s01 : (A.sub k 0 1 r).foot ⊆ A.foot := View.sub_foot (by omega) (by omega)
  have s10 : (A.sub 0 r k 1).foot ⊆ A.foot := View.sub_foot (by omega) (by omega)
  have s00 : (A.sub 0 0 k r).foot ⊆ A.foot := View.sub_foot (by omega) (by omega)
  have z01 : (A.sub k 0 1 r).size = r := by simp [View.size]
  have z10 : (A.sub 0 r k 1).size = k := by simp [View.size]
  have hx : HoldsV m (A.sub k 0 1 r) (fun l => F (M - 1 - l) d) :=
    ((hA.part (by omega) (by omega)).toV_row).congr fun l _ => by rw [Nat.zero_add, Nat.add_zero, show N - 1 - k = d by omega]
  have wsub : ∀ r c nr nc, r + nr ≤ N → c + nc ≤ M → (A.sub r c nr nc).WF := fun r c nr nc h h' => wA.sub (by omega) (by omega)
  have na11 : A.at' k r ∉ (A.sub k 0 1 r).foot := by
    rw [View.mem_sub_foot wA (by omega) (by omega) (by omega) (by omega)]; omega
  have ne : A.at' k r ≠ tp := fun e => dt (e ▸ a11)
  have ha : m (A.at' k r) = some (F d d) := by
    rw [hA k r (by omega) (by omega)]
    beta_reduce
    rw [show M - 1 - r = d by omega, show N - 1 - k = d by omega]
  unfold house
  rw [if_pos rfl]
  refine Runs.bind (householder_spec false nonneg h0 h1 (Or.inl rfl) (wsub _ _ _ _ (by omega) (by omega)) hx ha ht
    na11 (fun h => dt (s01 h)) ne) ?_
  rintro m1 ⟨v, t, b, hv, hb, htt, F1, hcase⟩
  rw [z01] at hcase
  have F1' : Frame (A.foot ∪ {tp}) m m1 := F1.mono (by
    rintro p (h | h | h)
    · exact Or.inl (s01 h)
    · rw [h]; exact Or.inl a11
    · exact Or.inr h)
  have keep1 : ∀ i j, i < M → j < N → ¬ (j = k ∧ i ≤ r) → m1 (A.at' j i) = some (F (M - 1 - i) (N - 1 - j)) := by
    intro i j hi hj hne
    rw [F1, hA j i (by omega) (by omega)]
    rintro (h | h | h)
    · rw [View.mem_sub_foot wA (by omega) (by omega) (by omega) (by omega)] at h; omega
    · have := View.at_inj wA (by omega) (by omega) (by omega) (by omega) h; omega
    · exact dt (Set.mem_singleton_iff.mp h ▸ View.at_mem_foot (by omega) (by omega))
  have h10 : HoldsV m1 (A.sub 0 r k 1) (fun j => F d (N - 1 - j)) := by
    have : Holds m1 (A.sub 0 r k 1) (fun i j => F (M - 1 - (r + j)) (N - 1 - (0 + i))) := by
      intro i j hi hj
      rw [View.sub_rows] at hi
      rw [View.sub_cols] at hj
      rw [View.at_sub]
      exact keep1 _ _ (by omega) (by omega) (by omega)
    exact this.toV_col.congr fun l _ => by rw [Nat.zero_add, Nat.add_zero, show M - 1 - r = d by omega]
  have h00 : Holds m1 (A.sub 0 0 k r) (fun i j => F (M - 1 - j) (N - 1 - i)) := by
    intro i j hi hj
    rw [View.sub_rows] at hi
    rw [View.sub_cols] at hj
    rw [View.at_sub, Nat.zero_add, Nat.zero_add]
    exact keep1 _ _ (by omega) (by omega) (by omega)
  have hW1 : WAlloc m1 W N := hW.frame F1' (by
    rw [Set.disjoint_union_right]
    exact ⟨dW.symm, Set.disjoint_singleton_right.mpr dtW⟩)
  obtain ⟨w, hw⟩ := (hW1.le (n' := k) (by omega)).holds
  have csub : wcells W k ⊆ wcells W N := fun p hp => ⟨hp.1, lt_of_lt_of_le hp.2 (by omega)⟩
  have dAc : Disjoint A.foot (wcells W k) := dW.mono_right csub
  have ewf : (⟨W, k, k, 1⟩ : View).foot = wcells W k := work_foot _ _
  refine (applyHH_right_spec ab hmin (v := A.sub k 0 1 r) (a1 := A.sub 0 r k 1)
    (A2 := A.sub 0 0 k r) (w1 := ⟨W, k, k, 1⟩) (tau := tp)
    (by rw [View.sub_rows]; omega) htt (Or.inl rfl) (Or.inr rfl) (Or.inr rfl) (Or.inr (le_refl 1))
    (wsub _ _ _ _ (by omega) (by omega)) (wsub _ _ _ _ (by omega) (by omega)) z01 z10 (by simp [View.size])
    hv h10 h00 hw (by rw [ewf]; exact dAc.mono_left s01)
    (View.sub_disj wA (by omega) (by omega) (by omega) (by omega) (by omega))
    (View.sub_disj wA (by omega) (by omega) (by omega) (by omega) (by omega))
    (by rw [ewf]; exact dAc.mono_left s10)
    (View.sub_disj wA (by omega) (by omega) (by omega) (by omega) (by omega))
    (by rw [ewf]; exact dAc.mono_left s00)).mono ?_
  rintro m2 ⟨g1, g2, ⟨w', hw'⟩, F2⟩
  rw [View.sub_cols] at g1 g2
  rw [ewf] at F2
  have rev : ∀ j, ∑ l ∈ range r, v l * F (M - 1 - l) j = ∑ l ∈ range (M - d - 1), v (r - 1 - l) * F (d + 1 + l) j := by
    intro j
    rw [show M - d - 1 = r by omega, ← sum_range_reflect]
    refine sum_congr rfl fun l hl => ?_
    have := mem_range.mp hl
    rw [show M - 1 - (r - 1 - l) = d + 1 + l by omega]
  refine ⟨qrNew M d F (fun l => v (r - 1 - l)) t b, t, ?_, ?_, ?_, ?_, qrNew_step hk ?_⟩
  · intro j i hj hi
    rw [hM] at hi
    rw [hN] at hj
    unfold qrNew
    beta_reduce
    have nw : A.at' j i ∉ wcells W k := Set.disjoint_left.mp dAc (View.at_mem_foot (by omega) (by omega))
    have out : ¬ (i ≤ r ∧ j < k) → m2 (A.at' j i) = m1 (A.at' j i) := by
      intro hne
      refine F2 _ ?_
      rintro ((h | h) | h)
      · rw [View.mem_sub_foot wA (by omega) (by omega) (by omega) (by omega)] at h; omega
      · rw [View.mem_sub_foot wA (by omega) (by omega) (by omega) (by omega)] at h; omega
      · exact nw h
    by_cases c1 : M - 1 - i < d ∨ N - 1 - j < d
    · rw [if_pos c1, out (by omega), keep1 i j hi hj (by omega)]
    · rw [if_neg c1]
      by_cases c2 : N - 1 - j = d
      · rw [if_pos c2, out (by omega)]
        have ej : j = k := by omega
        subst ej
        by_cases c3 : M - 1 - i = d
        · rw [if_pos c3, show i = r by omega]; exact hb
        · rw [if_neg c3]
          have := (holdsV_iff (Or.inl rfl)).mp hv 0 i Nat.one_pos (by rw [View.sub_cols]; omega)
          rw [View.at_sub, Nat.zero_add, Nat.add_zero] at this
          rw [this, show r - 1 - (M - 1 - i - d - 1) = i by omega]
          beta_reduce
          rw [Nat.zero_add]
      · rw [if_neg c2]
        by_cases c3 : M - 1 - i = d
        · rw [if_pos c3]
          obtain rfl : i = r := by omega
          have := (holdsV_iff (Or.inr rfl)).mp g1 j 0 (by rw [View.sub_rows]; omega) Nat.one_pos
          rw [View.at_sub] at this
          simp only [zero_add, add_zero] at this
          rw [this, rev]
        · rw [if_neg c3]
          have := g2 j i (by rw [View.sub_rows]; omega) (by rw [View.sub_cols]; omega)
          rw [View.at_sub, Nat.zero_add, Nat.zero_add] at this
          beta_reduce at this
          rw [this, rev, show r - 1 - (M - 1 - i - d - 1) = i by omega]
  · rw [F2, htt]
    rintro ((h | h) | h)
    · exact dt (s10 h)
    · exact dt (s00 h)
    · exact dtW (csub h)
  · intro p hp
    by_cases c : p < k
    · exact WAlloc.of_holds hw' p c
    · rw [F2]
      · exact hW1 p hp
      · have hin : W + p ∈ wcells W N := ⟨by omega, by omega⟩
        rintro ((h | h) | h)
        · exact Set.disjoint_left.mp dW (s10 h) hin
        · exact Set.disjoint_left.mp dW (s00 h) hin
        · have := h.2; omega
  · refine (F1'.mono Set.subset_union_left).trans (F2.mono ?_)
    rintro p ((h | h) | h)
    · exact Or.inl (Or.inl (s10 h))
    · exact Or.inl (Or.inl (s00 h))
    · exact Or.inr (csub h)
  · have er : ∀ l, l < r → F (M - 1 - (r - 1 - l)) d = F (d + 1 + l) d := fun l hl => by rw [show M - 1 - (r - 1 - l) = d + 1 + l by omega]
    have es : ∑ l ∈ range r, F (M - 1 - l) d ^ 2 = ∑ l ∈ range (M - d - 1), F (d + 1 + l) d ^ 2 := by
      rw [show M - d - 1 = r by omega, ← sum_range_reflect]
      exact sum_congr rfl fun l hl => by rw [er l (mem_range.mp hl)]
    rw [es] at hcase
    rcases hcase with ⟨c1, c2, c3, c4⟩ | ⟨c1, c2⟩
    · refine Or.inl ⟨c1, c2, c3, fun l hl => ?_⟩
      rw [c4]
      exact er l (by omega)
    · refine Or.inr ⟨c1, ?_⟩
      have := c2.rev
      rw [show M - d - 1 = r by omega]
      obtain ⟨g1, g2, g3, g4, g5, g6⟩ := this
      refine ⟨g1, ?_, fun l hl => ?_, ?_, g5, g6⟩
      · rw [← g2]
        exact congrArg _ (congrArg _ (sum_congr rfl fun l hl => by rw [er l (mem_range.mp hl)]))
      · rw [g3 l hl, er l hl]
      · rw [g4]
        exact congrArg _ (sum_congr rfl fun l hl => by rw [er l (mem_range.mp hl)])

theorem unblkRq_spec {safmin : ℝ} (nonneg : Bool) (h0 : 0 < safmin) (h1 : safmin < 1) (ab : ℝ → ℝ) {env : Env}
    (hmin : 2 ≤ env.blas2min ∨ (env.naive = true ∧ env.recursive = false)) {fuel : Nat} {m : Mem ℝ} {A tau : View} {W M N : Nat}
    {F0 : Nat → Nat → ℝ} {s : Nat → ℝ} (hM : A.cols = M) (hN : A.rows = N) (hf : N < fuel) (hf' : M < fuel) (wA : A.WF)
    (hA : Holds m A (fun i j => F0 (M - 1 - j) (N - 1 - i))) (hT : min M N ≤ tau.rows)
    (ht : ∀ k, k < min M N → m (tau.at' (tau.rows - 1 - k) 0) = some (s k)) (hW : WAlloc m W N)
    (dt : ∀ k, k < min M N → tau.at' (tau.rows - 1 - k) 0 ∉ A.foot)
    (dW : Disjoint A.foot (wcells W N)) (dtW : ∀ k, k < min M N → tau.at' (tau.rows - 1 - k) 0 ∉ wcells W N) :
    Runs (unblkRq safmin nonneg ab env fuel m A tau W) (fun m' => ∃ F t, Holds m' A (fun i j => F (M - 1 - j) (N - 1 - i)) ∧
      (∀ k, k < min M N → m' (tau.at' (tau.rows - 1 - k) 0) = some (t k)) ∧ WAlloc m' W N ∧
      Frame (A.foot ∪ {p | ∃ k, k < min M N ∧ p = tau.at' (tau.rows - 1 - k) 0} ∪ wcells W N) m m' ∧
      QrInv M N (min M N) F0 F t) := by
  unfold unblkRq
  rw [hM, hN, Nat.min_comm]
  set K := min M N with hK
  set S : Set Nat := A.foot ∪ {p | ∃ k, k < K ∧ p = tau.at' (tau.rows - 1 - k) 0} ∪ wcells W N with hS
  refine Runs.bind (P := fun r => ∃ F t, Holds r.2 A (fun i j => F (M - 1 - j) (N - 1 - i)) ∧ (∀ k, k < K → r.2 (tau.at' (tau.rows - 1 - k) 0) = some (t k)) ∧
    WAlloc r.2 W N ∧ Frame S m r.2 ∧ QrInv M N K F0 F t) ?_ ?_
  · refine Runs.forUp1 (i := 0) (n := K) (I := fun k m' => ∃ F t, Holds m' A (fun i j => F (M - 1 - j) (N - 1 - i)) ∧
      (∀ k, k < K → m' (tau.at' (tau.rows - 1 - k) 0) = some (t k)) ∧ WAlloc m' W N ∧ Frame S m m' ∧
      QrInv M N k F0 F t) (Nat.zero_le _) ?_ ?_ (fun st h => h)
    · exact ⟨F0, s, hA, ht, hW, Frame.refl _ _, fun i j _ _ => by simp [qrProd, qrMid], fun l hl => by omega, fun l hl => by omega, fun l hl => by omega⟩
    · rintro k m1 - hk ⟨f, t, hA1, ht1, hW1, F1, hI⟩
      refine (unblkRqStep_spec nonneg h0 h1 ab hmin hM hN hf hf' wA (by omega) (by omega) hA1 (ht1 k hk) hW1 (dt k hk) dW (dtW k hk)).mono ?_
      rintro m2 ⟨f', tk, hA2, ht2, hW2, F2, hs⟩
      refine ⟨f', Function.update t k tk, hA2, ?_, hW2, F1.trans (F2.mono ?_), hI.step hs (by omega)⟩
      · intro l hl
        by_cases c : l = k
        · subst c; rw [Function.update_self]; exact ht2
        · rw [Function.update_of_ne c, F2]
          · exact ht1 l hl
          · rintro ((h | h) | h)
            · exact dt l hl h
            · have h := Set.mem_singleton_iff.mp h
              simp only [View.at', zero_mul, add_zero] at h
              omega
            · exact dtW l hl h
      · rintro p ((h | h) | h)
        · exact Or.inl (Or.inl h)
        · exact Or.inl (Or.inr ⟨k, hk, h⟩)
        · exact Or.inr h
  · rintro ⟨k, m1⟩ h
    exact Runs.pure h

end Armas
