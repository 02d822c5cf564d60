import Verif.RqBuild
import Verif.RqMultLemmas
import Verif.QlBuildLemmas
import Verif.LqBuildLemmas

/-!
# Lemmas for C122
-/

namespace Armas

open Finset

variable {α : Type} [Field α] [DecidableEq α]

omit [Field α] [DecidableEq α] in
theorem HoldsV.row {m : Mem α} {V : View} {y : Nat → α} (hc : V.rows = 1) (h : HoldsV m V y) : Holds m V (fun _ j => y j) := by
  rw [holdsV_iff (Or.inl hc)] at h
  refine h.congr (fun i j hi _ => ?_)
  have : i = 0 := by omega
  subst this
  beta_reduce
  rw [Nat.zero_add]

theorem unblkRqbuildStep_spec (ab : α → α) {env : Env} (hmin : 2 ≤ env.blas2min ∨ (env.naive = true ∧ env.recursive = false))
    {fuel : Nat} {m : Mem α} {A tau : View} {w ws r c : Nat} {x : Nat → Nat → α} {t : Nat → α}
    (H : LbArgs m A tau w ws t) (hc : c < A.rows) (hr : r = A.cols - A.rows + c) (hws : c ≤ ws) (hf : A.cols < fuel) (hA : Holds m A fun i j => x j i) :
    Runs (unblkRqbuildStep ab env fuel A tau w c r m) (fun m' => Holds m' A (fun i j => qlbStep A.cols A.rows c t x j i) ∧ LbArgs m' A tau w ws t ∧
      Frame (A.foot ∪ wcells w ws) m m') := by
  have H' := H
  obtain ⟨wf, sh, len, ht, hW, dA, dW⟩ := H
  have dAt : Disjoint A.foot (tcells tau A.rows) := dA.mono_right fun p hp => Or.inl hp
  have dAw : Disjoint A.foot (wcells w ws) := dA.mono_right fun p hp => Or.inr hp
  unfold unblkRqbuildStep
  dsimp only
  set C := A.sub 0 0 c (r + 1) with hCd
  set B := A.sub c 0 1 (r + 1) with hBd
  have et : ∀ l, l < 1 → (tau.sub c 0 1 1).at' l 0 = tau.at' c 0 := by
    intro l hl
    rw [View.at_sub, show c + l = c by omega]
  have st : tcells (tau.sub c 0 1 1) B.rows ⊆ tcells tau A.rows := by
    rintro p ⟨l, hl, rfl⟩
    exact ⟨c, hc, et l (by simpa [hBd] using hl)⟩
  have sB : B.foot ⊆ A.foot := View.sub_foot (by omega) (by omega)
  have sC : C.foot ⊆ A.foot := View.sub_foot (by omega) (by omega)
  have Q : LqmArgs m true C B (tau.sub c 0 1 1) w ws (fun i j => x i (c + j)) (fun _ => t c) := by
    refine ⟨wf.sub (by omega) (by omega), rfl, by simp only [hBd, View.sub_rows, View.sub_cols]; omega, ?_, ?_, hW, ?_, ?_⟩
    · refine Holds.congr (hA.part (by omega) (by omega)) fun i j _ _ => by rw [Nat.zero_add]
    · intro l hl
      simp only [hBd, View.sub_rows] at hl
      rw [et l hl]
      exact ht c hc
    · rw [Set.disjoint_union_right, Set.disjoint_union_right]
      refine ⟨⟨?_, dAt.mono sC st⟩, dAw.mono_left sC⟩
      exact View.sub_disj wf (by omega) (by omega) (by omega) (by omega) (by omega)
    · rw [Set.disjoint_union_right]
      exact ⟨dAw.symm.mono_right sB, dW.mono_right st⟩
  have hC : HoldsR true m C x := by
    refine Holds.congr (hA.part (r := 0) (c := 0) (nr := c) (nc := r + 1) (by omega) (by omega)) fun i j _ _ => ?_
    rw [Nat.zero_add, Nat.zero_add]; rfl
  have e : applyHH2x1 ab env fuel m (some (tau.at' c 0)) (A.sub c 0 1 r) (A.sub 0 r c 1) (A.sub 0 0 c r) ⟨w, c, c, 1⟩ false =
      rqmStep ab env fuel true C B (tau.sub c 0 1 1) w 0 m := by
    unfold rqmStep
    rw [et 0 (by omega)]
    simp only [hCd, hBd, rsub, rwid, if_true, View.sub_sub, View.sub_rows, View.sub_cols, Nat.zero_add, Nat.add_zero, Bool.not_true,
      Nat.add_sub_cancel]
  rw [e]
  refine (rqmStep_spec ab hmin Q (by simpa [rwid, hCd] using hws) (by simp only [hBd, View.sub_cols]; omega)
    (by simp only [rwid, hCd, if_true, View.sub_rows]; omega) (by simp only [hBd, View.sub_rows]; omega) hC).bind ?_
  rintro m1 ⟨q1, Q1, F1⟩
  have q1' : Holds m1 C (fun i j => refl (r + 1) (t c) (qlw (r + 1) 1 (fun i j => x i (c + j)) 0) x j i) := q1
  have h1 := hA.put wf dAw (r := 0) (c := 0) (nr := c) (nc := r + 1) (by omega) (by omega) q1' F1
  have ht1 : m1 (tau.at' c 0) = some (t c) := by
    have := Q1.ht 0 (by simp only [hBd, View.sub_rows]; omega)
    rwa [et 0 (by omega)] at this
  refine Runs.rd_bind ht1 ?_
  beta_reduce
  have w01 : (A.sub c 0 1 r).WF := wf.sub (by omega) (by omega)
  refine (Props.C06_scale (-(t c)) (Or.inl rfl) w01 (Holds.toV_row (h1.part (by omega) (by omega)))).bind ?_
  rintro ⟨er, m2⟩ ⟨-, k2, F2⟩
  dsimp only at k2 F2 ⊢
  have h2 := h1.put wf (Set.disjoint_empty _) (r := c) (c := 0) (nr := 1) (nc := r) (by omega) (by omega) (HoldsV.row rfl k2)
    (F2.mono fun p hp => Or.inl hp)
  refine Runs.wr_bind (h2 c r hc (by omega)) ?_
  have h3 := h2.cell wf (i := c) (j := r) hc (by omega) (1 - t c)
  have F3 : Frame A.foot m2 (m2.set (A.at' c r) (1 - t c)) := Frame.set (View.at_mem_foot hc (show r < A.cols by omega)) _
  have w21 : (A.sub c (r + 1) 1 (A.cols - r - 1)).WF := wf.sub (by omega) (by omega)
  refine (Props.C06_scale 0 (Or.inl rfl) w21 (Holds.toV_row (h3.part (by omega) (by omega)))).bind ?_
  rintro ⟨er, m4⟩ ⟨-, k4, F4⟩
  dsimp only at k4 F4 ⊢
  have h4 := h3.put wf (Set.disjoint_empty _) (r := c) (c := r + 1) (nr := 1) (nc := A.cols - r - 1) (by omega) (by omega) (HoldsV.row rfl k4)
    (F4.mono fun p hp => Or.inl hp)
  have FF : Frame A.foot m1 m4 := ((F2.mono (View.sub_foot (by omega) (by omega))).trans F3).trans (F4.mono (View.sub_foot (by omega) (by omega)))
  have F : Frame (A.foot ∪ wcells w ws) m m4 := (F1.mono (Set.union_subset_union_left _ sC)).trans (FF.mono fun p hp => Or.inl hp)
  refine Runs.pure ⟨h4.congr fun j i hj hi => ?_, H'.frame F ?_ ?_, F⟩
  · have es : ∑ l ∈ range A.cols, qlw A.cols A.rows x c l * idq A.cols A.rows l c = 1 := by
      rw [sum_idq _ hc sh, qlw, if_neg (by omega), if_pos rfl]
    have ed : refl A.cols (t c) (qlw A.cols A.rows x c) (idq A.cols A.rows) i c = idq A.cols A.rows i c - t c * qlw A.cols A.rows x c i := by
      unfold refl; rw [es, mul_one]
    unfold put qlbStep
    beta_reduce
    by_cases c1 : c < j
    · rw [if_neg (show ¬ (c ≤ j ∧ j < c + 1 ∧ r + 1 ≤ i ∧ i < r + 1 + (A.cols - r - 1)) by omega), if_neg (show ¬ (j = c ∧ i = r) by omega),
        if_neg (show ¬ (c ≤ j ∧ j < c + 1 ∧ 0 ≤ i ∧ i < 0 + r) by omega), if_neg (show ¬ (0 ≤ j ∧ j < 0 + c ∧ 0 ≤ i ∧ i < 0 + (r + 1)) by omega), if_pos c1]
    rw [if_neg c1]
    by_cases c2 : j = c
    · rw [if_pos c2]
      subst c2
      rw [ed]
      by_cases c3 : r < i
      · rw [if_pos (show (j ≤ j ∧ j < j + 1 ∧ r + 1 ≤ i ∧ i < r + 1 + (A.cols - r - 1)) by omega), zero_mul, qlw, if_pos (by omega), mul_zero, idq,
          if_neg (by omega), sub_zero]
      · rw [if_neg (show ¬ (j ≤ j ∧ j < j + 1 ∧ r + 1 ≤ i ∧ i < r + 1 + (A.cols - r - 1)) by omega)]
        by_cases c4 : i = r
        · rw [if_pos ⟨rfl, c4⟩, idq, if_pos (by omega), qlw, if_neg (by omega), if_pos (by omega), mul_one]
        · rw [if_neg (show ¬ (j = j ∧ i = r) by omega), if_pos (show (j ≤ j ∧ j < j + 1 ∧ 0 ≤ i ∧ i < 0 + r) by omega), if_neg (by omega), idq,
            if_neg (by omega), qlw, if_neg (by omega), if_neg (by omega), Nat.add_zero, show 0 + (i - 0) = i by omega]
          ring
    · rw [if_neg (show ¬ (c ≤ j ∧ j < c + 1 ∧ r + 1 ≤ i ∧ i < r + 1 + (A.cols - r - 1)) by omega), if_neg (show ¬ (j = c ∧ i = r) by omega),
        if_neg (show ¬ (c ≤ j ∧ j < c + 1 ∧ 0 ≤ i ∧ i < 0 + r) by omega), if_neg c2]
      by_cases c3 : i < r + 1
      · rw [if_pos (show (0 ≤ j ∧ j < 0 + c ∧ 0 ≤ i ∧ i < 0 + (r + 1)) by omega), Nat.sub_zero, Nat.sub_zero]
        unfold refl
        rw [sum_qlw _ (fun l => x l j) (by omega) (by omega), sum_qlw _ (fun l => x l j) hc sh, ← hr, show r + 1 - 1 + 0 = r by omega]
        have eq : qlw (r + 1) 1 (fun i j => x i (c + j)) 0 i = qlw A.cols A.rows x c i := by
          unfold qlw
          rw [← hr, show r + 1 - 1 + 0 = r by omega]
          rfl
        rw [eq, Nat.add_zero]
      · rw [if_neg (show ¬ (0 ≤ j ∧ j < 0 + c ∧ 0 ≤ i ∧ i < 0 + (r + 1)) by omega)]
        unfold refl
        rw [show qlw A.cols A.rows x c i = 0 by rw [qlw, if_pos (by omega)]]
        ring
  · exact Set.disjoint_union_right.mpr ⟨dAt.symm, dW.symm⟩
  · exact Q1.hW.frame FF dAw.symm

theorem rqClear_spec {m : Mem α} {A : View} {K : Nat} {f : Nat → Nat → α} (wf : A.WF) (sh : A.rows ≤ A.cols) (hK : K ≤ A.rows)
    (hA : Holds m A fun i j => f j i) :
    Runs (rqClear m A (A.rows - K) (A.cols - K)) (fun m' => Holds m' A (fun j i => if A.rows - K ≤ j then f i j else idq A.cols A.rows i j) ∧
      Frame A.foot m m') := by
  unfold rqClear
  obtain ⟨s, hs⟩ : ∃ s, A.cols - A.rows = s := ⟨_, rfl⟩
  rw [show A.cols - (A.cols - K) = K by omega, show A.cols - K - (A.rows - K) = s by omega, show A.cols - K - s = A.rows - K by omega]
  have s1 : (A.sub 0 (A.cols - K) (A.rows - K) K).foot ⊆ A.foot := View.sub_foot (by omega) (by omega)
  have s2 : (A.sub 0 0 (A.rows - K) (A.cols - K)).foot ⊆ A.foot := View.sub_foot (by omega) (by omega)
  refine ((Props.C51_mscale_all (alpha := 0) (unit := false) (wf.sub (by omega) (by omega)) (hA.part (by omega) (by omega))).1).bind ?_
  rintro ⟨e, m1⟩ ⟨-, k1, F1⟩
  dsimp only at k1 F1 ⊢
  have h1 := hA.put wf (Set.disjoint_empty _) (r := 0) (c := 0) (nr := A.rows - K) (nc := A.cols - K) (by omega) (by omega) k1 (F1.mono fun p hp => Or.inl hp)
  refine ((Props.C51_mscale_all (alpha := 0) (unit := false) (wf.sub (by omega) (by omega)) (h1.part (by omega) (by omega))).1).bind ?_
  rintro ⟨e, m2⟩ ⟨-, k2, F2⟩
  dsimp only at k2 F2 ⊢
  have h2 := h1.put wf (Set.disjoint_empty _) (r := 0) (c := A.cols - K) (nr := A.rows - K) (nc := K) (by omega) (by omega) k2 (F2.mono fun p hp => Or.inl hp)
  set B := A.sub 0 s (A.rows - K) (A.rows - K) with hB
  have eB : ∀ i, (diagRow B).at' 0 i = A.at' i (s + i) := fun i => by rw [diagRow_at, hB, View.at_sub, Nat.zero_add]
  have cD : (diagRow B).cols = A.rows - K := by
    simp only [diagRow, hB, View.sub_rows, View.sub_cols]; omega
  have k2' : Holds m2 (diagRow B) (fun _ _ => 0) := by
    intro i j hi hj
    have : i = 0 := by have : i < 1 := hi; omega
    subst this
    rw [cD] at hj
    rw [eB, h2 j (s + j) (by omega) (by omega), put]
    beta_reduce
    rw [if_neg (by omega), put, if_pos (by omega), zero_mul]
  have wD : (diagRow B).WF := Or.inl (by simp [diagRow])
  refine ((Props.C51_madd_all (alpha := 1) (unit := false) wD k2').1).bind ?_
  rintro ⟨e, m3⟩ ⟨-, k3, F3⟩
  dsimp only at k3 F3 ⊢
  have sD : (diagRow B).foot ⊆ A.foot := by
    rintro p ⟨i, j, hi, hj, rfl⟩
    have : i = 0 := by have : i < 1 := hi; omega
    subst this
    rw [cD] at hj
    rw [eB]
    exact View.at_mem_foot (by omega) (by omega)
  refine Runs.pure ⟨fun j i hj hi => ?_, ((F1.mono s2).trans (F2.mono s1)).trans (F3.mono sD)⟩
  by_cases c1 : j < A.rows - K ∧ i = s + j
  · obtain ⟨c1, rfl⟩ := c1
    have := k3 0 j (by simp [diagRow]) (by rw [cD]; omega)
    rw [eB] at this
    rw [this]
    beta_reduce
    rw [if_neg (by omega), idq, if_pos (by omega), zero_add]
  · rw [F3 _ ?_, h2 j i hj hi]
    · unfold put
      beta_reduce
      by_cases c2 : A.rows - K ≤ j
      · rw [if_neg (by omega), if_neg (by omega), if_pos c2]
      · rw [if_neg c2, show (idq A.cols A.rows i j : α) = 0 from if_neg (by omega)]
        by_cases c3 : A.cols - K ≤ i
        · rw [if_pos (by omega), zero_mul]
        · rw [if_neg (by omega), if_pos (by omega), zero_mul]
    · rintro ⟨p, q, hp, hq, e⟩
      have : p = 0 := by have : p < 1 := hp; omega
      subst this
      rw [cD] at hq
      rw [eB] at e
      obtain ⟨e1, e2⟩ := View.at_inj wf hj hi (by omega) (by omega) e
      omega

theorem unblkRqbuild_spec (ab : α → α) {env : Env} (hmin : 2 ≤ env.blas2min ∨ (env.naive = true ∧ env.recursive = false))
    {fuel : Nat} {m : Mem α} {A tau : View} {w ws K : Nat} {f : Nat → Nat → α} {t : Nat → α}
    (H : LbArgs m A tau w ws t) (hK : K ≤ A.rows) (hws : A.rows ≤ ws) (hf : A.cols < fuel) (hA : Holds m A fun i j => f j i) :
    Runs (unblkRqbuild ab env fuel m A tau w K) (fun m' => Holds m' A (fun i j => qlProd A.cols A.rows K t f (idq A.cols A.rows) j i) ∧ LbArgs m' A tau w ws t ∧
      Frame (A.foot ∪ wcells w ws) m m') := by
  unfold unblkRqbuild
  have sh := H.sh
  have dAt : Disjoint A.foot (tcells tau A.rows) := H.dA.mono_right fun p hp => Or.inl hp
  have dAw : Disjoint A.foot (wcells w ws) := H.dA.mono_right fun p hp => Or.inr hp
  have fin : ∀ x : Nat → Nat → α, (∀ i j, i < A.cols → j < A.rows - K → x i j = idq A.cols A.rows i j) → ∀ i j, i < A.cols → j < A.rows →
      qlProd A.cols A.rows (A.rows - (A.rows - K)) t f (fun i j => if A.rows - K ≤ j then idq A.cols A.rows i j else x i j) i j =
      qlProd A.cols A.rows K t f (idq A.cols A.rows) i j := by
    intro x hx i j hi hj
    rw [show A.rows - (A.rows - K) = K by omega]
    refine qlProd_col _ (fun i hi => ?_) i hi
    by_cases c : A.rows - K ≤ j
    · rw [if_pos c]
    · rw [if_neg c, hx i j hi (by omega)]
  refine Runs.bind (P := fun m1 => (∃ x : Nat → Nat → α, Holds m1 A (fun i j => x j i) ∧ QlbInv A.cols A.rows K (A.rows - K) t f x) ∧ Frame A.foot m m1) ?_ ?_
  · by_cases c : 0 < A.rows - K
    · rw [if_pos c]
      refine (rqClear_spec H.wf sh hK hA).mono ?_
      rintro m1 ⟨h1, F1⟩
      exact ⟨⟨fun i j => if A.rows - K ≤ j then f i j else idq A.cols A.rows i j, h1, fun i j _ hj _ => by rw [if_pos hj], fin _ fun i j _ h => by rw [if_neg (by omega)]⟩, F1⟩
    · rw [if_neg c]
      exact Runs.pure ⟨⟨f, hA, fun _ _ _ _ _ => rfl, fin _ fun i j _ h => by omega⟩, Frame.refl _ _⟩
  · rintro m1 ⟨⟨x, h1, hI⟩, F1⟩
    refine Runs.bind (P := fun r => Holds r.2 A (fun i j => qlProd A.cols A.rows K t f (idq A.cols A.rows) j i) ∧ LbArgs r.2 A tau w ws t ∧
      Frame (A.foot ∪ wcells w ws) m r.2) ?_ ?_
    · refine Runs.forUp1 (i := 0) (n := K) (I := fun d m' => ∃ y : Nat → Nat → α, Holds m' A (fun i j => y j i) ∧ QlbInv A.cols A.rows K (A.rows - K + d) t f y ∧ LbArgs m' A tau w ws t ∧
        Frame (A.foot ∪ wcells w ws) m m') (Nat.zero_le _) ⟨x, h1, hI, H.frame F1 dAt.symm (H.hW.frame F1 dAw.symm), F1.mono fun p hp => Or.inl hp⟩ ?_ ?_
      · rintro d m2 - hd ⟨y, k1, k2, k3, k4⟩
        refine (unblkRqbuildStep_spec ab hmin k3 (by omega) (by omega) (by omega) hf k1).mono ?_
        rintro m3 ⟨q1, q2, q3⟩
        exact ⟨_, q1, k2.step (by omega) sh, q2, k4.trans q3⟩
      · rintro m2 ⟨y, k1, k2, k3, k4⟩
        refine ⟨Holds.congr k1 fun j i hj hi => ?_, k3, k4⟩
        have := k2.prod i j hi hj
        rw [show A.rows - (A.rows - K + K) = 0 by omega, qlProd, if_neg (by omega)] at this
        exact this
    · rintro ⟨k, m'⟩ h
      exact Runs.pure h

end Armas
