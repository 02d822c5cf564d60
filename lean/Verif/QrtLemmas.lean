import Verif.Qrt
import Verif.QrFacLemmas

/-!
# Lemmas about `src/lapack/qrt.c`
-/

namespace Armas

open Finset

section ring

variable {α : Type} [CommRing α] [DecidableEq α]

/-- What the code does to column `k` of `T`; nothing is known about the column with `N = 2k + 1`. -/
structure QrtT (N k : Nat) (t : α) (τ τ' : Nat → Nat → α) : Prop where
  keep : ∀ i j, ¬ (j = k ∧ i < k) → τ' i j = τ i j
  col : N ≠ 2 * k + 1 → t ≠ 0 → ∀ i, i < k → τ' i k = ∑ q ∈ range k, trm true false τ i q * τ q k
  zero : t = 0 → τ' = τ

theorem qrtCol_spec (ab : α → α) {env : Env} (hmin : env.blas2min ≠ 1 ∨ env.naive = true) {fuel : Nat} {m : Mem α} {T A : View}
    {f τ : Nat → Nat → α} {k : Nat} (wT : T.WF) (hk : k < A.rows) (hk' : k < A.cols) (hTr : A.cols ≤ T.rows)
    (hTc : A.cols ≤ T.cols) (hfu : A.cols < fuel) (hfr : A.rows < fuel) (hT : Holds m T τ) (hA : Holds m A f) (dA : Disjoint A.foot T.foot) :
    Runs (qrtCol ab env fuel A T k m) (fun m' => ∃ τ', Holds m' T τ' ∧ QrtT A.cols k (τ k k) τ τ' ∧ Frame T.foot m m') := by
  unfold qrtCol
  refine Runs.rd_bind (hT k k (by omega) (by omega)) ?_
  beta_reduce
  by_cases h0 : τ k k = 0
  · rw [if_pos h0]
    exact Runs.pure ⟨τ, hT, ⟨fun _ _ _ => rfl, fun _ h => absurd h0 h, fun _ => rfl⟩, Frame.refl _ _⟩
  rw [if_neg h0]
  have s01 : (T.sub 0 k k 1).foot ⊆ T.foot := View.sub_foot (by omega) (by omega)
  have w01 : (T.sub 0 k k 1).WF := wT.sub (by omega) (by omega)
  have z01 : (T.sub 0 k k 1).size = k := by simp [View.size]
  have hc1 : HoldsV m (T.sub 0 k k 1) (fun l => τ l k) :=
    ((hT.part (r := 0) (c := k) (nr := k) (nc := 1) (by omega) (by omega)).colV rfl).congr fun l hl => by simp
  have dA01 : ∀ r c nr nc, r + nr ≤ A.rows → c + nc ≤ A.cols → Disjoint (A.sub r c nr nc).foot (T.sub 0 k k 1).foot :=
    fun r c nr nc h h' => dA.mono (View.sub_foot h h') s01
  -- the two calls that should set up `t01`
  have s2 : Runs (axpby m 0 (T.sub 0 k k 1) 1 (A.sub k (k + 1) 1 (A.cols - k - 1))) (fun r => ∃ g : Nat → α,
      (A.cols ≠ 2 * k + 1 → g = fun l => τ l k) ∧ HoldsV r.2 (T.sub 0 k k 1) g ∧ Frame (T.sub 0 k k 1).foot m r.2) := by
    by_cases c : A.cols = 2 * k + 1
    · have hr1 : HoldsV m (A.sub k (k + 1) 1 (A.cols - k - 1)) (fun l => f k (k + 1 + l)) := by
        rw [holdsV_iff (Or.inl rfl)]
        refine (hA.part (r := k) (c := k + 1) (nr := 1) (nc := A.cols - k - 1) (by omega) (by omega)).congr fun i j hi hj => ?_
        have : i = 0 := by rw [View.sub_rows] at hi; omega
        subst this
        simp
      refine (Props.C06_axpby 0 1 (Or.inl rfl) (Or.inr rfl) w01 (by simp [View.size]; omega) hr1 hc1
        (dA01 _ _ _ _ (by omega) (by omega))).mono ?_
      rintro r ⟨-, q1, q2⟩
      exact ⟨_, fun h => absurd c h, q1, q2⟩
    · unfold axpby
      rw [if_neg (by simp [View.isVec]), if_pos (by simp [View.size]; omega)]
      exact Runs.ok ⟨_, fun _ => rfl, hc1, Frame.refl _ _⟩
  refine s2.bind ?_
  rintro ⟨e2, m2⟩ ⟨g2, hg2, k2, F2⟩
  dsimp only at k2 F2 ⊢
  have hA2 : Holds m2 A f := hA.frame F2 (dA.mono_right s01)
  have s3 : Runs (mvmult ab env fuel m2 (-τ k k) (T.sub 0 k k 1) (-τ k k) (A.sub (k + 1) (k + 1) (A.rows - k - 1) (A.cols - k - 1))
      (A.sub (k + 1) k (A.rows - k - 1) 1) { transA := true }) (fun r => ∃ g : Nat → α, (A.cols ≠ 2 * k + 1 → g = g2) ∧
      HoldsV r.2 (T.sub 0 k k 1) g ∧ Frame (T.sub 0 k k 1).foot m2 r.2) := by
    by_cases c0 : (A.sub (k + 1) (k + 1) (A.rows - k - 1) (A.cols - k - 1)).size = 0 ∨ (A.sub (k + 1) k (A.rows - k - 1) 1).size = 0 ∨
        (T.sub 0 k k 1).size = 0
    · unfold mvmult
      rw [if_pos c0]
      exact Runs.ok ⟨_, fun _ => rfl, k2, Frame.refl _ _⟩
    by_cases c : A.cols = 2 * k + 1
    · refine (Props.C10_mvmult_partial ab hmin (-τ k k) (-τ k k) (fl := { transA := true }) rfl (fun h => c0 (Or.inl h))
        (by simp; omega) (Or.inr rfl) w01 (Or.inr rfl) (by simp [View.size]; omega) (by simp [View.size])
        k2 (hA2.part (by omega) (by omega)) ((hA2.part (by omega) (by omega)).colV rfl) (dA01 _ _ _ _ (by omega) (by omega))
        (dA01 _ _ _ _ (by omega) (by omega))).mono ?_
      rintro r ⟨-, q1, q2⟩
      exact ⟨_, fun h => absurd c h, q1, q2⟩
    · unfold mvmult
      rw [if_neg c0, if_neg (by simp [View.isVec]), if_pos (by simp [View.size]; omega)]
      exact Runs.ok ⟨_, fun _ => rfl, k2, Frame.refl _ _⟩
  refine s3.bind ?_
  rintro ⟨e3, m3⟩ ⟨g3, hg3, k3, F3⟩
  dsimp only at k3 F3 ⊢
  have F23 : Frame (T.sub 0 k k 1).foot m m3 := F2.trans F3
  have d00 : Disjoint (T.sub 0 0 k k).foot (T.sub 0 k k 1).foot := View.sub_disj wT (by omega) (by omega) (by omega) (by omega) (by omega)
  have hT3 : Holds m3 (T.sub 0 0 k k) τ := ((hT.part (r := 0) (c := 0) (nr := k) (nc := k) (by omega) (by omega)).frame F23 d00).congr
    fun i j hi hj => by simp
  refine Runs.bind (Props.C12_mvmult_trm_partial ab hmin 1 (fl := { upper := true }) rfl (Or.inr rfl) w01 (wT.sub (by omega) (by omega))
    (by simp [View.size]) (by simp [View.size]) (by omega) k3 (HoldsOn.of_holds hT3) (d00.mono_left (View.footOn_sub_foot _ _))) ?_
  rintro ⟨e4, m4⟩ ⟨-, k4, F4⟩
  dsimp only at k4 F4 ⊢
  have F24 : Frame (T.sub 0 k k 1).foot m m4 := F23.trans F4
  refine Runs.pure ⟨_, hT.put wT (F := ∅) (by simp) (by omega) (by omega) (k4.col rfl) (by simpa using F24), ⟨?_, ?_, ?_⟩, F24.mono s01⟩
  · intro i j h
    unfold Armas.put
    rw [if_neg (by omega)]
  · intro hN _ i hi
    unfold Armas.put
    rw [if_pos (by omega), z01, hg3 hN, hg2 hN]
    beta_reduce
    rw [one_mul]
    refine sum_congr rfl fun q _ => ?_
    simp
  · exact fun h => absurd h h0

end ring

/-- State after `k` steps of `unblk_qrtfactor`: `τ0` is the content of `T` on entry. -/
structure QrtSt (m : Mem ℝ) (A T : View) (W k : Nat) (f0 τ0 : Nat → Nat → ℝ) (f τ : Nat → Nat → ℝ) : Prop where
  hA : Holds m A f
  hT : Holds m T τ
  inv : QrInv A.rows A.cols k f0 f (fun l => τ l l)
  keep : ∀ i j, j < i ∨ k ≤ j → τ i j = τ0 i j
  col : ∀ l, l < k → A.cols ≠ 2 * l + 1 → ∀ i, i < l → τ i l = if τ l l = 0 then τ0 i l else ∑ q ∈ range l, trm true false τ i q * τ0 q l

theorem unblkQrtStep_spec {safmin : ℝ} (nonneg : Bool) (h0 : 0 < safmin) (h1 : safmin < 1) (ab : ℝ → ℝ) {env : Env}
    (hmin : 2 ≤ env.blas2min ∨ (env.naive = true ∧ env.recursive = false)) {fuel : Nat} {m : Mem ℝ} {A T : View} {W k : Nat}
    {f0 τ0 f τ : Nat → Nat → ℝ} (hf : A.cols < fuel) (hf' : A.rows < fuel) (wA : A.WF) (wT : T.WF) (hk : k < A.rows) (hk' : k < A.cols)
    (hTr : A.cols ≤ T.rows) (hTc : A.cols ≤ T.cols) (S : QrtSt m A T W k f0 τ0 f τ) (hW : WAlloc m W A.cols)
    (dA : Disjoint A.foot T.foot) (dW : Disjoint A.foot (wcells W A.cols)) (dT : Disjoint T.foot (wcells W A.cols)) :
    Runs (unblkQrtStep safmin nonneg ab env fuel A T W k m) (fun m' => ∃ f' τ', QrtSt m' A T W (k + 1) f0 τ0 f' τ' ∧
      WAlloc m' W A.cols ∧ Frame (A.foot ∪ T.foot ∪ wcells W A.cols) m m') := by
  have eT : (T.sub 0 k (k + 1) 1).at' k 0 = T.at' k k := by rw [View.at_sub]; simp
  have mT : T.at' k k ∈ T.foot := View.at_mem_foot (by omega) (by omega)
  unfold unblkQrtStep
  refine Runs.bind (unblkQrStep_spec nonneg h0 h1 ab hmin hf hf' wA hk hk' S.hA (tau := T.sub 0 k (k + 1) 1) (t0 := τ k k)
    (by rw [eT]; exact S.hT k k (by omega) (by omega)) hW (by rw [eT]; exact fun h => Set.disjoint_left.mp dA h mT) dW
    (by rw [eT]; exact Set.disjoint_left.mp dT mT)) ?_
  rw [eT]
  rintro m1 ⟨f', t, hA1, ht1, hW1, F1, hs⟩
  have hT1 : Holds m1 T (fun p q => if p = k ∧ q = k then t else τ p q) := by
    intro i j hi hj
    beta_reduce
    by_cases c : i = k ∧ j = k
    · rw [if_pos c, c.1, c.2, ht1]
    · rw [if_neg c, F1, S.hT i j hi hj]
      rintro ((h | h) | h)
      · exact Set.disjoint_left.mp dA h (View.at_mem_foot hi hj)
      · exact c (View.at_inj wT hi hj (by omega) (by omega) (Set.mem_singleton_iff.mp h))
      · exact Set.disjoint_left.mp dT (View.at_mem_foot hi hj) h
  refine (qrtCol_spec ab (by rcases hmin with h | h <;> [left; (right; exact h.1)]; omega) wT hk hk' hTr hTc hf hf' hT1 hA1 dA).mono ?_
  rintro m2 ⟨τ', hT2, hq, F2⟩
  have hkk : τ' k k = t := by rw [hq.keep k k (by omega), if_pos ⟨rfl, rfl⟩]
  have old : ∀ i j, j ≠ k → τ' i j = τ i j := fun i j h => by rw [hq.keep i j (by omega), if_neg (by omega)]
  have low : ∀ i, k < i → τ' i k = τ i k := fun i h => by rw [hq.keep i k (by omega), if_neg (by omega)]
  refine ⟨f', τ', ⟨hA1.frame F2 dA, hT2, (S.inv.step hs hk').tcongr fun l hl => ?_, ?_, ?_⟩, hW1.frame F2 dT.symm, ?_⟩
  · by_cases c : l = k
    · subst c; rw [Function.update_self, hkk]
    · rw [Function.update_of_ne c, old _ _ c]
  · intro i j h
    by_cases c : j = k
    · subst c
      rw [low i (by omega), S.keep i j (by omega)]
    · rw [old _ _ c, S.keep i j (by omega)]
  · intro l hl hN i hi
    by_cases c : l = k
    · subst c
      by_cases ct : t = 0
      · rw [hkk, if_pos ct, hq.zero (by simp [ct])]
        beta_reduce
        rw [if_neg (by omega), S.keep i l (by omega)]
      · rw [hkk, if_neg ct, hq.col hN (by simp [ct]) i hi]
        refine sum_congr rfl fun q hq' => ?_
        rw [mem_range] at hq'
        rw [if_neg (by omega), S.keep q l (by omega)]
        congr 1
        rw [trm_up, trm_up, if_neg (c := i = l ∧ q = l) (by omega), old i q (by omega)]
    · rw [old l l c, old i l c, S.col l (by omega) hN i hi]
      refine if_congr Iff.rfl rfl (sum_congr rfl fun q hq' => ?_)
      rw [mem_range] at hq'
      congr 1
      rw [trm_up, trm_up, old i q (by omega)]
  · refine (F1.mono ?_).trans (F2.mono ?_)
    · rintro p ((h | h) | h)
      · exact Or.inl (Or.inl h)
      · rw [Set.mem_singleton_iff.mp h]; exact Or.inl (Or.inr mT)
      · exact Or.inr h
    · exact fun p h => Or.inl (Or.inr h)

theorem unblkQrt_spec {safmin : ℝ} (nonneg : Bool) (h0 : 0 < safmin) (h1 : safmin < 1) (ab : ℝ → ℝ) {env : Env}
    (hmin : 2 ≤ env.blas2min ∨ (env.naive = true ∧ env.recursive = false)) {fuel : Nat} {m : Mem ℝ} {A T : View} {W : Nat}
    {f0 τ0 : Nat → Nat → ℝ} (hf : A.cols < fuel) (hf' : A.rows < fuel) (wA : A.WF) (wT : T.WF)
    (hTr : A.cols ≤ T.rows) (hTc : A.cols ≤ T.cols) (hA : Holds m A f0) (hT : Holds m T τ0) (hW : WAlloc m W A.cols)
    (dA : Disjoint A.foot T.foot) (dW : Disjoint A.foot (wcells W A.cols)) (dT : Disjoint T.foot (wcells W A.cols)) :
    Runs (unblkQrt safmin nonneg ab env fuel m A T W) (fun m' => ∃ f' τ', QrtSt m' A T W (min A.rows A.cols) f0 τ0 f' τ' ∧
      WAlloc m' W A.cols ∧ Frame (A.foot ∪ T.foot ∪ wcells W A.cols) m m') := by
  unfold unblkQrt
  set K := min A.rows A.cols with hK
  refine Runs.bind (P := fun r => ∃ f' τ', QrtSt r.2 A T W K f0 τ0 f' τ' ∧
      WAlloc r.2 W A.cols ∧ Frame (A.foot ∪ T.foot ∪ wcells W A.cols) m r.2) ?_ ?_
  · refine Runs.forUp1 (i := 0) (n := K) (I := fun k m' => ∃ f' τ', QrtSt m' A T W k f0 τ0 f' τ' ∧
      WAlloc m' W A.cols ∧ Frame (A.foot ∪ T.foot ∪ wcells W A.cols) m m') (Nat.zero_le _) ?_ ?_ (fun st h => h)
    · exact ⟨f0, τ0, ⟨hA, hT, ⟨fun i j _ _ => by simp [qrProd, qrMid], fun l hl => by omega, fun l hl => by omega, fun l hl => by omega⟩,
        fun _ _ _ => rfl, fun l hl => by omega⟩, hW, Frame.refl _ _⟩
    · rintro k m1 - hk ⟨f, τ, S, hW1, F1⟩
      refine (unblkQrtStep_spec nonneg h0 h1 ab hmin hf hf' wA wT (by omega) (by omega) hTr hTc S hW1 dA dW dT).mono ?_
      rintro m2 ⟨f', τ', S2, hW2, F2⟩
      exact ⟨f', τ', S2, hW2, F1.trans F2⟩
  · rintro ⟨k, m1⟩ h
    exact Runs.pure h

end Armas
