import Verif.QrMultLemmas
import Verif.QrBuild
import Verif.Props.MatOps

/-!
# Lemmas on the construction of the orthogonal matrix of a QR factorization
-/

namespace Armas

open Finset

variable {α : Type} [Field α] [DecidableEq α]

/-- The identity matrix. -/
def idm (i j : Nat) : α := if i = j then 1 else 0

/-! ### One column -/

/-- Arguments of the construction. -/
structure QbArgs (m : Mem α) (A tau : View) (w ws : Nat) (t : Nat → α) : Prop where
  wf : A.WF
  sh : A.cols ≤ A.rows
  len : tau.rows = A.cols
  ht : ∀ k, k < A.cols → m (tau.at' k 0) = some (t k)
  hW : WAlloc m w ws
  dA : Disjoint A.foot (tcells tau A.cols ∪ wcells w ws)
  dW : Disjoint (wcells w ws) (tcells tau A.cols)

theorem QbArgs.frame {m m' : Mem α} {A tau : View} {w ws : Nat} {t : Nat → α} (H : QbArgs m A tau w ws t) {S : Set Nat} (F : Frame S m m')
    (hS : Disjoint (tcells tau A.cols) S) (hW : WAlloc m' w ws) : QbArgs m' A tau w ws t := by
  obtain ⟨wf, sh, len, ht, -, dA, dW⟩ := H
  refine ⟨wf, sh, len, fun k hk => ?_, hW, dA, dW⟩
  rw [F _ (Set.disjoint_left.mp hS ⟨k, hk, rfl⟩)]
  exact ht k hk

/-- The matrix after column `k` was visited. -/
def qbStep (M k : Nat) (t : Nat → α) (x : Nat → Nat → α) (i j : Nat) : α :=
  if j < k then x i j else if j = k then refl M (t k) (qrw x k) idm i j else refl M (t k) (qrw x k) x i j

theorem sum_idm {M : Nat} (g : Nat → α) {j : Nat} (hj : j < M) : ∑ l ∈ range M, g l * (idm l j : α) = g j := by
  rw [Finset.sum_eq_single j]
  · simp [idm]
  · intro b _ hb; simp [idm, hb]
  · intro h; exact absurd (mem_range.mpr hj) h

theorem unblkQrbuildStep_spec (ab : α → α) {env : Env} (hmin : 2 ≤ env.blas2min ∨ (env.naive = true ∧ env.recursive = false))
    {fuel : Nat} {m : Mem α} {A tau : View} {w ws k : Nat} {x : Nat → Nat → α} {t : Nat → α}
    (H : QbArgs m A tau w ws t) (hk : k < A.cols) (hws : A.cols - k - 1 ≤ ws) (hf : A.rows < fuel) (hA : Holds m A x) :
    Runs (unblkQrbuildStep ab env fuel A tau w k m) (fun m' => Holds m' A (qbStep A.rows k t x) ∧ QbArgs m' A tau w ws t ∧
      Frame (A.foot ∪ wcells w ws) m m') := by
  have H' := H
  obtain ⟨wf, sh, len, ht, hW, dA, dW⟩ := H
  have dAt : Disjoint A.foot (tcells tau A.cols) := dA.mono_right fun p hp => Or.inl hp
  have dAw : Disjoint A.foot (wcells w ws) := dA.mono_right fun p hp => Or.inr hp
  unfold unblkQrbuildStep
  rw [len, Nat.sub_self, Nat.zero_add]
  dsimp only
  set C := A.sub 0 (k + 1) A.rows (A.cols - k - 1) with hCd
  set B := A.sub 0 0 A.rows (k + 1) with hBd
  have st : tcells tau B.cols ⊆ tcells tau A.cols := by
    rintro p ⟨l, hl, rfl⟩
    exact ⟨l, by simp only [hBd, View.sub_cols] at hl; omega, rfl⟩
  have sB : B.foot ⊆ A.foot := View.sub_foot (by omega) (by omega)
  have sC : C.foot ⊆ A.foot := View.sub_foot (by omega) (by omega)
  have Q : QrmArgs m false C B tau w ws x t := by
    refine ⟨wf.sub (by omega) (by omega), rfl, by simp only [hBd, View.sub_rows, View.sub_cols]; omega, ?_, ?_, hW, ?_, ?_⟩
    · refine (hA.part (by omega) (by omega)).congr fun i j _ _ => by rw [Nat.zero_add, Nat.zero_add]
    · intro l hl
      simp only [hBd, View.sub_cols] at hl
      exact ht l (by omega)
    · rw [Set.disjoint_union_right, Set.disjoint_union_right]
      refine ⟨⟨?_, dAt.mono sC st⟩, dAw.mono_left sC⟩
      exact (View.sub_disj wf (by omega) (by omega) (by omega) (by omega) (by omega)).symm
    · rw [Set.disjoint_union_right]
      exact ⟨dAw.symm.mono_right sB, dW.mono_right st⟩
  have hC : HoldsR false m C (fun i j => x i (k + 1 + j)) := by
    refine Holds.congr (hA.part (r := 0) (c := k + 1) (nr := A.rows) (nc := A.cols - k - 1) (by omega) (by omega)) fun i j _ _ => ?_
    rw [Nat.zero_add]; rfl
  have e : applyHH2x1 ab env fuel m (some (tau.at' k 0)) (A.sub (k + 1) k (A.rows - k - 1) 1) (A.sub k (k + 1) 1 (A.cols - k - 1))
      (A.sub (k + 1) (k + 1) (A.rows - k - 1) (A.cols - k - 1)) ⟨w, A.cols - k - 1, A.cols - k - 1, 1⟩ true =
      qrmStep ab env fuel false C B tau w k m := by
    unfold qrmStep
    simp only [hCd, hBd, rsub, rlen, rwid, Bool.false_eq_true, if_false, View.sub_sub, View.sub_rows, View.sub_cols, Nat.zero_add, Nat.add_zero, Bool.not_false]
  rw [e]
  refine (qrmStep_spec ab hmin Q (by simpa [rwid, hCd] using hws) (by simpa [hBd] using hf) (by simp only [rwid, hCd, Bool.false_eq_true, if_false, View.sub_cols]; omega)
    (by simp only [hBd, View.sub_cols]; omega) hC).bind ?_
  rintro m1 ⟨q1, Q1, F1⟩
  have q1' : Holds m1 C (refl A.rows (t k) (qrw x k) (fun i j => x i (k + 1 + j))) := q1
  have h1 := hA.put wf dAw (r := 0) (c := k + 1) (nr := A.rows) (nc := A.cols - k - 1) (by omega) (by omega) q1' F1
  have ht1 : m1 (tau.at' k 0) = some (t k) := Q1.ht k (by simp only [hBd, View.sub_cols]; omega)
  refine Runs.rd_bind ht1 ?_
  beta_reduce
  have w21 : (A.sub (k + 1) k (A.rows - k - 1) 1).WF := wf.sub (by omega) (by omega)
  refine (Props.C06_scale (-(t k)) (Or.inr rfl) w21 (Holds.toV_col (h1.part (by omega) (by omega)))).bind ?_
  rintro ⟨er, m2⟩ ⟨-, k2, F2⟩
  dsimp only at k2 F2 ⊢
  have h2 := h1.put wf (Set.disjoint_empty _) (r := k + 1) (c := k) (nr := A.rows - k - 1) (nc := 1) (by omega) (by omega) (HoldsV.col rfl k2)
    (F2.mono fun p hp => Or.inl hp)
  refine Runs.wr_bind (h2 k k (by omega) hk) ?_
  have h3 := h2.cell wf (i := k) (j := k) (by omega) hk (1 - t k)
  have F3 : Frame A.foot m2 (m2.set (A.at' k k) (1 - t k)) := Frame.set (View.at_mem_foot (show k < A.rows by omega) hk) _
  have w01 : (A.sub 0 k k 1).WF := wf.sub (by omega) (by omega)
  refine (Props.C06_scale 0 (Or.inr rfl) w01 (Holds.toV_col (h3.part (by omega) (by omega)))).bind ?_
  rintro ⟨er, m4⟩ ⟨-, k4, F4⟩
  dsimp only at k4 F4 ⊢
  have h4 := h3.put wf (Set.disjoint_empty _) (r := 0) (c := k) (nr := k) (nc := 1) (by omega) (by omega) (HoldsV.col rfl k4)
    (F4.mono fun p hp => Or.inl hp)
  have FF : Frame A.foot m1 m4 := ((F2.mono (View.sub_foot (by omega) (by omega))).trans F3).trans (F4.mono (View.sub_foot (by omega) (by omega)))
  have F : Frame (A.foot ∪ wcells w ws) m m4 := (F1.mono (Set.union_subset_union_left _ sC)).trans (FF.mono fun p hp => Or.inl hp)
  refine Runs.pure ⟨h4.congr fun i j hi hj => ?_, H'.frame F ?_ ?_, F⟩
  · have es : ∑ l ∈ range A.rows, qrw x k l * idm l k = 1 := by
      rw [sum_idm _ (by omega), qrw, if_neg (by omega), if_pos rfl]
    have ed : refl A.rows (t k) (qrw x k) idm i k = idm i k - t k * qrw x k i := by
      unfold refl; rw [es, mul_one]
    unfold put qbStep
    beta_reduce
    by_cases c1 : j < k
    · rw [if_neg (show ¬ (0 ≤ i ∧ i < 0 + k ∧ k ≤ j ∧ j < k + 1) by omega), if_neg (show ¬ (i = k ∧ j = k) by omega), if_neg (show ¬ (k + 1 ≤ i ∧ i < k + 1 + (A.rows - k - 1) ∧ k ≤ j ∧ j < k + 1) by omega), if_neg (show ¬ (0 ≤ i ∧ i < 0 + A.rows ∧ k + 1 ≤ j ∧ j < k + 1 + (A.cols - k - 1)) by omega), if_pos c1]
    rw [if_neg c1]
    by_cases c2 : j = k
    · rw [if_pos c2]
      subst c2
      rw [ed]
      by_cases c3 : i < j
      · rw [if_pos (show (0 ≤ i ∧ i < 0 + j ∧ j ≤ j ∧ j < j + 1) by omega), zero_mul, qrw, if_pos c3, mul_zero, idm, if_neg (by omega), sub_zero]
      · rw [if_neg (show ¬ (0 ≤ i ∧ i < 0 + j ∧ j ≤ j ∧ j < j + 1) by omega)]
        by_cases c4 : i = j
        · subst c4
          rw [if_pos ⟨rfl, rfl⟩, idm, if_pos rfl, qrw, if_neg (by omega), if_pos rfl, mul_one]
        · rw [if_neg (show ¬ (i = j ∧ j = j) by omega), if_pos (show (j + 1 ≤ i ∧ i < j + 1 + (A.rows - j - 1) ∧ j ≤ j ∧ j < j + 1) by omega), if_neg (by omega), idm, if_neg c4, qrw, if_neg c3, if_neg c4, Nat.add_zero,
            show j + 1 + (i - (j + 1)) = i by omega]
          ring
    · rw [if_neg (show ¬ (0 ≤ i ∧ i < 0 + k ∧ k ≤ j ∧ j < k + 1) by omega), if_neg (show ¬ (i = k ∧ j = k) by omega), if_neg (show ¬ (k + 1 ≤ i ∧ i < k + 1 + (A.rows - k - 1) ∧ k ≤ j ∧ j < k + 1) by omega), if_pos (show (0 ≤ i ∧ i < 0 + A.rows ∧ k + 1 ≤ j ∧ j < k + 1 + (A.cols - k - 1)) by omega), if_neg c2, Nat.sub_zero]
      unfold refl
      beta_reduce
      rw [show k + 1 + (j - (k + 1)) = j by omega]
  · exact Set.disjoint_union_right.mpr ⟨dAt.symm, dW.symm⟩
  · exact Q1.hW.frame FF dAw.symm

/-! ### All columns -/

/-- Invariant: columns before `k` hold the reflectors, and the reflectors before `k` are what is missing in the others. -/
structure QbInv (M N K k : Nat) (t : Nat → α) (f x : Nat → Nat → α) : Prop where
  keep : ∀ i j, i < M → j < k → x i j = f i j
  prod : ∀ i j, i < M → j < N → qrProd M k t f (fun i j => if j < k then idm i j else x i j) i j = qrProd M K t f idm i j

theorem refl_idm {M k : Nat} {t : α} {f : Nat → Nat → α} {i j : Nat} (hj : j < k) (hk : k ≤ M) : refl M t (qrw f k) idm i j = idm i j := by
  unfold refl
  rw [sum_idm _ (by omega), show qrw f k j = 0 by rw [qrw, if_pos hj], mul_zero, sub_zero]

theorem QbInv.step {M N K k : Nat} {t : Nat → α} {f x : Nat → Nat → α} (h : QbInv M N K (k + 1) t f x) (hk : k < M) :
    QbInv M N K k t f (qbStep M k t x) := by
  have ew : ∀ i, i < M → qrw x k i = qrw f k i := by
    intro i hi
    unfold qrw
    rw [h.keep i k hi (by omega)]
  refine ⟨fun i j hi hj => ?_, fun i j hi hj => ?_⟩
  · rw [qbStep, if_pos hj]; exact h.keep i j hi (by omega)
  · rw [← h.prod i j hi hj]
    show _ = qrProd M k t f (refl M (t k) (qrw f k) _) i j
    refine qrProd_congr (N := N) (fun _ _ => rfl) (fun _ _ _ _ => rfl) (fun i j hi hj => ?_) i j hi hj
    by_cases c1 : j < k
    · rw [if_pos c1, ← refl_idm (t := t k) (f := f) c1 (le_of_lt hk)]
      exact refl_congr hi (fun _ _ => rfl) fun l hl => by rw [if_pos (by omega)]
    · rw [if_neg c1, qbStep, if_neg c1]
      by_cases c2 : j = k
      · rw [if_pos c2]
        exact refl_congr hi ew fun l hl => by rw [if_pos (by omega)]
      · rw [if_neg c2]
        exact refl_congr hi ew fun l hl => by rw [if_neg (by omega)]

theorem qbLoop_spec (ab : α → α) {env : Env} (hmin : 2 ≤ env.blas2min ∨ (env.naive = true ∧ env.recursive = false))
    {fuel : Nat} {m : Mem α} {A tau : View} {w ws K : Nat} {f x : Nat → Nat → α} {t : Nat → α}
    (H : QbArgs m A tau w ws t) (hK : K ≤ A.cols) (hws : A.cols - 1 ≤ ws) (hf : A.rows < fuel) (hA : Holds m A x) (hI : QbInv A.rows A.cols K K t f x) :
    Runs (forDown K (unblkQrbuildStep ab env fuel A tau w) m) (fun m' => Holds m' A (qrProd A.rows K t f idm) ∧ QbArgs m' A tau w ws t ∧
      Frame (A.foot ∪ wcells w ws) m m') := by
  have sh := H.sh
  refine Runs.forDown (I := fun k m' => ∃ y, Holds m' A y ∧ QbInv A.rows A.cols K k t f y ∧ QbArgs m' A tau w ws t ∧ Frame (A.foot ∪ wcells w ws) m m') ?_ ?_ ?_
  · exact ⟨x, hA, hI, H, Frame.refl _ _⟩
  · rintro k m1 hk ⟨y, h1, h2, h3, h4⟩
    refine (unblkQrbuildStep_spec ab hmin h3 (by omega) (by omega) hf h1).mono ?_
    rintro m2 ⟨q1, q2, q3⟩
    exact ⟨_, q1, h2.step (by omega), q2, h4.trans q3⟩
  · rintro m' ⟨y, h1, h2, h3, h4⟩
    exact ⟨h1.congr fun i j hi hj => h2.prod i j hi hj, h3, h4⟩

theorem diagRow_at (A : View) (i : Nat) : (diagRow A).at' 0 i = A.at' i i := by
  simp only [diagRow, View.at']; ring

theorem qrClear_spec {m : Mem α} {A : View} {K : Nat} {f : Nat → Nat → α} (wf : A.WF) (sh : A.cols ≤ A.rows) (hK : K ≤ A.cols) (hA : Holds m A f) :
    Runs (qrClear m A K) (fun m' => Holds m' A (fun i j => if j < K then f i j else idm i j) ∧ Frame A.foot m m') := by
  unfold qrClear
  have s1 : (A.sub 0 K K (A.cols - K)).foot ⊆ A.foot := View.sub_foot (by omega) (by omega)
  have s2 : (A.sub K K (A.rows - K) (A.cols - K)).foot ⊆ A.foot := View.sub_foot (by omega) (by omega)
  refine ((Props.C51_mscale_all (alpha := 0) (unit := false) (wf.sub (by omega) (by omega)) (hA.part (by omega) (by omega))).1).bind ?_
  rintro ⟨e, m1⟩ ⟨-, k1, F1⟩
  dsimp only at k1 F1 ⊢
  have h1 := hA.put wf (Set.disjoint_empty _) (r := 0) (c := K) (nr := K) (nc := A.cols - K) (by omega) (by omega) k1 (F1.mono fun p hp => Or.inl hp)
  refine ((Props.C51_mscale_all (alpha := 0) (unit := false) (wf.sub (by omega) (by omega)) (h1.part (by omega) (by omega))).1).bind ?_
  rintro ⟨e, m2⟩ ⟨-, k2, F2⟩
  dsimp only at k2 F2 ⊢
  have h2 := h1.put wf (Set.disjoint_empty _) (r := K) (c := K) (nr := A.rows - K) (nc := A.cols - K) (by omega) (by omega) k2 (F2.mono fun p hp => Or.inl hp)
  set B := A.sub K K (A.rows - K) (A.cols - K) with hB
  have eB : ∀ i, (diagRow B).at' 0 i = A.at' (K + i) (K + i) := fun i => by rw [diagRow_at, hB, View.at_sub]
  have cD : (diagRow B).cols = A.cols - K := by
    simp only [diagRow, hB, View.sub_rows, View.sub_cols]; omega
  have k2' : Holds m2 (diagRow B) (fun _ _ => 0) := by
    intro i j hi hj
    have : i = 0 := by have : i < 1 := hi; omega
    subst this
    rw [cD] at hj
    rw [eB, h2 (K + j) (K + j) (by omega) (by omega), put, if_pos (by omega), zero_mul]
  have wD : (diagRow B).WF := Or.inl (by simp [diagRow])
  refine ((Props.C51_madd_all (alpha := 1) (unit := false) wD k2').1).bind ?_
  rintro ⟨e, m3⟩ ⟨-, k3, F3⟩
  dsimp only at k3 F3 ⊢
  have sD : (diagRow B).foot ⊆ A.foot := by
    rintro p ⟨i, j, hi, hj, rfl⟩
    have : i = 0 := by have : i < 1 := hi; omega
    subst this
    rw [cD] at hj
    rw [eB]
    exact View.at_mem_foot (by omega) (by omega)
  refine Runs.pure ⟨fun i j hi hj => ?_, ((F1.mono s1).trans (F2.mono s2)).trans (F3.mono sD)⟩
  by_cases c1 : K ≤ j ∧ i = j
  · obtain ⟨c1, rfl⟩ := c1
    have := k3 0 (i - K) (by simp [diagRow]) (by rw [cD]; omega)
    rw [eB, show K + (i - K) = i by omega] at this
    rw [this]
    beta_reduce
    rw [if_neg (by omega), idm, if_pos rfl, zero_add]
  · rw [F3 _ ?_, h2 i j hi hj]
    · unfold put
      beta_reduce
      by_cases c2 : j < K
      · rw [if_neg (by omega), if_neg (by omega), if_pos c2]
      · rw [if_neg c2, show (idm i j : α) = 0 from if_neg (by omega)]
        by_cases c3 : K ≤ i
        · rw [if_pos (by omega), zero_mul]
        · rw [if_neg (by omega), if_pos (by omega), zero_mul]
    · rintro ⟨p, q, hp, hq, e⟩
      have : p = 0 := by have : p < 1 := hp; omega
      subst this
      rw [cD] at hq
      rw [eB] at e
      obtain ⟨e1, e2⟩ := View.at_inj wf hi hj (by omega) (by omega) e
      omega

theorem unblkQrbuild_spec (ab : α → α) {env : Env} (hmin : 2 ≤ env.blas2min ∨ (env.naive = true ∧ env.recursive = false))
    {fuel : Nat} {m : Mem α} {A tau : View} {w ws K : Nat} {f : Nat → Nat → α} {t : Nat → α} {mayclear : Bool}
    (H : QbArgs m A tau w ws t) (hK : K ≤ A.cols) (hcl : mayclear = true ∨ K = A.cols) (hws : A.cols - 1 ≤ ws) (hf : A.rows < fuel) (hA : Holds m A f) :
    Runs (unblkQrbuild ab env fuel m A tau w K mayclear) (fun m' => Holds m' A (qrProd A.rows K t f idm) ∧ QbArgs m' A tau w ws t ∧
      Frame (A.foot ∪ wcells w ws) m m') := by
  unfold unblkQrbuild
  have fin : ∀ i j, i < A.rows → j < A.cols → ∀ x : Nat → Nat → α, (∀ i j, i < A.rows → j < A.cols → K ≤ j → x i j = idm i j) →
      qrProd A.rows K t f (fun i j => if j < K then idm i j else x i j) i j = qrProd A.rows K t f idm i j := by
    intro i j hi hj x hx
    refine qrProd_congr (N := A.cols) (fun _ _ => rfl) (fun _ _ _ _ => rfl) (fun i j hi hj => ?_) i j hi hj
    by_cases c : j < K
    · rw [if_pos c]
    · rw [if_neg c, hx i j hi hj (by omega)]
  refine Runs.bind (P := fun m1 => (∃ x, Holds m1 A x ∧ QbInv A.rows A.cols K K t f x) ∧ Frame A.foot m m1) ?_ ?_
  · by_cases c : 0 < A.cols - K ∧ mayclear = true
    · rw [if_pos c]
      refine (qrClear_spec H.wf H.sh hK hA).mono ?_
      rintro m1 ⟨h1, F1⟩
      refine ⟨⟨_, h1, fun i j _ hj => by rw [if_pos hj], fun i j hi hj => fin i j hi hj _ fun i j _ _ h => by rw [if_neg (by omega)]⟩, F1⟩
    · rw [if_neg c]
      have : K = A.cols := by
        rcases hcl with h | h
        · by_contra hne
          exact c ⟨by omega, h⟩
        · exact h
      exact Runs.pure ⟨⟨f, hA, fun _ _ _ _ => rfl, fun i j hi hj => fin i j hi hj _ fun i j _ _ h => by omega⟩, Frame.refl _ _⟩
  · rintro m1 ⟨⟨x, h1, hI⟩, F1⟩
    have dAt : Disjoint A.foot (tcells tau A.cols) := H.dA.mono_right fun p hp => Or.inl hp
    have dAw : Disjoint A.foot (wcells w ws) := H.dA.mono_right fun p hp => Or.inr hp
    refine (qbLoop_spec ab hmin (H.frame F1 dAt.symm (H.hW.frame F1 dAw.symm)) hK hws hf h1 hI).mono ?_
    rintro m2 ⟨q1, q2, q3⟩
    exact ⟨q1, q2, (F1.mono fun p hp => Or.inl hp).trans q3⟩

/-! ### One block -/

theorem qrReflector_runs (ab : α → α) {env : Env} (hmin : env.blas2min ≠ 1 ∨ env.naive = true) {fuel : Nat} {m : Mem α} {T A tau : View}
    {f τ : Nat → Nat → α} {t : Nat → α} (wT : T.WF) (hsh : A.cols ≤ A.rows) (hTr : A.cols ≤ T.rows)
    (hTc : A.cols ≤ T.cols) (hfu : A.cols < fuel) (hT : Holds m T τ) (hA : Holds m A f)
    (ht : ∀ k, k < A.cols → m (tau.at' k 0) = some (t k)) (dA : Disjoint A.foot T.foot) (dt : ∀ k, k < A.cols → tau.at' k 0 ∉ T.foot)
    (hl : ∀ k, k < A.cols → t k = 0 ∨ k = 0 ∨ k + 1 < A.rows) :
    Runs (qrReflector ab env fuel m T A tau) (fun m' => (∃ τ', Holds m' T τ') ∧ Frame T.foot m m') := by
  unfold qrReflector
  rw [Nat.min_eq_right hsh]
  refine Runs.bind (P := fun r => (∃ τ', Holds r.2 T τ') ∧ Frame T.foot m r.2) ?_ ?_
  · refine Runs.forUp1 (i := 0) (n := A.cols) (I := fun k m' => (∃ τ', Holds m' T τ') ∧ Frame T.foot m m') (Nat.zero_le _) ?_ ?_ ?_
    · exact ⟨⟨τ, hT⟩, Frame.refl _ _⟩
    · rintro k m1 - hk ⟨⟨τ', h1⟩, F1⟩
      refine (qrReflStep_spec ab hmin wT (by omega) hk hTr hTc hfu h1 (hA.frame F1 dA) (by rw [F1 _ (dt k hk)]; exact ht k hk) dA (hl k hk)).mono ?_
      rintro m2 ⟨q1, q2⟩
      exact ⟨⟨_, q1⟩, F1.trans q2⟩
    · exact fun m' h => h
  · rintro ⟨k, m'⟩ h
    exact Runs.pure h

/-- Block reflector and update in `blkQrbuildStep`. -/
def qbUpd (ab : α → α) (env : Env) (fuel : Nat) (A tau : View) (w W lb : Nat) (cbuf : Option Cache) (k : Nat) (m : Mem α) : Res (Mem α) := do
  let m ← qrReflector ab env fuel m ⟨w, lb, lb, lb⟩ (A.sub k k (A.rows - k) lb) (tau.sub k 0 lb 1)
  updateQrLeft ab env fuel m (A.sub k (k + lb) lb (A.cols - k - lb)) (A.sub (k + lb) (k + lb) (A.rows - k - lb) (A.cols - k - lb)) (A.sub k k lb lb)
    (A.sub (k + lb) k (A.rows - k - lb) lb) ⟨w, lb, lb, lb⟩ ⟨W, A.cols - k - lb, A.cols - k - lb, lb⟩ false cbuf

theorem blkQrbuildStep_eq (ab : α → α) (env : Env) (fuel : Nat) (A tau : View) (w W lb : Nat) (cbuf : Option Cache) (k : Nat) (m : Mem α)
    (h : tau.rows = A.cols) : blkQrbuildStep ab env fuel A tau w W lb cbuf k m = (do
      let m ← qbUpd ab env fuel A tau w W lb cbuf k m
      let m ← unblkQrbuild ab env fuel m (A.sub k k (A.rows - k) lb) (tau.sub k 0 lb 1) W lb false
      let (_, m) ← mscale m (A.sub 0 k k lb) 0 .all false
      pure m) := by
  unfold blkQrbuildStep qbUpd
  rw [h, Nat.sub_self, Nat.zero_add]
  dsimp only
  rw [bind_assoc]

theorem qbUpd_eq (ab : α → α) (env : Env) (fuel : Nat) (A tau : View) (w W lb : Nat) (cbuf : Option Cache) (k : Nat) (m : Mem α) :
    qbUpd ab env fuel A tau w W lb cbuf k m =
      qrmBlk0 ab env fuel false false (A.sub 0 (k + lb) A.rows (A.cols - k - lb)) (A.sub 0 0 A.rows (k + lb)) tau w W cbuf k lb m := by
  unfold qbUpd qrmBlk0
  simp only [updateQrLeft_eq, rsub, rlen, rwid, Bool.false_eq_true, if_false, View.sub_sub, View.sub_rows, View.sub_cols, Nat.zero_add, Nat.add_zero]

/-- The cache buffers are apart from everything else. -/
structure QbCache (c : Cache) (A tau : View) (w ws : Nat) : Prop where
  dA : Disjoint A.foot c.foot
  dt : Disjoint (tcells tau A.cols) c.foot
  dW : Disjoint (wcells w ws) c.foot

theorem qbUpd_spec (ab : α → α) {env : Env} {c : Cache} (hc : Conf3 env c) {fuel : Nat} {m : Mem α} {A tau : View} {w ws k lb : Nat}
    {x : Nat → Nat → α} {t : Nat → α} (H : QbArgs m A tau w ws t) (Hc : QbCache c A tau w ws) (R : c.Ready m)
    (hl : ∀ l, l < A.cols → l + 1 = A.rows → t l = 0) (hk : k + lb ≤ A.cols) (nz : ∀ p, p < lb → t (k + p) = 0 → ∀ i, k + p < i → i < A.rows → x i (k + p) = 0)
    (up : ∀ i j, i < k + lb → k + lb ≤ j → j < A.cols → x i j = 0)
    (hws : A.cols * lb ≤ ws) (hf : A.cols + A.cols < fuel) (hlb : 0 < lb) (hA : Holds m A x) :
    Runs (qbUpd ab env fuel A tau w (w + lb * lb) lb (some c) k m) (fun m' =>
      Holds m' A (fun i j => if j < k + lb then x i j else blkVal A.rows k lb false t x x i j) ∧
      QbArgs m' A tau w ws t ∧ c.Ready m' ∧ Frame (A.foot ∪ wcells w ws ∪ c.foot) m m') := by
  have H' := H
  obtain ⟨wf, sh, len, ht, hW, dA, dW⟩ := H
  obtain ⟨cA, ct, cW⟩ := Hc
  have dAt : Disjoint A.foot (tcells tau A.cols) := dA.mono_right fun p hp => Or.inl hp
  have dAw : Disjoint A.foot (wcells w ws) := dA.mono_right fun p hp => Or.inr hp
  have e1 : lb * lb ≤ A.cols * lb := Nat.mul_le_mul_right _ (by omega)
  have sT' : (⟨w, lb, lb, lb⟩ : View).foot ⊆ wcells w ws := (view_wcells (le_refl _)).trans fun p hp => ⟨hp.1, by have := hp.2; omega⟩
  obtain ⟨τ, hτ⟩ := (hW.le (n' := lb * lb) (by omega)).view (le_refl _)
  by_cases hn : k + lb = A.cols
  · unfold qbUpd
    have et : ∀ p, (tau.sub k 0 lb 1).at' p 0 = tau.at' (k + p) 0 := fun p => by rw [View.at_sub]
    have hL : Holds m (A.sub k k (A.rows - k) lb) (fun i j => x (k + i) (k + j)) := hA.part (by omega) (by omega)
    have sL : (A.sub k k (A.rows - k) lb).foot ⊆ A.foot := View.sub_foot (by omega) (by omega)
    have dtW : ∀ l, l < A.cols → tau.at' l 0 ∉ wcells w ws := fun l hl h => Set.disjoint_left.mp dW h ⟨l, hl, rfl⟩
    refine (qrReflector_runs ab (by rcases hc.min2 with h | h <;> [left; left] <;> omega) (t := fun l => t (k + l)) (Or.inl (le_refl _))
      (by simp only [View.sub_rows, View.sub_cols]; omega) (by simp only [View.sub_cols]; omega)
      (by simp only [View.sub_cols]; omega) (by simp only [View.sub_cols]; omega) hτ hL
      (by
        intro p hp
        simp only [View.sub_cols] at hp
        rw [et]
        exact ht _ (by omega)) (dAw.mono sL sT')
      (by intro p hp; rw [et]; simp only [View.sub_cols] at hp; exact fun h => dtW _ (by omega) (sT' h))
      (by
        intro p hp
        simp only [View.sub_cols] at hp
        by_cases h : p + 1 < A.rows - k
        · exact Or.inr (Or.inr (by simpa only [View.sub_rows] using h))
        · exact Or.inl (hl (k + p) (by omega) (by omega)))).bind ?_
    rintro m1 ⟨⟨τ', hτ'⟩, F1⟩
    unfold updateQrLeft
    rw [if_pos (by simp only [View.size, View.sub_rows, View.sub_cols, show A.cols - k - lb = 0 by omega, Nat.mul_zero, and_self])]
    have F1' : Frame (wcells w ws) m m1 := F1.mono sT'
    have hW1 : WAlloc m1 w ws := by
      intro p hp
      by_cases h2 : w + p ∈ (⟨w, lb, lb, lb⟩ : View).foot
      · obtain ⟨i, j, hi, hj, e⟩ := h2
        rw [e]; exact ⟨_, hτ' i j hi hj⟩
      · rw [F1 _ h2]; exact hW p hp
    refine Runs.ok ⟨(hA.frame F1' dAw).congr fun i j _ hj => ?_, H'.frame F1' dW.symm hW1, R.frame F1' cW.symm, F1'.mono fun p hp => Or.inl (Or.inr hp)⟩
    rw [if_pos (by omega)]
  · rw [qbUpd_eq]
    set C := A.sub 0 (k + lb) A.rows (A.cols - k - lb) with hCd
    set B := A.sub 0 0 A.rows (k + lb) with hBd
    have st : tcells tau B.cols ⊆ tcells tau A.cols := by
      rintro p ⟨l, hl, rfl⟩
      exact ⟨l, by simp only [hBd, View.sub_cols] at hl; omega, rfl⟩
    have sB : B.foot ⊆ A.foot := View.sub_foot (by omega) (by omega)
    have sC : C.foot ⊆ A.foot := View.sub_foot (by omega) (by omega)
    have Q : QrmArgs m false C B tau w ws x t := by
      refine ⟨wf.sub (by omega) (by omega), rfl, by simp only [hBd, View.sub_rows, View.sub_cols]; omega, ?_, ?_, hW, ?_, ?_⟩
      · refine (hA.part (by omega) (by omega)).congr fun i j _ _ => by rw [Nat.zero_add, Nat.zero_add]
      · intro l hl
        simp only [hBd, View.sub_cols] at hl
        exact ht l (by omega)
      · rw [Set.disjoint_union_right, Set.disjoint_union_right]
        refine ⟨⟨?_, dAt.mono sC st⟩, dAw.mono_left sC⟩
        exact (View.sub_disj wf (by omega) (by omega) (by omega) (by omega) (by omega)).symm
      · rw [Set.disjoint_union_right]
        exact ⟨dAw.symm.mono_right sB, dW.mono_right st⟩
    have Qc : QrmCache c C B tau w ws := ⟨cA.mono_left sC, Set.disjoint_union_left.mpr ⟨cA.mono_left sB, ct.mono_left st⟩, cW⟩
    have hC : HoldsR false m C (fun i j => if j < A.cols - k - lb then x i (k + lb + j) else 0) := by
      refine Holds.congr (hA.part (r := 0) (c := k + lb) (nr := A.rows) (nc := A.cols - k - lb) (by omega) (by omega)) fun i j _ hj => ?_
      rw [Nat.zero_add]
      exact (if_pos hj).symm
    have ew : rwid false C = A.cols - k - lb := rfl
    have eb : B.cols = k + lb := rfl
    have er : B.rows = A.rows := rfl
    refine (qrmBlk0_spec ab hc Q Qc R (fun l h1 h2 => hl l (by omega) (by omega)) (lb := lb) (k := k)
      (by rw [ew]; exact le_trans (Nat.mul_le_mul_right _ (by omega)) hws) (le_refl _) (by rw [ew]; omega) (by omega) hC hτ
      (fun p hp h0 => Or.inr ⟨rfl, fun i h1 h2 => nz p hp h0 _ (by omega) (by rw [er] at h2; omega), fun j => by
        by_cases c : j < A.cols - k - lb
        · rw [if_pos c]; exact up _ _ (by omega) (by omega) (by omega)
        · rw [if_neg c]⟩)).mono ?_
    rintro m1 ⟨q1, Q1, R1, F1⟩
    rw [er] at q1
    have q1' : Holds m1 C (blkVal A.rows k lb false t x (fun i j => if j < A.cols - k - lb then x i (k + lb + j) else 0)) := q1
    have F : Frame (A.foot ∪ wcells w ws ∪ c.foot) m m1 := F1.mono (Set.union_subset_union_left _ (Set.union_subset_union_left _ sC))
    have h1 := hA.put wf (F := wcells w ws ∪ c.foot) (Set.disjoint_union_right.mpr ⟨dAw, cA⟩) (r := 0) (c := k + lb) (nr := A.rows) (nc := A.cols - k - lb)
      (by omega) (by omega) q1' (F1.mono (by rw [Set.union_assoc]))
    refine ⟨h1.congr fun i j hi hj => ?_, H'.frame F ?_ Q1.hW, R1, F⟩
    · unfold put
      by_cases c1 : j < k + lb
      · rw [if_neg (by omega), if_pos c1]
      · rw [if_pos (by omega), if_neg c1, Nat.sub_zero]
        unfold blkVal
        beta_reduce
        by_cases c2 : i < k
        · rw [if_pos c2, if_pos c2, if_pos (by omega), show k + lb + (j - (k + lb)) = j by omega]
        · rw [if_neg c2, if_neg c2, if_neg (by simp), if_neg (by simp)]
          exact qrProd_col (fun _ _ => rfl) (fun _ _ _ _ => rfl) (fun i _ => by rw [if_pos (by omega), show k + lb + (j - (k + lb)) = j by omega]) _ (by omega)
    · simp only [Set.disjoint_union_right]
      exact ⟨⟨dAt.symm, dW.symm⟩, ct⟩

/-- The matrix after the block at `k` was visited. -/
def qbBlk (M k lb : Nat) (t : Nat → α) (x : Nat → Nat → α) (i j : Nat) : α :=
  if j < k then x i j else if j < k + lb then (if i < k then 0 else
    qrProd (M - k) lb (fun l => t (k + l)) (fun p q => x (k + p) (k + q)) idm (i - k) (j - k))
  else blkVal M k lb false t x x i j

theorem blkQrbuildStep_spec (ab : α → α) {env : Env} {c : Cache} (hc : Conf3 env c)
    (hmin : 2 ≤ env.blas2min ∨ (env.naive = true ∧ env.recursive = false)) {fuel : Nat} {m : Mem α} {A tau : View} {w ws k lb : Nat}
    {x : Nat → Nat → α} {t : Nat → α} (H : QbArgs m A tau w ws t) (Hc : QbCache c A tau w ws) (R : c.Ready m)
    (hl : ∀ l, l < A.cols → l + 1 = A.rows → t l = 0) (hk : k + lb ≤ A.cols) (nz : ∀ p, p < lb → t (k + p) = 0 → ∀ i, k + p < i → i < A.rows → x i (k + p) = 0)
    (up : ∀ i j, i < k + lb → k + lb ≤ j → j < A.cols → x i j = 0)
    (hws : A.cols * lb ≤ ws) (hf : A.cols + A.rows < fuel) (hlb : 0 < lb ∧ lb < A.cols) (hA : Holds m A x) :
    Runs (blkQrbuildStep ab env fuel A tau w (w + lb * lb) lb (some c) k m) (fun m' => Holds m' A (qbBlk A.rows k lb t x) ∧
      QbArgs m' A tau w ws t ∧ c.Ready m' ∧ Frame (A.foot ∪ wcells w ws ∪ c.foot) m m') := by
  have sh := H.sh
  rw [blkQrbuildStep_eq _ _ _ _ _ _ _ _ _ _ _ H.len]
  refine (qbUpd_spec ab hc H Hc R hl hk nz up hws (by omega) hlb.1 hA).bind ?_
  rintro m1 ⟨h1, H1, R1, F1⟩
  obtain ⟨wf, -, len, ht, hW, dA, dW⟩ := H1
  obtain ⟨cA, ct, cW⟩ := Hc
  have dAt : Disjoint A.foot (tcells tau A.cols) := dA.mono_right fun p hp => Or.inl hp
  have dAw : Disjoint A.foot (wcells w ws) := dA.mono_right fun p hp => Or.inr hp
  have e1 : (lb + 1) * lb ≤ A.cols * lb := Nat.mul_le_mul_right _ (by omega)
  have e2 : (lb + 1) * lb = lb * lb + lb := by ring
  have et : ∀ p, (tau.sub k 0 lb 1).at' p 0 = tau.at' (k + p) 0 := fun p => by rw [View.at_sub]
  have st : tcells (tau.sub k 0 lb 1) lb ⊆ tcells tau A.cols := by
    rintro p ⟨l, hl, rfl⟩
    exact ⟨k + l, by omega, et l⟩
  have sw : wcells (w + lb * lb) (ws - lb * lb) ⊆ wcells w ws := fun p hp => ⟨by have := hp.1; omega, by have := hp.2; omega⟩
  have sL : (A.sub k k (A.rows - k) lb).foot ⊆ A.foot := View.sub_foot (by omega) (by omega)
  have QL : QbArgs m1 (A.sub k k (A.rows - k) lb) (tau.sub k 0 lb 1) (w + lb * lb) (ws - lb * lb) (fun l => t (k + l)) := by
    refine ⟨wf.sub (by omega) (by omega), by simp only [View.sub_rows, View.sub_cols]; omega, rfl, ?_, ?_, ?_, dW.mono sw st⟩
    · intro l hl
      rw [et]
      exact ht _ (by simp only [View.sub_cols] at hl; omega)
    · intro p hp
      have := hW (lb * lb + p) (by omega)
      rwa [← Nat.add_assoc] at this
    · exact Set.disjoint_union_right.mpr ⟨dAt.mono sL st, dAw.mono sL sw⟩
  refine (unblkQrbuild_spec ab hmin (K := lb) (mayclear := false) QL (le_refl _) (Or.inr rfl) (by simp only [View.sub_cols]; omega)
    (by simp only [View.sub_rows]; omega) (h1.part (r := k) (c := k) (nr := A.rows - k) (nc := lb) (by omega) (by omega))).bind ?_
  rintro m2 ⟨q1, Q2, F2⟩
  have h2 := h1.put wf (F := wcells (w + lb * lb) (ws - lb * lb)) (dAw.mono_right sw) (by omega) (by omega) q1 F2
  have w01 : (A.sub 0 k k lb).WF := wf.sub (by omega) (by omega)
  have s01 : (A.sub 0 k k lb).foot ⊆ A.foot := View.sub_foot (by omega) (by omega)
  refine ((Props.C51_mscale_all (alpha := 0) (unit := false) w01 (h2.part (r := 0) (c := k) (nr := k) (nc := lb) (by omega) (by omega))).1).bind ?_
  rintro ⟨e, m3⟩ ⟨-, k3, F3⟩
  dsimp only at k3 F3 ⊢
  have h3 := h2.put wf (Set.disjoint_empty _) (by omega) (by omega) k3 (F3.mono fun p hp => Or.inl hp)
  have F23 : Frame (A.foot ∪ wcells w ws) m1 m3 :=
    (F2.mono (Set.union_subset_union sL sw)).trans (F3.mono fun p hp => Or.inl (s01 hp))
  have hW3 : WAlloc m3 w ws := by
    have h2' : WAlloc m2 w ws := by
      intro p hp
      by_cases h : lb * lb ≤ p
      · have := Q2.hW (p - lb * lb) (by omega)
        rwa [show w + lb * lb + (p - lb * lb) = w + p by omega] at this
      · rw [F2 _ ?_]
        · exact hW p hp
        · rintro (h' | h')
          · exact Set.disjoint_left.mp dAw (sL h') ⟨by omega, by omega⟩
          · have := h'.1; omega
    exact h2'.frame F3 (dAw.symm.mono_right s01)
  have F : Frame (A.foot ∪ wcells w ws ∪ c.foot) m m3 := F1.trans (F23.mono fun p hp => Or.inl hp)
  refine Runs.pure ⟨h3.congr fun i j hi hj => ?_, H.frame F ?_ hW3, R1.frame F23 ?_, F⟩
  · unfold put qbBlk
    beta_reduce
    by_cases c1 : j < k
    · rw [if_neg (by omega), if_neg (by omega), if_pos (by omega), if_pos c1]
    rw [if_neg c1]
    by_cases c2 : j < k + lb
    · by_cases c3 : i < k
      · simp only [if_pos c2, if_pos c3]
        rw [if_pos (by omega)]; exact zero_mul _
      · simp only [if_pos c2, if_neg c3]
        rw [if_neg (by omega), if_pos (by omega)]
        refine qrProd_col (fun _ _ => rfl) (fun p q _ hq => ?_) (fun _ _ => rfl) _ (by show i - k < A.rows - k; omega)
        rw [if_pos (by omega)]
    · rw [if_neg c2, if_neg (by omega), if_neg (by omega), if_neg (by omega)]
  · simp only [Set.disjoint_union_right]
    exact ⟨⟨dAt.symm, dW.symm⟩, ct⟩
  · exact Set.disjoint_union_right.mpr ⟨cA.symm, cW.symm⟩

/-! ### All blocks -/

theorem qrProd_zero_col {M n : Nat} {t : Nat → α} {f b : Nat → Nat → α} {j : Nat} (hb : ∀ i, i < M → b i j = 0) :
    ∀ i, i < M → qrProd M n t f b i j = 0 := by
  induction n generalizing b with
  | zero => exact hb
  | succ n ih =>
    refine ih fun i hi => ?_
    unfold refl
    rw [hb i hi, sum_eq_zero fun l hl => by rw [hb l (mem_range.mp hl), mul_zero], mul_zero, sub_zero]

theorem qrProd_idm_shift {M k : Nat} (hk : k ≤ M) (n : Nat) (t : Nat → α) (f : Nat → Nat → α) (j : Nat) : ∀ i, i < M →
    qrProd M (k + n) t f idm i j = qrProd M k t f (fun i j => if j < k then idm i j else if i < k then 0 else
      qrProd (M - k) n (fun l => t (k + l)) (fun p q => f (k + p) (k + q)) idm (i - k) (j - k)) i j := by
  intro i hi
  rw [qrProd_shift hk n t f idm j i hi]
  refine qrProd_col (fun _ _ => rfl) (fun _ _ _ _ => rfl) (fun i hi => ?_) i hi
  by_cases c1 : j < k
  · rw [if_pos c1]
    by_cases c2 : i < k
    · rw [if_pos c2]
    · rw [if_neg c2, qrProd_zero_col (fun p _ => show idm (k + p) j = (0 : α) from if_neg (by omega)) _ (by omega), idm, if_neg (by omega)]
  · rw [if_neg c1]
    by_cases c2 : i < k
    · rw [if_pos c2, if_pos c2, idm, if_neg (by omega)]
    · rw [if_neg c2, if_neg c2]
      refine qrProd_col (fun _ _ => rfl) (fun _ _ _ _ => rfl) (fun p _ => ?_) _ (by omega)
      unfold idm
      by_cases c3 : k + p = j
      · rw [if_pos c3, if_pos (by omega)]
      · rw [if_neg c3, if_neg (by omega)]

theorem QbInv.block {M N K k lb : Nat} {t : Nat → α} {f x : Nat → Nat → α} (h : QbInv M N K (k + lb) t f x) (hk : k + lb ≤ M) :
    QbInv M N K k t f (qbBlk M k lb t x) := by
  refine ⟨fun i j hi hj => ?_, fun i j hi hj => ?_⟩
  · rw [qbBlk, if_pos hj]; exact h.keep i j hi (by omega)
  rw [← h.prod i j hi hj, qrProd_shift (show k ≤ M by omega) lb t f _ j i hi]
  refine qrProd_col (fun _ _ => rfl) (fun _ _ _ _ => rfl) (fun i hi => ?_) i hi
  beta_reduce
  by_cases c1 : j < k
  · rw [if_pos c1]
    by_cases c2 : i < k
    · rw [if_pos c2, if_pos (by omega)]
    · rw [if_neg c2, qrProd_zero_col (fun p _ => by rw [if_pos (by omega), idm, if_neg (by omega)]) _ (by omega), idm, if_neg (by omega)]
  · rw [if_neg c1, qbBlk, if_neg c1]
    by_cases c3 : j < k + lb
    · rw [if_pos c3]
      by_cases c2 : i < k
      · rw [if_pos c2, if_pos c2, if_pos c3, idm, if_neg (by omega)]
      · rw [if_neg c2, if_neg c2]
        refine qrProd_col (fun _ _ => rfl) (fun p q hp hq => h.keep _ _ (by omega) (by omega)) (fun p _ => ?_) _ (by omega)
        rw [if_pos c3]
        unfold idm
        by_cases c4 : k + p = j
        · rw [if_pos c4, if_pos (by omega)]
        · rw [if_neg c4, if_neg (by omega)]
    · rw [if_neg c3]
      unfold blkVal
      by_cases c2 : i < k
      · rw [if_pos c2, if_pos c2, if_neg c3]
      · rw [if_neg c2, if_neg c2, if_neg (by simp)]
        refine qrProd_col (fun _ _ => rfl) (fun p q hp hq => h.keep _ _ (by omega) (by omega)) (fun p _ => ?_) _ (by omega)
        rw [if_neg c3]

theorem blkQrbuild_spec (ab : α → α) {env : Env} {c : Cache} (hc : Conf3 env c)
    (hmin : 2 ≤ env.blas2min ∨ (env.naive = true ∧ env.recursive = false)) {fuel : Nat} {m : Mem α} {A tau : View} {w ws K lb : Nat}
    {f : Nat → Nat → α} {t : Nat → α} (H : QbArgs m A tau w ws t) (Hc : QbCache c A tau w ws) (R : c.Ready m)
    (hl : ∀ l, l < A.cols → l + 1 = A.rows → t l = 0) (hK : K ≤ A.cols) (nz : ∀ l, l < K → t l = 0 → ∀ i, l < i → i < A.rows → f i l = 0)
    (hws : A.cols * lb ≤ ws) (hf : A.cols + A.rows < fuel) (hlb : 0 < lb ∧ lb < A.cols) (hA : Holds m A f) :
    Runs (blkQrbuild ab env fuel m A tau w (w + lb * lb) K lb (some c)) (fun m' => Holds m' A (qrProd A.rows K t f idm) ∧
      QbArgs m' A tau w ws t ∧ c.Ready m' ∧ Frame (A.foot ∪ wcells w ws ∪ c.foot) m m') := by
  have H' := H
  obtain ⟨wf, sh, len, ht, hW, dA, dW⟩ := H
  have dAt : Disjoint A.foot (tcells tau A.cols) := dA.mono_right fun p hp => Or.inl hp
  have dAw : Disjoint A.foot (wcells w ws) := dA.mono_right fun p hp => Or.inr hp
  unfold blkQrbuild
  dsimp only
  have hll : lb * lb ≤ A.cols * lb := Nat.mul_le_mul_right _ hlb.2.le
  have hu : K % lb < lb := Nat.mod_lt _ hlb.1
  have hu' : K % lb ≤ K := Nat.mod_le _ _
  obtain ⟨r, hr⟩ : ∃ r, r = K - K % lb := ⟨_, rfl⟩
  have hdvd : lb ∣ r := by rw [hr]; exact Nat.dvd_sub_mod K
  rw [← hr]
  refine Runs.bind (P := fun m1 => (∃ x, Holds m1 A x ∧ QbInv A.rows A.cols K r t f x ∧ ∀ i j, i < r → r ≤ j → j < A.cols → x i j = 0) ∧ QbArgs m1 A tau w ws t ∧
    Frame (A.foot ∪ wcells w ws) m m1) ?_ ?_
  · by_cases c0 : 0 < A.cols - K + K % lb
    · rw [if_pos c0]
      by_cases c1 : 0 < K % lb
      · rw [if_pos c1]
        have w01 : (A.sub 0 r r (A.cols - r)).WF := wf.sub (by omega) (by omega)
        have s01 : (A.sub 0 r r (A.cols - r)).foot ⊆ A.foot := View.sub_foot (by omega) (by omega)
        refine ((Props.C51_mscale_all (alpha := 0) (unit := false) w01 (hA.part (r := 0) (c := r) (nr := r) (nc := A.cols - r) (by omega) (by omega))).1).bind ?_
        rintro ⟨e, m1⟩ ⟨-, k1, F1⟩
        dsimp only at k1 F1 ⊢
        have h1 := hA.put wf (Set.disjoint_empty _) (by omega) (by omega) k1 (F1.mono fun p hp => Or.inl hp)
        have F1' := F1.mono s01
        rw [len, show A.cols - (A.cols - r) = r by omega]
        have hW1 := hW.frame F1' dAw.symm
        have et : ∀ p, (tau.sub r 0 (A.cols - r) 1).at' p 0 = tau.at' (r + p) 0 := fun p => by rw [View.at_sub]
        have st : tcells (tau.sub r 0 (A.cols - r) 1) (A.cols - r) ⊆ tcells tau A.cols := by
          rintro p ⟨l, hl, rfl⟩
          exact ⟨r + l, by omega, et l⟩
        have sw : wcells (w + lb * lb) (ws - lb * lb) ⊆ wcells w ws := fun p hp => ⟨by have := hp.1; omega, by have := hp.2; omega⟩
        have sL : (A.sub r r (A.rows - r) (A.cols - r)).foot ⊆ A.foot := View.sub_foot (by omega) (by omega)
        have QL : QbArgs m1 (A.sub r r (A.rows - r) (A.cols - r)) (tau.sub r 0 (A.cols - r) 1) (w + lb * lb) (ws - lb * lb) (fun l => t (r + l)) := by
          refine ⟨wf.sub (by omega) (by omega), by simp only [View.sub_rows, View.sub_cols]; omega, rfl, ?_, ?_, ?_, dW.mono sw st⟩
          · intro l hl
            simp only [View.sub_cols] at hl
            rw [et, F1' _ fun h => Set.disjoint_left.mp dAt h ⟨r + l, by omega, rfl⟩]
            exact ht _ (by omega)
          · intro p hp
            have := hW1 (lb * lb + p) (by omega)
            rwa [← Nat.add_assoc] at this
          · exact Set.disjoint_union_right.mpr ⟨dAt.mono sL st, dAw.mono sL sw⟩
        have hws' : A.cols - r - 1 ≤ ws - lb * lb := by
          obtain ⟨p, hp⟩ : ∃ p, A.cols = lb + 1 + p := ⟨A.cols - lb - 1, by omega⟩
          have e1 : A.cols * lb = lb * lb + lb + p * lb := by rw [hp]; ring
          have e2 : p * 1 ≤ p * lb := Nat.mul_le_mul_left _ hlb.1
          omega
        refine (unblkQrbuild_spec ab hmin (K := K % lb) (mayclear := true) QL (by simp only [View.sub_cols]; omega) (Or.inl rfl)
          (by simp only [View.sub_cols]; omega) (by simp only [View.sub_rows]; omega)
          (h1.part (r := r) (c := r) (nr := A.rows - r) (nc := A.cols - r) (by omega) (by omega))).mono ?_
        rintro m2 ⟨q1, Q2, F2⟩
        have h2 := h1.put wf (F := wcells (w + lb * lb) (ws - lb * lb)) (dAw.mono_right sw) (by omega) (by omega) q1 F2
        have hW2 : WAlloc m2 w ws := by
          intro p hp
          by_cases h : lb * lb ≤ p
          · have := Q2.hW (p - lb * lb) (by omega)
            rwa [show w + lb * lb + (p - lb * lb) = w + p by omega] at this
          · rw [F2 _ ?_]
            · exact hW1 p hp
            · rintro (h' | h')
              · exact Set.disjoint_left.mp dAw (sL h') ⟨by omega, by omega⟩
              · have := h'.1; omega
        have F : Frame (A.foot ∪ wcells w ws) m m2 := (F1'.mono fun p hp => Or.inl hp).trans (F2.mono (Set.union_subset_union sL sw))
        refine ⟨⟨_, h2, ⟨?_, ?_⟩, ?_⟩, H'.frame F (Set.disjoint_union_right.mpr ⟨dAt.symm, dW.symm⟩) hW2, F⟩
        · intro i j hi hj
          unfold put
          rw [if_neg (by omega), if_neg (by omega)]
        · intro i j hi hj
          have eK : K = r + K % lb := by omega
          rw [show qrProd A.rows K t f idm i j = qrProd A.rows (r + K % lb) t f idm i j by rw [← eK], qrProd_idm_shift (by omega) _ _ _ _ _ hi]
          refine qrProd_col (fun _ _ => rfl) (fun _ _ _ _ => rfl) (fun i hi => ?_) i hi
          by_cases c2 : j < r
          · rw [if_pos c2, if_pos c2]
          rw [if_neg c2, if_neg c2]
          unfold put
          by_cases c3 : i < r
          · rw [if_pos c3, if_neg (by omega), if_pos (by omega)]; exact zero_mul _
          · rw [if_neg c3, if_pos (by omega)]
            refine qrProd_col (fun _ _ => rfl) (fun p q _ hq => ?_) (fun _ _ => rfl) _ (by show i - r < A.rows - r; omega)
            rw [if_neg (by omega)]
        · intro i j hi hj hj'
          unfold put
          rw [if_neg (by omega), if_pos (by omega)]; exact zero_mul _
      · rw [if_neg c1]
        have : r = K := by omega
        subst this
        refine (qrClear_spec wf sh hK hA).mono ?_
        rintro m1 ⟨h1, F1⟩
        refine ⟨⟨_, h1, ⟨fun i j _ hj => by rw [if_pos hj], fun i j hi hj => ?_⟩, fun i j hi hj hj' => by rw [if_neg (by omega), idm, if_neg (by omega)]⟩, H'.frame F1 dAt.symm (hW.frame F1 dAw.symm), F1.mono fun p hp => Or.inl hp⟩
        refine qrProd_col (fun _ _ => rfl) (fun _ _ _ _ => rfl) (fun i hi => ?_) i hi
        by_cases c : j < r
        · rw [if_pos c]
        · rw [if_neg c, if_neg c]
    · rw [if_neg c0]
      have : r = K := by omega
      subst this
      refine Runs.pure ⟨⟨f, hA, ⟨fun _ _ _ _ => rfl, fun i j hi hj => ?_⟩, fun i j _ _ _ => by omega⟩, H', Frame.refl _ _⟩
      refine qrProd_col (fun _ _ => rfl) (fun _ _ _ _ => rfl) (fun i hi => ?_) i hi
      rw [if_pos (by omega)]
  · rintro m1 ⟨⟨x, h1, hI, hU⟩, H1, F1⟩
    refine Runs.bind (P := fun r => Holds r.2 A (qrProd A.rows K t f idm) ∧ QbArgs r.2 A tau w ws t ∧ c.Ready r.2 ∧
      Frame (A.foot ∪ wcells w ws ∪ c.foot) m r.2) ?_ ?_
    · refine Runs.forUp (I := fun d m' => d ≤ r ∧ lb ∣ d ∧ (∃ y, Holds m' A y ∧ QbInv A.rows A.cols K (r - d) t f y ∧ ∀ i j, i < r - d → r - d ≤ j → j < A.cols → y i j = 0) ∧ QbArgs m' A tau w ws t ∧ c.Ready m' ∧
        Frame (A.foot ∪ wcells w ws ∪ c.foot) m m') hlb.1 ?_ ?_ ?_
      · refine ⟨Nat.zero_le _, Nat.dvd_zero _, ⟨x, h1, hI, hU⟩, H1, R.frame F1 ?_, F1.mono fun p hp => Or.inl hp⟩
        exact Set.disjoint_union_right.mpr ⟨Hc.dA.symm, Hc.dW.symm⟩
      · rintro d m2 - hd ⟨-, ⟨q, hq⟩, ⟨y, h2, hI2, hU2⟩, H2, R2, F2⟩
        obtain ⟨p, hp⟩ := hdvd
        have hqp : q < p := by
          by_contra hcon
          have := Nat.mul_le_mul_left lb (Nat.le_of_not_lt hcon)
          omega
        have hle : d + lb ≤ r := by
          have := Nat.mul_le_mul_left lb (show q + 1 ≤ p from hqp)
          rw [Nat.mul_add, Nat.mul_one] at this
          omega
        refine (blkQrbuildStep_spec ab hc hmin (k := r - d - lb) H2 Hc R2 hl (by omega) (fun p hp h0 i h1 h2 => by
          rw [hI2.keep _ _ h2 (by omega)]; exact nz _ (by omega) h0 i h1 h2) (fun i j h1 h2 h3 => hU2 i j (by omega) (by omega) h3) hws hf hlb h2).mono ?_
        rintro m3 ⟨q1, q2, q3, q4⟩
        refine ⟨hle, ⟨q + 1, by rw [Nat.mul_add, Nat.mul_one, ← hq]⟩, ⟨_, q1, ?_, fun i j h1 h2 h3 => ?_⟩, q2, q3, F2.trans q4⟩
        rotate_left
        · rw [qbBlk, if_neg (by omega)]
          by_cases c : j < r - d - lb + lb
          · rw [if_pos c, if_pos (by omega)]
          · rw [if_neg c, blkVal, if_pos (by omega)]
            exact hU2 i j (by omega) (by omega) h3
        rw [← Nat.sub_sub]
        refine QbInv.block ?_ (by omega)
        rwa [show r - d - lb + lb = r - d by omega]
      · rintro d m2 hd - ⟨hle, -, ⟨y, h2, hI2, hU2⟩, H2, R2, F2⟩
        have : d = r := by omega
        subst this
        rw [Nat.sub_self] at hI2
        exact ⟨h2.congr fun i j hi hj => hI2.prod i j hi hj, H2, R2, F2⟩
    · rintro ⟨d, m2⟩ h
      exact Runs.pure h

end Armas
