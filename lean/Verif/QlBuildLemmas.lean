import Verif.QlBuild
import Verif.QlMultLemmas
import Verif.QrBuildLemmas

/-!
# Lemmas for C119
-/

namespace Armas

open Finset

variable {α : Type} [Field α] [DecidableEq α]

/-- The last `N` columns of the identity of order `M`. -/
def idq (M N i j : Nat) : α := if i = M - N + j then 1 else 0

/-- The matrix after column `c` was visited. -/
def qlbStep (M N c : Nat) (t : Nat → α) (x : Nat → Nat → α) (i j : Nat) : α :=
  if c < j then x i j else if j = c then refl M (t c) (qlw M N x c) (idq M N) i j else refl M (t c) (qlw M N x c) x i j

theorem sum_idq {M N : Nat} (g : Nat → α) {j : Nat} (hj : j < N) (h : N ≤ M) : ∑ l ∈ range M, g l * (idq M N l j : α) = g (M - N + j) := by
  rw [Finset.sum_eq_single (M - N + j)]
  · simp [idq]
  · intro b _ hb; simp [idq, hb]
  · intro h'; exact absurd (mem_range.mpr (by omega)) h'

theorem unblkQlbuildStep_spec (ab : α → α) {env : Env} (hmin : 2 ≤ env.blas2min ∨ (env.naive = true ∧ env.recursive = false))
    {fuel : Nat} {m : Mem α} {A tau : View} {w ws r c : Nat} {x : Nat → Nat → α} {t : Nat → α}
    (H : QbArgs m A tau w ws t) (hc : c < A.cols) (hr : r = A.rows - A.cols + c) (hws : c ≤ ws) (hf : A.rows < fuel) (hA : Holds m A x) :
    Runs (unblkQlbuildStep ab env fuel A tau w r c m) (fun m' => Holds m' A (qlbStep A.rows A.cols c t x) ∧ QbArgs m' A tau w ws t ∧
      Frame (A.foot ∪ wcells w ws) m m') := by
  have H' := H
  obtain ⟨wf, sh, len, ht, hW, dA, dW⟩ := H
  have dAt : Disjoint A.foot (tcells tau A.cols) := dA.mono_right fun p hp => Or.inl hp
  have dAw : Disjoint A.foot (wcells w ws) := dA.mono_right fun p hp => Or.inr hp
  unfold unblkQlbuildStep
  dsimp only
  set C := A.sub 0 0 (r + 1) c with hCd
  set B := A.sub 0 c (r + 1) 1 with hBd
  have et : ∀ l, l < 1 → (tau.sub c 0 1 1).at' l 0 = tau.at' c 0 := by
    intro l hl
    rw [View.at_sub, show c + l = c by omega]
  have st : tcells (tau.sub c 0 1 1) B.cols ⊆ tcells tau A.cols := by
    rintro p ⟨l, hl, rfl⟩
    exact ⟨c, hc, et l (by simpa [hBd] using hl)⟩
  have sB : B.foot ⊆ A.foot := View.sub_foot (by omega) (by omega)
  have sC : C.foot ⊆ A.foot := View.sub_foot (by omega) (by omega)
  have Q : QrmArgs m false C B (tau.sub c 0 1 1) w ws (fun i j => x i (c + j)) (fun _ => t c) := by
    refine ⟨wf.sub (by omega) (by omega), rfl, by simp only [hBd, View.sub_rows, View.sub_cols]; omega, ?_, ?_, hW, ?_, ?_⟩
    · refine (hA.part (by omega) (by omega)).congr fun i j _ _ => by rw [Nat.zero_add]
    · intro l hl
      simp only [hBd, View.sub_cols] at hl
      rw [et l hl]
      exact ht c hc
    · rw [Set.disjoint_union_right, Set.disjoint_union_right]
      refine ⟨⟨?_, dAt.mono sC st⟩, dAw.mono_left sC⟩
      exact View.sub_disj wf (by omega) (by omega) (by omega) (by omega) (by omega)
    · rw [Set.disjoint_union_right]
      exact ⟨dAw.symm.mono_right sB, dW.mono_right st⟩
  have hC : HoldsR false m C x := by
    refine Holds.congr (hA.part (r := 0) (c := 0) (nr := r + 1) (nc := c) (by omega) (by omega)) fun i j _ _ => ?_
    rw [Nat.zero_add, Nat.zero_add]; rfl
  have e : applyHH2x1 ab env fuel m (some (tau.at' c 0)) (A.sub 0 c r 1) (A.sub r 0 1 c) (A.sub 0 0 r c) ⟨w, c, c, 1⟩ true =
      qlmStep ab env fuel false C B (tau.sub c 0 1 1) w 0 m := by
    unfold qlmStep
    rw [et 0 (by omega)]
    simp only [hCd, hBd, rsub, rwid, Bool.false_eq_true, if_false, View.sub_sub, View.sub_rows, View.sub_cols, Nat.zero_add, Nat.add_zero, Bool.not_false,
      Nat.add_sub_cancel]
  rw [e]
  refine (qlmStep_spec ab hmin Q (by simpa [rwid, hCd] using hws) (by simp only [hBd, View.sub_rows]; omega)
    (by simp only [rwid, hCd, Bool.false_eq_true, if_false, View.sub_cols]; omega) (by simp only [hBd, View.sub_cols]; omega) hC).bind ?_
  rintro m1 ⟨q1, Q1, F1⟩
  have q1' : Holds m1 C (refl (r + 1) (t c) (qlw (r + 1) 1 (fun i j => x i (c + j)) 0) x) := q1
  have h1 := hA.put wf dAw (r := 0) (c := 0) (nr := r + 1) (nc := c) (by omega) (by omega) q1' F1
  have ht1 : m1 (tau.at' c 0) = some (t c) := by
    have := Q1.ht 0 (by simp only [hBd, View.sub_cols]; omega)
    rwa [et 0 (by omega)] at this
  refine Runs.rd_bind ht1 ?_
  beta_reduce
  have w01 : (A.sub 0 c r 1).WF := wf.sub (by omega) (by omega)
  refine (Props.C06_scale (-(t c)) (Or.inr rfl) w01 (Holds.toV_col (h1.part (by omega) (by omega)))).bind ?_
  rintro ⟨er, m2⟩ ⟨-, k2, F2⟩
  dsimp only at k2 F2 ⊢
  have h2 := h1.put wf (Set.disjoint_empty _) (r := 0) (c := c) (nr := r) (nc := 1) (by omega) (by omega) (HoldsV.col rfl k2)
    (F2.mono fun p hp => Or.inl hp)
  refine Runs.wr_bind (h2 r c (by omega) hc) ?_
  have h3 := h2.cell wf (i := r) (j := c) (by omega) hc (1 - t c)
  have F3 : Frame A.foot m2 (m2.set (A.at' r c) (1 - t c)) := Frame.set (View.at_mem_foot (show r < A.rows by omega) hc) _
  have w21 : (A.sub (r + 1) c (A.rows - r - 1) 1).WF := wf.sub (by omega) (by omega)
  refine (Props.C06_scale 0 (Or.inr rfl) w21 (Holds.toV_col (h3.part (by omega) (by omega)))).bind ?_
  rintro ⟨er, m4⟩ ⟨-, k4, F4⟩
  dsimp only at k4 F4 ⊢
  have h4 := h3.put wf (Set.disjoint_empty _) (r := r + 1) (c := c) (nr := A.rows - r - 1) (nc := 1) (by omega) (by omega) (HoldsV.col rfl k4)
    (F4.mono fun p hp => Or.inl hp)
  have FF : Frame A.foot m1 m4 := ((F2.mono (View.sub_foot (by omega) (by omega))).trans F3).trans (F4.mono (View.sub_foot (by omega) (by omega)))
  have F : Frame (A.foot ∪ wcells w ws) m m4 := (F1.mono (Set.union_subset_union_left _ sC)).trans (FF.mono fun p hp => Or.inl hp)
  refine Runs.pure ⟨h4.congr fun i j hi hj => ?_, H'.frame F ?_ ?_, F⟩
  · have es : ∑ l ∈ range A.rows, qlw A.rows A.cols x c l * idq A.rows A.cols l c = 1 := by
      rw [sum_idq _ hc sh, qlw, if_neg (by omega), if_pos rfl]
    have ed : refl A.rows (t c) (qlw A.rows A.cols x c) (idq A.rows A.cols) i c = idq A.rows A.cols i c - t c * qlw A.rows A.cols x c i := by
      unfold refl; rw [es, mul_one]
    unfold put qlbStep
    beta_reduce
    by_cases c1 : c < j
    · rw [if_neg (show ¬ (r + 1 ≤ i ∧ i < r + 1 + (A.rows - r - 1) ∧ c ≤ j ∧ j < c + 1) by omega), if_neg (show ¬ (i = r ∧ j = c) by omega),
        if_neg (show ¬ (0 ≤ i ∧ i < 0 + r ∧ c ≤ j ∧ j < c + 1) by omega), if_neg (show ¬ (0 ≤ i ∧ i < 0 + (r + 1) ∧ 0 ≤ j ∧ j < 0 + c) by omega), if_pos c1]
    rw [if_neg c1]
    by_cases c2 : j = c
    · rw [if_pos c2]
      subst c2
      rw [ed]
      by_cases c3 : r < i
      · rw [if_pos (show (r + 1 ≤ i ∧ i < r + 1 + (A.rows - r - 1) ∧ j ≤ j ∧ j < j + 1) by omega), zero_mul, qlw, if_pos (by omega), mul_zero, idq,
          if_neg (by omega), sub_zero]
      · rw [if_neg (show ¬ (r + 1 ≤ i ∧ i < r + 1 + (A.rows - r - 1) ∧ j ≤ j ∧ j < j + 1) by omega)]
        by_cases c4 : i = r
        · rw [if_pos ⟨c4, rfl⟩, idq, if_pos (by omega), qlw, if_neg (by omega), if_pos (by omega), mul_one]
        · rw [if_neg (show ¬ (i = r ∧ j = j) by omega), if_pos (show (0 ≤ i ∧ i < 0 + r ∧ j ≤ j ∧ j < j + 1) by omega), if_neg (by omega), idq,
            if_neg (by omega), qlw, if_neg (by omega), if_neg (by omega), Nat.add_zero, show 0 + (i - 0) = i by omega]
          ring
    · rw [if_neg (show ¬ (r + 1 ≤ i ∧ i < r + 1 + (A.rows - r - 1) ∧ c ≤ j ∧ j < c + 1) by omega), if_neg (show ¬ (i = r ∧ j = c) by omega),
        if_neg (show ¬ (0 ≤ i ∧ i < 0 + r ∧ c ≤ j ∧ j < c + 1) by omega), if_neg c2]
      by_cases c3 : i < r + 1
      · rw [if_pos (show (0 ≤ i ∧ i < 0 + (r + 1) ∧ 0 ≤ j ∧ j < 0 + c) by omega), Nat.sub_zero, Nat.sub_zero]
        unfold refl
        rw [sum_qlw _ (fun l => x l j) (by omega) (by omega), sum_qlw _ (fun l => x l j) hc sh, ← hr, show r + 1 - 1 + 0 = r by omega]
        have eq : qlw (r + 1) 1 (fun i j => x i (c + j)) 0 i = qlw A.rows A.cols x c i := by
          unfold qlw
          rw [← hr, show r + 1 - 1 + 0 = r by omega]
          rfl
        rw [eq, Nat.add_zero]
      · rw [if_neg (show ¬ (0 ≤ i ∧ i < 0 + (r + 1) ∧ 0 ≤ j ∧ j < 0 + c) by omega)]
        unfold refl
        rw [show qlw A.rows A.cols x c i = 0 by rw [qlw, if_pos (by omega)]]
        ring
  · exact Set.disjoint_union_right.mpr ⟨dAt.symm, dW.symm⟩
  · exact Q1.hW.frame FF dAw.symm

/-! ### All columns -/

omit [DecidableEq α] in
theorem qlProd_col {M N j : Nat} {t : Nat → α} {f : Nat → Nat → α} : ∀ (d : Nat) {b b' : Nat → Nat → α}, (∀ i, i < M → b i j = b' i j) →
    ∀ i, i < M → qlProd M N d t f b i j = qlProd M N d t f b' i j
  | 0, _, _, h, i, hi => h i hi
  | d + 1, _, _, h, i, hi => by
    unfold qlProd
    exact qlProd_col d (fun i hi => refl_congr hi (fun _ _ => rfl) h) i hi

/-- Invariant: columns from `c` on hold the reflectors, and these are what is missing in the others. -/
structure QlbInv (M N K c : Nat) (t : Nat → α) (f x : Nat → Nat → α) : Prop where
  keep : ∀ i j, i < M → c ≤ j → j < N → x i j = f i j
  prod : ∀ i j, i < M → j < N → qlProd M N (N - c) t f (fun i j => if c ≤ j then idq M N i j else x i j) i j = qlProd M N K t f (idq M N) i j

theorem refl_idq {M N c : Nat} {t : α} {f : Nat → Nat → α} {i j : Nat} (hc : c < j) (hj : j < N) (h : N ≤ M) :
    refl M t (qlw M N f c) (idq M N) i j = idq M N i j := by
  unfold refl
  rw [sum_idq _ hj h, show qlw M N f c (M - N + j) = 0 by rw [qlw, if_pos (by omega)], mul_zero, sub_zero]

theorem QlbInv.step {M N K c : Nat} {t : Nat → α} {f x : Nat → Nat → α} (h : QlbInv M N K c t f x) (hc : c < N) (hN : N ≤ M) :
    QlbInv M N K (c + 1) t f (qlbStep M N c t x) := by
  have ew : ∀ i, i < M → qlw M N x c i = qlw M N f c i := by
    intro i hi
    unfold qlw
    rw [h.keep i c hi (le_refl _) hc]
  refine ⟨fun i j hi hj hj' => ?_, fun i j hi hj => ?_⟩
  · rw [qlbStep, if_pos (by omega)]; exact h.keep i j hi (by omega) hj'
  · rw [← h.prod i j hi hj, show N - c = (N - (c + 1)) + 1 by omega, qlProd, show N - 1 - (N - (c + 1)) = c by omega]
    refine qlProd_col _ (fun i hi => ?_) i hi
    by_cases c1 : c + 1 ≤ j
    · rw [if_pos c1, ← refl_idq (t := t c) (f := f) (c := c) c1 hj hN]
      exact refl_congr hi (fun _ _ => rfl) fun l hl => by rw [if_pos (by omega)]
    · rw [if_neg c1, qlbStep, if_neg (by omega)]
      by_cases c2 : j = c
      · rw [if_pos c2]
        exact refl_congr hi ew fun l hl => by rw [if_pos (by omega)]
      · rw [if_neg c2]
        exact refl_congr hi ew fun l hl => by rw [if_neg (by omega)]

theorem qlClear_spec {m : Mem α} {A : View} {K : Nat} {f : Nat → Nat → α} (wf : A.WF) (sh : A.cols ≤ A.rows) (hK : K ≤ A.cols) (hA : Holds m A f) :
    Runs (qlClear m A (A.rows - K) (A.cols - K)) (fun m' => Holds m' A (fun i j => if A.cols - K ≤ j then f i j else idq A.rows A.cols i j) ∧
      Frame A.foot m m') := by
  unfold qlClear
  obtain ⟨s, hs⟩ : ∃ s, A.rows - A.cols = s := ⟨_, rfl⟩
  rw [show A.rows - (A.rows - K) = K by omega, show A.rows - K - (A.cols - K) = s by omega, show A.rows - K - s = A.cols - K by omega]
  have s1 : (A.sub (A.rows - K) 0 K (A.cols - K)).foot ⊆ A.foot := View.sub_foot (by omega) (by omega)
  have s2 : (A.sub 0 0 (A.rows - K) (A.cols - K)).foot ⊆ A.foot := View.sub_foot (by omega) (by omega)
  refine ((Props.C51_mscale_all (alpha := 0) (unit := false) (wf.sub (by omega) (by omega)) (hA.part (by omega) (by omega))).1).bind ?_
  rintro ⟨e, m1⟩ ⟨-, k1, F1⟩
  dsimp only at k1 F1 ⊢
  have h1 := hA.put wf (Set.disjoint_empty _) (r := A.rows - K) (c := 0) (nr := K) (nc := A.cols - K) (by omega) (by omega) k1 (F1.mono fun p hp => Or.inl hp)
  refine ((Props.C51_mscale_all (alpha := 0) (unit := false) (wf.sub (by omega) (by omega)) (h1.part (by omega) (by omega))).1).bind ?_
  rintro ⟨e, m2⟩ ⟨-, k2, F2⟩
  dsimp only at k2 F2 ⊢
  have h2 := h1.put wf (Set.disjoint_empty _) (r := 0) (c := 0) (nr := A.rows - K) (nc := A.cols - K) (by omega) (by omega) k2 (F2.mono fun p hp => Or.inl hp)
  set B := A.sub s 0 (A.cols - K) (A.cols - K) with hB
  have eB : ∀ i, (diagRow B).at' 0 i = A.at' (s + i) i := fun i => by rw [diagRow_at, hB, View.at_sub, Nat.zero_add]
  have cD : (diagRow B).cols = A.cols - K := by
    simp only [diagRow, hB, View.sub_rows, View.sub_cols]; omega
  have k2' : Holds m2 (diagRow B) (fun _ _ => 0) := by
    intro i j hi hj
    have : i = 0 := by have : i < 1 := hi; omega
    subst this
    rw [cD] at hj
    rw [eB, h2 (s + j) j (by omega) (by omega), put, if_pos (by omega), zero_mul]
  have wD : (diagRow B).WF := Or.inl (by simp [diagRow])
  refine ((Props.C51_madd_all (alpha := 1) (unit := false) wD k2').1).bind ?_
  rintro ⟨e, m3⟩ ⟨-, k3, F3⟩
  dsimp only at k3 F3 ⊢
  have sD : (diagRow B).foot ⊆ A.foot := by
    rintro p ⟨i, j, hi, hj, rfl⟩
    have : i = 0 := by have : i < 1 := hi; omega
    subst this
    rw [cD] at hj
    rw [eB]
    exact View.at_mem_foot (by omega) (by omega)
  refine Runs.pure ⟨fun i j hi hj => ?_, ((F1.mono s1).trans (F2.mono s2)).trans (F3.mono sD)⟩
  by_cases c1 : j < A.cols - K ∧ i = s + j
  · obtain ⟨c1, rfl⟩ := c1
    have := k3 0 j (by simp [diagRow]) (by rw [cD]; omega)
    rw [eB] at this
    rw [this]
    beta_reduce
    rw [if_neg (by omega), idq, if_pos (by omega), zero_add]
  · rw [F3 _ ?_, h2 i j hi hj]
    · unfold put
      beta_reduce
      by_cases c2 : A.cols - K ≤ j
      · rw [if_neg (by omega), if_neg (by omega), if_pos c2]
      · rw [if_neg c2, show (idq A.rows A.cols i j : α) = 0 from if_neg (by omega)]
        by_cases c3 : A.rows - K ≤ i
        · rw [if_neg (by omega), if_pos (by omega), zero_mul]
        · rw [if_pos (by omega), zero_mul]
    · rintro ⟨p, q, hp, hq, e⟩
      have : p = 0 := by have : p < 1 := hp; omega
      subst this
      rw [cD] at hq
      rw [eB] at e
      obtain ⟨e1, e2⟩ := View.at_inj wf hi hj (by omega) (by omega) e
      omega

theorem unblkQlbuild_spec (ab : α → α) {env : Env} (hmin : 2 ≤ env.blas2min ∨ (env.naive = true ∧ env.recursive = false))
    {fuel : Nat} {m : Mem α} {A tau : View} {w ws K : Nat} {f : Nat → Nat → α} {t : Nat → α}
    (H : QbArgs m A tau w ws t) (hK : K ≤ A.cols) (hws : A.cols ≤ ws) (hf : A.rows < fuel) (hA : Holds m A f) :
    Runs (unblkQlbuild ab env fuel m A tau w K) (fun m' => Holds m' A (qlProd A.rows A.cols K t f (idq A.rows A.cols)) ∧ QbArgs m' A tau w ws t ∧
      Frame (A.foot ∪ wcells w ws) m m') := by
  unfold unblkQlbuild
  have sh := H.sh
  have dAt : Disjoint A.foot (tcells tau A.cols) := H.dA.mono_right fun p hp => Or.inl hp
  have dAw : Disjoint A.foot (wcells w ws) := H.dA.mono_right fun p hp => Or.inr hp
  have fin : ∀ x : Nat → Nat → α, (∀ i j, i < A.rows → j < A.cols - K → x i j = idq A.rows A.cols i j) → ∀ i j, i < A.rows → j < A.cols →
      qlProd A.rows A.cols (A.cols - (A.cols - K)) t f (fun i j => if A.cols - K ≤ j then idq A.rows A.cols i j else x i j) i j =
      qlProd A.rows A.cols K t f (idq A.rows A.cols) i j := by
    intro x hx i j hi hj
    rw [show A.cols - (A.cols - K) = K by omega]
    refine qlProd_col _ (fun i hi => ?_) i hi
    by_cases c : A.cols - K ≤ j
    · rw [if_pos c]
    · rw [if_neg c, hx i j hi (by omega)]
  refine Runs.bind (P := fun m1 => (∃ x, Holds m1 A x ∧ QlbInv A.rows A.cols K (A.cols - K) t f x) ∧ Frame A.foot m m1) ?_ ?_
  · by_cases c : 0 < A.cols - K
    · rw [if_pos c]
      refine (qlClear_spec H.wf sh hK hA).mono ?_
      rintro m1 ⟨h1, F1⟩
      exact ⟨⟨_, h1, fun i j _ hj _ => by rw [if_pos hj], fin _ fun i j _ h => by rw [if_neg (by omega)]⟩, F1⟩
    · rw [if_neg c]
      exact Runs.pure ⟨⟨f, hA, fun _ _ _ _ _ => rfl, fin _ fun i j _ h => by omega⟩, Frame.refl _ _⟩
  · rintro m1 ⟨⟨x, h1, hI⟩, F1⟩
    refine Runs.bind (P := fun r => Holds r.2 A (qlProd A.rows A.cols K t f (idq A.rows A.cols)) ∧ QbArgs r.2 A tau w ws t ∧
      Frame (A.foot ∪ wcells w ws) m r.2) ?_ ?_
    · refine Runs.forUp1 (i := 0) (n := K) (I := fun d m' => ∃ y, Holds m' A y ∧ QlbInv A.rows A.cols K (A.cols - K + d) t f y ∧ QbArgs m' A tau w ws t ∧
        Frame (A.foot ∪ wcells w ws) m m') (Nat.zero_le _) ⟨x, h1, hI, H.frame F1 dAt.symm (H.hW.frame F1 dAw.symm), F1.mono fun p hp => Or.inl hp⟩ ?_ ?_
      · rintro d m2 - hd ⟨y, k1, k2, k3, k4⟩
        refine (unblkQlbuildStep_spec ab hmin k3 (by omega) (by omega) (by omega) hf k1).mono ?_
        rintro m3 ⟨q1, q2, q3⟩
        exact ⟨_, q1, k2.step (by omega) sh, q2, k4.trans q3⟩
      · rintro m2 ⟨y, k1, k2, k3, k4⟩
        refine ⟨k1.congr fun i j hi hj => ?_, k3, k4⟩
        have := k2.prod i j hi hj
        rw [show A.cols - (A.cols - K + K) = 0 by omega, qlProd, if_neg (by omega)] at this
        exact this
    · rintro ⟨k, m'⟩ h
      exact Runs.pure h

end Armas
