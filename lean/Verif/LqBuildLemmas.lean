import Verif.LqMultLemmas
import Verif.QrBuildLemmas
import Verif.LqBuild

/-!
# Lemmas on the construction of the orthogonal matrix of an LQ factorization

As in `Verif.QrBuildLemmas`, for the transpose: `x i j` is the element of row `j` and column `i`.
-/

namespace Armas

open Finset

/-! ### The transposed matrix in memory -/

section tr

variable {α : Type}

/-- `A` holds the transpose of `x`. -/
def HoldsT (m : Mem α) (A : View) (x : Nat → Nat → α) : Prop := ∀ i j, i < A.cols → j < A.rows → m (A.at' j i) = some (x i j)

theorem HoldsT.holds {m : Mem α} {A : View} {x : Nat → Nat → α} (h : HoldsT m A x) : Holds m A fun i j => x j i := fun i j hi hj => h j i hj hi

theorem Holds.toT {m : Mem α} {A : View} {x : Nat → Nat → α} (h : Holds m A fun i j => x j i) : HoldsT m A x := fun i j hi hj => h j i hj hi

theorem HoldsT.part {m : Mem α} {A : View} {v : Nat → Nat → α} {r c nr nc : Nat} (h : HoldsT m A v)
    (hr : r + nr ≤ A.cols) (hc : c + nc ≤ A.rows) : HoldsT m (A.sub c r nc nr) (fun i j => v (r + i) (c + j)) := by
  intro i j hi hj
  rw [View.sub_cols] at hi
  rw [View.sub_rows] at hj
  rw [View.at_sub]
  exact h _ _ (by omega) (by omega)

theorem HoldsT.congr {m : Mem α} {V : View} {a b : Nat → Nat → α} (h : HoldsT m V a)
    (e : ∀ i j, i < V.cols → j < V.rows → a i j = b i j) : HoldsT m V b := by
  intro i j hi hj
  rw [h i j hi hj, e i j hi hj]

theorem HoldsT.frame {m m' : Mem α} {V : View} {a : Nat → Nat → α} {S : Set Nat}
    (h : HoldsT m V a) (hf : Frame S m m') (hd : Disjoint V.foot S) : HoldsT m' V a := (h.holds.frame hf hd).toT

theorem HoldsT.put {m m' : Mem α} {V : View} {v w : Nat → Nat → α} (h : HoldsT m V v) (hw : V.WF) {F : Set Nat}
    (dF : Disjoint V.foot F) {r c nr nc : Nat} (hr : r + nr ≤ V.cols) (hc : c + nc ≤ V.rows)
    (hb : HoldsT m' (V.sub c r nc nr) w) (hf : Frame ((V.sub c r nc nr).foot ∪ F) m m') :
    HoldsT m' V (put r c nr nc w v) := by
  refine Holds.toT ((h.holds.put hw dF hc hr hb.holds hf).congr fun i j _ _ => ?_)
  unfold Armas.put
  refine if_congr ?_ rfl rfl
  omega

theorem HoldsT.cell {m : Mem α} {V : View} {v : Nat → Nat → α} (h : HoldsT m V v) (hw : V.WF) {i j : Nat}
    (hi : i < V.cols) (hj : j < V.rows) (x : α) :
    HoldsT (m.set (V.at' j i) x) V (fun p q => if p = i ∧ q = j then x else v p q) := by
  refine Holds.toT ((h.holds.cell hw hj hi x).congr fun p q _ _ => if_congr (by omega) rfl rfl)

theorem HoldsT.toV {m : Mem α} {V : View} {r c n : Nat} {a : Nat → Nat → α}
    (h : HoldsT m (V.sub r c 1 n) a) : HoldsV m (V.sub r c 1 n) (fun k => a k 0) := h.holds.toV_row

theorem HoldsV.toT {m : Mem α} {V : View} {r c n : Nat} {y : Nat → α} (h : HoldsV m (V.sub r c 1 n) y) :
    HoldsT m (V.sub r c 1 n) (fun i _ => y i) := by
  rw [holdsV_iff (Or.inl rfl)] at h
  refine Holds.toT (h.congr fun i j hi _ => ?_)
  have : i = 0 := by rw [View.sub_rows] at hi; omega
  subst this
  rw [Nat.zero_add]

theorem HoldsT.toR {m : Mem α} {V : View} {x : Nat → Nat → α} (h : HoldsT m V x) : HoldsR true m V x := h.holds

theorem HoldsR.toT {m : Mem α} {V : View} {x : Nat → Nat → α} (h : HoldsR true m V x) : HoldsT m V x := Holds.toT h

theorem mscaleT [CommRing α] [DecidableEq α] {m : Mem α} {A : View} {a : Nat → Nat → α} {alpha : α} {unit : Bool} (hw : A.WF) (h : HoldsT m A a) :
    Runs (mscale m A alpha .all unit) (fun r => r.1 = 0 ∧ HoldsT r.2 A (fun i j => alpha * a i j) ∧ Frame A.foot m r.2) :=
  ((Props.C51_mscale_all hw h.holds).1).mono fun _ h => ⟨h.1, h.2.1.toT, h.2.2⟩

end tr

variable {α : Type} [Field α] [DecidableEq α]

/-! ### One column -/

/-- Arguments of the construction. -/
structure LbArgs (m : Mem α) (A tau : View) (w ws : Nat) (t : Nat → α) : Prop where
  wf : A.WF
  sh : A.rows ≤ A.cols
  len : tau.rows = A.rows
  ht : ∀ k, k < A.rows → m (tau.at' k 0) = some (t k)
  hW : WAlloc m w ws
  dA : Disjoint A.foot (tcells tau A.rows ∪ wcells w ws)
  dW : Disjoint (wcells w ws) (tcells tau A.rows)

theorem LbArgs.frame {m m' : Mem α} {A tau : View} {w ws : Nat} {t : Nat → α} (H : LbArgs m A tau w ws t) {S : Set Nat} (F : Frame S m m')
    (hS : Disjoint (tcells tau A.rows) S) (hW : WAlloc m' w ws) : LbArgs m' A tau w ws t := by
  obtain ⟨wf, sh, len, ht, -, dA, dW⟩ := H
  refine ⟨wf, sh, len, fun k hk => ?_, hW, dA, dW⟩
  rw [F _ (Set.disjoint_left.mp hS ⟨k, hk, rfl⟩)]
  exact ht k hk

theorem unblkLqbuildStep_spec (ab : α → α) {env : Env} (hmin : 2 ≤ env.blas2min ∨ (env.naive = true ∧ env.recursive = false))
    {fuel : Nat} {m : Mem α} {A tau : View} {w ws k : Nat} {x : Nat → Nat → α} {t : Nat → α}
    (H : LbArgs m A tau w ws t) (hk : k < A.rows) (hws : A.rows - k - 1 ≤ ws) (hf : A.cols < fuel) (hA : HoldsT m A x) :
    Runs (unblkLqbuildStep ab env fuel A tau w k m) (fun m' => HoldsT m' A (qbStep A.cols k t x) ∧ LbArgs m' A tau w ws t ∧
      Frame (A.foot ∪ wcells w ws) m m') := by
  have H' := H
  obtain ⟨wf, sh, len, ht, hW, dA, dW⟩ := H
  have dAt : Disjoint A.foot (tcells tau A.rows) := dA.mono_right fun p hp => Or.inl hp
  have dAw : Disjoint A.foot (wcells w ws) := dA.mono_right fun p hp => Or.inr hp
  unfold unblkLqbuildStep
  rw [len, Nat.sub_self, Nat.zero_add]
  dsimp only
  set C := A.sub (k + 1) 0 (A.rows - k - 1) A.cols with hCd
  set B := A.sub 0 0 (k + 1) A.cols with hBd
  have st : tcells tau B.rows ⊆ tcells tau A.rows := by
    rintro p ⟨l, hl, rfl⟩
    exact ⟨l, by simp only [hBd, View.sub_rows] at hl; omega, rfl⟩
  have sB : B.foot ⊆ A.foot := View.sub_foot (by omega) (by omega)
  have sC : C.foot ⊆ A.foot := View.sub_foot (by omega) (by omega)
  have Q : LqmArgs m true C B tau w ws x t := by
    refine ⟨wf.sub (by omega) (by omega), rfl, by simp only [hBd, View.sub_cols, View.sub_rows]; omega, ?_, ?_, hW, ?_, ?_⟩
    · refine ((hA.part (r := 0) (c := 0) (by omega) (by omega)).congr fun i j _ _ => by rw [Nat.zero_add, Nat.zero_add]).holds
    · intro l hl
      simp only [hBd, View.sub_rows] at hl
      exact ht l (by omega)
    · rw [Set.disjoint_union_right, Set.disjoint_union_right]
      refine ⟨⟨?_, dAt.mono sC st⟩, dAw.mono_left sC⟩
      exact (View.sub_disj wf (by omega) (by omega) (by omega) (by omega) (by omega)).symm
    · rw [Set.disjoint_union_right]
      exact ⟨dAw.symm.mono_right sB, dW.mono_right st⟩
  have hC : HoldsR true m C (fun i j => x i (k + 1 + j)) := by
    refine HoldsT.toR (HoldsT.congr (hA.part (r := 0) (c := k + 1) (nr := A.cols) (nc := A.rows - k - 1) (by omega) (by omega)) fun i j _ _ => ?_)
    rw [Nat.zero_add]
  have e : applyHH2x1 ab env fuel m (some (tau.at' k 0)) (A.sub k (k + 1) 1 (A.cols - k - 1)) (A.sub (k + 1) k (A.rows - k - 1) 1)
      (A.sub (k + 1) (k + 1) (A.rows - k - 1) (A.cols - k - 1)) ⟨w, A.rows - k - 1, A.rows - k - 1, 1⟩ false =
      lqmStep ab env fuel true C B tau w k m := by
    unfold lqmStep
    simp only [hCd, hBd, rsub, rlen, rwid, if_true, View.sub_sub, View.sub_cols, View.sub_rows, Nat.zero_add, Nat.add_zero, Bool.not_true]
  rw [e]
  refine (lqmStep_spec ab hmin Q (by simpa [rwid, hCd] using hws) (by simpa [hBd] using hf) (by simp only [rwid, hCd, if_true, View.sub_rows]; omega)
    (by simp only [hBd, View.sub_rows]; omega) hC).bind ?_
  rintro m1 ⟨q1, Q1, F1⟩
  have q1' : HoldsT m1 C (refl A.cols (t k) (qrw x k) (fun i j => x i (k + 1 + j))) := q1.toT
  have h1 := hA.put wf dAw (r := 0) (c := k + 1) (nr := A.cols) (nc := A.rows - k - 1) (by omega) (by omega) q1' F1
  have ht1 : m1 (tau.at' k 0) = some (t k) := Q1.ht k (by simp only [hBd, View.sub_rows]; omega)
  refine Runs.rd_bind ht1 ?_
  beta_reduce
  have w21 : (A.sub k (k + 1) 1 (A.cols - k - 1)).WF := wf.sub (by omega) (by omega)
  refine (Props.C06_scale (-(t k)) (Or.inl rfl) w21 (HoldsT.toV (h1.part (by omega) (by omega)))).bind ?_
  rintro ⟨er, m2⟩ ⟨-, k2, F2⟩
  dsimp only at k2 F2 ⊢
  have h2 := h1.put wf (Set.disjoint_empty _) (r := k + 1) (c := k) (nr := A.cols - k - 1) (nc := 1) (by omega) (by omega) (HoldsV.toT k2)
    (F2.mono fun p hp => Or.inl hp)
  refine Runs.wr_bind (h2 k k (by omega) hk) ?_
  have h3 := h2.cell wf (i := k) (j := k) (by omega) hk (1 - t k)
  have F3 : Frame A.foot m2 (m2.set (A.at' k k) (1 - t k)) := Frame.set (View.at_mem_foot hk (show k < A.cols by omega)) _
  have w01 : (A.sub k 0 1 k).WF := wf.sub (by omega) (by omega)
  refine (Props.C06_scale 0 (Or.inl rfl) w01 (HoldsT.toV (h3.part (by omega) (by omega)))).bind ?_
  rintro ⟨er, m4⟩ ⟨-, k4, F4⟩
  dsimp only at k4 F4 ⊢
  have h4 := h3.put wf (Set.disjoint_empty _) (r := 0) (c := k) (nr := k) (nc := 1) (by omega) (by omega) (HoldsV.toT k4)
    (F4.mono fun p hp => Or.inl hp)
  have FF : Frame A.foot m1 m4 := ((F2.mono (View.sub_foot (by omega) (by omega))).trans F3).trans (F4.mono (View.sub_foot (by omega) (by omega)))
  have F : Frame (A.foot ∪ wcells w ws) m m4 := (F1.mono (Set.union_subset_union_left _ sC)).trans (FF.mono fun p hp => Or.inl hp)
  refine Runs.pure ⟨h4.congr fun i j hi hj => ?_, H'.frame F ?_ ?_, F⟩
  · have es : ∑ l ∈ range A.cols, qrw x k l * idm l k = 1 := by
      rw [sum_idm _ (by omega), qrw, if_neg (by omega), if_pos rfl]
    have ed : refl A.cols (t k) (qrw x k) idm i k = idm i k - t k * qrw x k i := by
      unfold refl; rw [es, mul_one]
    unfold put qbStep
    beta_reduce
    by_cases c1 : j < k
    · rw [if_neg (show ¬ (0 ≤ i ∧ i < 0 + k ∧ k ≤ j ∧ j < k + 1) by omega), if_neg (show ¬ (i = k ∧ j = k) by omega), if_neg (show ¬ (k + 1 ≤ i ∧ i < k + 1 + (A.cols - k - 1) ∧ k ≤ j ∧ j < k + 1) by omega), if_neg (show ¬ (0 ≤ i ∧ i < 0 + A.cols ∧ k + 1 ≤ j ∧ j < k + 1 + (A.rows - k - 1)) by omega), if_pos c1]
    rw [if_neg c1]
    by_cases c2 : j = k
    · rw [if_pos c2]
      subst c2
      rw [ed]
      by_cases c3 : i < j
      · rw [if_pos (show (0 ≤ i ∧ i < 0 + j ∧ j ≤ j ∧ j < j + 1) by omega), zero_mul, qrw, if_pos c3, mul_zero, idm, if_neg (by omega), sub_zero]
      · rw [if_neg (show ¬ (0 ≤ i ∧ i < 0 + j ∧ j ≤ j ∧ j < j + 1) by omega)]
        by_cases c4 : i = j
        · subst c4
          rw [if_pos ⟨rfl, rfl⟩, idm, if_pos rfl, qrw, if_neg (by omega), if_pos rfl, mul_one]
        · rw [if_neg (show ¬ (i = j ∧ j = j) by omega), if_pos (show (j + 1 ≤ i ∧ i < j + 1 + (A.cols - j - 1) ∧ j ≤ j ∧ j < j + 1) by omega), if_neg (by omega), idm, if_neg c4, qrw, if_neg c3, if_neg c4, Nat.add_zero,
            show j + 1 + (i - (j + 1)) = i by omega]
          ring
    · rw [if_neg (show ¬ (0 ≤ i ∧ i < 0 + k ∧ k ≤ j ∧ j < k + 1) by omega), if_neg (show ¬ (i = k ∧ j = k) by omega), if_neg (show ¬ (k + 1 ≤ i ∧ i < k + 1 + (A.cols - k - 1) ∧ k ≤ j ∧ j < k + 1) by omega), if_pos (show (0 ≤ i ∧ i < 0 + A.cols ∧ k + 1 ≤ j ∧ j < k + 1 + (A.rows - k - 1)) by omega), if_neg c2, Nat.sub_zero]
      unfold refl
      beta_reduce
      rw [show k + 1 + (j - (k + 1)) = j by omega]
  · exact Set.disjoint_union_right.mpr ⟨dAt.symm, dW.symm⟩
  · exact Q1.hW.frame FF dAw.symm

/-! ### All columns -/

theorem lbLoop_spec (ab : α → α) {env : Env} (hmin : 2 ≤ env.blas2min ∨ (env.naive = true ∧ env.recursive = false))
    {fuel : Nat} {m : Mem α} {A tau : View} {w ws K : Nat} {f x : Nat → Nat → α} {t : Nat → α}
    (H : LbArgs m A tau w ws t) (hK : K ≤ A.rows) (hws : A.rows - 1 ≤ ws) (hf : A.cols < fuel) (hA : HoldsT m A x) (hI : QbInv A.cols A.rows K K t f x) :
    Runs (forDown K (unblkLqbuildStep ab env fuel A tau w) m) (fun m' => HoldsT m' A (qrProd A.cols K t f idm) ∧ LbArgs m' A tau w ws t ∧
      Frame (A.foot ∪ wcells w ws) m m') := by
  have sh := H.sh
  refine Runs.forDown (I := fun k m' => ∃ y, HoldsT m' A y ∧ QbInv A.cols A.rows K k t f y ∧ LbArgs m' A tau w ws t ∧ Frame (A.foot ∪ wcells w ws) m m') ?_ ?_ ?_
  · exact ⟨x, hA, hI, H, Frame.refl _ _⟩
  · rintro k m1 hk ⟨y, h1, h2, h3, h4⟩
    refine (unblkLqbuildStep_spec ab hmin h3 (by omega) (by omega) hf h1).mono ?_
    rintro m2 ⟨q1, q2, q3⟩
    exact ⟨_, q1, h2.step (by omega), q2, h4.trans q3⟩
  · rintro m' ⟨y, h1, h2, h3, h4⟩
    exact ⟨h1.congr fun i j hi hj => h2.prod i j hi hj, h3, h4⟩

theorem lqClear_spec {m : Mem α} {A : View} {K : Nat} {f : Nat → Nat → α} (wf : A.WF) (sh : A.rows ≤ A.cols) (hK : K ≤ A.rows) (hA : HoldsT m A f) :
    Runs (lqClear m A K) (fun m' => HoldsT m' A (fun i j => if j < K then f i j else idm i j) ∧ Frame A.foot m m') := by
  unfold lqClear
  have s1 : (A.sub K 0 (A.rows - K) K).foot ⊆ A.foot := View.sub_foot (by omega) (by omega)
  have s2 : (A.sub K K (A.rows - K) (A.cols - K)).foot ⊆ A.foot := View.sub_foot (by omega) (by omega)
  refine (mscaleT (alpha := 0) (unit := false) (wf.sub (by omega) (by omega)) (hA.part (by omega) (by omega))).bind ?_
  rintro ⟨e, m1⟩ ⟨-, k1, F1⟩
  dsimp only at k1 F1 ⊢
  have h1 := hA.put wf (Set.disjoint_empty _) (r := 0) (c := K) (nr := K) (nc := A.rows - K) (by omega) (by omega) k1 (F1.mono fun p hp => Or.inl hp)
  refine (mscaleT (alpha := 0) (unit := false) (wf.sub (by omega) (by omega)) (h1.part (by omega) (by omega))).bind ?_
  rintro ⟨e, m2⟩ ⟨-, k2, F2⟩
  dsimp only at k2 F2 ⊢
  have h2 := h1.put wf (Set.disjoint_empty _) (r := K) (c := K) (nr := A.cols - K) (nc := A.rows - K) (by omega) (by omega) k2 (F2.mono fun p hp => Or.inl hp)
  set B := A.sub K K (A.rows - K) (A.cols - K) with hB
  have eB : ∀ i, (diagRow B).at' 0 i = A.at' (K + i) (K + i) := fun i => by rw [diagRow_at, hB, View.at_sub]
  have cD : (diagRow B).cols = A.rows - K := by
    simp only [diagRow, hB, View.sub_cols, View.sub_rows]; omega
  have k2' : Holds m2 (diagRow B) (fun _ _ => 0) := by
    intro i j hi hj
    have : i = 0 := by have : i < 1 := hi; omega
    subst this
    rw [cD] at hj
    rw [eB, h2 (K + j) (K + j) (by omega) (by omega), put, if_pos (by omega), zero_mul]
  have wD : (diagRow B).WF := Or.inl (by simp [diagRow])
  refine ((Props.C51_madd_all (alpha := 1) (unit := false) wD k2').1).bind ?_
  rintro ⟨e, m3⟩ ⟨-, k3, F3⟩
  dsimp only at k3 F3 ⊢
  have sD : (diagRow B).foot ⊆ A.foot := by
    rintro p ⟨i, j, hi, hj, rfl⟩
    have : i = 0 := by have : i < 1 := hi; omega
    subst this
    rw [cD] at hj
    rw [eB]
    exact View.at_mem_foot (by omega) (by omega)
  refine Runs.pure ⟨fun i j hi hj => ?_, ((F1.mono s1).trans (F2.mono s2)).trans (F3.mono sD)⟩
  by_cases c1 : K ≤ j ∧ i = j
  · obtain ⟨c1, rfl⟩ := c1
    have := k3 0 (i - K) (by simp [diagRow]) (by rw [cD]; omega)
    rw [eB, show K + (i - K) = i by omega] at this
    rw [this]
    beta_reduce
    rw [if_neg (by omega), idm, if_pos rfl, zero_add]
  · rw [F3 _ ?_, h2 i j hi hj]
    · unfold put
      beta_reduce
      by_cases c2 : j < K
      · rw [if_neg (by omega), if_neg (by omega), if_pos c2]
      · rw [if_neg c2, show (idm i j : α) = 0 from if_neg (by omega)]
        by_cases c3 : K ≤ i
        · rw [if_pos (by omega), zero_mul]
        · rw [if_neg (by omega), if_pos (by omega), zero_mul]
    · rintro ⟨p, q, hp, hq, e⟩
      have : p = 0 := by have : p < 1 := hp; omega
      subst this
      rw [cD] at hq
      rw [eB] at e
      obtain ⟨e1, e2⟩ := View.at_inj wf hj hi (by omega) (by omega) e
      omega

theorem unblkLqbuild_spec (ab : α → α) {env : Env} (hmin : 2 ≤ env.blas2min ∨ (env.naive = true ∧ env.recursive = false))
    {fuel : Nat} {m : Mem α} {A tau : View} {w ws K : Nat} {f : Nat → Nat → α} {t : Nat → α} {mayclear : Bool}
    (H : LbArgs m A tau w ws t) (hK : K ≤ A.rows) (hcl : mayclear = true ∨ K = A.rows) (hws : A.rows - 1 ≤ ws) (hf : A.cols < fuel) (hA : HoldsT m A f) :
    Runs (unblkLqbuild ab env fuel m A tau w K mayclear) (fun m' => HoldsT m' A (qrProd A.cols K t f idm) ∧ LbArgs m' A tau w ws t ∧
      Frame (A.foot ∪ wcells w ws) m m') := by
  unfold unblkLqbuild
  have fin : ∀ i j, i < A.cols → j < A.rows → ∀ x : Nat → Nat → α, (∀ i j, i < A.cols → j < A.rows → K ≤ j → x i j = idm i j) →
      qrProd A.cols K t f (fun i j => if j < K then idm i j else x i j) i j = qrProd A.cols K t f idm i j := by
    intro i j hi hj x hx
    refine qrProd_congr (N := A.rows) (fun _ _ => rfl) (fun _ _ _ _ => rfl) (fun i j hi hj => ?_) i j hi hj
    by_cases c : j < K
    · rw [if_pos c]
    · rw [if_neg c, hx i j hi hj (by omega)]
  refine Runs.bind (P := fun m1 => (∃ x, HoldsT m1 A x ∧ QbInv A.cols A.rows K K t f x) ∧ Frame A.foot m m1) ?_ ?_
  · by_cases c : 0 < A.rows - K ∧ mayclear = true
    · rw [if_pos c]
      refine (lqClear_spec H.wf H.sh hK hA).mono ?_
      rintro m1 ⟨h1, F1⟩
      refine ⟨⟨_, h1, fun i j _ hj => by rw [if_pos hj], fun i j hi hj => fin i j hi hj _ fun i j _ _ h => by rw [if_neg (by omega)]⟩, F1⟩
    · rw [if_neg c]
      have : K = A.rows := by
        rcases hcl with h | h
        · by_contra hne
          exact c ⟨by omega, h⟩
        · exact h
      exact Runs.pure ⟨⟨f, hA, fun _ _ _ _ => rfl, fun i j hi hj => fin i j hi hj _ fun i j _ _ h => by omega⟩, Frame.refl _ _⟩
  · rintro m1 ⟨⟨x, h1, hI⟩, F1⟩
    have dAt : Disjoint A.foot (tcells tau A.rows) := H.dA.mono_right fun p hp => Or.inl hp
    have dAw : Disjoint A.foot (wcells w ws) := H.dA.mono_right fun p hp => Or.inr hp
    refine (lbLoop_spec ab hmin (H.frame F1 dAt.symm (H.hW.frame F1 dAw.symm)) hK hws hf h1 hI).mono ?_
    rintro m2 ⟨q1, q2, q3⟩
    exact ⟨q1, q2, (F1.mono fun p hp => Or.inl hp).trans q3⟩

/-! ### One block -/

/-- Block reflector and update in `blkLqbuildStep`. -/
def lbUpd (ab : α → α) (env : Env) (fuel : Nat) (A tau : View) (w W lb : Nat) (cbuf : Option Cache) (k : Nat) (m : Mem α) : Res (Mem α) := do
  let (_, m) ← mscale m ⟨w, lb, lb, lb⟩ 0 .all false
  let m ← lqReflector ab env fuel m ⟨w, lb, lb, lb⟩ (A.sub k k lb (A.cols - k)) (tau.sub k 0 lb 1)
  updateLqRight ab env fuel m (A.sub (k + lb) k (A.rows - k - lb) lb) (A.sub (k + lb) (k + lb) (A.rows - k - lb) (A.cols - k - lb)) (A.sub k k lb lb)
    (A.sub k (k + lb) lb (A.cols - k - lb)) ⟨w, lb, lb, lb⟩ ⟨W, A.rows - k - lb, A.rows - k - lb, lb⟩ false cbuf

theorem blkLqbuildStep_eq (ab : α → α) (env : Env) (fuel : Nat) (A tau : View) (w W lb : Nat) (cbuf : Option Cache) (k : Nat) (m : Mem α)
    (h : tau.rows = A.rows) : blkLqbuildStep ab env fuel A tau w W lb cbuf k m = (do
      let m ← lbUpd ab env fuel A tau w W lb cbuf k m
      let m ← unblkLqbuild ab env fuel m (A.sub k k lb (A.cols - k)) (tau.sub k 0 lb 1) W lb false
      let (_, m) ← mscale m (A.sub k 0 lb k) 0 .all false
      pure m) := by
  unfold blkLqbuildStep lbUpd
  rw [h, Nat.sub_self, Nat.zero_add]
  dsimp only
  simp only [bind_assoc]

theorem lbUpd_eq (ab : α → α) (env : Env) (fuel : Nat) (A tau : View) (w W lb : Nat) (cbuf : Option Cache) (k : Nat) (m : Mem α) :
    lbUpd ab env fuel A tau w W lb cbuf k m =
      lqmBlk ab env fuel true false (A.sub (k + lb) 0 (A.rows - k - lb) A.cols) (A.sub 0 0 (k + lb) A.cols) tau w W cbuf k lb m := by
  unfold lbUpd lqmBlk lqmBlk0
  simp only [updateLqRight_eq, rsub, rlen, rwid, if_true, View.sub_sub, View.sub_cols, View.sub_rows, Nat.zero_add, Nat.add_zero]

/-- The cache buffers are apart from everything else. -/
structure LbCache (c : Cache) (A tau : View) (w ws : Nat) : Prop where
  dA : Disjoint A.foot c.foot
  dt : Disjoint (tcells tau A.rows) c.foot
  dW : Disjoint (wcells w ws) c.foot

theorem lbUpd_spec (ab : α → α) {env : Env} {c : Cache} (hc : Conf3 env c) {fuel : Nat} {m : Mem α} {A tau : View} {w ws k lb : Nat}
    {x : Nat → Nat → α} {t : Nat → α} (H : LbArgs m A tau w ws t) (Hc : LbCache c A tau w ws) (R : c.Ready m)
    (hl : ∀ l, l < A.rows → l + 1 = A.cols → t l = 0) (hk : k + lb ≤ A.rows)
    (hws : A.rows * lb ≤ ws) (hf : A.rows + A.rows < fuel) (hlb : 0 < lb) (hA : HoldsT m A x) :
    Runs (lbUpd ab env fuel A tau w (w + lb * lb) lb (some c) k m) (fun m' =>
      HoldsT m' A (fun i j => if j < k + lb then x i j else blkVal A.cols k lb false t x x i j) ∧
      LbArgs m' A tau w ws t ∧ c.Ready m' ∧ Frame (A.foot ∪ wcells w ws ∪ c.foot) m m') := by
  have H' := H
  obtain ⟨wf, sh, len, ht, hW, dA, dW⟩ := H
  obtain ⟨cA, ct, cW⟩ := Hc
  have dAt : Disjoint A.foot (tcells tau A.rows) := dA.mono_right fun p hp => Or.inl hp
  have dAw : Disjoint A.foot (wcells w ws) := dA.mono_right fun p hp => Or.inr hp
  have e1 : lb * lb ≤ A.rows * lb := Nat.mul_le_mul_right _ (by omega)
  have sT' : (⟨w, lb, lb, lb⟩ : View).foot ⊆ wcells w ws := (view_wcells (le_refl _)).trans fun p hp => ⟨hp.1, by have := hp.2; omega⟩
  obtain ⟨τ, hτ⟩ := (hW.le (n' := lb * lb) (by omega)).view (le_refl _)
  rw [lbUpd_eq]
  set C := A.sub (k + lb) 0 (A.rows - k - lb) A.cols with hCd
  set B := A.sub 0 0 (k + lb) A.cols with hBd
  have st : tcells tau B.rows ⊆ tcells tau A.rows := by
    rintro p ⟨l, hl, rfl⟩
    exact ⟨l, by simp only [hBd, View.sub_rows] at hl; omega, rfl⟩
  have sB : B.foot ⊆ A.foot := View.sub_foot (by omega) (by omega)
  have sC : C.foot ⊆ A.foot := View.sub_foot (by omega) (by omega)
  have Q : LqmArgs m true C B tau w ws x t := by
    refine ⟨wf.sub (by omega) (by omega), rfl, by simp only [hBd, View.sub_cols, View.sub_rows]; omega, ?_, ?_, hW, ?_, ?_⟩
    · refine ((hA.part (r := 0) (c := 0) (by omega) (by omega)).congr fun i j _ _ => by rw [Nat.zero_add, Nat.zero_add]).holds
    · intro l hl
      simp only [hBd, View.sub_rows] at hl
      exact ht l (by omega)
    · rw [Set.disjoint_union_right, Set.disjoint_union_right]
      refine ⟨⟨?_, dAt.mono sC st⟩, dAw.mono_left sC⟩
      exact (View.sub_disj wf (by omega) (by omega) (by omega) (by omega) (by omega)).symm
    · rw [Set.disjoint_union_right]
      exact ⟨dAw.symm.mono_right sB, dW.mono_right st⟩
  have Qc : LqmCache c C B tau w ws := ⟨cA.mono_left sC, Set.disjoint_union_left.mpr ⟨cA.mono_left sB, ct.mono_left st⟩, cW⟩
  have hC : HoldsR true m C (fun i j => if j < A.rows - k - lb then x i (k + lb + j) else 0) := by
    refine HoldsT.toR (HoldsT.congr (hA.part (r := 0) (c := k + lb) (nr := A.cols) (nc := A.rows - k - lb) (by omega) (by omega)) fun i j _ hj => ?_)
    rw [Nat.zero_add]
    exact (if_pos hj).symm
  have ew : rwid true C = A.rows - k - lb := rfl
  have eb : B.rows = k + lb := rfl
  have er : B.cols = A.cols := rfl
  refine (lqmBlk_spec ab hc Q Qc R (fun l h1 h2 => hl l (by omega) (by omega)) (lb := lb) (k := k)
    (by rw [ew]; exact le_trans (Nat.mul_le_mul_right _ (by omega)) hws) (le_refl _) (by rw [ew]; omega) (by omega) hC).mono ?_
  rintro m1 ⟨q1, Q1, R1, F1⟩
  rw [er] at q1
  have q1' : HoldsT m1 C (blkVal A.cols k lb false t x (fun i j => if j < A.rows - k - lb then x i (k + lb + j) else 0)) := HoldsR.toT q1
  have F : Frame (A.foot ∪ wcells w ws ∪ c.foot) m m1 := F1.mono (Set.union_subset_union_left _ (Set.union_subset_union_left _ sC))
  have h1 := hA.put wf (F := wcells w ws ∪ c.foot) (Set.disjoint_union_right.mpr ⟨dAw, cA⟩) (r := 0) (c := k + lb) (nr := A.cols) (nc := A.rows - k - lb)
    (by omega) (by omega) q1' (F1.mono (by rw [Set.union_assoc]))
  refine ⟨h1.congr fun i j hi hj => ?_, H'.frame F ?_ Q1.hW, R1, F⟩
  · unfold put
    by_cases c1 : j < k + lb
    · rw [if_neg (by omega), if_pos c1]
    · rw [if_pos (by omega), if_neg c1, Nat.sub_zero]
      unfold blkVal
      beta_reduce
      by_cases c2 : i < k
      · rw [if_pos c2, if_pos c2, if_pos (by omega), show k + lb + (j - (k + lb)) = j by omega]
      · rw [if_neg c2, if_neg c2, if_neg (by simp), if_neg (by simp)]
        exact qrProd_col (fun _ _ => rfl) (fun _ _ _ _ => rfl) (fun i _ => by rw [if_pos (by omega), show k + lb + (j - (k + lb)) = j by omega]) _ (by omega)
  · simp only [Set.disjoint_union_right]
    exact ⟨⟨dAt.symm, dW.symm⟩, ct⟩

theorem blkLqbuildStep_spec (ab : α → α) {env : Env} {c : Cache} (hc : Conf3 env c)
    (hmin : 2 ≤ env.blas2min ∨ (env.naive = true ∧ env.recursive = false)) {fuel : Nat} {m : Mem α} {A tau : View} {w ws k lb : Nat}
    {x : Nat → Nat → α} {t : Nat → α} (H : LbArgs m A tau w ws t) (Hc : LbCache c A tau w ws) (R : c.Ready m)
    (hl : ∀ l, l < A.rows → l + 1 = A.cols → t l = 0) (hk : k + lb ≤ A.rows)
    (hws : A.rows * lb ≤ ws) (hf : A.rows + A.cols < fuel) (hlb : 0 < lb ∧ lb < A.rows) (hA : HoldsT m A x) :
    Runs (blkLqbuildStep ab env fuel A tau w (w + lb * lb) lb (some c) k m) (fun m' => HoldsT m' A (qbBlk A.cols k lb t x) ∧
      LbArgs m' A tau w ws t ∧ c.Ready m' ∧ Frame (A.foot ∪ wcells w ws ∪ c.foot) m m') := by
  have sh := H.sh
  rw [blkLqbuildStep_eq _ _ _ _ _ _ _ _ _ _ _ H.len]
  refine (lbUpd_spec ab hc H Hc R hl hk hws (by omega) hlb.1 hA).bind ?_
  rintro m1 ⟨h1, H1, R1, F1⟩
  obtain ⟨wf, -, len, ht, hW, dA, dW⟩ := H1
  obtain ⟨cA, ct, cW⟩ := Hc
  have dAt : Disjoint A.foot (tcells tau A.rows) := dA.mono_right fun p hp => Or.inl hp
  have dAw : Disjoint A.foot (wcells w ws) := dA.mono_right fun p hp => Or.inr hp
  have e1 : (lb + 1) * lb ≤ A.rows * lb := Nat.mul_le_mul_right _ (by omega)
  have e2 : (lb + 1) * lb = lb * lb + lb := by ring
  have et : ∀ p, (tau.sub k 0 lb 1).at' p 0 = tau.at' (k + p) 0 := fun p => by rw [View.at_sub]
  have st : tcells (tau.sub k 0 lb 1) lb ⊆ tcells tau A.rows := by
    rintro p ⟨l, hl, rfl⟩
    exact ⟨k + l, by omega, et l⟩
  have sw : wcells (w + lb * lb) (ws - lb * lb) ⊆ wcells w ws := fun p hp => ⟨by have := hp.1; omega, by have := hp.2; omega⟩
  have sL : (A.sub k k lb (A.cols - k)).foot ⊆ A.foot := View.sub_foot (by omega) (by omega)
  have QL : LbArgs m1 (A.sub k k lb (A.cols - k)) (tau.sub k 0 lb 1) (w + lb * lb) (ws - lb * lb) (fun l => t (k + l)) := by
    refine ⟨wf.sub (by omega) (by omega), by simp only [View.sub_cols, View.sub_rows]; omega, rfl, ?_, ?_, ?_, dW.mono sw st⟩
    · intro l hl
      rw [et]
      exact ht _ (by simp only [View.sub_rows] at hl; omega)
    · intro p hp
      have := hW (lb * lb + p) (by omega)
      rwa [← Nat.add_assoc] at this
    · exact Set.disjoint_union_right.mpr ⟨dAt.mono sL st, dAw.mono sL sw⟩
  refine (unblkLqbuild_spec ab hmin (K := lb) (mayclear := false) QL (le_refl _) (Or.inr rfl) (by simp only [View.sub_rows]; omega)
    (by simp only [View.sub_cols]; omega) (h1.part (r := k) (c := k) (nr := A.cols - k) (nc := lb) (by omega) (by omega))).bind ?_
  rintro m2 ⟨q1, Q2, F2⟩
  have h2 := h1.put wf (F := wcells (w + lb * lb) (ws - lb * lb)) (dAw.mono_right sw) (by omega) (by omega) q1 F2
  have w01 : (A.sub k 0 lb k).WF := wf.sub (by omega) (by omega)
  have s01 : (A.sub k 0 lb k).foot ⊆ A.foot := View.sub_foot (by omega) (by omega)
  refine (mscaleT (alpha := 0) (unit := false) w01 (h2.part (r := 0) (c := k) (nr := k) (nc := lb) (by omega) (by omega))).bind ?_
  rintro ⟨e, m3⟩ ⟨-, k3, F3⟩
  dsimp only at k3 F3 ⊢
  have h3 := h2.put wf (Set.disjoint_empty _) (by omega) (by omega) k3 (F3.mono fun p hp => Or.inl hp)
  have F23 : Frame (A.foot ∪ wcells w ws) m1 m3 :=
    (F2.mono (Set.union_subset_union sL sw)).trans (F3.mono fun p hp => Or.inl (s01 hp))
  have hW3 : WAlloc m3 w ws := by
    have h2' : WAlloc m2 w ws := by
      intro p hp
      by_cases h : lb * lb ≤ p
      · have := Q2.hW (p - lb * lb) (by omega)
        rwa [show w + lb * lb + (p - lb * lb) = w + p by omega] at this
      · rw [F2 _ ?_]
        · exact hW p hp
        · rintro (h' | h')
          · exact Set.disjoint_left.mp dAw (sL h') ⟨by omega, by omega⟩
          · have := h'.1; omega
    exact h2'.frame F3 (dAw.symm.mono_right s01)
  have F : Frame (A.foot ∪ wcells w ws ∪ c.foot) m m3 := F1.trans (F23.mono fun p hp => Or.inl hp)
  refine Runs.pure ⟨h3.congr fun i j hi hj => ?_, H.frame F ?_ hW3, R1.frame F23 ?_, F⟩
  · unfold put qbBlk
    beta_reduce
    by_cases c1 : j < k
    · rw [if_neg (by omega), if_neg (by omega), if_pos (by omega), if_pos c1]
    rw [if_neg c1]
    by_cases c2 : j < k + lb
    · by_cases c3 : i < k
      · simp only [if_pos c2, if_pos c3]
        rw [if_pos (by omega)]; exact zero_mul _
      · simp only [if_pos c2, if_neg c3]
        rw [if_neg (by omega), if_pos (by omega)]
        refine qrProd_col (fun _ _ => rfl) (fun p q _ hq => ?_) (fun _ _ => rfl) _ (by show i - k < A.cols - k; omega)
        rw [if_pos (by omega)]
    · rw [if_neg c2, if_neg (by omega), if_neg (by omega), if_neg (by omega)]
  · simp only [Set.disjoint_union_right]
    exact ⟨⟨dAt.symm, dW.symm⟩, ct⟩
  · exact Set.disjoint_union_right.mpr ⟨cA.symm, cW.symm⟩

/-! ### All blocks -/

theorem blkLqbuild_spec (ab : α → α) {env : Env} {c : Cache} (hc : Conf3 env c)
    (hmin : 2 ≤ env.blas2min ∨ (env.naive = true ∧ env.recursive = false)) {fuel : Nat} {m : Mem α} {A tau : View} {w ws K lb : Nat}
    {f : Nat → Nat → α} {t : Nat → α} (H : LbArgs m A tau w ws t) (Hc : LbCache c A tau w ws) (R : c.Ready m)
    (hl : ∀ l, l < A.rows → l + 1 = A.cols → t l = 0) (hK : K ≤ A.rows)
    (hws : A.rows * lb ≤ ws) (hf : A.rows + A.cols < fuel) (hlb : 0 < lb ∧ lb < A.rows) (hA : HoldsT m A f) :
    Runs (blkLqbuild ab env fuel m A tau w (w + lb * lb) K lb (some c)) (fun m' => HoldsT m' A (qrProd A.cols K t f idm) ∧
      LbArgs m' A tau w ws t ∧ c.Ready m' ∧ Frame (A.foot ∪ wcells w ws ∪ c.foot) m m') := by
  have H' := H
  obtain ⟨wf, sh, len, ht, hW, dA, dW⟩ := H
  have dAt : Disjoint A.foot (tcells tau A.rows) := dA.mono_right fun p hp => Or.inl hp
  have dAw : Disjoint A.foot (wcells w ws) := dA.mono_right fun p hp => Or.inr hp
  unfold blkLqbuild
  dsimp only
  have hll : lb * lb ≤ A.rows * lb := Nat.mul_le_mul_right _ hlb.2.le
  have hu : K % lb < lb := Nat.mod_lt _ hlb.1
  have hu' : K % lb ≤ K := Nat.mod_le _ _
  obtain ⟨r, hr⟩ : ∃ r, r = K - K % lb := ⟨_, rfl⟩
  have hdvd : lb ∣ r := by rw [hr]; exact Nat.dvd_sub_mod K
  rw [← hr]
  refine Runs.bind (P := fun m1 => (∃ x, HoldsT m1 A x ∧ QbInv A.cols A.rows K r t f x) ∧ LbArgs m1 A tau w ws t ∧
    Frame (A.foot ∪ wcells w ws) m m1) ?_ ?_
  · by_cases c0 : 0 < A.rows - K + K % lb
    · rw [if_pos c0]
      by_cases c1 : 0 < K % lb
      · rw [if_pos c1]
        have w01 : (A.sub r 0 (A.rows - r) r).WF := wf.sub (by omega) (by omega)
        have s01 : (A.sub r 0 (A.rows - r) r).foot ⊆ A.foot := View.sub_foot (by omega) (by omega)
        refine (mscaleT (alpha := 0) (unit := false) w01 (hA.part (r := 0) (c := r) (nr := r) (nc := A.rows - r) (by omega) (by omega))).bind ?_
        rintro ⟨e, m1⟩ ⟨-, k1, F1⟩
        dsimp only at k1 F1 ⊢
        have h1 := hA.put wf (Set.disjoint_empty _) (by omega) (by omega) k1 (F1.mono fun p hp => Or.inl hp)
        have F1' := F1.mono s01
        rw [len, show A.rows - (A.rows - r) = r by omega]
        have hW1 := hW.frame F1' dAw.symm
        have et : ∀ p, (tau.sub r 0 (A.rows - r) 1).at' p 0 = tau.at' (r + p) 0 := fun p => by rw [View.at_sub]
        have st : tcells (tau.sub r 0 (A.rows - r) 1) (A.rows - r) ⊆ tcells tau A.rows := by
          rintro p ⟨l, hl, rfl⟩
          exact ⟨r + l, by omega, et l⟩
        have sw : wcells (w + lb * lb) (ws - lb * lb) ⊆ wcells w ws := fun p hp => ⟨by have := hp.1; omega, by have := hp.2; omega⟩
        have sL : (A.sub r r (A.rows - r) (A.cols - r)).foot ⊆ A.foot := View.sub_foot (by omega) (by omega)
        have QL : LbArgs m1 (A.sub r r (A.rows - r) (A.cols - r)) (tau.sub r 0 (A.rows - r) 1) (w + lb * lb) (ws - lb * lb) (fun l => t (r + l)) := by
          refine ⟨wf.sub (by omega) (by omega), by simp only [View.sub_cols, View.sub_rows]; omega, rfl, ?_, ?_, ?_, dW.mono sw st⟩
          · intro l hl
            simp only [View.sub_rows] at hl
            rw [et, F1' _ fun h => Set.disjoint_left.mp dAt h ⟨r + l, by omega, rfl⟩]
            exact ht _ (by omega)
          · intro p hp
            have := hW1 (lb * lb + p) (by omega)
            rwa [← Nat.add_assoc] at this
          · exact Set.disjoint_union_right.mpr ⟨dAt.mono sL st, dAw.mono sL sw⟩
        have hws' : A.rows - r - 1 ≤ ws - lb * lb := by
          obtain ⟨p, hp⟩ : ∃ p, A.rows = lb + 1 + p := ⟨A.rows - lb - 1, by omega⟩
          have e1 : A.rows * lb = lb * lb + lb + p * lb := by rw [hp]; ring
          have e2 : p * 1 ≤ p * lb := Nat.mul_le_mul_left _ hlb.1
          omega
        refine (unblkLqbuild_spec ab hmin (K := K % lb) (mayclear := true) QL (by simp only [View.sub_rows]; omega) (Or.inl rfl)
          (by simp only [View.sub_rows]; omega) (by simp only [View.sub_cols]; omega)
          (h1.part (r := r) (c := r) (nr := A.cols - r) (nc := A.rows - r) (by omega) (by omega))).mono ?_
        rintro m2 ⟨q1, Q2, F2⟩
        have h2 := h1.put wf (F := wcells (w + lb * lb) (ws - lb * lb)) (dAw.mono_right sw) (by omega) (by omega) q1 F2
        have hW2 : WAlloc m2 w ws := by
          intro p hp
          by_cases h : lb * lb ≤ p
          · have := Q2.hW (p - lb * lb) (by omega)
            rwa [show w + lb * lb + (p - lb * lb) = w + p by omega] at this
          · rw [F2 _ ?_]
            · exact hW1 p hp
            · rintro (h' | h')
              · exact Set.disjoint_left.mp dAw (sL h') ⟨by omega, by omega⟩
              · have := h'.1; omega
        have F : Frame (A.foot ∪ wcells w ws) m m2 := (F1'.mono fun p hp => Or.inl hp).trans (F2.mono (Set.union_subset_union sL sw))
        refine ⟨⟨_, h2, ⟨?_, ?_⟩⟩, H'.frame F (Set.disjoint_union_right.mpr ⟨dAt.symm, dW.symm⟩) hW2, F⟩
        · intro i j hi hj
          unfold put
          rw [if_neg (by omega), if_neg (by omega)]
        · intro i j hi hj
          have eK : K = r + K % lb := by omega
          rw [show qrProd A.cols K t f idm i j = qrProd A.cols (r + K % lb) t f idm i j by rw [← eK], qrProd_idm_shift (by omega) _ _ _ _ _ hi]
          refine qrProd_col (fun _ _ => rfl) (fun _ _ _ _ => rfl) (fun i hi => ?_) i hi
          by_cases c2 : j < r
          · rw [if_pos c2, if_pos c2]
          rw [if_neg c2, if_neg c2]
          unfold put
          by_cases c3 : i < r
          · rw [if_pos c3, if_neg (by omega), if_pos (by omega)]; exact zero_mul _
          · rw [if_neg c3, if_pos (by omega)]
            refine qrProd_col (fun _ _ => rfl) (fun p q _ hq => ?_) (fun _ _ => rfl) _ (by show i - r < A.cols - r; omega)
            rw [if_neg (by omega)]
      · rw [if_neg c1]
        have : r = K := by omega
        subst this
        refine (lqClear_spec wf sh hK hA).mono ?_
        rintro m1 ⟨h1, F1⟩
        refine ⟨⟨_, h1, ⟨fun i j _ hj => by rw [if_pos hj], fun i j hi hj => ?_⟩⟩, H'.frame F1 dAt.symm (hW.frame F1 dAw.symm), F1.mono fun p hp => Or.inl hp⟩
        refine qrProd_col (fun _ _ => rfl) (fun _ _ _ _ => rfl) (fun i hi => ?_) i hi
        by_cases c : j < r
        · rw [if_pos c]
        · rw [if_neg c, if_neg c]
    · rw [if_neg c0]
      have : r = K := by omega
      subst this
      refine Runs.pure ⟨⟨f, hA, ⟨fun _ _ _ _ => rfl, fun i j hi hj => ?_⟩⟩, H', Frame.refl _ _⟩
      refine qrProd_col (fun _ _ => rfl) (fun _ _ _ _ => rfl) (fun i hi => ?_) i hi
      rw [if_pos (by omega)]
  · rintro m1 ⟨⟨x, h1, hI⟩, H1, F1⟩
    refine Runs.bind (P := fun r => HoldsT r.2 A (qrProd A.cols K t f idm) ∧ LbArgs r.2 A tau w ws t ∧ c.Ready r.2 ∧
      Frame (A.foot ∪ wcells w ws ∪ c.foot) m r.2) ?_ ?_
    · refine Runs.forUp (I := fun d m' => d ≤ r ∧ lb ∣ d ∧ (∃ y, HoldsT m' A y ∧ QbInv A.cols A.rows K (r - d) t f y) ∧ LbArgs m' A tau w ws t ∧ c.Ready m' ∧
        Frame (A.foot ∪ wcells w ws ∪ c.foot) m m') hlb.1 ?_ ?_ ?_
      · refine ⟨Nat.zero_le _, Nat.dvd_zero _, ⟨x, h1, hI⟩, H1, R.frame F1 ?_, F1.mono fun p hp => Or.inl hp⟩
        exact Set.disjoint_union_right.mpr ⟨Hc.dA.symm, Hc.dW.symm⟩
      · rintro d m2 - hd ⟨-, ⟨q, hq⟩, ⟨y, h2, hI2⟩, H2, R2, F2⟩
        obtain ⟨p, hp⟩ := hdvd
        have hqp : q < p := by
          by_contra hcon
          have := Nat.mul_le_mul_left lb (Nat.le_of_not_lt hcon)
          omega
        have hle : d + lb ≤ r := by
          have := Nat.mul_le_mul_left lb (show q + 1 ≤ p from hqp)
          rw [Nat.mul_add, Nat.mul_one] at this
          omega
        refine (blkLqbuildStep_spec ab hc hmin (k := r - d - lb) H2 Hc R2 hl (by omega) hws hf hlb h2).mono ?_
        rintro m3 ⟨q1, q2, q3, q4⟩
        refine ⟨hle, ⟨q + 1, by rw [Nat.mul_add, Nat.mul_one, ← hq]⟩, ⟨_, q1, ?_⟩, q2, q3, F2.trans q4⟩
        rw [← Nat.sub_sub]
        refine QbInv.block ?_ (by omega)
        rwa [show r - d - lb + lb = r - d by omega]
      · rintro d m2 hd - ⟨hle, -, ⟨y, h2, hI2⟩, H2, R2, F2⟩
        have : d = r := by omega
        subst this
        rw [Nat.sub_self] at hI2
        exact ⟨h2.congr fun i j hi hj => hI2.prod i j hi hj, H2, R2, F2⟩
    · rintro ⟨d, m2⟩ h
      exact Runs.pure h

end Armas
