import Verif.LqBlkLemmas

/-!
# Lemmas on the blocked LQ factorization
-/

namespace Armas

open Finset

theorem holds_panelT {m : Mem ℝ} {A : View} {k n : Nat} {g b f : Nat → Nat → ℝ} (hr : k + n ≤ A.cols)
    (h1 : Holds m (A.sub k k n (A.cols - k)) fun i j => g j i) (h2 : Holds m (A.sub (k + n) k (A.rows - k - n) n) fun i j => b j i)
    (h3 : Holds m (A.sub (k + n) (k + n) (A.rows - k - n) (A.cols - k - n)) (fun j i => b (n + i) j))
    (h4 : ∀ i j, i < A.cols → j < A.rows → i < k ∨ j < k → m (A.at' j i) = some (f i j)) : Holds m A (fun i j => panel k n g b f j i) := by
  intro j i hj hi
  beta_reduce
  unfold panel
  by_cases c1 : i < k ∨ j < k
  · rw [if_pos c1]; exact h4 i j hi hj c1
  rw [if_neg c1]
  push Not at c1
  by_cases c2 : j < k + n
  · rw [if_pos c2]
    have := h1 (j - k) (i - k) (by simp only [View.sub_rows, View.sub_cols]; omega) (by simp only [View.sub_rows, View.sub_cols]; omega)
    rwa [View.at_sub, show k + (i - k) = i by omega, show k + (j - k) = j by omega] at this
  rw [if_neg c2]
  by_cases c3 : i < k + n
  · have := h2 (j - k - n) (i - k) (by simp only [View.sub_rows, View.sub_cols]; omega) (by simp only [View.sub_rows, View.sub_cols]; omega)
    rwa [View.at_sub, show k + (i - k) = i by omega, show k + n + (j - k - n) = j by omega] at this
  · have := h3 (j - k - n) (i - k - n) (by simp only [View.sub_rows, View.sub_cols]; omega) (by simp only [View.sub_rows, View.sub_cols]; omega)
    rw [View.at_sub, show k + n + (i - k - n) = i by omega, show k + n + (j - k - n) = j by omega] at this
    dsimp only at this
    rwa [show n + (i - k - n) = i - k by omega] at this

/-- Arguments of the blocked LQ factorization. -/
structure LqFacArgs (c : Cache) (A tau T : View) (W n lb : Nat) : Prop where
  wf : A.WF
  sh : A.rows ≤ A.cols
  tT : T.rows = lb ∧ T.cols = lb
  wT : T.WF
  blk : 0 < lb ∧ lb < A.rows
  size : (A.rows - lb) * lb ≤ n
  dA : Disjoint A.foot (tcells tau A.rows ∪ T.foot ∪ wcells W n ∪ c.foot)
  dt : Disjoint (tcells tau A.rows) (T.foot ∪ wcells W n ∪ c.foot)
  dT : Disjoint T.foot (wcells W n ∪ c.foot)
  dW : Disjoint (wcells W n) c.foot

/-- State of the blocked LQ factorization before column `k`. -/
structure LqSt (c : Cache) (m0 m : Mem ℝ) (A tau T : View) (W n k : Nat) (f0 : Nat → Nat → ℝ) : Prop where
  fac : ∃ f t, (Holds m A fun i j => f j i) ∧ (∀ l, l < A.rows → m (tau.at' l 0) = some (t l)) ∧ QrInv A.cols A.rows k f0 f t
  hT : ∃ τ, Holds m T τ
  hW : WAlloc m W n
  ready : c.Ready m
  frame : Frame (A.foot ∪ tcells tau A.rows ∪ T.foot ∪ wcells W n ∪ c.foot) m0 m

theorem blkLqStep_spec {safmin : ℝ} (nonneg : Bool) (h0 : 0 < safmin) (h1 : safmin < 1) (ab : ℝ → ℝ) {env : Env} {c : Cache}
    (hc : Conf3 env c) (hmin : 2 ≤ env.blas2min ∨ (env.naive = true ∧ env.recursive = false)) {fuel : Nat} {m0 m : Mem ℝ}
    {A tau T : View} {W n lb k : Nat} {f0 : Nat → Nat → ℝ} (H : LqFacArgs c A tau T W n lb) (hf : A.cols + A.rows + lb < fuel)
    (hk : k < A.rows - lb) (S : LqSt c m0 m A tau T W n k f0) :
    Runs (blkLqStep safmin nonneg ab env fuel A tau T W lb (some c) k m) (fun m' => LqSt c m0 m' A tau T W n (k + lb) f0) := by
  obtain ⟨wf, sh, tT, wT, blk, size, dA, dt, dT, dW⟩ := H
  obtain ⟨⟨f, t, hA, ht, hI⟩, hT, hW, R, F0⟩ := S
  have hn : lb ≤ n := le_trans (by nlinarith [Nat.sub_pos_of_lt blk.2]) size
  have hn2 : (A.rows - k - lb) * lb ≤ n := le_trans (Nat.mul_le_mul_right _ (by omega)) size
  have sL : (A.sub k k lb (A.cols - k)).foot ⊆ A.foot := View.sub_foot (by omega) (by omega)
  have sW : wcells W lb ⊆ wcells W n := fun p hp => ⟨hp.1, by have := hp.2; omega⟩
  have dAt : ∀ l, l < A.rows → tau.at' l 0 ∉ A.foot := fun l hl h => Set.disjoint_left.mp dA h (by simp only [Set.mem_union]; exact Or.inl (Or.inl (Or.inl ⟨l, hl, rfl⟩)))
  have dtS : ∀ l, l < A.rows → tau.at' l 0 ∉ T.foot ∧ tau.at' l 0 ∉ wcells W n ∧ tau.at' l 0 ∉ c.foot := by
    intro l hl
    have := Set.disjoint_left.mp dt (⟨l, hl, rfl⟩ : tau.at' l 0 ∈ tcells tau A.rows)
    simp only [Set.mem_union] at this
    tauto
  have dAT : Disjoint A.foot T.foot := dA.mono_right (by intro p h; simp only [Set.mem_union]; tauto)
  have dAW : Disjoint A.foot (wcells W n) := dA.mono_right (by intro p h; simp only [Set.mem_union]; tauto)
  have dAc : Disjoint A.foot c.foot := dA.mono_right (by intro p h; simp only [Set.mem_union]; tauto)
  have dTW : Disjoint T.foot (wcells W n) := dT.mono_right (by intro p h; simp only [Set.mem_union]; tauto)
  have dTc : Disjoint T.foot c.foot := dT.mono_right (by intro p h; simp only [Set.mem_union]; tauto)
  have et : ∀ p, (tau.sub k 0 lb 1).at' p 0 = tau.at' (k + p) 0 := fun p => by rw [View.at_sub]
  have mn : min (A.sub k k lb (A.cols - k)).rows (A.sub k k lb (A.cols - k)).cols = lb := by simp only [View.sub_cols, View.sub_rows]; omega
  have q1 := unblkLq_spec nonneg h0 h1 ab hmin (fuel := fuel) (m := m) (A := A.sub k k lb (A.cols - k)) (tau := tau.sub k 0 lb 1) (W := W)
    (f0 := fun i j => f (k + i) (k + j)) (s := fun p => t (k + p)) (by simp only [View.sub_rows, View.sub_cols]; omega)
    (by simp only [View.sub_rows, View.sub_cols]; omega) (wf.sub (by omega) (by omega)) (hA.part (by omega) (by omega))
    (by intro p hp; rw [et]; exact ht _ (by omega)) (hW.le hn)
    (by intro p hp; rw [et]; exact fun h => dAt _ (by omega) (sL h)) (dAW.mono sL sW)
    (by intro p hp; rw [et]; exact fun h => (dtS _ (by omega)).2.1 (sW h))
  unfold blkLqStep
  dsimp only
  refine q1.bind ?_
  rw [mn]
  simp only [View.sub_cols, View.sub_rows]
  rintro m1 ⟨g, s, hg, hs, hw1, F1, hI1⟩
  have hT1 : ∃ τ, Holds m1 T τ := by
    obtain ⟨τ, hτ⟩ := hT
    refine ⟨τ, hτ.frame F1 ?_⟩
    rw [Set.disjoint_union_right, Set.disjoint_union_right]
    refine ⟨⟨(dAT.mono_left sL).symm, ?_⟩, dTW.mono_right sW⟩
    rw [Set.disjoint_left]
    rintro p hp ⟨l, hl, rfl⟩
    rw [et] at hp
    exact (dtS _ (by omega)).1 hp
  obtain ⟨τ1, hτ1⟩ := hT1
  refine ((Props.C51_mscale_all (alpha := 0) (unit := false) wT hτ1).1).bind ?_
  rintro ⟨e2, m2⟩ ⟨-, hτ2, F2⟩
  dsimp only at hτ2 F2 ⊢
  have hL2 : Holds m2 (A.sub k k lb (A.cols - k)) fun i j => g j i := hg.frame F2 (dAT.mono_left sL)
  have hs2 : ∀ p, p < lb → m2 ((tau.sub k 0 lb 1).at' p 0) = some (s p) := by
    intro p hp
    rw [F2 _ (by rw [et]; exact (dtS _ (by omega)).1)]
    exact hs p hp
  refine (lqReflector_spec ab (by rcases hc.min2 with h | h <;> [left; left] <;> omega) (t := s) wT (by simp only [View.sub_cols, View.sub_rows]; omega) (by simp only [View.sub_rows, View.sub_cols]; omega)
    (by simp only [View.sub_rows, View.sub_cols]; omega) (by simp only [View.sub_rows, View.sub_cols]; omega) hτ2 hL2 hs2 (dAT.mono_left sL)
    (by intro p hp; rw [et]; simp only [View.sub_rows] at hp; exact (dtS _ (by omega)).1)
    (by
      intro p hp
      simp only [View.sub_rows] at hp
      exact Or.inr (Or.inr (by simp only [View.sub_rows, View.sub_cols]; omega))) (by intro p i _ _ _; ring)).bind ?_
  rintro m3 ⟨τ3, hτ3, hB, F3⟩
  simp only [View.sub_cols, View.sub_rows] at hB
  have hL3 : Holds m3 (A.sub k k lb (A.cols - k)) fun i j => g j i := hL2.frame F3 (dAT.mono_left sL)
  have F13 : Frame ((A.sub k k lb (A.cols - k)).foot ∪ {p | ∃ l, l < lb ∧ p = (tau.sub k 0 lb 1).at' l 0} ∪ wcells W lb ∪ T.foot) m m3 :=
    (F1.mono (by intro p h; simp only [Set.mem_union] at h ⊢; tauto)).trans ((F2.mono (by intro p h; simp only [Set.mem_union]; tauto)).trans
      (F3.mono (by intro p h; simp only [Set.mem_union]; tauto)))
  have tk : ∀ p, p ∈ {p | ∃ l, l < lb ∧ p = (tau.sub k 0 lb 1).at' l 0} → p ∈ tcells tau A.rows := by
    rintro p ⟨l, hl, rfl⟩
    rw [et]
    exact ⟨k + l, by omega, rfl⟩
  have hW3 : WAlloc m3 W n := by
    have w1 : WAlloc m1 W n := by
      intro p hp
      by_cases h : p < lb
      · exact hw1 p h
      · obtain ⟨x, hx⟩ := hW p hp
        refine ⟨x, ?_⟩
        rw [F1 _ ?_, hx]
        have hm : W + p ∈ wcells W n := ⟨by omega, by omega⟩
        simp only [Set.mem_union, not_or]
        refine ⟨⟨fun h' => Set.disjoint_left.mp dAW (sL h') hm, fun h' => ?_⟩, fun h' => by have := h'.2; omega⟩
        exact Set.disjoint_left.mp dt (tk _ h') (by simp only [Set.mem_union]; tauto)
    exact (w1.frame F2 dTW.symm).frame F3 dTW.symm
  have R3 : c.Ready m3 := by
    refine R.frame F13 ?_
    rw [Set.disjoint_left]
    intro p hp h
    simp only [Set.mem_union] at h
    rcases h with ((h | h) | h) | h
    · exact Set.disjoint_left.mp dAc (sL h) hp
    · exact Set.disjoint_left.mp dt (tk _ h) (by simp only [Set.mem_union]; tauto)
    · exact Set.disjoint_left.mp dW (sW h) hp
    · exact Set.disjoint_left.mp dTc h hp
  have keep : ∀ {r c' nr nc : Nat}, r + nr ≤ A.rows → c' + nc ≤ A.cols → k + lb ≤ r →
      Holds m3 (A.sub r c' nr nc) (fun i j => f (c' + j) (r + i)) := by
    intro r c' nr nc e1 e2 e3
    refine (hA.part e1 e2).frame F13 ?_
    have e := View.sub_foot (V := A) e1 e2
    rw [Set.disjoint_left]
    intro p hp h
    simp only [Set.mem_union] at h
    rcases h with ((h | h) | h) | h
    · exact Set.disjoint_left.mp (View.sub_disj wf e1 e2 (by omega) (by omega) (by omega)) hp h
    · exact Set.disjoint_left.mp dA (e hp) (by simp only [Set.mem_union]; exact Or.inl (Or.inl (Or.inl (tk _ h))))
    · exact Set.disjoint_left.mp dAW (e hp) (sW h)
    · exact Set.disjoint_left.mp dAT (e hp) h
  obtain ⟨w3, hw3⟩ := hW3.view hn2
  have swv := view_wcells (W := W) hn2
  have s1 : (A.sub (k + lb) k (A.rows - k - lb) lb).foot ⊆ A.foot := View.sub_foot (by omega) (by omega)
  have s2 : (A.sub (k + lb) (k + lb) (A.rows - k - lb) (A.cols - k - lb)).foot ⊆ A.foot := View.sub_foot (by omega) (by omega)
  have s3 : (A.sub k k lb lb).foot ⊆ A.foot := View.sub_foot (by omega) (by omega)
  have s4 : (A.sub k (k + lb) lb (A.cols - k - lb)).foot ⊆ A.foot := View.sub_foot (by omega) (by omega)
  have hw1' : (A.sub (k + lb) k (A.rows - k - lb) lb).WF := wf.sub (by omega) (by omega)
  have hw2' : (A.sub (k + lb) (k + lb) (A.rows - k - lb) (A.cols - k - lb)).WF := wf.sub (by omega) (by omega)
  have U : LqUpdArgs c m3 (A.sub (k + lb) k (A.rows - k - lb) lb) (A.sub (k + lb) (k + lb) (A.rows - k - lb) (A.cols - k - lb))
      (A.sub k k lb lb) (A.sub k (k + lb) lb (A.cols - k - lb)) T ⟨W, A.rows - k - lb, A.rows - k - lb, lb⟩ lb (A.cols - k - lb) (A.rows - k - lb) true g
      (fun i j => f (k + i) (k + lb + j)) τ3 w3 := by
    refine ⟨by simp, by simp, by simp, by simp, ⟨rfl, rfl⟩, ⟨rfl, rfl⟩, tT, ⟨rfl, rfl⟩, hw1', hw2', Or.inl (le_refl _), R3, ?_, ?_, ?_, ?_, hτ3, hw3, ?_, ?_, ?_,
      ?_, ?_, ?_, ?_⟩
    · simpa using keep (r := k + lb) (c' := k) (nr := A.rows - k - lb) (nc := lb) (by omega) (by omega) (by omega)
    · simpa [Nat.add_assoc] using keep (r := k + lb) (c' := k + lb) (nr := A.rows - k - lb) (nc := A.cols - k - lb) (by omega) (by omega) (by omega)
    · intro i j hi hj
      simp only [View.sub_cols, View.sub_rows] at hi hj
      have := hL3 i j (by simp only [View.sub_rows, View.sub_cols]; omega) (by simp only [View.sub_rows, View.sub_cols]; omega)
      rw [View.at_sub] at this ⊢; exact this
    · intro i j hi hj
      simp only [View.sub_cols, View.sub_rows] at hi hj
      have := hL3 i (lb + j) (by simp only [View.sub_rows, View.sub_cols]; omega) (by simp only [View.sub_rows, View.sub_cols]; omega)
      rw [View.at_sub] at this ⊢; rw [Nat.add_assoc]; exact this
    · exact View.sub_disj wf (by omega) (by omega) (by omega) (by omega) (by omega)
    · exact dAW.mono s1 swv
    · exact dAW.mono s2 swv
    · rw [Set.disjoint_union_right, Set.disjoint_union_right]
      exact ⟨⟨View.sub_disj wf (by omega) (by omega) (by omega) (by omega) (by omega), View.sub_disj wf (by omega) (by omega) (by omega) (by omega) (by omega)⟩, dAW.mono s3 swv⟩
    · rw [Set.disjoint_union_right, Set.disjoint_union_right]
      exact ⟨⟨View.sub_disj wf (by omega) (by omega) (by omega) (by omega) (by omega), View.sub_disj wf (by omega) (by omega) (by omega) (by omega) (by omega)⟩, dAW.mono s4 swv⟩
    · rw [Set.disjoint_union_right, Set.disjoint_union_right]
      exact ⟨⟨(dAT.mono_left s1).symm, (dAT.mono_left s2).symm⟩, dTW.mono_right swv⟩
    · simp only [Set.disjoint_union_left]
      exact ⟨⟨⟨⟨⟨dAc.mono_left s1, dAc.mono_left s2⟩, dW.mono_left swv⟩, dAc.mono_left s3⟩, dAc.mono_left s4⟩, dTc⟩
  rw [updateLqRight_eq]
  refine (updLq_spec ab hc (tA := !true) U (by omega)).mono ?_
  rintro m4 ⟨c1, c2, F4, R4, w4, hw4⟩
  have ebp : ∀ i j, blockProd (lb + (A.cols - k - lb)) lb (fun p q => if (!true) = true then trm true false τ3 p q else trm true false τ3 q p) g (fun i j => f (k + i) (k + lb + j)) i j
      = qrProdT (A.cols - k) lb s g (fun i j => f (k + i) (k + lb + j)) i j := by
    intro i j
    rw [hB.prodT, show lb + (A.cols - k - lb) = A.cols - k by omega]
    simp
  simp only [ebp, if_true] at c1 c2
  have F4A : Frame ((A.sub (k + lb) k (A.rows - k - lb) (A.cols - k)).foot ∪ wcells W n ∪ c.foot) m3 m4 := by
    refine F4.mono ?_
    intro p h
    simp only [Set.mem_union] at h ⊢
    rcases h with ((h | h) | h) | h
    · obtain ⟨i, j, hi, hj, rfl⟩ := h
      simp only [View.sub_cols, View.sub_rows] at hi hj
      exact Or.inl (Or.inl ⟨i, j, hi, by simp only [View.sub_rows, View.sub_cols]; omega, by rw [View.at_sub, View.at_sub]⟩)
    · obtain ⟨i, j, hi, hj, rfl⟩ := h
      simp only [View.sub_cols, View.sub_rows] at hi hj
      exact Or.inl (Or.inl ⟨i, lb + j, hi, by simp only [View.sub_rows, View.sub_cols]; omega, by rw [View.at_sub, View.at_sub, Nat.add_assoc k lb j]⟩)
    · exact Or.inl (Or.inr (swv h))
    · exact Or.inr h
  have sR : (A.sub (k + lb) k (A.rows - k - lb) (A.cols - k)).foot ⊆ A.foot := View.sub_foot (by omega) (by omega)
  have hL4 : Holds m4 (A.sub k k lb (A.cols - k)) fun i j => g j i := by
    refine hL3.frame F4A ?_
    rw [Set.disjoint_union_right, Set.disjoint_union_right]
    exact ⟨⟨View.sub_disj wf (by omega) (by omega) (by omega) (by omega) (by omega), dAW.mono_left sL⟩, dAc.mono_left sL⟩
  have ht4 : ∀ l, l < A.rows → m4 (tau.at' l 0) = m3 (tau.at' l 0) := by
    intro l hl
    refine F4A _ ?_
    simp only [Set.mem_union, not_or]
    exact ⟨⟨fun h => dAt l hl (sR h), (dtS l hl).2.1⟩, (dtS l hl).2.2⟩
  refine ⟨⟨_, fun l => if k ≤ l ∧ l < k + lb then s (l - k) else t l, ?_, ?_, (hI.block (n := lb) (by omega) hI1).tcongr ?_⟩, ⟨τ3, hτ3.frame F4A ?_⟩, ?_, R4, F0.trans ((F13.mono ?_).trans (F4A.mono ?_))⟩
  · refine holds_panelT (by omega) hL4 c1 c2 ?_
    intro i j hi hj hij
    have a1 : m4 (A.at' j i) = m3 (A.at' j i) := by
      refine F4A _ ?_
      simp only [Set.mem_union, not_or]
      refine ⟨⟨?_, Set.disjoint_left.mp dAW (View.at_mem_foot hj hi)⟩, Set.disjoint_left.mp dAc (View.at_mem_foot hj hi)⟩
      rw [View.mem_sub_foot wf (by omega) (by omega) hj hi]
      omega
    have a2 : m3 (A.at' j i) = m (A.at' j i) := by
      refine F13 _ ?_
      simp only [Set.mem_union, not_or]
      refine ⟨⟨⟨?_, fun h => Set.disjoint_left.mp dA (View.at_mem_foot hj hi) ?_⟩, fun h => Set.disjoint_left.mp dAW (View.at_mem_foot hj hi) (sW h)⟩, Set.disjoint_left.mp dAT (View.at_mem_foot hj hi)⟩
      · rw [View.mem_sub_foot wf (by omega) (by omega) hj hi]
        omega
      · simp only [Set.mem_union]; exact Or.inl (Or.inl (Or.inl (tk _ h)))
    rw [a1, a2]
    exact hA j i hj hi
  · intro l hl
    rw [ht4 l hl]
    dsimp only
    by_cases c1 : k ≤ l ∧ l < k + lb
    · have := hs2 (l - k) (by omega)
      rw [et, show k + (l - k) = l by omega] at this
      rw [if_pos c1, ← this]
      exact F3 _ (dtS l hl).1
    · rw [if_neg c1, ← ht l hl]
      refine F13 _ ?_
      simp only [Set.mem_union, not_or]
      refine ⟨⟨⟨fun h => dAt l hl (sL h), ?_⟩, fun h => (dtS l hl).2.1 (sW h)⟩, (dtS l hl).1⟩
      rintro ⟨p, hp, e⟩
      rw [et] at e
      simp only [View.at'] at e
      omega
  · intro l hl
    by_cases c1 : l < k
    · rw [if_neg (by omega), if_pos c1]
    · rw [if_pos (by omega), if_neg c1]
  · rw [Set.disjoint_union_right, Set.disjoint_union_right]
    exact ⟨⟨(dAT.mono_left sR).symm, dTW⟩, dTc⟩
  · intro p hp
    by_cases hm : W + p ∈ (⟨W, A.rows - k - lb, A.rows - k - lb, lb⟩ : View).foot
    · obtain ⟨i, j, hi, hj, e⟩ := hm
      rw [e]
      exact ⟨_, hw4 i j hi hj⟩
    · obtain ⟨x, hx⟩ := hW3 p hp
      have hm' : W + p ∈ wcells W n := ⟨by omega, by omega⟩
      refine ⟨x, ?_⟩
      rw [← hx]
      refine F4 _ ?_
      simp only [Set.mem_union, not_or]
      exact ⟨⟨⟨fun h => Set.disjoint_left.mp dAW (s1 h) hm', fun h => Set.disjoint_left.mp dAW (s2 h) hm'⟩, hm⟩, Set.disjoint_left.mp dW hm'⟩
  · intro p h
    simp only [Set.mem_union] at h ⊢
    rcases h with ((h | h) | h) | h
    · exact Or.inl (Or.inl (Or.inl (Or.inl (sL h))))
    · exact Or.inl (Or.inl (Or.inl (Or.inr (tk _ h))))
    · exact Or.inl (Or.inr (sW h))
    · exact Or.inl (Or.inl (Or.inr h))
  · intro p h
    simp only [Set.mem_union] at h ⊢
    rcases h with (h | h) | h
    · exact Or.inl (Or.inl (Or.inl (Or.inl (sR h))))
    · exact Or.inl (Or.inr h)
    · exact Or.inr h

theorem blkLq_spec {safmin : ℝ} (nonneg : Bool) (h0 : 0 < safmin) (h1 : safmin < 1) (ab : ℝ → ℝ) {env : Env} {c : Cache}
    (hc : Conf3 env c) (hmin : 2 ≤ env.blas2min ∨ (env.naive = true ∧ env.recursive = false)) {fuel : Nat} {m : Mem ℝ}
    {A tau T : View} {W n lb : Nat} {f0 : Nat → Nat → ℝ} {s0 : Nat → ℝ} (H : LqFacArgs c A tau T W n lb) (hf : A.cols + A.rows + lb < fuel)
    (hA : Holds m A fun i j => f0 j i) (ht : ∀ l, l < A.rows → m (tau.at' l 0) = some (s0 l)) (hT : ∃ τ, Holds m T τ) (hW : WAlloc m W n)
    (R : c.Ready m) :
    Runs (blkLq safmin nonneg ab env fuel m A tau T W lb (some c)) (fun m' => LqSt c m m' A tau T W n A.rows f0) := by
  unfold blkLq
  refine Runs.bind (P := fun r => A.rows - lb ≤ r.1 ∧ r.1 < A.rows ∧ LqSt c m r.2 A tau T W n r.1 f0) ?_ ?_
  · rw [Nat.min_eq_left H.sh]
    refine Runs.forUp (I := fun k m' => k < A.rows ∧ LqSt c m m' A tau T W n k f0) H.blk.1 ?_ ?_ ?_
    · exact ⟨by have := H.blk; omega, ⟨f0, s0, hA, ht, fun i j _ _ => by simp [qrProd, qrMid], fun l hl => by omega, fun l hl => by omega, fun l hl => by omega⟩, hT, hW, R,
        Frame.refl _ _⟩
    · rintro k m1 - hk ⟨-, S⟩
      exact (blkLqStep_spec nonneg h0 h1 ab hc hmin H hf hk S).mono fun m2 S2 => ⟨by omega, S2⟩
    · rintro k m1 hk - ⟨hk', S⟩
      exact ⟨hk, hk', S⟩
  rintro ⟨k, m1⟩ ⟨hk, hk', S⟩
  dsimp only at hk hk' S ⊢
  obtain ⟨wf, sh, tT, wT, blk, size, dA, dt, dT, dW⟩ := H
  obtain ⟨⟨f, t, hA1, ht1, hI⟩, ⟨τ, hT1⟩, hW1, R1, F0⟩ := S
  rw [if_pos (by omega)]
  have hn : A.rows - k ≤ n := by
    have : 1 * lb ≤ (A.rows - lb) * lb := Nat.mul_le_mul_right _ (by omega)
    omega
  have sL : (A.sub k k (A.rows - k) (A.cols - k)).foot ⊆ A.foot := View.sub_foot (by omega) (by omega)
  have sW : wcells W (A.rows - k) ⊆ wcells W n := fun p hp => ⟨hp.1, by have := hp.2; omega⟩
  have dAt : ∀ l, l < A.rows → tau.at' l 0 ∉ A.foot := fun l hl h => Set.disjoint_left.mp dA h (by simp only [Set.mem_union]; exact Or.inl (Or.inl (Or.inl ⟨l, hl, rfl⟩)))
  have dtS : ∀ l, l < A.rows → tau.at' l 0 ∉ T.foot ∧ tau.at' l 0 ∉ wcells W n ∧ tau.at' l 0 ∉ c.foot := by
    intro l hl
    have := Set.disjoint_left.mp dt (⟨l, hl, rfl⟩ : tau.at' l 0 ∈ tcells tau A.rows)
    simp only [Set.mem_union] at this
    tauto
  have dAT : Disjoint A.foot T.foot := dA.mono_right (by intro p h; simp only [Set.mem_union]; tauto)
  have dAW : Disjoint A.foot (wcells W n) := dA.mono_right (by intro p h; simp only [Set.mem_union]; tauto)
  have dAc : Disjoint A.foot c.foot := dA.mono_right (by intro p h; simp only [Set.mem_union]; tauto)
  have dTW : Disjoint T.foot (wcells W n) := dT.mono_right (by intro p h; simp only [Set.mem_union]; tauto)
  have et : ∀ p, (tau.sub k 0 (tau.rows - k) 1).at' p 0 = tau.at' (k + p) 0 := fun p => by rw [View.at_sub]
  have mn : min (A.sub k k (A.rows - k) (A.cols - k)).rows (A.sub k k (A.rows - k) (A.cols - k)).cols = A.rows - k := by
    simp only [View.sub_cols, View.sub_rows]; omega
  have q1 := unblkLq_spec nonneg h0 h1 ab hmin (fuel := fuel) (m := m1) (A := A.sub k k (A.rows - k) (A.cols - k))
    (tau := tau.sub k 0 (tau.rows - k) 1) (W := W)
    (f0 := fun i j => f (k + i) (k + j)) (s := fun p => t (k + p)) (by simp only [View.sub_rows, View.sub_cols]; omega)
    (by simp only [View.sub_rows, View.sub_cols]; omega) (wf.sub (by omega) (by omega)) (hA1.part (by omega) (by omega))
    (by intro p hp; rw [et]; exact ht1 _ (by omega)) (hW1.le hn)
    (by intro p hp; rw [et]; exact fun h => dAt _ (by omega) (sL h)) (dAW.mono sL sW)
    (by intro p hp; rw [et]; exact fun h => (dtS _ (by omega)).2.1 (sW h))
  refine q1.mono ?_
  rw [mn]
  simp only [View.sub_cols, View.sub_rows]
  rintro m2 ⟨g, s, hg, hs, hw2, F1, hI1⟩
  have tk : ∀ p, p ∈ {p | ∃ l, l < A.rows - k ∧ p = (tau.sub k 0 (tau.rows - k) 1).at' l 0} → p ∈ tcells tau A.rows := by
    rintro p ⟨l, hl, rfl⟩
    rw [et]
    exact ⟨k + l, by omega, rfl⟩
  have dg : ∀ p, p ∈ T.foot ∪ c.foot → p ∉ (A.sub k k (A.rows - k) (A.cols - k)).foot ∪
      {p | ∃ l, l < A.rows - k ∧ p = (tau.sub k 0 (tau.rows - k) 1).at' l 0} ∪ wcells W (A.rows - k) := by
    intro p hp h
    simp only [Set.mem_union] at h hp
    rcases h with (h | h) | h
    · exact Set.disjoint_left.mp dA (sL h) (by simp only [Set.mem_union]; tauto)
    · exact Set.disjoint_left.mp dt (tk _ h) (by simp only [Set.mem_union]; tauto)
    · rcases hp with hp | hp
      · exact Set.disjoint_left.mp dTW hp (sW h)
      · exact Set.disjoint_left.mp dW (sW h) hp
  have B := hI.block (n := A.rows - k) (by omega) hI1
  rw [show k + (A.rows - k) = A.rows by omega] at B
  refine ⟨⟨_, fun l => if l < k then t l else s (l - k), ?_, ?_, B⟩, ⟨τ, hT1.frame F1 ?_⟩, ?_, R1.frame F1 ?_, F0.trans (F1.mono ?_)⟩
  · refine holds_panelT (by omega) hg ?_ ?_ ?_
    · intro i j hj _; simp only [View.sub_rows] at hj; omega
    · intro i j hj _; simp only [View.sub_rows] at hj; omega
    · intro i j hi hj hij
      rw [← hA1 j i hj hi]
      refine F1 _ ?_
      simp only [Set.mem_union, not_or]
      refine ⟨⟨?_, fun h => Set.disjoint_left.mp dA (View.at_mem_foot hj hi) ?_⟩, fun h => Set.disjoint_left.mp dAW (View.at_mem_foot hj hi) (sW h)⟩
      · rw [View.mem_sub_foot wf (by omega) (by omega) hj hi]
        omega
      · simp only [Set.mem_union]; exact Or.inl (Or.inl (Or.inl (tk _ h)))
  · intro l hl
    beta_reduce
    by_cases c1 : l < k
    · rw [if_pos c1, ← ht1 l hl]
      refine F1 _ ?_
      simp only [Set.mem_union, not_or]
      refine ⟨⟨fun h => dAt l hl (sL h), ?_⟩, fun h => (dtS l hl).2.1 (sW h)⟩
      rintro ⟨p, hp, e⟩
      rw [et] at e
      simp only [View.at'] at e
      omega
    · have := hs (l - k) (by omega)
      rw [et, show k + (l - k) = l by omega] at this
      rw [if_neg c1]; exact this
  · rw [Set.disjoint_left]; exact fun p hp => dg p (Or.inl hp)
  · intro p hp
    by_cases h : p < A.rows - k
    · exact hw2 p h
    · obtain ⟨x, hx⟩ := hW1 p hp
      refine ⟨x, ?_⟩
      rw [F1 _ ?_, hx]
      have hm : W + p ∈ wcells W n := ⟨by omega, by omega⟩
      simp only [Set.mem_union, not_or]
      refine ⟨⟨fun h' => Set.disjoint_left.mp dAW (sL h') hm, fun h' => ?_⟩, fun h' => by have := h'.2; omega⟩
      exact Set.disjoint_left.mp dt (tk _ h') (by simp only [Set.mem_union]; tauto)
  · rw [Set.disjoint_left]; exact fun p hp => dg p (Or.inr hp)
  · intro p h
    simp only [Set.mem_union] at h ⊢
    rcases h with (h | h) | h
    · exact Or.inl (Or.inl (Or.inl (Or.inl (sL h))))
    · exact Or.inl (Or.inl (Or.inl (Or.inr (tk _ h))))
    · exact Or.inl (Or.inr (sW h))

end Armas
