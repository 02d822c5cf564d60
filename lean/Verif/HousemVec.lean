import Verif.HousemLemmas

/-!
# Lemmas for C123: multiplication of a vector
-/

namespace Armas

open Finset

variable {α : Type} [Field α] [DecidableEq α]

/-- One pass for a vector. -/
theorem hmultVecStep_spec {env : Env} {fuel : Nat} {m : Mem α} {unit right : Bool} {C A tau : View} {w k : Nat} {f b : Nat → Nat → α} {t : Nat → α}
    (H : HmArgs m unit right C A tau w 0 f t) (h1 : rwid right C = 1) (hf : A.rows < fuel) (hk : k < A.cols) (hC : HoldsR right m C b) :
    Runs (hmultVecStep env fuel unit right C tau A k m) (fun m' =>
      HoldsR right m' C (refl A.rows (t k) (hmw unit f k) b) ∧ HmArgs m' unit right C A tau w 0 f t ∧ Frame C.foot m m') := by
  have H' := H
  obtain ⟨wf, len, sh, hA, ht, hW, dC, dW⟩ := H
  have sv : (A.sub (k + 1) k (A.rows - k - 1) 1).foot ⊆ A.foot := View.sub_foot (by omega) (by omega)
  have c1 := hC.part (k := k) (n := 1) (by omega)
  have c2 := hC.part (k := k + 1) (n := rlen right C - k - 1) (by omega)
  have s1 := rsub_foot (right := right) (C := C) (k := k) (n := 1) (by omega)
  have s2 := rsub_foot (right := right) (C := C) (k := k + 1) (n := rlen right C - k - 1) (by omega)
  have dCA : Disjoint C.foot A.foot := dC.mono_right fun p hp => Or.inl (Or.inl hp)
  have d12 : Disjoint (rsub right C k 1).foot (rsub right C (k + 1) (rlen right C - k - 1)).foot := rsub_disj wf (by omega) (by omega) (le_refl _)
  obtain ⟨v0, hv0⟩ : ∃ v0 : α, v0 = if unit then 1 else f k k := ⟨_, rfl⟩
  have r1 : hmTau unit m tau k = .ok (t k) := by
    have := ht k hk
    cases unit
    · simp only [Bool.false_eq_true, if_false] at this
      rw [this]; rfl
    · simp only [if_true] at this
      simp only [hmTau, if_true, rd, this]
  have r2 : hmV0 unit m A k = .ok v0 := by
    rw [hv0]
    cases unit
    · simp only [hmV0, Bool.false_eq_true, if_false, rd, hA k k (by omega) hk]
    · rfl
  have x2e : (if right then C.sub 0 (k + 1) C.rows (C.cols - k - 1) else C.sub (k + 1) 0 (C.rows - k - 1) C.cols) =
      rsub right C (k + 1) (rlen right C - k - 1) := by cases right <;> rfl
  have v2 : (rsub right C (k + 1) (rlen right C - k - 1)).isVec := by
    cases right
    · exact Or.inr h1
    · exact Or.inl h1
  have z2 : (rsub right C (k + 1) (rlen right C - k - 1)).size = A.rows - k - 1 := by
    rw [View.size, (rsub_shape _ _ _ _).1, (rsub_shape _ _ _ _).2, h1, len]
    cases right <;> simp
  have g2 : HoldsV m (rsub right C (k + 1) (rlen right C - k - 1)) (fun l => b (k + 1 + l) 0) := by
    rw [holdsV_iff v2]
    refine Holds.congr c2 fun i j hi hj => ?_
    rw [(rsub_shape _ _ _ _).1] at hi
    rw [(rsub_shape _ _ _ _).2] at hj
    cases right
    · simp only [Bool.false_eq_true, if_false, h1] at hi hj ⊢
      rw [show j = 0 by omega]; rfl
    · simp only [if_true, h1] at hi hj ⊢
      rw [show i = 0 by omega, Nat.zero_add]
  have hv : HoldsV m (A.sub (k + 1) k (A.rows - k - 1) 1) (fun l => f (k + 1 + l) k) := ((hA.part (by omega) (by omega)).toV_col).congr fun l _ => rfl
  have sz : (A.sub (k + 1) k (A.rows - k - 1) 1).size = A.rows - k - 1 := by simp [View.size]
  have x1m : (if right then C.at' 0 k else C.at' k 0) ∈ (rsub right C k 1).foot := by
    cases right
    · exact ⟨0, 0, Nat.one_pos, by show 0 < C.cols; simp only [rwid, Bool.false_eq_true, if_false] at h1; omega, by simp [rsub, View.sub, View.at']⟩
    · exact ⟨0, 0, by show 0 < C.rows; simp only [rwid, if_true] at h1; omega, Nat.one_pos, by simp [rsub, View.sub, View.at']⟩
  have x1v : m (if right then C.at' 0 k else C.at' k 0) = some (b k 0) := by
    cases right
    · exact hC k 0 (by simp only [rlen, Bool.false_eq_true, if_false] at len; omega) (by simp only [rwid, Bool.false_eq_true, if_false] at h1; omega)
    · exact hC 0 k (by simp only [rwid, if_true] at h1; omega) (by simp only [rlen, if_true] at len; omega)
  obtain ⟨S, hS⟩ : ∃ S : α, S = v0 * b k 0 + ∑ l ∈ range (A.rows - k - 1), f (k + 1 + l) k * b (k + 1 + l) 0 := ⟨_, rfl⟩
  unfold hmultVecStep
  dsimp only
  refine Runs.bind (P := fun x => x = t k) (by rw [r1]; exact Runs.ok rfl) ?_
  rintro _ rfl
  refine Runs.bind (P := fun x => x = v0) (by rw [r2]; exact Runs.ok rfl) ?_
  intro y hy
  rw [show y = v0 from hy, x2e]
  rw [Props.C07_dot env.blas1min env.naive v2 (Or.inr rfl) (by rw [z2, sz]) g2 hv fuel (by omega), Res.ok_bind]
  refine Runs.rd_bind x1v ?_
  rw [z2, show ∑ l ∈ range (A.rows - k - 1), b (k + 1 + l) 0 * f (k + 1 + l) k + v0 * b k 0 = S by
    rw [hS, add_comm]; congr 1; exact sum_congr rfl fun l _ => mul_comm _ _]
  refine Runs.wr_bind x1v ?_
  have F1 : Frame (rsub right C k 1).foot m (m.set (if right then C.at' 0 k else C.at' k 0) (b k 0 - t k * v0 * S)) := by
    intro p hp
    exact Mem.set_ne _ _ (fun h => hp (h ▸ x1m))
  refine Runs.bind (Props.C06_axpy (-t k * S) (Or.inr rfl) v2 (rsub_wf wf (by omega)) (by rw [z2, sz]) (hv.frame (Or.inr rfl) F1 ((dCA.mono s1 sv).symm))
    (g2.frame v2 F1 d12.symm) ((dCA.mono s2 sv).symm)) ?_
  rintro ⟨e, m'⟩ ⟨-, q2, q3⟩
  dsimp only at q2 q3
  have F : Frame ((rsub right C k 1).foot ∪ (rsub right C (k + 1) (rlen right C - k - 1)).foot ∪ ∅) m m' :=
    (F1.mono fun p hp => Or.inl (Or.inl hp)).trans (q3.mono fun p hp => Or.inl (Or.inr hp))
  have FC : Frame C.foot m m' := F.mono (by
    rintro p ((h' | h') | h')
    · exact s1 h'
    · exact s2 h'
    · exact h'.elim)
  have x1' : m' (if right then C.at' 0 k else C.at' k 0) = some (b k 0 - t k * v0 * S) := by
    rw [q3 _ (Set.disjoint_left.mp d12 x1m)]
    exact Mem.set_same _ _ _
  refine Runs.pure ⟨?_, H'.frame FC (Set.disjoint_left.mpr fun p hp hq => Set.disjoint_left.mp dC hq (Or.inl hp)) (fun p hp => absurd hp (by omega)), FC⟩
  have j := HoldsR.join (y := fun i j => refl A.rows (t k) (hmw unit f k) b (k + i) j) (k := k) (n := 1) wf (by omega) hC ?_ ?_ F (Set.disjoint_empty _)
  · refine Holds.congr j fun i j _ _ => ?_
    have e : ∀ i j, (if i < k then b i j else refl A.rows (t k) (hmw unit f k) b (k + (i - k)) j) = refl A.rows (t k) (hmw unit f k) b i j := by
      intro i j
      by_cases c : i < k
      · rw [if_pos c, refl, hmw, if_pos c]; ring
      · rw [if_neg c, show k + (i - k) = i by omega]
    simp only [e]
  · have e : b k 0 - t k * v0 * S = refl A.rows (t k) (hmw unit f k) b (k + 0) 0 := by
      rw [refl, sum_hmw f (fun l => b l 0) (by omega), hS]
      simp only [Nat.add_zero]
      rw [hmw, if_neg (by omega), if_pos rfl, ← hv0]
    rw [e] at x1'
    intro i j hi hj
    rw [(rsub_shape _ _ _ _).1, h1] at hi
    rw [(rsub_shape _ _ _ _).2, h1] at hj
    have hi0 : i = 0 := by revert hi; cases right <;> simp
    have hj0 : j = 0 := by revert hj; cases right <;> simp
    subst hi0 hj0
    cases right
    · simpa [rsub, View.sub, View.at'] using x1'
    · simpa [rsub, View.sub, View.at'] using x1'
  · rw [holdsV_iff v2] at q2
    refine Holds.congr q2 fun i j hi hj => ?_
    have e : ∀ i, b (k + 1 + i) 0 + -t k * S * f (k + 1 + i) k = refl A.rows (t k) (hmw unit f k) b (k + (1 + i)) 0 := by
      intro i
      rw [refl, sum_hmw f (fun l => b l 0) (by omega), ← Nat.add_assoc, hmw, if_neg (by omega), if_neg (by omega), ← hv0, hS]
      ring
    rw [(rsub_shape _ _ _ _).1, h1] at hi
    rw [(rsub_shape _ _ _ _).2, h1] at hj
    cases right
    · simp only [Bool.false_eq_true, if_false] at hi hj ⊢
      rw [show j = 0 by omega]
      exact e i
    · simp only [if_true] at hi hj ⊢
      rw [show i = 0 by omega, Nat.zero_add]
      exact e j

/-- All passes for a vector. -/
theorem hmultVec_spec (ab : α → α) {env : Env} {fuel : Nat} {m : Mem α} {unit trans right : Bool} {C A tau W : View} {w : Nat} {f b : Nat → Nat → α} {t : Nat → α}
    (H : HmArgs m unit right C A tau w 0 f t) (h1 : rwid right C = 1) (hf : A.rows < fuel) (hC : HoldsR right m C b) :
    Runs (hmult ab env fuel unit trans right m C tau A W) (fun m' =>
      HoldsR right m' C (if trans = right then hmProd unit A.rows A.cols t f b else hmProdT unit A.rows A.cols t f b) ∧ Frame C.foot m m') := by
  have hv : C.isVec := by
    cases right
    · exact Or.inr h1
    · exact Or.inl h1
  unfold hmult
  refine Runs.bind (P := fun r => HoldsR right r.2 C (if trans = right then hmProd unit A.rows A.cols t f b else hmProdT unit A.rows A.cols t f b) ∧
    Frame C.foot m r.2) ?_ (fun r h => Runs.pure h)
  refine Runs.forUp1 (i := 0) (n := A.cols) (I := fun d m' => (∃ y, HoldsR right m' C y ∧
      (if trans = right then hmProd unit A.rows (A.cols - d) t f y = hmProd unit A.rows A.cols t f b else y = hmProdT unit A.rows d t f b)) ∧
      HmArgs m' unit right C A tau w 0 f t ∧ Frame C.foot m m') (Nat.zero_le _)
    ⟨⟨b, hC, by by_cases h : trans = right <;> simp [h, hmProdT]⟩, H, Frame.refl _ _⟩ ?_ ?_
  · rintro d m1 - hd ⟨⟨y, k1, k2⟩, k3, k4⟩
    dsimp only
    rw [if_pos hv]
    refine (hmultVecStep_spec k3 h1 hf (k := if trans = right then A.cols - 1 - d else d) (by split <;> omega) k1).mono ?_
    rintro m2 ⟨q1, q2, q3⟩
    refine ⟨⟨_, q1, ?_⟩, q2, k4.trans q3⟩
    by_cases h : trans = right
    · simp only [if_pos h] at k2 ⊢
      rw [← k2, show A.cols - d = A.cols - (d + 1) + 1 by omega, hmProd, show A.cols - (d + 1) = A.cols - 1 - d by omega]
    · simp only [if_neg h] at k2 ⊢
      rw [k2, hmProdT]
  · rintro m1 ⟨⟨y, k1, k2⟩, k3, k4⟩
    refine ⟨?_, k4⟩
    by_cases h : trans = right
    · simp only [if_pos h, Nat.sub_self, hmProd] at k2 ⊢
      rwa [← k2]
    · simp only [if_neg h] at k2 ⊢
      rwa [← k2]

end Armas
