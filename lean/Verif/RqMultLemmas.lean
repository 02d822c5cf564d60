import Verif.Rq
import Verif.QlMultLemmas
import Verif.LqMultLemmas

/-!
# Lemmas for C121
-/

namespace Armas

open Finset

variable {α : Type} [Field α] [DecidableEq α]

/-- The calls of `unblkRqmultLeftStep` and `unblkRqmultRightStep`. -/
def rqmStep (ab : α → α) (env : Env) (fuel : Nat) (right : Bool) (C A tau : View) (W k : Nat) (m : Mem α) : Res (Mem α) :=
  applyHH2x1 ab env fuel m (some (tau.at' k 0)) (A.sub k 0 1 (A.cols - A.rows + k)) (rsub right C (A.cols - A.rows + k) 1)
    (rsub right C 0 (A.cols - A.rows + k)) ⟨W, rwid right C, rwid right C, 1⟩ (!right)

theorem rqmStep_spec (ab : α → α) {env : Env} (hmin : 2 ≤ env.blas2min ∨ (env.naive = true ∧ env.recursive = false))
    {fuel : Nat} {m : Mem α} {right : Bool} {C A tau : View} {w ws k : Nat} {f b : Nat → Nat → α} {t : Nat → α}
    (H : LqmArgs m right C A tau w ws f t) (hws : rwid right C ≤ ws) (hf : A.cols < fuel) (hf' : rwid right C < fuel) (hk : k < A.rows)
    (hC : HoldsR right m C b) :
    Runs (rqmStep ab env fuel right C A tau w k m) (fun m' => HoldsR right m' C (refl A.cols (t k) (qlw A.cols A.rows f k) b) ∧
      LqmArgs m' right C A tau w ws f t ∧ Frame (C.foot ∪ wcells w ws) m m') := by
  have H' := H
  obtain ⟨wf, len, sh, hA, ht, hW, dC, dW⟩ := H
  obtain ⟨M, hM⟩ : ∃ M, A.cols = M := ⟨_, rfl⟩
  obtain ⟨N, hN⟩ : ∃ N, A.rows = N := ⟨_, rfl⟩
  rw [hM] at hf len sh
  rw [hN] at hk sh
  unfold rqmStep
  rw [hM, hN]
  have sW : wcells w (rwid right C) ⊆ wcells w ws := fun p hp => ⟨hp.1, by have := hp.2; omega⟩
  obtain ⟨r, hr⟩ : ∃ r, M - N + k = r := ⟨_, rfl⟩
  rw [hr]
  have sv : (A.sub k 0 1 r).foot ⊆ A.foot := View.sub_foot (by omega) (by omega)
  have ew : (⟨w, rwid right C, rwid right C, 1⟩ : View).foot = wcells w (rwid right C) := work_foot _ _
  obtain ⟨x, hx⟩ := (hW.le hws).holds
  have c1 := hC.part (k := r) (n := 1) (by omega)
  have c2 := hC.part (k := 0) (n := r) (by omega)
  have s1 := rsub_foot (right := right) (C := C) (k := r) (n := 1) (by omega)
  have s2 := rsub_foot (right := right) (C := C) (k := 0) (n := r) (by omega)
  have sz : (A.sub k 0 1 r).size = r := by simp [View.size]
  have dCA : Disjoint C.foot A.foot := dC.mono_right fun p hp => Or.inl (Or.inl hp)
  have dCW : Disjoint C.foot (wcells w ws) := dC.mono_right fun p hp => Or.inr hp
  have dWA : Disjoint (wcells w ws) A.foot := dW.mono_right fun p hp => Or.inl hp
  have q := applyHH_spec ab hmin (right := right) (P := r) (K := rwid right C) (tau := tau.at' k 0) (fuel := fuel) (m := m)
    (v := A.sub k 0 1 r) (a1 := rsub right C r 1) (A2 := rsub right C 0 r)
    (w1 := ⟨w, rwid right C, rwid right C, 1⟩) (f := fun l => f l k) (g := fun j => b r j) (a := fun i j => b i j) (w := x)
    hf' (by omega) (ht k (by omega)) (Or.inl rfl) (rsub_vec right C r).1 (Or.inr rfl) (Or.inr (le_refl 1)) (rsub_wf wf (by omega)) (rsub_wf wf (by omega))
    (by rw [(rsub_shape _ _ _ _).1]) (by rw [(rsub_shape _ _ _ _).2]) sz (rsub_vec right C r).2 (by simp [View.size])
    (((hA.part (by omega) (by omega)).toV_row).congr fun l _ => by simp) (c1.toV.congr fun l _ => rfl)
    (by simpa only [HoldsR, Nat.zero_add] using c2) hx
    (by rw [ew]; exact (dWA.mono sW sv).symm) ((dCA.mono s1 sv).symm) ((dCA.mono s2 sv).symm) (by rw [ew]; exact dCW.mono s1 sW)
    (rsub_disj wf (by omega) (by omega) (by omega)).symm (by rw [ew]; exact dCW.mono s2 sW)
  refine q.mono ?_
  rintro m' ⟨q1, q2, ⟨x', hx'⟩, F⟩
  rw [ew] at F
  have hW' : WAlloc m' w ws := by
    intro p hp
    by_cases h : p < rwid right C
    · exact (WAlloc.of_holds hx') p h
    · obtain ⟨y, hy⟩ := hW p hp
      have hm : w + p ∈ wcells w ws := ⟨by omega, by omega⟩
      refine ⟨y, ?_⟩
      rw [← hy]
      refine F _ ?_
      rintro ((h' | h') | h')
      · exact Set.disjoint_left.mp dCW (s1 h') hm
      · exact Set.disjoint_left.mp dCW (s2 h') hm
      · have := h'.2; omega
  have FC : Frame (C.foot ∪ wcells w ws) m m' := F.mono (by
    rintro p ((h' | h') | h')
    · exact Or.inl (s1 h')
    · exact Or.inl (s2 h')
    · exact Or.inr (sW h'))
  refine ⟨?_, H'.frame FC ?_ hW', FC⟩
  · have j := HoldsR.joinUp (y := refl M (t k) (qlw M N f k) b) (r := r) wf (by omega) hC ?_ ?_ F (dCW.mono_right sW)
    · refine Holds.congr j fun i j _ _ => ?_
      have e : ∀ i j, (if r < i then b i j else refl M (t k) (qlw M N f k) b i j) = refl M (t k) (qlw M N f k) b i j := by
        intro i j
        by_cases c : r < i
        · rw [if_pos c, refl, show qlw M N f k i = 0 by rw [qlw, if_pos (by omega)]]; ring
        · rw [if_neg c]
      simp only [e]
    · refine Holds.congr (HoldsR.ofV q1) fun i j hi hj => ?_
      have e : ∀ i j, i = 0 → b r j - t k * (b r j + ∑ l ∈ range r, f l k * b l j) = refl M (t k) (qlw M N f k) b (r + i) j := by
        intro i j hi
        subst hi
        rw [refl, sum_qlw f (fun l => b l j) hk sh, hr]
        simp only [Nat.add_zero]
        rw [qlw, if_neg (by omega), if_pos (by omega)]
        ring
      rw [(rsub_shape _ _ _ _).1] at hi
      rw [(rsub_shape _ _ _ _).2] at hj
      cases right
      · simp only [Bool.false_eq_true, if_false] at hi hj ⊢
        exact e i j (by omega)
      · simp only [if_true] at hi hj ⊢
        exact e j i (by omega)
    · refine Holds.congr q2 fun i j hi hj => ?_
      have e : ∀ i j, i < r → b i j - f i k * (t k * (b r j + ∑ l ∈ range r, f l k * b l j)) = refl M (t k) (qlw M N f k) b i j := by
        intro i j hi
        rw [refl, sum_qlw f (fun l => b l j) hk sh, hr, qlw, if_neg (by omega), if_neg (by omega)]
        ring
      rw [(rsub_shape _ _ _ _).1] at hi
      rw [(rsub_shape _ _ _ _).2] at hj
      cases right
      · simp only [Bool.false_eq_true, if_false] at hi hj ⊢
        exact e i j hi
      · simp only [if_true] at hi hj ⊢
        exact e j i hj
  · rw [Set.disjoint_union_right]
    refine ⟨Set.disjoint_left.mpr fun p hp hq => Set.disjoint_left.mp dC hq (Or.inl hp), dW.symm⟩

/-- Common program of the unblocked versions. -/
def rqmUnb (ab : α → α) (env : Env) (fuel : Nat) (right bw : Bool) (m : Mem α) (C A tau : View) (W : Nat) : Res (Mem α) := do
  let (_, m) ← forUp 0 A.rows 1 (fun d => rqmStep ab env fuel right C A tau W (if bw then A.rows - 1 - d else d)) m
  pure m

theorem rqmUnb_left (ab : α → α) (env : Env) (fuel : Nat) (trans : Bool) (m : Mem α) (C A tau : View) (W : Nat) (h : A.rows ≤ A.cols) (ht : tau.rows = A.rows) :
    unblkRqmultLeft ab env fuel m C A tau W trans = rqmUnb ab env fuel false (!trans) m C A tau W := by
  unfold unblkRqmultLeft rqmUnb
  rw [Nat.min_eq_left h, forUp_congr (g' := fun d => rqmStep ab env fuel false C A tau W (if (!trans) then A.rows - 1 - d else d))]
  intro d _ hd
  cases trans
  · simp only [Bool.false_eq_true, if_false, Bool.not_false, if_true]
    unfold unblkRqmultLeftStep rqmStep
    rw [ht, show A.cols - 1 - d = A.cols - A.rows + (A.rows - 1 - d) by omega]
    rfl
  · simp only [if_true, Bool.not_true, Bool.false_eq_true, if_false]
    unfold unblkRqmultLeftStep rqmStep
    rw [ht, Nat.sub_self, Nat.sub_eq_zero_of_le h, Nat.zero_add]
    rfl

theorem rqmUnb_right (ab : α → α) (env : Env) (fuel : Nat) (trans : Bool) (m : Mem α) (C A tau : View) (W : Nat) (h : A.rows ≤ A.cols) (ht : tau.rows = A.rows) :
    unblkRqmultRight ab env fuel m C A tau W trans = rqmUnb ab env fuel true trans m C A tau W := by
  unfold unblkRqmultRight rqmUnb
  rw [Nat.min_eq_left h, forUp_congr (g' := fun d => rqmStep ab env fuel true C A tau W (if trans then A.rows - 1 - d else d))]
  intro d _ hd
  cases trans
  · simp only [Bool.false_eq_true, if_false, Bool.not_false, if_true]
    unfold unblkRqmultRightStep rqmStep
    rw [ht, Nat.sub_self, Nat.sub_eq_zero_of_le h, Nat.zero_add]
    rfl
  · simp only [if_true, Bool.not_true, Bool.false_eq_true, if_false]
    unfold unblkRqmultRightStep rqmStep
    rw [ht, show A.cols - 1 - d = A.cols - A.rows + (A.rows - 1 - d) by omega]
    rfl

theorem rqmUnb_spec (ab : α → α) {env : Env} (hmin : 2 ≤ env.blas2min ∨ (env.naive = true ∧ env.recursive = false))
    {fuel : Nat} {m : Mem α} {right bw : Bool} {C A tau : View} {w ws : Nat} {f b : Nat → Nat → α} {t : Nat → α}
    (H : LqmArgs m right C A tau w ws f t) (hws : rwid right C ≤ ws) (hf : A.cols < fuel) (hf' : rwid right C < fuel) (hC : HoldsR right m C b) :
    Runs (rqmUnb ab env fuel right bw m C A tau w) (fun m' => HoldsR right m' C (qlVal A.cols A.rows bw t f b) ∧
      LqmArgs m' right C A tau w ws f t ∧ Frame (C.foot ∪ wcells w ws) m m') := by
  unfold rqmUnb
  refine Runs.bind (P := fun r => HoldsR right r.2 C (qlVal A.cols A.rows bw t f b) ∧
      LqmArgs r.2 right C A tau w ws f t ∧ Frame (C.foot ∪ wcells w ws) m r.2) ?_ ?_
  swap
  · rintro ⟨k, m'⟩ h
    exact Runs.pure h
  cases bw
  · simp only [Bool.false_eq_true, if_false]
    refine Runs.forUp1 (i := 0) (n := A.rows) (I := fun k m' => ∃ y, HoldsR right m' C y ∧
      (∀ i j, i < A.cols → qlProd A.cols A.rows (A.rows - k) t f y i j = qlProd A.cols A.rows A.rows t f b i j) ∧
      LqmArgs m' right C A tau w ws f t ∧ Frame (C.foot ∪ wcells w ws) m m') (Nat.zero_le _) ⟨b, hC, fun _ _ _ => rfl, H, Frame.refl _ _⟩ ?_ ?_
    · rintro k m1 - hk ⟨y, hy, e, H1, F1⟩
      refine (rqmStep_spec ab hmin H1 hws hf hf' hk hy).mono ?_
      rintro m2 ⟨q1, q2, q3⟩
      refine ⟨_, q1, fun i j hi => ?_, q2, F1.trans q3⟩
      rw [← e i j hi, show A.rows - k = (A.rows - (k + 1)) + 1 by omega, qlProd, show A.rows - 1 - (A.rows - (k + 1)) = k by omega]
    · rintro m' ⟨y, hy, e, H1, F1⟩
      refine ⟨hy.congr fun i j hi => ?_, H1, F1⟩
      rw [H.len] at hi
      have := e i j hi
      rw [Nat.sub_self] at this
      exact this
  · simp only [if_true]
    refine Runs.forUp1 (i := 0) (n := A.rows) (I := fun k m' => HoldsR right m' C (qlProdT A.cols A.rows k t f b) ∧ LqmArgs m' right C A tau w ws f t ∧
        Frame (C.foot ∪ wcells w ws) m m') (Nat.zero_le _) ⟨hC, H, Frame.refl _ _⟩ ?_ (fun st h => h)
    rintro k m1 - hk ⟨hy, H1, F1⟩
    refine (rqmStep_spec ab hmin H1 hws hf hf' (by omega) hy).mono ?_
    rintro m2 ⟨q1, q2, q3⟩
    exact ⟨q1, q2, F1.trans q3⟩

end Armas
