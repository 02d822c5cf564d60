import Verif.Housem
import Verif.QrMultLemmas

/-!
# Lemmas for C123
-/

namespace Armas

open Finset

variable {α : Type} [Field α]

/-- Vector of reflector `k` stored in column `k`: one or the stored element on the diagonal. -/
def hmw (unit : Bool) (f : Nat → Nat → α) (k i : Nat) : α := if i < k then 0 else if i = k then (if unit then 1 else f k k) else f i k

/-- `H_0 H_1 ... H_{k-1} b` where `H_l = I - t_l w_l w_lᵀ`. -/
def hmProd (unit : Bool) (M : Nat) : Nat → (Nat → α) → (Nat → Nat → α) → (Nat → Nat → α) → Nat → Nat → α
  | 0, _, _, b => b
  | k + 1, t, f, b => hmProd unit M k t f (refl M (t k) (hmw unit f k) b)

/-- `H_{k-1} ... H_1 H_0 b`. -/
def hmProdT (unit : Bool) (M : Nat) : Nat → (Nat → α) → (Nat → Nat → α) → (Nat → Nat → α) → Nat → Nat → α
  | 0, _, _, b => b
  | k + 1, t, f, b => refl M (t k) (hmw unit f k) (hmProdT unit M k t f b)

theorem sum_hmw {unit : Bool} {M k : Nat} (f : Nat → Nat → α) (u : Nat → α) (hk : k < M) :
    ∑ l ∈ range M, hmw unit f k l * u l = (if unit then 1 else f k k) * u k + ∑ l ∈ range (M - k - 1), f (k + 1 + l) k * u (k + 1 + l) := by
  obtain ⟨p, rfl⟩ : ∃ p, M = k + 1 + p := ⟨M - k - 1, by omega⟩
  rw [sum_range_add, sum_range_succ, sum_eq_zero (s := range k) fun l hl => ?_]
  · rw [zero_add, show k + 1 + p - k - 1 = p by omega]
    congr 1
    · simp [hmw]
    · refine sum_congr rfl fun l _ => ?_
      simp only [hmw]
      rw [if_neg (by omega), if_neg (by omega)]
  · simp only [hmw]
    rw [if_pos (mem_range.mp hl), zero_mul]

/-- The cells of `tau`, which is used for scaled reflectors only. -/
def hmCells (unit : Bool) (tau : View) (n : Nat) : Set Nat := if unit then tcells tau n else ∅

/-- Arguments of the multiplication; `t` is 2 for reflectors that are not scaled. -/
structure HmArgs (m : Mem α) (unit right : Bool) (C A tau : View) (w ws : Nat) (f : Nat → Nat → α) (t : Nat → α) : Prop where
  wf : C.WF
  len : rlen right C = A.rows
  sh : A.cols ≤ A.rows
  hA : Holds m A f
  ht : ∀ k, k < A.cols → if unit then m (tau.at' k 0) = some (t k) else t k = 2
  hW : WAlloc m w ws
  dC : Disjoint C.foot (A.foot ∪ hmCells unit tau A.cols ∪ wcells w ws)
  dW : Disjoint (wcells w ws) (A.foot ∪ hmCells unit tau A.cols)

theorem HmArgs.frame {m m' : Mem α} {unit right : Bool} {C A tau : View} {w ws : Nat} {f : Nat → Nat → α} {t : Nat → α}
    (H : HmArgs m unit right C A tau w ws f t) {S : Set Nat} (F : Frame S m m') (hS : Disjoint (A.foot ∪ hmCells unit tau A.cols) S) (hW : WAlloc m' w ws) :
    HmArgs m' unit right C A tau w ws f t := by
  obtain ⟨wf, len, sh, hA, ht, -, dC, dW⟩ := H
  rw [Set.disjoint_union_left] at hS
  refine ⟨wf, len, sh, hA.frame F hS.1, fun k hk => ?_, hW, dC, dW⟩
  have := ht k hk
  cases unit
  · exact this
  · simp only [if_true] at this ⊢
    rw [F _ (Set.disjoint_left.mp hS.2 (show _ ∈ hmCells true tau A.cols from ⟨k, hk, rfl⟩))]
    exact this

variable [DecidableEq α]

/-- The calls of one pass. -/
theorem hmCalls_spec (ab : α → α) {env : Env} (hmin : 2 ≤ env.blas2min ∨ (env.naive = true ∧ env.recursive = false))
    {fuel : Nat} {m : Mem α} {v a1 A2 w1 : View} {P K : Nat} {t v0 : α} {f g w : Nat → α} {a : Nat → Nat → α} {right : Bool}
    (hf : K < fuel) (hf' : P < fuel)
    (vv : v.isVec) (v1 : a1.isVec) (vw : w1.isVec) (w1w : w1.WF) (a1w : a1.WF) (A2w : A2.WF)
    (sr : A2.rows = if right then K else P) (sc : A2.cols = if right then P else K)
    (sv : v.size = P) (s1 : a1.size = K) (sw : w1.size = K)
    (hv : HoldsV m v f) (h1 : HoldsV m a1 g) (hA : Holds m A2 (fun i j => if right then a j i else a i j)) (hw : HoldsV m w1 w)
    (dvw : Disjoint v.foot w1.foot) (dv1 : Disjoint v.foot a1.foot) (dvA : Disjoint v.foot A2.foot)
    (d1w : Disjoint a1.foot w1.foot) (d1A : Disjoint a1.foot A2.foot) (dAw : Disjoint A2.foot w1.foot) :
    Runs (do
      let (_, m) ← axpby m 0 w1 v0 a1
      let (_, m) ← mvmult ab env fuel m 1 w1 1 A2 v { transA := !right }
      let (_, m) ← axpy m a1 (-t * v0) w1
      let (_, m) ← (if right then mvupdate env fuel m 1 A2 (-t) w1 v else mvupdate env fuel m 1 A2 (-t) v w1)
      pure m) (fun m' =>
      HoldsV m' a1 (fun j => g j - t * v0 * (v0 * g j + ∑ l ∈ range P, f l * a l j)) ∧
      Holds m' A2 (fun i j => if right then a j i - f j * (t * (v0 * g i + ∑ l ∈ range P, f l * a l i))
        else a i j - f i * (t * (v0 * g j + ∑ l ∈ range P, f l * a l j))) ∧
      (∃ w', HoldsV m' w1 w') ∧ Frame (a1.foot ∪ A2.foot ∪ w1.foot) m m') := by
  refine Runs.bind (Props.C06_axpby 0 v0 v1 vw w1w (by rw [s1, sw]) h1 hw d1w) ?_
  rintro ⟨e, m1⟩ ⟨-, k1, k2⟩
  dsimp only at k1 k2 ⊢
  have hmin' : env.blas2min ≠ 1 ∨ env.naive = true := by
    rcases hmin with h | h
    · left; omega
    · exact Or.inr h.1
  refine Runs.bind (mvmult_one' (A := A2) (X := v) ab hmin' 1 rfl (by omega) vw w1w vv (by cases right <;> simp_all) (by cases right <;> simp_all) k1
    (hA.frame k2 dAw) (hv.frame vv k2 dvw) dAw dvw) ?_
  rintro ⟨e, m2⟩ ⟨k3, k4⟩
  dsimp only at k3 k4 ⊢
  have k5 : HoldsV m2 w1 (fun i => v0 * g i + ∑ l ∈ range P, f l * a l i) := by
    refine k3.congr fun i _ => ?_
    rw [sv]
    have e1 : ∑ j ∈ range P, (if (!right) = true then (if right = true then a i j else a j i) else if right = true then a j i else a i j) * f j =
        ∑ l ∈ range P, f l * a l i := sum_congr rfl fun j _ => by cases right <;> simp [mul_comm]
    rw [e1]
    ring
  have F3 : Frame w1.foot m m2 := k2.trans k4
  refine Runs.bind (Props.C06_axpy (-t * v0) vw v1 a1w (by rw [s1, sw]) k5 (h1.frame v1 F3 d1w) d1w.symm) ?_
  rintro ⟨e, m4⟩ ⟨-, k7, k8⟩
  dsimp only at k7 k8
  have F4 : Frame (a1.foot ∪ w1.foot) m m4 :=
    (F3.mono Set.subset_union_right).trans (k8.mono Set.subset_union_left)
  have hA4 := hA.frame F4 (Set.disjoint_union_right.mpr ⟨d1A.symm, dAw⟩)
  have hv4 := hv.frame vv F4 (Set.disjoint_union_right.mpr ⟨dv1, dvw⟩)
  have hw4 := k5.frame vw k8 d1w.symm
  have fin : ∀ m5, Holds m5 A2 (fun i j => if right then a j i - f j * (t * (v0 * g i + ∑ l ∈ range P, f l * a l i))
      else a i j - f i * (t * (v0 * g j + ∑ l ∈ range P, f l * a l j))) → Frame A2.foot m4 m5 →
      HoldsV m5 a1 (fun j => g j - t * v0 * (v0 * g j + ∑ l ∈ range P, f l * a l j)) ∧
      Holds m5 A2 (fun i j => if right then a j i - f j * (t * (v0 * g i + ∑ l ∈ range P, f l * a l i))
        else a i j - f i * (t * (v0 * g j + ∑ l ∈ range P, f l * a l j))) ∧
      (∃ w', HoldsV m5 w1 w') ∧ Frame (a1.foot ∪ A2.foot ∪ w1.foot) m m5 := by
    intro m5 k9 k10
    refine ⟨(k7.frame v1 k10 d1A).congr fun k _ => by ring, k9, ⟨_, hw4.frame vw k10 dAw.symm⟩, ?_⟩
    refine (F4.mono ?_).trans (k10.mono ?_)
    · intro p hp
      rcases hp with h | h
      · exact Or.inl (Or.inl h)
      · exact Or.inr h
    · intro p hp
      exact Or.inl (Or.inr hp)
  cases right with
  | false =>
    simp only [Bool.false_eq_true, if_false] at *
    refine Runs.bind (Props.C11_mvupdate_partial hmin 1 (-t) (by omega) A2w vv vw (by omega) (by omega) hA4 hv4 hw4 dvA dAw.symm) ?_
    rintro ⟨e, m5⟩ ⟨-, k9, k10⟩
    exact Runs.pure (fin m5 (k9.congr fun i j _ _ => by ring) k10)
  | true =>
    simp only [if_true] at *
    refine Runs.bind (Props.C11_mvupdate_partial hmin 1 (-t) (by omega) A2w vw vv (by omega) (by omega) hA4 hw4 hv4 dAw.symm dvA) ?_
    rintro ⟨e, m5⟩ ⟨-, k9, k10⟩
    exact Runs.pure (fin m5 (k9.congr fun i j _ _ => by ring) k10)

theorem hmultStep_spec (ab : α → α) {env : Env} (hmin : 2 ≤ env.blas2min ∨ (env.naive = true ∧ env.recursive = false))
    {fuel : Nat} {m : Mem α} {unit right : Bool} {C A tau : View} {w ws k : Nat} {f b : Nat → Nat → α} {t : Nat → α}
    (H : HmArgs m unit right C A tau w ws f t) (hws : rwid right C ≤ ws) (hf : A.rows < fuel) (hf' : rwid right C < fuel) (hk : k < A.cols)
    (hC : HoldsR right m C b) :
    Runs (hmultStep ab env fuel unit right C tau A ⟨w, rwid right C, rwid right C, 1⟩ k m) (fun m' =>
      HoldsR right m' C (refl A.rows (t k) (hmw unit f k) b) ∧
      HmArgs m' unit right C A tau w ws f t ∧ Frame (C.foot ∪ wcells w ws) m m') := by
  have H' := H
  obtain ⟨wf, len, sh, hA, ht, hW, dC, dW⟩ := H
  have sW : wcells w (rwid right C) ⊆ wcells w ws := fun p hp => ⟨hp.1, by have := hp.2; omega⟩
  have sv : (A.sub (k + 1) k (A.rows - k - 1) 1).foot ⊆ A.foot := View.sub_foot (by omega) (by omega)
  have ew : (⟨w, rwid right C, rwid right C, 1⟩ : View).foot = wcells w (rwid right C) := work_foot _ _
  obtain ⟨x, hx⟩ := (hW.le hws).holds
  have c1 := hC.part (k := k) (n := 1) (by omega)
  have c2 := hC.part (k := k + 1) (n := rlen right C - k - 1) (by omega)
  have s1 := rsub_foot (right := right) (C := C) (k := k) (n := 1) (by omega)
  have s2 := rsub_foot (right := right) (C := C) (k := k + 1) (n := rlen right C - k - 1) (by omega)
  have sz : (A.sub (k + 1) k (A.rows - k - 1) 1).size = A.rows - k - 1 := by simp [View.size]
  have dCA : Disjoint C.foot A.foot := dC.mono_right fun p hp => Or.inl (Or.inl hp)
  have dCW : Disjoint C.foot (wcells w ws) := dC.mono_right fun p hp => Or.inr hp
  have dWA : Disjoint (wcells w ws) A.foot := dW.mono_right fun p hp => Or.inl hp
  obtain ⟨v0, hv0⟩ : ∃ v0 : α, v0 = if unit then 1 else f k k := ⟨_, rfl⟩
  have r1 : hmTau unit m tau k = .ok (t k) := by
    have := ht k hk
    cases unit
    · simp only [Bool.false_eq_true, if_false] at this
      rw [this]; rfl
    · simp only [if_true] at this
      simp only [hmTau, if_true, rd, this]
  have r2 : hmV0 unit m A k = .ok v0 := by
    rw [hv0]
    cases unit
    · simp only [hmV0, Bool.false_eq_true, if_false, rd, hA k k (by omega) hk]
    · rfl
  unfold hmultStep
  dsimp only
  refine Runs.bind (P := fun x => x = t k) (by rw [r1]; exact Runs.ok rfl) ?_
  rintro _ rfl
  refine Runs.bind (P := fun x => x = v0) (by rw [r2]; exact Runs.ok rfl) ?_
  intro y hy
  rw [show y = v0 from hy]
  have x1e : (if right then C.sub 0 k C.rows 1 else C.sub k 0 1 C.cols) = rsub right C k 1 := rfl
  have x2e : (if right then C.sub 0 (k + 1) C.rows (C.cols - k - 1) else C.sub (k + 1) 0 (C.rows - k - 1) C.cols) =
      rsub right C (k + 1) (rlen right C - k - 1) := by cases right <;> rfl
  rw [x1e, x2e]
  have q := hmCalls_spec ab hmin (right := right) (P := A.rows - k - 1) (K := rwid right C) (t := t k) (v0 := v0) (fuel := fuel) (m := m)
    (v := A.sub (k + 1) k (A.rows - k - 1) 1) (a1 := rsub right C k 1) (A2 := rsub right C (k + 1) (rlen right C - k - 1))
    (w1 := ⟨w, rwid right C, rwid right C, 1⟩) (f := fun l => f (k + 1 + l) k) (g := fun j => b k j) (a := fun i j => b (k + 1 + i) j) (w := x)
    hf' (by omega) (Or.inr rfl) (rsub_vec right C k).1 (Or.inr rfl) (Or.inr (le_refl 1)) (rsub_wf wf (by omega)) (rsub_wf wf (by omega))
    (by rw [(rsub_shape _ _ _ _).1, len]) (by rw [(rsub_shape _ _ _ _).2, len]) sz (rsub_vec right C k).2 (by simp [View.size])
    (((hA.part (by omega) (by omega)).toV_col).congr fun l _ => rfl) (c1.toV.congr fun l _ => rfl) c2 hx
    (by rw [ew]; exact (dWA.mono sW sv).symm) ((dCA.mono s1 sv).symm) ((dCA.mono s2 sv).symm) (by rw [ew]; exact dCW.mono s1 sW)
    (rsub_disj wf (by omega) (by omega) (le_refl _)) (by rw [ew]; exact dCW.mono s2 sW)
  refine q.mono ?_
  rintro m' ⟨q1, q2, ⟨x', hx'⟩, F⟩
  rw [ew] at F
  have hW' : WAlloc m' w ws := by
    intro p hp
    by_cases h : p < rwid right C
    · exact (WAlloc.of_holds hx') p h
    · obtain ⟨y, hy⟩ := hW p hp
      have hm : w + p ∈ wcells w ws := ⟨by omega, by omega⟩
      refine ⟨y, ?_⟩
      rw [← hy]
      refine F _ ?_
      rintro ((h' | h') | h')
      · exact Set.disjoint_left.mp dCW (s1 h') hm
      · exact Set.disjoint_left.mp dCW (s2 h') hm
      · have := h'.2; omega
  have FC : Frame (C.foot ∪ wcells w ws) m m' := F.mono (by
    rintro p ((h' | h') | h')
    · exact Or.inl (s1 h')
    · exact Or.inl (s2 h')
    · exact Or.inr (sW h'))
  refine ⟨?_, H'.frame FC ?_ hW', FC⟩
  · have j := HoldsR.join (y := fun i j => refl A.rows (t k) (hmw unit f k) b (k + i) j) (k := k) (n := 1) wf (by omega) hC ?_ ?_ F (dCW.mono_right sW)
    · refine Holds.congr j fun i j _ _ => ?_
      have e : ∀ i j, (if i < k then b i j else refl A.rows (t k) (hmw unit f k) b (k + (i - k)) j) = refl A.rows (t k) (hmw unit f k) b i j := by
        intro i j
        by_cases c : i < k
        · rw [if_pos c, refl, hmw, if_pos c]; ring
        · rw [if_neg c, show k + (i - k) = i by omega]
      simp only [e]
    · refine Holds.congr (HoldsR.ofV q1) fun i j hi hj => ?_
      have e : ∀ i j, i = 0 → b k j - t k * v0 * (v0 * b k j + ∑ l ∈ range (A.rows - k - 1), f (k + 1 + l) k * b (k + 1 + l) j) =
          refl A.rows (t k) (hmw unit f k) b (k + i) j := by
        intro i j hi
        subst hi
        rw [refl, sum_hmw f (fun l => b l j) (by omega)]
        simp only [Nat.add_zero]
        rw [hmw, if_neg (by omega), if_pos rfl, ← hv0]
      rw [(rsub_shape _ _ _ _).1] at hi
      rw [(rsub_shape _ _ _ _).2] at hj
      cases right
      · simp only [Bool.false_eq_true, if_false] at hi hj ⊢
        exact e i j (by omega)
      · simp only [if_true] at hi hj ⊢
        exact e j i (by omega)
    · refine Holds.congr q2 fun i j hi hj => ?_
      have e : ∀ i j, b (k + 1 + i) j - f (k + 1 + i) k * (t k * (v0 * b k j + ∑ l ∈ range (A.rows - k - 1), f (k + 1 + l) k * b (k + 1 + l) j)) =
          refl A.rows (t k) (hmw unit f k) b (k + (1 + i)) j := by
        intro i j
        rw [refl, sum_hmw f (fun l => b l j) (by omega), ← Nat.add_assoc, hmw, if_neg (by omega), if_neg (by omega), ← hv0]
        ring
      cases right
      · exact e i j
      · exact e j i
  · rw [Set.disjoint_union_right]
    refine ⟨Set.disjoint_left.mpr fun p hp hq => Set.disjoint_left.mp dC hq (Or.inl hp), dW.symm⟩

/-- All passes for a matrix. -/
theorem hmult_spec (ab : α → α) {env : Env} (hmin : 2 ≤ env.blas2min ∨ (env.naive = true ∧ env.recursive = false))
    {fuel : Nat} {m : Mem α} {unit trans right : Bool} {C A tau : View} {w ws : Nat} {f b : Nat → Nat → α} {t : Nat → α}
    (H : HmArgs m unit right C A tau w ws f t) (hv : ¬ C.isVec) (hws : rwid right C ≤ ws) (hf : A.rows < fuel) (hf' : rwid right C < fuel)
    (hC : HoldsR right m C b) :
    Runs (hmult ab env fuel unit trans right m C tau A ⟨w, rwid right C, rwid right C, 1⟩) (fun m' =>
      HoldsR right m' C (if trans = right then hmProd unit A.rows A.cols t f b else hmProdT unit A.rows A.cols t f b) ∧
      Frame (C.foot ∪ wcells w ws) m m') := by
  unfold hmult
  refine Runs.bind (P := fun r => HoldsR right r.2 C (if trans = right then hmProd unit A.rows A.cols t f b else hmProdT unit A.rows A.cols t f b) ∧
    Frame (C.foot ∪ wcells w ws) m r.2) ?_ (fun r h => Runs.pure h)
  refine Runs.forUp1 (i := 0) (n := A.cols) (I := fun d m' => (∃ y, HoldsR right m' C y ∧
      (if trans = right then hmProd unit A.rows (A.cols - d) t f y = hmProd unit A.rows A.cols t f b else y = hmProdT unit A.rows d t f b)) ∧
      HmArgs m' unit right C A tau w ws f t ∧ Frame (C.foot ∪ wcells w ws) m m') (Nat.zero_le _)
    ⟨⟨b, hC, by by_cases h : trans = right <;> simp [h, hmProdT]⟩, H, Frame.refl _ _⟩ ?_ ?_
  · rintro d m1 - hd ⟨⟨y, k1, k2⟩, k3, k4⟩
    dsimp only
    rw [if_neg hv]
    refine (hmultStep_spec ab hmin k3 hws hf hf' (k := if trans = right then A.cols - 1 - d else d) (by split <;> omega) k1).mono ?_
    rintro m2 ⟨q1, q2, q3⟩
    refine ⟨⟨_, q1, ?_⟩, q2, k4.trans q3⟩
    by_cases h : trans = right
    · simp only [if_pos h] at k2 ⊢
      rw [← k2, show A.cols - d = A.cols - (d + 1) + 1 by omega, hmProd, show A.cols - (d + 1) = A.cols - 1 - d by omega]
    · simp only [if_neg h] at k2 ⊢
      rw [k2, hmProdT]
  · rintro m1 ⟨⟨y, k1, k2⟩, k3, k4⟩
    refine ⟨?_, k4⟩
    by_cases h : trans = right
    · simp only [if_pos h, Nat.sub_self, hmProd] at k2 ⊢
      rwa [← k2]
    · simp only [if_neg h] at k2 ⊢
      rwa [← k2]

end Armas
