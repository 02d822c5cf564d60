import Verif.LqFacLemmas
import Verif.QrMultLemmas
import Verif.LqMult

/-!
# Lemmas on the multiplication with the orthogonal matrix of an LQ factorization

As in `Verif.QrMultLemmas`, for the transpose of `A`: `f i j` is the element of row `j` and column `i`.
-/

namespace Armas

open Finset

variable {α : Type}

/-! ### One column -/

section col

variable [Field α] [DecidableEq α]

/-- The calls of `unblkLqmultLeftStep` and `unblkLqmultRightStep`. -/
def lqmStep (ab : α → α) (env : Env) (fuel : Nat) (right : Bool) (C A tau : View) (W k : Nat) (m : Mem α) : Res (Mem α) :=
  applyHH2x1 ab env fuel m (some (tau.at' k 0)) (A.sub k (k + 1) 1 (A.cols - k - 1)) (rsub right C k 1) (rsub right C (k + 1) (rlen right C - k - 1))
    ⟨W, rwid right C, rwid right C, 1⟩ (!right)

theorem lqmStep_left (ab : α → α) (env : Env) (fuel : Nat) (C A tau : View) (W k : Nat) :
    unblkLqmultLeftStep ab env fuel C A tau W k k = lqmStep ab env fuel false C A tau W k := rfl

theorem lqmStep_right (ab : α → α) (env : Env) (fuel : Nat) (C A tau : View) (W k : Nat) :
    unblkLqmultRightStep ab env fuel C A tau W k = lqmStep ab env fuel true C A tau W k := rfl

/-- Arguments of the multiplication. -/
structure LqmArgs (m : Mem α) (right : Bool) (C A tau : View) (w ws : Nat) (f : Nat → Nat → α) (t : Nat → α) : Prop where
  wf : C.WF
  len : rlen right C = A.cols
  sh : A.rows ≤ A.cols
  hA : Holds m A fun i j => f j i
  ht : ∀ k, k < A.rows → m (tau.at' k 0) = some (t k)
  hW : WAlloc m w ws
  dC : Disjoint C.foot (A.foot ∪ tcells tau A.rows ∪ wcells w ws)
  dW : Disjoint (wcells w ws) (A.foot ∪ tcells tau A.rows)

theorem LqmArgs.frame {m m' : Mem α} {right : Bool} {C A tau : View} {w ws : Nat} {f : Nat → Nat → α} {t : Nat → α}
    (H : LqmArgs m right C A tau w ws f t) {S : Set Nat} (F : Frame S m m') (hS : Disjoint (A.foot ∪ tcells tau A.rows) S) (hW : WAlloc m' w ws) :
    LqmArgs m' right C A tau w ws f t := by
  obtain ⟨wf, len, sh, hA, ht, -, dC, dW⟩ := H
  rw [Set.disjoint_union_left] at hS
  refine ⟨wf, len, sh, hA.frame F hS.1, fun k hk => ?_, hW, dC, dW⟩
  rw [F _ (Set.disjoint_left.mp hS.2 ⟨k, hk, rfl⟩)]
  exact ht k hk

theorem lqmStep_spec (ab : α → α) {env : Env} (hmin : 2 ≤ env.blas2min ∨ (env.naive = true ∧ env.recursive = false))
    {fuel : Nat} {m : Mem α} {right : Bool} {C A tau : View} {w ws k : Nat} {f b : Nat → Nat → α} {t : Nat → α}
    (H : LqmArgs m right C A tau w ws f t) (hws : rwid right C ≤ ws) (hf : A.cols < fuel) (hf' : rwid right C < fuel) (hk : k < A.rows)
    (hC : HoldsR right m C b) :
    Runs (lqmStep ab env fuel right C A tau w k m) (fun m' => HoldsR right m' C (refl A.cols (t k) (qrw f k) b) ∧
      LqmArgs m' right C A tau w ws f t ∧ Frame (C.foot ∪ wcells w ws) m m') := by
  have H' := H
  obtain ⟨wf, len, sh, hA, ht, hW, dC, dW⟩ := H
  have sW : wcells w (rwid right C) ⊆ wcells w ws := fun p hp => ⟨hp.1, by have := hp.2; omega⟩
  have sv : (A.sub k (k + 1) 1 (A.cols - k - 1)).foot ⊆ A.foot := View.sub_foot (by omega) (by omega)
  have ew : (⟨w, rwid right C, rwid right C, 1⟩ : View).foot = wcells w (rwid right C) := work_foot _ _
  obtain ⟨x, hx⟩ := (hW.le hws).holds
  have c1 := hC.part (k := k) (n := 1) (by omega)
  have c2 := hC.part (k := k + 1) (n := rlen right C - k - 1) (by omega)
  have s1 := rsub_foot (right := right) (C := C) (k := k) (n := 1) (by omega)
  have s2 := rsub_foot (right := right) (C := C) (k := k + 1) (n := rlen right C - k - 1) (by omega)
  have sz : (A.sub k (k + 1) 1 (A.cols - k - 1)).size = A.cols - k - 1 := by simp [View.size]
  have dCA : Disjoint C.foot A.foot := dC.mono_right fun p hp => Or.inl (Or.inl hp)
  have dCW : Disjoint C.foot (wcells w ws) := dC.mono_right fun p hp => Or.inr hp
  have dWA : Disjoint (wcells w ws) A.foot := dW.mono_right fun p hp => Or.inl hp
  unfold lqmStep
  have q := applyHH_spec ab hmin (right := right) (P := A.cols - k - 1) (K := rwid right C) (tau := tau.at' k 0) (fuel := fuel) (m := m)
    (v := A.sub k (k + 1) 1 (A.cols - k - 1)) (a1 := rsub right C k 1) (A2 := rsub right C (k + 1) (rlen right C - k - 1))
    (w1 := ⟨w, rwid right C, rwid right C, 1⟩) (f := fun l => f (k + 1 + l) k) (g := fun j => b k j) (a := fun i j => b (k + 1 + i) j) (w := x)
    hf' (by omega) (ht k hk) (Or.inl rfl) (rsub_vec right C k).1 (Or.inr rfl) (Or.inr (le_refl 1)) (rsub_wf wf (by omega)) (rsub_wf wf (by omega))
    (by rw [(rsub_shape _ _ _ _).1, len]) (by rw [(rsub_shape _ _ _ _).2, len]) sz (rsub_vec right C k).2 (by simp [View.size])
    (((hA.part (r := k) (c := k + 1) (nr := 1) (nc := A.cols - k - 1) (by omega) (by omega)).toV_row).congr fun l _ => by simp only [Nat.add_zero]) (c1.toV.congr fun l _ => rfl) c2 hx
    (by rw [ew]; exact (dWA.mono sW sv).symm) ((dCA.mono s1 sv).symm) ((dCA.mono s2 sv).symm) (by rw [ew]; exact dCW.mono s1 sW)
    (rsub_disj wf (by omega) (by omega) (le_refl _)) (by rw [ew]; exact dCW.mono s2 sW)
  refine q.mono ?_
  rintro m' ⟨q1, q2, ⟨x', hx'⟩, F⟩
  rw [ew] at F
  have hW' : WAlloc m' w ws := by
    intro p hp
    by_cases h : p < rwid right C
    · exact (WAlloc.of_holds hx') p h
    · obtain ⟨y, hy⟩ := hW p hp
      have hm : w + p ∈ wcells w ws := ⟨by omega, by omega⟩
      refine ⟨y, ?_⟩
      rw [← hy]
      refine F _ ?_
      rintro ((h' | h') | h')
      · exact Set.disjoint_left.mp dCW (s1 h') hm
      · exact Set.disjoint_left.mp dCW (s2 h') hm
      · have := h'.2; omega
  have FC : Frame (C.foot ∪ wcells w ws) m m' := F.mono (by
    rintro p ((h' | h') | h')
    · exact Or.inl (s1 h')
    · exact Or.inl (s2 h')
    · exact Or.inr (sW h'))
  refine ⟨?_, H'.frame FC ?_ hW', FC⟩
  · have j := HoldsR.join (y := fun i j => refl A.cols (t k) (qrw f k) b (k + i) j) (k := k) (n := 1) wf (by omega) hC ?_ ?_ F (dCW.mono_right sW)
    · refine Holds.congr j fun i j _ _ => ?_
      have e : ∀ i j, (if i < k then b i j else refl A.cols (t k) (qrw f k) b (k + (i - k)) j) = refl A.cols (t k) (qrw f k) b i j := by
        intro i j
        by_cases c : i < k
        · rw [if_pos c, refl, qrw, if_pos c]; ring
        · rw [if_neg c, show k + (i - k) = i by omega]
      simp only [e]
    · refine Holds.congr (HoldsR.ofV q1) fun i j hi hj => ?_
      have e : ∀ i j, i = 0 → b k j - t k * (b k j + ∑ l ∈ range (A.cols - k - 1), f (k + 1 + l) k * b (k + 1 + l) j) =
          refl A.cols (t k) (qrw f k) b (k + i) j := by
        intro i j hi
        subst hi
        rw [refl, sum_qrw f (fun l => b l j) (by omega)]
        simp only [Nat.add_zero]
        rw [qrw, if_neg (by omega), if_pos rfl]
        ring
      rw [(rsub_shape _ _ _ _).1] at hi
      rw [(rsub_shape _ _ _ _).2] at hj
      cases right
      · simp only [Bool.false_eq_true, if_false] at hi hj ⊢
        exact e i j (by omega)
      · simp only [if_true] at hi hj ⊢
        exact e j i (by omega)
    · refine Holds.congr q2 fun i j hi hj => ?_
      have e : ∀ i j, b (k + 1 + i) j - f (k + 1 + i) k * (t k * (b k j + ∑ l ∈ range (A.cols - k - 1), f (k + 1 + l) k * b (k + 1 + l) j)) =
          refl A.cols (t k) (qrw f k) b (k + (1 + i)) j := by
        intro i j
        rw [refl, sum_qrw f (fun l => b l j) (by omega), ← Nat.add_assoc, qrw, if_neg (by omega), if_neg (by omega)]
        ring
      cases right
      · exact e i j
      · exact e j i
  · rw [Set.disjoint_union_right]
    refine ⟨Set.disjoint_left.mpr fun p hp hq => Set.disjoint_left.mp dC hq (Or.inl hp), dW.symm⟩

/-! ### One block -/

/-- Block reflector and update of `blkLqmultLeftStep` and `blkLqmultRightStep`; `fw` means that the reflectors are applied in ascending order. -/
def lqmBlk0 (ab : α → α) (env : Env) (fuel : Nat) (right fw : Bool) (C A tau : View) (w W : Nat) (cbuf : Option Cache) (k nb : Nat)
    (m : Mem α) : Res (Mem α) := do
  let T : View := ⟨w, nb, nb, nb⟩
  let m ← lqReflector ab env fuel m T (A.sub k k nb (A.cols - k)) (tau.sub k 0 nb 1)
  updLq ab env fuel m (rsub right C k nb) (rsub right C (k + nb) (rlen right C - k - nb)) (A.sub k k nb nb)
    (A.sub k (k + nb) nb (A.cols - k - nb)) T ⟨W, rwid right C, rwid right C, nb⟩ right (!fw) cbuf

/-- The calls of `blkLqmultLeftStep` and `blkLqmultRightStep`. -/
def lqmBlk (ab : α → α) (env : Env) (fuel : Nat) (right fw : Bool) (C A tau : View) (w W : Nat) (cbuf : Option Cache) (k nb : Nat)
    (m : Mem α) : Res (Mem α) := do
  let (_, m) ← mscale m ⟨w, nb, nb, nb⟩ 0 .all false
  lqmBlk0 ab env fuel right fw C A tau w W cbuf k nb m

theorem lqmBlk_left (ab : α → α) (env : Env) (fuel : Nat) (trans : Bool) (C A tau : View) (w W : Nat) (cbuf : Option Cache) (k nb : Nat) :
    blkLqmultLeftStep ab env fuel C A tau w W trans cbuf k nb = lqmBlk ab env fuel false (!trans) C A tau w W cbuf k nb := by
  funext m
  unfold blkLqmultLeftStep lqmBlk lqmBlk0
  simp only [updateLqLeft_eq]
  rfl

theorem lqmBlk_right (ab : α → α) (env : Env) (fuel : Nat) (trans : Bool) (C A tau : View) (w W : Nat) (cbuf : Option Cache) (k nb : Nat) :
    blkLqmultRightStep ab env fuel C A tau w W trans cbuf k nb = lqmBlk ab env fuel true trans C A tau w W cbuf k nb := by
  funext m
  unfold blkLqmultRightStep lqmBlk lqmBlk0
  simp only [updateLqRight_eq, Bool.not_not]
  rfl

/-- The cache buffers are apart from everything else. -/
structure LqmCache (c : Cache) (C A tau : View) (w ws : Nat) : Prop where
  dC : Disjoint C.foot c.foot
  dA : Disjoint (A.foot ∪ tcells tau A.rows) c.foot
  dW : Disjoint (wcells w ws) c.foot

theorem lqmBlk0_spec (ab : α → α) {env : Env} {c : Cache} (hc : Conf3 env c)
    {fuel : Nat} {m : Mem α} {right fw : Bool} {C A tau : View} {w ws k nb lb : Nat} {f b : Nat → Nat → α} {t : Nat → α}
    (H : LqmArgs m right C A tau w ws f t) (Hc : LqmCache c C A tau w ws) (R : c.Ready m) (hl : ∀ l, l < A.rows → l + 1 = A.cols → t l = 0)
    (hws : (rwid right C + lb) * lb ≤ ws) (hnb : nb ≤ lb) (hf : nb + rwid right C + nb < fuel) (hk : k + nb ≤ A.rows)
    (hC : HoldsR right m C b) {τ : Nat → Nat → α} (hτ1 : Holds m ⟨w, nb, nb, nb⟩ τ)
    (hz : ∀ p, p < nb → t (k + p) = 0 → (∀ i, i ≤ p → τ i p = 0) ∨
      (fw = false ∧ (∀ i, p < i → i < A.cols - k → f (k + i) (k + p) = 0) ∧ ∀ j, b (k + p) j = 0)) :
    Runs (lqmBlk0 ab env fuel right fw C A tau w (w + lb * lb) (some c) k nb m) (fun m' => HoldsR right m' C (blkVal A.cols k nb fw t f b) ∧
      LqmArgs m' right C A tau w ws f t ∧ c.Ready m' ∧ Frame (C.foot ∪ wcells w ws ∪ c.foot) m m') := by
  have H' := H
  obtain ⟨wf, len, sh, hA, ht, hW, dC, dW⟩ := H
  obtain ⟨cC, cA, cW⟩ := Hc
  have e1 : nb * nb ≤ lb * lb := Nat.mul_le_mul hnb hnb
  have e2 : rwid right C * nb ≤ rwid right C * lb := Nat.mul_le_mul_left _ hnb
  have e3 : (rwid right C + lb) * lb = rwid right C * lb + lb * lb := by ring
  have sT : (⟨w, nb, nb, nb⟩ : View).foot ⊆ wcells w (lb * lb) := view_wcells e1
  have sT' : (⟨w, nb, nb, nb⟩ : View).foot ⊆ wcells w ws := sT.trans fun p hp => ⟨hp.1, by have := hp.2; omega⟩
  have sV : (⟨w + lb * lb, rwid right C, rwid right C, nb⟩ : View).foot ⊆ wcells (w + lb * lb) (rwid right C * lb) := view_wcells e2
  have sV' : (⟨w + lb * lb, rwid right C, rwid right C, nb⟩ : View).foot ⊆ wcells w ws :=
    sV.trans fun p hp => ⟨by have := hp.1; omega, by have := hp.2; omega⟩
  have dTV : Disjoint (⟨w, nb, nb, nb⟩ : View).foot (⟨w + lb * lb, rwid right C, rwid right C, nb⟩ : View).foot :=
    Set.disjoint_left.mpr fun p hp hq => by have := (sT hp).2; have := (sV hq).1; omega
  have dCA : Disjoint C.foot A.foot := dC.mono_right fun p hp => Or.inl (Or.inl hp)
  have dCW : Disjoint C.foot (wcells w ws) := dC.mono_right fun p hp => Or.inr hp
  have dWA : Disjoint (wcells w ws) A.foot := dW.mono_right fun p hp => Or.inl hp
  have dtW : ∀ l, l < A.rows → tau.at' l 0 ∉ wcells w ws := fun l hl h => Set.disjoint_left.mp dW h (Or.inr ⟨l, hl, rfl⟩)
  have dAc : Disjoint A.foot c.foot := cA.mono_left fun p hp => Or.inl hp
  have et : ∀ p, (tau.sub k 0 nb 1).at' p 0 = tau.at' (k + p) 0 := fun p => by rw [View.at_sub]
  have sL : (A.sub k k nb (A.cols - k)).foot ⊆ A.foot := View.sub_foot (by omega) (by omega)
  have sY1 : (A.sub k k nb nb).foot ⊆ A.foot := View.sub_foot (by omega) (by omega)
  have sY2 : (A.sub k (k + nb) nb (A.cols - k - nb)).foot ⊆ A.foot := View.sub_foot (by omega) (by omega)
  have s1 := rsub_foot (right := right) (C := C) (k := k) (n := nb) (by omega)
  have s2 := rsub_foot (right := right) (C := C) (k := k + nb) (n := rlen right C - k - nb) (by omega)
  unfold lqmBlk0
  dsimp only
  have hL1 : Holds m (A.sub k k nb (A.cols - k)) (fun i j => f (k + j) (k + i)) := hA.part (by omega) (by omega)
  refine (lqReflector_weak ab (by rcases hc.min2 with h | h <;> [left; left] <;> omega) (t := fun l => t (k + l)) (Or.inl (le_refl _))
    (by simp only [View.sub_cols, View.sub_rows]; omega) (by simp only [View.sub_rows]; omega)
    (by simp only [View.sub_rows]; omega) (by simp only [View.sub_rows]; omega) hτ1 hL1
    (by
      intro p hp
      simp only [View.sub_rows] at hp
      rw [et]
      exact ht _ (by omega)) (dWA.symm.mono sL sT')
    (by intro p hp; rw [et]; simp only [View.sub_rows] at hp; exact fun h => dtW _ (by omega) (sT' h))
    (by
      intro p hp
      simp only [View.sub_rows] at hp
      by_cases h : p + 1 < A.cols - k
      · exact Or.inr (Or.inr (by simpa only [View.sub_cols] using h))
      · exact Or.inl (hl (k + p) (by omega) (by omega))) (by
      intro p hp h0
      simp only [View.sub_rows] at hp
      simp only [View.sub_cols]
      rcases hz p hp h0 with h | h
      · exact Or.inl h
      · exact Or.inr h.2.1)).bind ?_
  rintro m2 ⟨τ2, hτ2, hB, hK, F2⟩
  simp only [View.sub_cols, View.sub_rows] at hB
  have F12 : Frame (⟨w, nb, nb, nb⟩ : View).foot m m2 := F2
  have hA2 : Holds m2 A fun i j => f j i := hA.frame F12 (dWA.symm.mono_right sT')
  have hC2 : HoldsR right m2 C b := Holds.frame hC F12 (dCW.mono_right sT')
  have hWV : WAlloc m (w + lb * lb) (rwid right C * nb) := fun p hp => by
    have := hW (lb * lb + p) (by omega)
    rwa [← Nat.add_assoc] at this
  obtain ⟨x, hx⟩ := hWV.view (le_refl _)
  have U : LqUpdArgs c m2 (rsub right C k nb) (rsub right C (k + nb) (rlen right C - k - nb)) (A.sub k k nb nb)
      (A.sub k (k + nb) nb (A.cols - k - nb)) ⟨w, nb, nb, nb⟩ ⟨w + lb * lb, rwid right C, rwid right C, nb⟩ nb (A.cols - k - nb) (rwid right C) right
      (fun i j => f (k + i) (k + j)) (fun i j => b (k + i) j) τ2 x := by
    refine ⟨(rsub_shape _ _ _ _).1, (rsub_shape _ _ _ _).2, by rw [(rsub_shape _ _ _ _).1, len], by rw [(rsub_shape _ _ _ _).2, len], ⟨rfl, rfl⟩, ⟨rfl, rfl⟩,
      ⟨rfl, rfl⟩, ⟨rfl, rfl⟩, rsub_wf wf (by omega), rsub_wf wf (by omega), Or.inl (le_refl _), R.frame F12 (cW.symm.mono_right sT'), hC2.part (by omega), ?_,
      hA2.part (by omega) (by omega), ?_, hτ2, hx.frame F12 dTV.symm, rsub_disj wf (by omega) (by omega) (le_refl _), dCW.mono s1 sV', dCW.mono s2 sV',
      ?_, ?_, ?_, ?_⟩
    · refine Holds.congr (hC2.part (k := k + nb) (n := rlen right C - k - nb) (by omega)) fun i j _ _ => ?_
      simp only [Nat.add_assoc]
    · refine (hA2.part (r := k) (c := k + nb) (nr := nb) (nc := A.cols - k - nb) (by omega) (by omega)).congr fun i j _ _ => ?_
      rw [Nat.add_assoc]
    · rw [Set.disjoint_union_right, Set.disjoint_union_right]
      exact ⟨⟨(dCA.mono s1 sY1).symm, (dCA.mono s2 sY1).symm⟩, (dWA.mono sV' sY1).symm⟩
    · rw [Set.disjoint_union_right, Set.disjoint_union_right]
      exact ⟨⟨(dCA.mono s1 sY2).symm, (dCA.mono s2 sY2).symm⟩, (dWA.mono sV' sY2).symm⟩
    · rw [Set.disjoint_union_right, Set.disjoint_union_right]
      exact ⟨⟨(dCW.mono s1 sT').symm, (dCW.mono s2 sT').symm⟩, dTV⟩
    · simp only [Set.disjoint_union_left]
      exact ⟨⟨⟨⟨⟨cC.mono_left s1, cC.mono_left s2⟩, cW.mono_left sV'⟩, dAc.mono_left sY1⟩, dAc.mono_left sY2⟩, cW.mono_left sT'⟩
  refine (updLq_spec ab hc (tA := !fw) U (by omega)).mono ?_
  rintro m3 ⟨c1, c2, F3, R3, x', hx'⟩
  have ebp : ∀ i j, blockProd (nb + (A.cols - k - nb)) nb (fun p q => if (!fw) = true then trm true false τ2 p q else trm true false τ2 q p)
      (fun i j => f (k + i) (k + j)) (fun i j => b (k + i) j) i j = blkVal A.cols k nb fw t f b (k + i) j := by
    intro i j
    rw [show nb + (A.cols - k - nb) = A.cols - k by omega, blkVal, if_neg (by omega), Nat.add_sub_cancel_left]
    cases fw
    · simp only [Bool.false_eq_true, if_false, Bool.not_false, if_true]
      rw [hB.prod]
      unfold blockProd
      congr 1
      refine sum_congr rfl fun p _ => ?_
      congr 1
      refine sum_congr rfl fun q hq => ?_
      have hq := mem_range.mp hq
      beta_reduce
      rw [trm_up, trm_up]
      by_cases c0 : t (k + q) = 0
      · rw [if_pos c0]
        rcases hz q hq c0 with h | ⟨-, h1, h2⟩
        · rw [hK p q c0]
          by_cases c1 : p ≤ q
          · rw [if_pos c1, if_pos c1, h p c1]
          · rw [if_neg c1, if_neg c1]
        · rw [sum_qrw (fun i j => f (k + i) (k + j)) (fun r => b (k + r) j) (show q < A.cols - k by omega), h2 j, sum_eq_zero, add_zero, mul_zero, mul_zero]
          intro r hr
          have := mem_range.mp hr
          rw [h1 _ (by omega) (by omega), zero_mul]
      · rw [if_neg c0]
    · simp only [if_true, Bool.not_true, Bool.false_eq_true, if_false]
      rw [hB.prodT]
      unfold blockProd
      congr 1
      refine sum_congr rfl fun p hp => ?_
      have hp := mem_range.mp hp
      congr 1
      refine sum_congr rfl fun q _ => ?_
      beta_reduce
      rw [trm_up, trm_up]
      by_cases c0 : t (k + p) = 0
      · rw [if_pos c0]
        rcases hz p hp c0 with h | ⟨h, -⟩
        · rw [hK q p c0]
          by_cases c1 : q ≤ p
          · rw [if_pos c1, if_pos c1, h q c1]
          · rw [if_neg c1, if_neg c1]
        · exact absurd h (by simp)
      · rw [if_neg c0]
  simp only [ebp] at c1 c2
  have F : Frame ((rsub right C k nb).foot ∪ (rsub right C (k + nb) (rlen right C - k - nb)).foot ∪ (wcells w ws ∪ c.foot)) m m3 := by
    refine (F12.mono ?_).trans (F3.mono ?_)
    · intro p hp; exact Or.inr (Or.inl (sT' hp))
    · rintro p (((hp | hp) | hp) | hp)
      · exact Or.inl (Or.inl hp)
      · exact Or.inl (Or.inr hp)
      · exact Or.inr (Or.inl (sV' hp))
      · exact Or.inr (Or.inr hp)
  have FC : Frame (C.foot ∪ wcells w ws ∪ c.foot) m m3 := F.mono (by
    rintro p ((hp | hp) | hp | hp)
    · exact Or.inl (Or.inl (s1 hp))
    · exact Or.inl (Or.inl (s2 hp))
    · exact Or.inl (Or.inr hp)
    · exact Or.inr hp)
  have hW3 : WAlloc m3 w ws := by
    intro p hp
    have hm : w + p ∈ wcells w ws := ⟨by omega, by omega⟩
    by_cases h1 : w + p ∈ (⟨w + lb * lb, rwid right C, rwid right C, nb⟩ : View).foot
    · obtain ⟨i, j, hi, hj, e⟩ := h1
      rw [e]; exact ⟨_, hx' i j hi hj⟩
    · rw [F3 _ ?_]
      · by_cases h2 : w + p ∈ (⟨w, nb, nb, nb⟩ : View).foot
        · obtain ⟨i, j, hi, hj, e⟩ := h2
          rw [e]; exact ⟨_, hτ2 i j hi hj⟩
        · rw [F12 _ h2]; exact hW p hp
      · rintro (((h' | h') | h') | h')
        · exact Set.disjoint_left.mp dCW (s1 h') hm
        · exact Set.disjoint_left.mp dCW (s2 h') hm
        · exact h1 h'
        · exact Set.disjoint_left.mp cW hm h'
  refine ⟨?_, H'.frame FC ?_ hW3, R3, FC⟩
  · have j := HoldsR.join (y := fun i j => blkVal A.cols k nb fw t f b (k + i) j) (k := k) (n := nb) wf (by omega) hC ?_ ?_ F
      (Set.disjoint_union_right.mpr ⟨dCW, cC⟩)
    · refine Holds.congr j fun i j _ _ => ?_
      have e : ∀ i j, (if i < k then b i j else blkVal A.cols k nb fw t f b (k + (i - k)) j) = blkVal A.cols k nb fw t f b i j := by
        intro i j
        by_cases c : i < k
        · rw [if_pos c, blkVal, if_pos c]
        · rw [if_neg c, show k + (i - k) = i by omega]
      simp only [e]
    · exact c1
    · exact c2
  · rw [Set.disjoint_union_right, Set.disjoint_union_right]
    exact ⟨⟨Set.disjoint_left.mpr fun p hp hq => Set.disjoint_left.mp dC hq (Or.inl hp), dW.symm⟩, cA⟩

theorem lqmBlk_spec (ab : α → α) {env : Env} {c : Cache} (hc : Conf3 env c)
    {fuel : Nat} {m : Mem α} {right fw : Bool} {C A tau : View} {w ws k nb lb : Nat} {f b : Nat → Nat → α} {t : Nat → α}
    (H : LqmArgs m right C A tau w ws f t) (Hc : LqmCache c C A tau w ws) (R : c.Ready m) (hl : ∀ l, l < A.rows → l + 1 = A.cols → t l = 0)
    (hws : (rwid right C + lb) * lb ≤ ws) (hnb : nb ≤ lb) (hf : nb + rwid right C + nb < fuel) (hk : k + nb ≤ A.rows)
    (hC : HoldsR right m C b) :
    Runs (lqmBlk ab env fuel right fw C A tau w (w + lb * lb) (some c) k nb m) (fun m' => HoldsR right m' C (blkVal A.cols k nb fw t f b) ∧
      LqmArgs m' right C A tau w ws f t ∧ c.Ready m' ∧ Frame (C.foot ∪ wcells w ws ∪ c.foot) m m') := by
  have H' := H
  obtain ⟨wf, len, sh, hA, ht, hW, dC, dW⟩ := H
  have e1 : nb * nb ≤ lb * lb := Nat.mul_le_mul hnb hnb
  have e3 : (rwid right C + lb) * lb = rwid right C * lb + lb * lb := by ring
  have sT' : (⟨w, nb, nb, nb⟩ : View).foot ⊆ wcells w ws := (view_wcells e1).trans fun p hp => ⟨hp.1, by have := hp.2; omega⟩
  have dCW : Disjoint C.foot (wcells w ws) := dC.mono_right fun p hp => Or.inr hp
  unfold lqmBlk
  obtain ⟨τ0, hτ0⟩ := (hW.le (n' := nb * nb) (by omega)).view (le_refl _)
  refine ((Props.C51_mscale_all (alpha := 0) (unit := false) (Or.inl (le_refl _)) hτ0).1).bind ?_
  rintro ⟨e, m1⟩ ⟨-, hτ1, F1⟩
  dsimp only at hτ1 F1 ⊢
  have hW1 : WAlloc m1 w ws := by
    intro p hp
    by_cases h2 : w + p ∈ (⟨w, nb, nb, nb⟩ : View).foot
    · obtain ⟨i, j, hi, hj, e⟩ := h2
      rw [e]; exact ⟨_, hτ1 i j hi hj⟩
    · rw [F1 _ h2]; exact hW p hp
  refine (lqmBlk0_spec ab hc (H'.frame F1 (dW.symm.mono_right sT') hW1) Hc (R.frame F1 (Hc.dW.symm.mono_right sT')) hl hws hnb hf hk
    (Holds.frame hC F1 (dCW.mono_right sT')) hτ1 (fun p _ _ => Or.inl fun i _ => by ring)).mono ?_
  rintro m2 ⟨q1, q2, q3, q4⟩
  exact ⟨q1, q2, q3, (F1.mono fun p hp => Or.inl (Or.inr (sT' hp))).trans q4⟩

/-! ### All columns -/

/-- Common program of the unblocked versions. -/
def lqmUnb (ab : α → α) (env : Env) (fuel : Nat) (right fw : Bool) (m : Mem α) (C A tau : View) (W : Nat) : Res (Mem α) :=
  if fw then do
    let (_, m) ← forUp 0 (min A.cols A.rows) 1 (lqmStep ab env fuel right C A tau W) m
    pure m
  else forDown (min A.cols A.rows) (lqmStep ab env fuel right C A tau W) m

theorem lqmUnb_left (ab : α → α) (env : Env) (fuel : Nat) (trans : Bool) (m : Mem α) (C A tau : View) (W : Nat) (h : A.rows ≤ A.cols) :
    unblkLqmultLeft ab env fuel m C A tau W trans = lqmUnb ab env fuel false (!trans) m C A tau W := by
  unfold unblkLqmultLeft lqmUnb
  dsimp only
  rw [Nat.min_eq_right h, Nat.sub_self]
  cases trans <;> rfl

theorem lqmUnb_right (ab : α → α) (env : Env) (fuel : Nat) (trans : Bool) (m : Mem α) (C A tau : View) (W : Nat) :
    unblkLqmultRight ab env fuel m C A tau W trans = lqmUnb ab env fuel true trans m C A tau W := by
  unfold unblkLqmultRight lqmUnb
  cases trans <;> rfl

theorem lqmUnb_spec (ab : α → α) {env : Env} (hmin : 2 ≤ env.blas2min ∨ (env.naive = true ∧ env.recursive = false))
    {fuel : Nat} {m : Mem α} {right fw : Bool} {C A tau : View} {w ws : Nat} {f b : Nat → Nat → α} {t : Nat → α}
    (H : LqmArgs m right C A tau w ws f t) (hws : rwid right C ≤ ws) (hf : A.cols < fuel) (hf' : rwid right C < fuel) (hC : HoldsR right m C b) :
    Runs (lqmUnb ab env fuel right fw m C A tau w) (fun m' => HoldsR right m' C (qrVal A.cols A.rows fw t f b) ∧
      LqmArgs m' right C A tau w ws f t ∧ Frame (C.foot ∪ wcells w ws) m m') := by
  unfold lqmUnb
  rw [Nat.min_eq_right H.sh]
  cases fw
  · rw [if_neg (by simp)]
    refine Runs.forDown (I := fun k m' => ∃ y, HoldsR right m' C y ∧ (∀ i j, i < A.cols → qrProd A.cols k t f y i j = qrProd A.cols A.rows t f b i j) ∧
      LqmArgs m' right C A tau w ws f t ∧ Frame (C.foot ∪ wcells w ws) m m') ⟨b, hC, fun _ _ _ => rfl, H, Frame.refl _ _⟩ ?_ ?_
    · rintro k m1 hk ⟨y, hy, e, H1, F1⟩
      refine (lqmStep_spec ab hmin H1 hws hf hf' hk hy).mono ?_
      rintro m2 ⟨q1, q2, q3⟩
      exact ⟨_, q1, fun i j hi => by rw [← e i j hi]; rfl, q2, F1.trans q3⟩
    · rintro m' ⟨y, hy, e, H1, F1⟩
      refine ⟨hy.congr fun i j hi => ?_, H1, F1⟩
      rw [H.len] at hi
      exact e i j hi
  · rw [if_pos rfl]
    refine Runs.bind (P := fun r => HoldsR right r.2 C (qrProdT A.cols A.rows t f b) ∧
      LqmArgs r.2 right C A tau w ws f t ∧ Frame (C.foot ∪ wcells w ws) m r.2) ?_ ?_
    · refine Runs.forUp1 (i := 0) (n := A.rows) (I := fun k m' => HoldsR right m' C (qrProdT A.cols k t f b) ∧ LqmArgs m' right C A tau w ws f t ∧
        Frame (C.foot ∪ wcells w ws) m m') (Nat.zero_le _) ⟨hC, H, Frame.refl _ _⟩ ?_ (fun st h => h)
      rintro k m1 - hk ⟨hy, H1, F1⟩
      refine (lqmStep_spec ab hmin H1 hws hf hf' hk hy).mono ?_
      rintro m2 ⟨q1, q2, q3⟩
      exact ⟨q1, q2, F1.trans q3⟩
    · rintro ⟨k, m'⟩ h
      exact Runs.pure h

/-- Common program of the blocked versions. -/
def lqmBlks (ab : α → α) (env : Env) (fuel : Nat) (right fw : Bool) (m : Mem α) (C A tau : View) (w W lb : Nat) (cbuf : Option Cache) :
    Res (Mem α) := do
  let n := min A.cols A.rows
  let (_, m) ← (if fw then forUp 0 n lb (fun k => lqmBlk ab env fuel right fw C A tau w W cbuf k (min lb (n - k))) m
    else forUp 0 n lb (fun d => lqmBlk ab env fuel right fw C A tau w W cbuf (n - d - min lb (n - d)) (min lb (n - d))) m)
  pure m

theorem lqmBlks_left (ab : α → α) (env : Env) (fuel : Nat) (trans : Bool) (m : Mem α) (C A tau : View) (w W lb : Nat) (cbuf : Option Cache) :
    blkLqmultLeft ab env fuel m C A tau w W trans lb cbuf = lqmBlks ab env fuel false (!trans) m C A tau w W lb cbuf := by
  unfold blkLqmultLeft lqmBlks
  simp only [lqmBlk_left]
  cases trans <;> simp only [Bool.not_true, Bool.not_false, if_true, Bool.false_eq_true, if_false]

theorem lqmBlks_right (ab : α → α) (env : Env) (fuel : Nat) (trans : Bool) (m : Mem α) (C A tau : View) (w W lb : Nat) (cbuf : Option Cache) :
    blkLqmultRight ab env fuel m C A tau w W trans lb cbuf = lqmBlks ab env fuel true trans m C A tau w W lb cbuf := by
  unfold blkLqmultRight lqmBlks
  simp only [lqmBlk_right]

theorem lqmBlks_spec (ab : α → α) {env : Env} {c : Cache} (hc : Conf3 env c)
    {fuel : Nat} {m : Mem α} {right fw : Bool} {C A tau : View} {w ws lb : Nat} {f b : Nat → Nat → α} {t : Nat → α}
    (H : LqmArgs m right C A tau w ws f t) (Hc : LqmCache c C A tau w ws) (R : c.Ready m) (hl : ∀ l, l < A.rows → l + 1 = A.cols → t l = 0)
    (hws : (rwid right C + lb) * lb ≤ ws) (hlb : 0 < lb) (hf : lb + rwid right C + lb < fuel) (hC : HoldsR right m C b) :
    Runs (lqmBlks ab env fuel right fw m C A tau w (w + lb * lb) lb (some c)) (fun m' => HoldsR right m' C (qrVal A.cols A.rows fw t f b) ∧
      LqmArgs m' right C A tau w ws f t ∧ Frame (C.foot ∪ wcells w ws ∪ c.foot) m m' ∧ c.Ready m') := by
  have sh := H.sh
  unfold lqmBlks
  dsimp only
  rw [Nat.min_eq_right sh]
  refine Runs.bind (P := fun r => HoldsR right r.2 C (qrVal A.cols A.rows fw t f b) ∧
      LqmArgs r.2 right C A tau w ws f t ∧ Frame (C.foot ∪ wcells w ws ∪ c.foot) m r.2 ∧ c.Ready r.2) ?_ ?_
  swap
  · rintro ⟨k, m'⟩ h
    exact Runs.pure h
  cases fw
  · rw [if_neg (by simp)]
    refine Runs.forUp (I := fun d m' => ∃ y, HoldsR right m' C y ∧ (∀ i j, i < A.cols → qrProd A.cols (A.rows - d) t f y i j = qrProd A.cols A.rows t f b i j) ∧
      LqmArgs m' right C A tau w ws f t ∧ c.Ready m' ∧ Frame (C.foot ∪ wcells w ws ∪ c.foot) m m') hlb ⟨b, hC, fun _ _ _ => rfl, H, R, Frame.refl _ _⟩ ?_ ?_
    · rintro d m1 - hd ⟨y, hy, e, H1, R1, F1⟩
      refine (lqmBlk_spec ab hc (fw := false) H1 Hc R1 hl hws (k := A.rows - d - min lb (A.rows - d)) (nb := min lb (A.rows - d)) (by omega) (by omega) (by omega) hy).mono ?_
      rintro m2 ⟨q1, q2, q3, q4⟩
      refine ⟨_, q1, fun i j hi => ?_, q2, q3, F1.trans q4⟩
      rw [← e i j hi]
      have := qrProd_shift (M := A.cols) (k := A.rows - d - min lb (A.rows - d)) (by omega) (min lb (A.rows - d)) t f y j i hi
      rw [show A.rows - d - min lb (A.rows - d) + min lb (A.rows - d) = A.rows - d by omega] at this
      rw [this, show A.rows - (d + lb) = A.rows - d - min lb (A.rows - d) by omega]
      rfl
    · rintro d m1 hd - ⟨y, hy, e, H1, R1, F1⟩
      refine ⟨hy.congr fun i j hi => ?_, H1, F1, R1⟩
      rw [H.len] at hi
      have := e i j hi
      rw [show A.rows - d = 0 by omega] at this
      exact this
  · rw [if_pos rfl]
    refine Runs.forUp (I := fun k m' => HoldsR right m' C (qrProdT A.cols (min k A.rows) t f b) ∧
      LqmArgs m' right C A tau w ws f t ∧ c.Ready m' ∧ Frame (C.foot ∪ wcells w ws ∪ c.foot) m m') hlb ⟨by rw [Nat.zero_min]; exact hC, H, R, Frame.refl _ _⟩ ?_ ?_
    · rintro k m1 - hk ⟨hy, H1, R1, F1⟩
      refine (lqmBlk_spec ab hc (fw := true) H1 Hc R1 hl hws (k := k) (nb := min lb (A.rows - k)) (by omega) (by omega) (by omega) hy).mono ?_
      rintro m2 ⟨q1, q2, q3, q4⟩
      refine ⟨q1.congr fun i j hi => ?_, q2, q3, F1.trans q4⟩
      rw [H.len] at hi
      rw [show min (k + lb) A.rows = k + min lb (A.rows - k) by omega, qrProdT_shift (by omega) _ t f b j i hi, blkVal, show min k A.rows = k by omega]
      rfl
    · rintro k m1 hk - ⟨hy, H1, R1, F1⟩
      rw [show min k A.rows = A.rows by omega] at hy
      exact ⟨hy, H1, F1, R1⟩

end col


end Armas
