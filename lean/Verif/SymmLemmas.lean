import Verif.Symm
import Verif.TrxmLemmas

/-! # Specification of the symmetric matrix-matrix product -/

namespace Armas

open Finset

variable {α : Type}

/-- The symmetric matrix given by one of its triangles, with a unit diagonal if `unit`. -/
def symU [One α] (upper unit : Bool) (a : Nat → Nat → α) (i j : Nat) : α :=
  if i = j ∧ unit then 1 else symm upper a i j

theorem symU_comm [One α] (u t : Bool) (a : Nat → Nat → α) (i j : Nat) :
    symU u t a i j = symU u t a j i := by
  unfold symU symm
  cases u <;> grind

theorem symU_shift [One α] (u t : Bool) (a : Nat → Nat → α) (n i j : Nat) :
    symU u t (fun i j => a (n + i) (n + j)) i j = symU u t a (n + i) (n + j) := by
  unfold symU
  rw [symm_shift]
  simp

theorem symU_tri [One α] {u t : Bool} (a : Nat → Nat → α) {i j : Nat} (h : InTri u t i j) :
    symU u t a i j = a i j := by
  unfold InTri at h
  unfold symU symm
  cases u <;> cases t <;> simp only [Bool.false_eq_true, if_true, if_false, and_true, and_false] at h ⊢
  · rw [if_pos h]
  · rw [if_neg (by omega), if_pos (by omega)]
  · rw [if_pos h]
  · rw [if_neg (by omega), if_pos (by omega)]

/-! ## Copies of the diagonal block -/

theorem Upd.cpElem {m0 m : Mem α} {D : View} {f g : Nat → Nat → α} {S : Nat → Nat → Prop}
    (h : Upd m0 D f g S m) (hw : D.WF) {i j : Nat} (hi : i < D.rows) (hj : j < D.cols)
    {p : Nat} (hv : m p = some (g i j)) :
    Runs (Armas.cpElem m p (D.at' i j)) (Upd m0 D f g (fun r c => S r c ∨ (r = i ∧ c = j))) :=
  Runs.rd_bind hv (Runs.wr (h.hold i j hi hj) (h.set hw hi hj rfl))

theorem Upd.cpDiag [One α] {m0 m : Mem α} {D V : View} {f a : Nat → Nat → α} {u t : Bool}
    {S : Nat → Nat → Prop}
    (h : Upd m0 D f (symU u t a) S m) (hw : D.WF) {j : Nat} (hi : j < D.rows) (hj : j < D.cols)
    (hi' : j < V.rows) (hj' : j < V.cols)
    (hV : HoldsOn m V (InTri u t) a) :
    Runs (Armas.cpDiag m D V t j) (Upd m0 D f (symU u t a) (fun r c => S r c ∨ (r = j ∧ c = j))) := by
  unfold Armas.cpDiag
  cases t
  · rw [if_neg (by simp)]
    have ht : InTri u false j j := by unfold InTri; cases u <;> simp
    exact h.cpElem hw hi hj (by rw [hV j j hi' hj' ht, symU_tri a ht])
  · rw [if_pos rfl]
    exact Runs.wr (h.hold j j hi hj) (h.set hw hi hj (by simp [symU]))

theorem fillLow_spec [One α] {m : Mem α} {D V : View} {v a : Nat → Nat → α} {n : Nat} {unit : Bool}
    (hD : D.WF) (hDr : D.rows = n) (hDc : D.cols = n) (hVr : V.rows = n) (hVc : V.cols = n)
    (hv : Holds m D v) (hV : HoldsOn m V (InTri true unit) a)
    (hd : Disjoint (V.footOn (InTri true unit)) D.foot) :
    Runs (fillLow m D V n unit) (fun m' => Holds m' D (symU true unit a) ∧ Frame D.foot m m') := by
  unfold fillLow
  have hs : ∀ {S m'}, Upd m D v (symU true unit a) S m' → HoldsOn m' V (InTri true unit) a :=
    fun h => hV.frame h.frame hd
  refine Runs.bind (Runs.forUp1
    (fun j m' => Upd m D v (symU true unit a) (fun r c => r < j ∧ c < j) m') (by omega)
    ((Upd.init hv _).congr (by intros; simp)) ?_
    (Q := fun p => Holds p.2 D (symU true unit a) ∧ Frame D.foot m p.2)
    (fun m' h => ⟨h.all (by omega), h.frame⟩)) (fun p hp => Runs.pure hp)
  intro j m1 _ hj h
  refine Runs.bind (Runs.forUp1
    (fun i m' => Upd m D v (symU true unit a)
      (fun r c => (r < j ∧ c < j) ∨ (r < i ∧ c = j) ∨ (r = j ∧ c < i)) m') (by omega)
    (h.congr (by intros; omega)) ?_
    (Q := fun p => Upd m D v (symU true unit a)
      (fun r c => (r < j ∧ c < j) ∨ (r < j ∧ c = j) ∨ (r = j ∧ c < j)) p.2) (fun m' h => h)) ?_
  · intro i m2 _ hi h2
    have ht : InTri true unit i j := by unfold InTri; cases unit <;> simp <;> omega
    have e1 := hs h2 i j (by omega) (by omega) ht
    refine Runs.bind (h2.cpElem hD (i := i) (j := j) (by omega) (by omega)
      (by rw [e1, symU_tri a ht])) ?_
    intro m3 h3
    have e2 := hs h3 i j (by omega) (by omega) ht
    refine (h3.cpElem hD (i := j) (j := i) (by omega) (by omega)
      (by rw [e2, symU_comm, symU_tri a ht])).mono ?_
    intro m4 h4
    exact h4.congr (by intros; omega)
  · rintro ⟨_, m2⟩ h2
    refine (Upd.cpDiag h2 hD (by omega) (by omega) (by omega) (by omega) (hs h2)).mono ?_
    intro m3 h3
    exact h3.congr (by intros; omega)

theorem fillUp_spec [One α] {m : Mem α} {D V : View} {v a : Nat → Nat → α} {n : Nat} {unit : Bool}
    (hD : D.WF) (hDr : D.rows = n) (hDc : D.cols = n) (hVr : V.rows = n) (hVc : V.cols = n)
    (hv : Holds m D v) (hV : HoldsOn m V (InTri false unit) a)
    (hd : Disjoint (V.footOn (InTri false unit)) D.foot) :
    Runs (fillUp m D V n unit) (fun m' => Holds m' D (symU false unit a) ∧ Frame D.foot m m') := by
  unfold fillUp
  have hs : ∀ {S m'}, Upd m D v (symU false unit a) S m' → HoldsOn m' V (InTri false unit) a :=
    fun h => hV.frame h.frame hd
  refine Runs.bind (Runs.forUp1
    (fun j m' => Upd m D v (symU false unit a) (fun r c => r < j ∨ c < j) m') (by omega)
    ((Upd.init hv _).congr (by intros; simp)) ?_
    (Q := fun p => Holds p.2 D (symU false unit a) ∧ Frame D.foot m p.2)
    (fun m' h => ⟨h.all (by omega), h.frame⟩)) (fun p hp => Runs.pure hp)
  intro j m1 _ hj h
  refine Runs.bind (Upd.cpDiag h hD (by omega) (by omega) (by omega) (by omega) (hs h)) ?_
  intro m2 h2
  refine Runs.bind (Runs.forUp1
    (fun i m' => Upd m D v (symU false unit a)
      (fun r c => (r < j ∨ c < j) ∨ (r = j ∧ c < i) ∨ (c = j ∧ r < i)) m') (by omega)
    (h2.congr (by intros; omega)) ?_
    (Q := fun p => Upd m D v (symU false unit a)
      (fun r c => r < j + 1 ∨ c < j + 1) p.2) (fun m' h => h.congr (by intros; omega)))
    (fun p hp => Runs.pure hp)
  intro i m3 hij hi h3
  have ht : InTri false unit i j := by unfold InTri; cases unit <;> simp <;> omega
  have e1 := hs h3 i j (by omega) (by omega) ht
  refine Runs.bind (h3.cpElem hD (i := i) (j := j) (by omega) (by omega)
    (by rw [e1, symU_tri a ht])) ?_
  intro m4 h4
  have e2 := hs h4 i j (by omega) (by omega) ht
  refine (h4.cpElem hD (i := j) (j := i) (by omega) (by omega)
    (by rw [e2, symU_comm, symU_tri a ht])).mono ?_
  intro m5 h5
  exact h5.congr (by intros; omega)

section
variable [CommRing α] [DecidableEq α]

/-- `armas_scale_unsafe` called without a test of the factor. -/
theorem scaleUnsafe_any {m : Mem α} {X : View} {f : Nat → Nat → α} (beta : α)
    (hw : X.WF) (hx : Holds m X f) :
    Runs (scaleUnsafe m X beta)
      (fun m' => Holds m' X (fun i j => beta * f i j) ∧ Frame X.foot m m') := by
  by_cases hb : beta = 1
  · unfold scaleUnsafe
    by_cases hv : X.isVec
    · rw [if_pos hv]
      have hx' : HoldsV m X (fun k => if X.rows = 1 then f 0 k else f k 0) := by
        refine (holdsV_iff hv).mpr (hx.congr (fun i j hi hj => ?_))
        by_cases h1 : X.rows = 1
        · rw [if_pos h1]; congr 1 <;> omega
        · have h2 : X.cols = 1 := hv.resolve_left h1
          rw [if_neg h1]; congr 1 <;> omega
      refine (vecScale_spec beta hv hw (le_refl _) hx').mono ?_
      rintro m' ⟨h, hf⟩
      refine ⟨((holdsV_iff hv).mp h).congr (fun i j hi hj => ?_), hf⟩
      subst hb
      simp only [mul_one, one_mul, ite_self]
      by_cases h1 : X.rows = 1
      · rw [if_pos h1]; congr 1 <;> omega
      · have h2 : X.cols = 1 := hv.resolve_left h1
        rw [if_neg h1]; congr 1 <;> omega
    · rw [if_neg hv]
      refine (blkScale_spec beta hw hx).mono ?_
      rintro m' ⟨h, hf⟩
      exact ⟨h.congr (fun i j _ _ => mul_comm _ _), hf⟩
  · have := scaleUnsafe_mat beta hw hx
    rwa [if_pos hb] at this

/-- The product with the diagonal block. -/
theorem symmDiag_spec (ab : α → α) {m : Mem α} {C A B : View} (alpha : α) {fl : Flags} {c : Cache}
    {a b f : Nat → Nat → α} {n w : Nat}
    (hfl : fl.lower = !fl.upper) (hfa : fl.absA = false) (hfb : fl.absB = false)
    (hw : C.WF) (hc : c.Ready m)
    (hAr : A.rows = n) (hAc : A.cols = n)
    (hCl : C.nl fl.right = n) (hCw : C.wd fl.right = w)
    (hBr : B.rows = if fl.right ^^ fl.transB then w else n)
    (hBc : B.cols = if fl.right ^^ fl.transB then n else w)
    (hn1 : n ≤ c.KB) (hn2 : n ≤ c.MB) (hw2 : w ≤ c.NB)
    (hA : HoldsOn m A (InTri fl.upper fl.unit) a)
    (hB : Holds m B (opM (fl.right ^^ fl.transB) b))
    (hC : Holds m C (opM fl.right f))
    (hdA : Disjoint (A.footOn (InTri fl.upper fl.unit)) c.foot) (hdB : Disjoint B.foot c.foot)
    (hdC : Disjoint C.foot c.foot) :
    Runs (symmDiag ab m C alpha A B fl c) (fun m' =>
      Holds m' C (opM fl.right (fun p q =>
        f p q + alpha * ∑ k ∈ range n, symU fl.upper fl.unit a p k * b k q)) ∧
      Frame (C.foot ∪ c.foot) m m' ∧ c.Ready m') := by
  unfold symmDiag
  rw [hAr, hAc]
  have hwA : (c.A n n).WF := Or.inl (le_trans hn1 hc.step)
  have hwB : (c.B n w).WF := Or.inl (le_trans hn1 hc.step)
  have hfA : (c.A n n).foot ⊆ c.foot := (c.A_foot hn1 hn2).trans Set.subset_union_left
  have hfB : (c.B n w).foot ⊆ c.foot := (c.B_foot hn1 hw2).trans Set.subset_union_right
  have hdAB : Disjoint (c.A n n).foot (c.B n w).foot :=
    (hc.dis.mono_left (c.A_foot hn1 hn2)).mono_right (c.B_foot hn1 hw2)
  obtain ⟨v, hv⟩ := hc.allocA' hn1 hn2
  refine Runs.bind (P := fun m' => Holds m' (c.A n n) (symU fl.upper fl.unit a) ∧
    Frame (c.A n n).foot m m') ?_ ?_
  · cases hu : fl.upper <;> rw [hu] at hfl hA hdA <;> rw [hfl]
    · exact fillUp_spec hwA rfl rfl hAr hAc hv hA (hdA.mono_right hfA)
    · exact fillLow_spec hwA rfl rfl hAr hAc hv hA (hdA.mono_right hfA)
  rintro m1 ⟨hA1, hf1⟩
  have hc1 := hc.writeA hn1 hn2 hA1 hf1
  have hB1 := hB.frame hf1 (hdB.mono_right hfA)
  have hC1 := hC.frame hf1 (hdC.mono_right hfA)
  obtain ⟨v', hv'⟩ := hc1.allocB' hn1 hw2
  have hdB' : Disjoint B.foot (c.B n w).foot := hdB.mono_right hfB
  have key : ∀ m2, Holds m2 (c.B n w) b → Frame (c.B n w).foot m1 m2 →
      Runs (if fl.right then kernelInner m2 C alpha (c.B n w) (c.A n n) c.rb
        else kernelInner m2 C alpha (c.A n n) (c.B n w) c.rb) (fun m' =>
      Holds m' C (opM fl.right (fun p q =>
        f p q + alpha * ∑ k ∈ range n, symU fl.upper fl.unit a p k * b k q)) ∧
      Frame (C.foot ∪ c.foot) m m' ∧ c.Ready m') := by
    intro m2 hB2 hf2
    have hc2 := hc1.writeB hn1 hw2 hB2 hf2
    have hA2 := hA1.frame hf2 hdAB
    have hC2 := hC1.frame hf2 (hdC.mono_right hfB)
    have hf02 : Frame (C.foot ∪ c.foot) m m2 :=
      (hf1.mono (hfA.trans Set.subset_union_right)).trans (hf2.mono (hfB.trans Set.subset_union_right))
    have d1 := (hdC.mono_right hfA).symm
    have d2 := (hdC.mono_right hfB).symm
    clear hdB' hdB hB1 hB hBr hBc
    revert hCl hCw hC2
    cases fl.right <;> simp only [View.nl, View.wd, Bool.false_eq_true, if_true, if_false] <;>
      intro hCl hCw hC2
    · refine (kernelInner_spec alpha hc2.rb hw hC2 hA2 hB2 (le_of_eq hCl) (le_of_eq hCw) (le_refl _)
        d1 d2).mono ?_
      rintro m3 ⟨h3, hf3⟩
      refine ⟨h3.congr ?_, hf02.trans (hf3.mono Set.subset_union_left), hc2.frame hf3 hdC.symm⟩
      intro i j _ _
      simp only [opM, Bool.false_eq_true, if_false]
      congr 2
      exact Finset.sum_congr rfl (fun k _ => by rw [symU_comm])
    · refine (kernelInner_spec alpha hc2.rb hw hC2 hB2 hA2 (le_of_eq hCw) (le_of_eq hCl) (le_refl _)
        d2 d1).mono ?_
      rintro m3 ⟨h3, hf3⟩
      refine ⟨h3.congr ?_, hf02.trans (hf3.mono Set.subset_union_left), hc2.frame hf3 hdC.symm⟩
      intro i j _ _
      simp only [opM, if_true]
      congr 2
      exact Finset.sum_congr rfl (fun k _ => by rw [symU_comm, mul_comm])
  generalize (fun m' : Mem α => _) = Q at key ⊢
  clear hCl hCw hC1 hC
  revert hBr hBc hB1 key
  clear hB
  cases fl.right <;> cases fl.transB <;>
    simp only [Bool.xor_self, Bool.xor_false, Bool.xor_true, Bool.not_true, Bool.not_false,
      Bool.false_eq_true, if_true, if_false] <;> intro hBr hBc hB1 key <;> rw [hBr, hBc]
  · refine Runs.bind (cpBlk_spec (D := c.B n w) ab fl rfl rfl hwB (le_of_eq hBr.symm)
      (le_of_eq hBc.symm) hv' hB1 hdB') ?_
    rintro m2 ⟨hB2, hf2⟩
    exact key m2 (hB2.congr (fun i j _ _ => by rw [Flags.elt_id hfa hfb]; rfl)) hf2
  · refine Runs.bind (cpBlkTrans_spec (D := c.B n w) ab fl rfl rfl hwB (le_of_eq hBr.symm)
      (le_of_eq hBc.symm) hv' hB1 hdB') ?_
    rintro m2 ⟨hB2, hf2⟩
    exact key m2 (hB2.congr (fun i j _ _ => by rw [Flags.elt_id hfa hfb]; rfl)) hf2
  · refine Runs.bind (cpBlkTrans_spec (D := c.B n w) ab fl rfl rfl hwB (le_of_eq hBr.symm)
      (le_of_eq hBc.symm) hv' hB1 hdB') ?_
    rintro m2 ⟨hB2, hf2⟩
    exact key m2 (hB2.congr (fun i j _ _ => by rw [Flags.elt_id hfa hfb]; rfl)) hf2
  · refine Runs.bind (cpBlk_spec (D := c.B n w) ab fl rfl rfl hwB (le_of_eq hBr.symm)
      (le_of_eq hBc.symm) hv' hB1 hdB') ?_
    rintro m2 ⟨hB2, hf2⟩
    exact key m2 (hB2.congr (fun i j _ _ => by rw [Flags.elt_id hfa hfb]; rfl)) hf2

/-- The product with a block outside of the diagonal: `x` says that the block holds the transposed
coefficients. -/
theorem symmOff_spec (ab : α → α) {m : Mem α} {C A B : View} (alpha : α) {r tb x : Bool} {c : Cache}
    {e b f : Nat → Nat → α} {n k w : Nat}
    (hw : C.WF) (hc : c.Ready m) (hrb : c.rb ≤ c.MB)
    (hAr : A.rows = if x then k else n) (hAc : A.cols = if x then n else k)
    (hCl : C.nl r = n) (hCw : C.wd r = w)
    (hBr : B.rows = if r ^^ tb then w else k)
    (hBc : B.cols = if r ^^ tb then k else w)
    (hA : Holds m A (opM x e)) (hB : Holds m B (opM (r ^^ tb) b)) (hC : Holds m C (opM r f))
    (hdA : Disjoint A.foot c.foot) (hdB : Disjoint B.foot c.foot)
    (hdC : Disjoint C.foot c.foot) (hdAC : Disjoint A.foot C.foot) (hdBC : Disjoint B.foot C.foot) :
    Runs (if r then multKernelNc ab m C alpha B A
          (if r then { transA := tb, transB := !x } else { transA := x, transB := tb }) c
        else multKernelNc ab m C alpha A B
          (if r then { transA := tb, transB := !x } else { transA := x, transB := tb }) c) (fun m' =>
      Holds m' C (opM r (fun p q => f p q + alpha * ∑ l ∈ range k, e p l * b l q)) ∧
      Frame (C.foot ∪ c.foot) m m' ∧ c.Ready m') := by
  cases r <;> simp only [View.nl, View.wd, Bool.false_eq_true, if_true, if_false, Bool.false_xor,
    Bool.true_xor] at *
  · refine (multKernelNc_spec ab _ alpha hw hc hrb hA hB hC hdA hdB hdC hdAC hdBC ?_ ?_ ?_).mono ?_
    · rw [hAr, hAc, hCl]; cases x <;> rfl
    · rw [hBr, hBc, hCw]; cases tb <;> rfl
    · rw [hAr, hAc, hBr, hBc]; cases x <;> cases tb <;> rfl
    · rintro m' ⟨h1, h2, h3⟩
      refine ⟨h1.congr ?_, h2, h3⟩
      intro i j _ _
      rw [hAr, hAc]
      rw [show (if x then if x then k else n else if x then n else k) = k by cases x <;> rfl]
      simp only [opM, Bool.false_eq_true, if_false]
      congr 2
      refine Finset.sum_congr rfl (fun l _ => ?_)
      rw [Flags.elt_id rfl rfl, Flags.elt_id rfl rfl]
      cases x <;> cases tb <;> rfl
  · refine (multKernelNc_spec ab _ alpha hw hc hrb hB hA hC hdB hdA hdC hdBC hdAC ?_ ?_ ?_).mono ?_
    · rw [hBr, hBc, hCw]; cases tb <;> rfl
    · rw [hAr, hAc, hCl]; cases x <;> rfl
    · rw [hAr, hAc, hBr, hBc]; cases x <;> cases tb <;> rfl
    · rintro m' ⟨h1, h2, h3⟩
      refine ⟨h1.congr ?_, h2, h3⟩
      intro i j _ _
      rw [hBr, hBc]
      rw [show (if tb then if (!tb) then w else k else if (!tb) then k else w) = k by cases tb <;> rfl]
      simp only [opM, if_true]
      congr 2
      refine Finset.sum_congr rfl (fun l _ => ?_)
      rw [Flags.elt_id rfl rfl, Flags.elt_id rfl rfl, mul_comm]
      cases x <;> cases tb <;> rfl

omit [CommRing α] [DecidableEq α] in
theorem symmOpB_eq (r tb : Bool) (B : View) (k nk j nJ : Nat) :
    symmOpB r tb B k nk j nJ = if r ^^ tb then B.sub j k nJ nk else B.sub k j nk nJ := by
  cases r <;> cases tb <;> rfl

omit [CommRing α] [DecidableEq α] in
/-- A block in line coordinates. -/
theorem Holds.opSub {m : Mem α} {B : View} {x : Bool} {b : Nat → Nat → α} {n w k nk j nJ : Nat}
    (hB : Holds m B (opM x b)) (hr : B.rows = if x then w else n) (hc : B.cols = if x then n else w)
    (hk : k + nk ≤ n) (hj : j + nJ ≤ w) :
    Holds m (if x then B.sub j k nJ nk else B.sub k j nk nJ)
      (opM x (fun l q => b (k + l) (j + q))) := by
  cases x <;> simp only [Bool.false_eq_true, if_true, if_false] at hr hc ⊢
  · exact (hB.sub (by omega) (by omega)).congr (fun _ _ _ _ => rfl)
  · exact (hB.sub (by omega) (by omega)).congr (fun _ _ _ _ => rfl)

omit [CommRing α] [DecidableEq α] in
theorem opSub_foot {B : View} {x : Bool} {n w k nk j nJ : Nat}
    (hr : B.rows = if x then w else n) (hc : B.cols = if x then n else w)
    (hk : k + nk ≤ n) (hj : j + nJ ≤ w) :
    (if x then B.sub j k nJ nk else B.sub k j nk nJ).foot ⊆ B.foot := by
  cases x <;> simp only [Bool.false_eq_true, if_true, if_false] at hr hc ⊢ <;>
    exact View.sub_foot (by omega) (by omega)

omit [CommRing α] [DecidableEq α] in
theorem opSub_wf {B : View} {x : Bool} {n w k nk j nJ : Nat}
    (hr : B.rows = if x then w else n) (hc : B.cols = if x then n else w)
    (hk : k + nk ≤ n) (hj : j + nJ ≤ w) (hw : B.WF) :
    (if x then B.sub j k nJ nk else B.sub k j nk nJ).WF := by
  cases x <;> simp only [Bool.false_eq_true, if_true, if_false] at hr hc ⊢ <;>
    exact hw.sub (by omega) (by omega)

omit [CommRing α] [DecidableEq α] in
theorem Holds.opPatch {m m' : Mem α} {B : View} {x : Bool} {b d : Nat → Nat → α} {n w k nk j nJ : Nat}
    {S : Set Nat} (hB : Holds m B (opM x b)) (hw : B.WF)
    (hr : B.rows = if x then w else n) (hc : B.cols = if x then n else w)
    (hk : k + nk ≤ n) (hj : j + nJ ≤ w)
    (hb : Holds m' (if x then B.sub j k nJ nk else B.sub k j nk nJ) (opM x d))
    (hf : Frame ((if x then B.sub j k nJ nk else B.sub k j nk nJ).foot ∪ S) m m')
    (hd : Disjoint B.foot S) :
    Holds m' B (opM x (fun p q => if k ≤ p ∧ p < k + nk ∧ j ≤ q ∧ q < j + nJ then d (p - k) (q - j)
      else b p q)) := by
  cases x <;> simp only [Bool.false_eq_true, if_true, if_false] at hr hc hb hf
  · exact (hB.patch' hw (by omega) (by omega) hb hf hd).congr (fun _ _ _ _ => rfl)
  · refine (hB.patch' hw (by omega) (by omega) hb hf hd).congr (fun p q _ _ => ?_)
    simp only [opM, if_true]
    by_cases h : j ≤ p ∧ p < j + nJ ∧ k ≤ q ∧ q < k + nk
    · rw [if_pos h, if_pos (by omega)]
    · rw [if_neg h, if_neg (by omega)]

omit [DecidableEq α] in
/-- A block that lies in the triangle, with the rows `i,…` of the symmetric matrix and its columns
`k,…`; `x` says that it is stored transposed. -/
theorem triBlock {m : Mem α} {A : View} {u t x : Bool} {a : Nat → Nat → α} {n i nI k nk : Nat}
    (hA : HoldsOn m A (InTri u t) a) (hr : A.rows = n) (hc : A.cols = n)
    (hi : i + nI ≤ n) (hk : k + nk ≤ n) (hd : if u ^^ x then i + nI ≤ k else k + nk ≤ i) :
    Holds m (if x then A.sub k i nk nI else A.sub i k nI nk)
      (opM x (fun p l => symU u t a (i + p) (k + l))) ∧
    (if x then A.sub k i nk nI else A.sub i k nI nk).foot ⊆ A.footOn (InTri u t) := by
  have key : ∀ p q, p < nI → q < nk → (if x then InTri u t (k + q) (i + p) else InTri u t (i + p) (k + q)) := by
    intro p q hp hq
    unfold InTri
    cases x <;> cases u <;> cases t <;>
      simp only [Bool.false_eq_true, if_true, if_false, Bool.xor_self, Bool.xor_false, Bool.xor_true,
        Bool.not_true, Bool.not_false] at hd ⊢ <;> omega
  cases x <;> simp only [Bool.false_eq_true, if_true, if_false] at key ⊢
  · refine ⟨(hA.block (by omega) (by omega) key).congr ?_, View.foot_sub_footOn (by omega) (by omega) key⟩
    intro p q hp hq
    exact (symU_tri a (key p q hp hq)).symm
  · refine ⟨(hA.block (by omega) (by omega) (fun p q hp hq => key q p hq hp)).congr ?_,
      View.foot_sub_footOn (by omega) (by omega) (fun p q hp hq => key q p hq hp)⟩
    intro p q hp hq
    show _ = symU u t a (i + q) (k + p)
    rw [symU_comm, symU_tri a (key q p hq hp)]

/-- Data of the operation, in line coordinates. -/
structure SymPre (m : Mem α) (C A B : View) (fl : Flags) (c : Cache) (a b : Nat → Nat → α)
    (n w : Nat) : Prop where
  uplo : fl.lower = !fl.upper
  absA : fl.absA = false
  absB : fl.absB = false
  wf : C.WF
  rb : c.rb ≤ c.MB
  Ar : A.rows = n
  Ac : A.cols = n
  Cr : C.rows = if fl.right then w else n
  Cc : C.cols = if fl.right then n else w
  Br : B.rows = if fl.right ^^ fl.transB then w else n
  Bc : B.cols = if fl.right ^^ fl.transB then n else w
  hA : HoldsOn m A (InTri fl.upper fl.unit) a
  hB : Holds m B (opM (fl.right ^^ fl.transB) b)
  dA : Disjoint (A.footOn (InTri fl.upper fl.unit)) c.foot
  dB : Disjoint B.foot c.foot
  dC : Disjoint C.foot c.foot
  dAC : Disjoint (A.footOn (InTri fl.upper fl.unit)) C.foot
  dBC : Disjoint B.foot C.foot

theorem SymPre.frame {m m' : Mem α} {C A B : View} {fl : Flags} {c : Cache} {a b : Nat → Nat → α}
    {n w : Nat} (H : SymPre m C A B fl c a b n w) (hf : Frame (C.foot ∪ c.foot) m m') :
    SymPre m' C A B fl c a b n w :=
  { H with
    hA := H.hA.frame hf (Set.disjoint_union_right.mpr ⟨H.dAC, H.dA⟩)
    hB := H.hB.frame hf (Set.disjoint_union_right.mpr ⟨H.dBC, H.dB⟩) }

/-- One block of the result. -/
theorem symmBlock_spec (ab : α → α) {m : Mem α} {C A B : View} (beta alpha : α) {fl : Flags} {c : Cache}
    {a b f : Nat → Nat → α} {n w i nI j nJ : Nat}
    (H : SymPre m C A B fl c a b n w) (hc : c.Ready m)
    (hi : i + nI ≤ n) (hj : j + nJ ≤ w) (h1 : nI ≤ c.KB) (h2 : nI ≤ c.MB) (h3 : nJ ≤ c.NB)
    (hC : Holds m (if fl.right then C.sub j i nJ nI else C.sub i j nI nJ) (opM fl.right f)) :
    Runs (symmBlock ab fl.right m beta C alpha A B fl c i nI j nJ) (fun m' =>
      Holds m' (if fl.right then C.sub j i nJ nI else C.sub i j nI nJ) (opM fl.right (fun p q =>
        beta * f p q + alpha * ∑ k ∈ range n,
          symU fl.upper fl.unit a (i + p) k * b k (j + q))) ∧
      Frame ((if fl.right then C.sub j i nJ nI else C.sub i j nI nJ).foot ∪ c.foot) m m' ∧
      c.Ready m') := by
  unfold symmBlock
  dsimp only
  rw [symmOpB_eq, symmOpB_eq, symmOpB_eq]
  have hfC := opSub_foot H.Cr H.Cc hi hj
  have hwC := opSub_wf H.Cr H.Cc hi hj H.wf
  have hnl : (if fl.right then C.sub j i nJ nI else C.sub i j nI nJ).nl fl.right = nI := by
    cases fl.right <;> rfl
  have hwd : (if fl.right then C.sub j i nJ nI else C.sub i j nI nJ).wd fl.right = nJ := by
    cases fl.right <;> rfl
  set C0 := if fl.right then C.sub j i nJ nI else C.sub i j nI nJ with hC0
  have hdC0 := H.dC.mono_left hfC
  have hnB : (if fl.right then (if fl.transB then B.rows else B.cols)
      else (if fl.transB then B.cols else B.rows)) = n := by
    rw [H.Br, H.Bc]; cases fl.right <;> cases fl.transB <;> rfl
  rw [hnB, H.Ac]
  refine Runs.bind (scaleUnsafe_any beta hwC hC) ?_
  rintro m1 ⟨hC1, hf1⟩
  have hf01 : Frame (C0.foot ∪ c.foot) m m1 := hf1.mono Set.subset_union_left
  have hsub : C0.foot ∪ c.foot ⊆ C.foot ∪ c.foot := Set.union_subset_union_left _ hfC
  have hc1 := hc.frame hf1 hdC0.symm
  have H1 := H.frame (hf01.mono hsub)
  obtain ⟨hA0, hfA0⟩ := triBlock (x := fl.upper) (i := i) (nI := nI) (k := 0) (nk := i) H1.hA H.Ar H.Ac
    hi (by omega) (by simp)
  have hB0 := H1.hB.opSub (k := 0) (nk := i) (j := j) (nJ := nJ) H.Br H.Bc (by omega) hj
  have hfB0 := opSub_foot (B := B) (k := 0) (nk := i) (j := j) (nJ := nJ) H.Br H.Bc (by omega) hj
  have s1 := symmOff_spec ab (C := C0) alpha (r := fl.right) (tb := fl.transB) (x := fl.upper) hwC hc1 H.rb
    (n := nI) (k := i) (w := nJ)
    (by cases fl.upper <;> rfl) (by cases fl.upper <;> rfl) hnl hwd
    (by cases (fl.right ^^ fl.transB) <;> rfl) (by cases (fl.right ^^ fl.transB) <;> rfl)
    hA0 hB0 (f := fun p q => beta * f p q) (hC1.congr (fun _ _ _ _ => by cases fl.right <;> rfl))
    (H.dA.mono_left hfA0) (H.dB.mono_left hfB0) hdC0
    ((H.dAC.mono_left hfA0).mono_right hfC) ((H.dBC.mono_left hfB0).mono_right hfC)
  refine Runs.bind s1 ?_
  rintro m2 ⟨hC2, hf2, hc2⟩
  have H2 := H1.frame (hf2.mono hsub)
  have hB1 := H2.hB.opSub (k := i) (nk := nI) (j := j) (nJ := nJ) H.Br H.Bc (by omega) hj
  have hfB1 := opSub_foot (B := B) (k := i) (nk := nI) (j := j) (nJ := nJ) H.Br H.Bc (by omega) hj
  have hti : ∀ p q, InTri fl.upper fl.unit p q → InTri fl.upper fl.unit (i + p) (i + q) :=
    fun p q h => (inTri_shift _ _ _ _ _).mpr h
  refine Runs.bind (symmDiag_spec ab alpha (n := nI) (w := nJ) H.uplo H.absA H.absB hwC hc2 rfl rfl hnl hwd
    (by cases (fl.right ^^ fl.transB) <;> rfl) (by cases (fl.right ^^ fl.transB) <;> rfl) h1 h2 h3
    (H2.hA.sub (by rw [H.Ar]; exact hi) (by rw [H.Ac]; exact hi) (fun p q _ _ h => hti p q h)) hB1 hC2
    (H.dA.mono_left (View.footOn_sub (by rw [H.Ar]; exact hi) (by rw [H.Ac]; exact hi)
      (fun p q _ _ h => hti p q h))) (H.dB.mono_left hfB1) hdC0) ?_
  rintro m3 ⟨hC3, hf3, hc3⟩
  have H3 := H2.frame (hf3.mono hsub)
  obtain ⟨hA4, hfA4⟩ := triBlock (x := !fl.upper) (i := i) (nI := nI) (k := i + nI) (nk := n - (i + nI))
    H3.hA H.Ar H.Ac hi (by omega) (by simp)
  have hB4 := H3.hB.opSub (k := i + nI) (nk := n - (i + nI)) (j := j) (nJ := nJ) H.Br H.Bc (by omega) hj
  have hfB4 := opSub_foot (B := B) (k := i + nI) (nk := n - (i + nI)) (j := j) (nJ := nJ) H.Br H.Bc
    (by omega) hj
  have s4 := symmOff_spec ab (C := C0) alpha (r := fl.right) (tb := fl.transB) (x := !fl.upper) hwC hc3 H.rb
    (n := nI) (k := n - (i + nI)) (w := nJ)
    (by cases fl.upper <;> rfl) (by cases fl.upper <;> rfl) hnl hwd
    (by cases (fl.right ^^ fl.transB) <;> rfl) (by cases (fl.right ^^ fl.transB) <;> rfl)
    hA4 hB4 hC3
    (H.dA.mono_left hfA4) (H.dB.mono_left hfB4) hdC0
    ((H.dAC.mono_left hfA4).mono_right hfC) ((H.dBC.mono_left hfB4).mono_right hfC)
  have eA : (if (!fl.upper) = true then A.sub (i + nI) i (n - (i + nI)) nI
      else A.sub i (i + nI) nI (n - (i + nI))) =
      if fl.upper = true then A.sub i (i + nI) nI (n - (i + nI))
      else A.sub (i + nI) i (n - (i + nI)) nI := by cases fl.upper <;> rfl
  rw [eA, Bool.not_not] at s4
  refine s4.mono ?_
  rintro m4 ⟨hC4, hf4, hc4⟩
  refine ⟨hC4.congr ?_, ((hf01.trans hf2).trans hf3).trans hf4, hc4⟩
  intro p q _ _
  have e : ∀ x y, (∑ k ∈ range n, symU fl.upper fl.unit a (i + x) k * b k (j + y)) =
      ∑ l ∈ range i, symU fl.upper fl.unit a (i + x) (0 + l) * b (0 + l) (j + y) +
      ∑ l ∈ range nI, symU fl.upper fl.unit (fun p q => a (i + p) (i + q)) x l * b (i + l) (j + y) +
      ∑ l ∈ range (n - (i + nI)),
        symU fl.upper fl.unit a (i + x) (i + nI + l) * b (i + nI + l) (j + y) := by
    intro x y
    rw [sum_split (n := n) (a := i + nI) _ hi, sum_split (n := i + nI) (a := i) _ (by omega)]
    simp only [symU_shift, Nat.zero_add, Nat.add_sub_cancel_left]
  cases fl.right <;> simp only [opM, Bool.false_eq_true, if_true, if_false] <;> rw [e] <;> ring

/-- `armas_mult_symm_left`, `armas_mult_symm_right`. -/
theorem symmSide_spec (ab : α → α) {m : Mem α} {C A B : View} (beta alpha : α) {fl : Flags} {c : Cache}
    {a b f : Nat → Nat → α} {n w : Nat}
    (H : SymPre m C A B fl c a b n w) (hc : c.Ready m) (hn : 0 < n) (hw : 0 < w)
    (h1 : min (if fl.right then c.NB else c.MB) n ≤ c.KB)
    (h2 : min (if fl.right then c.NB else c.MB) n ≤ c.MB)
    (h3 : min (if fl.right then c.MB else c.NB) w ≤ c.NB)
    (hC : Holds m C (opM fl.right f)) :
    Runs (symmSide ab fl.right m beta C alpha A B fl c) (fun m' =>
      Holds m' C (opM fl.right (fun p q =>
        beta * f p q + alpha * ∑ k ∈ range n, symU fl.upper fl.unit a p k * b k q)) ∧
      Frame (C.foot ∪ c.foot) m m' ∧ c.Ready m') := by
  unfold symmSide
  by_cases ha : alpha = 0
  · rw [if_pos ha]
    refine (scaleUnsafe_mat beta H.wf hC).mono ?_
    rintro m' ⟨h, hf⟩
    refine ⟨h.congr (fun i j _ _ => ?_), hf.mono Set.subset_union_left, hc.frame hf H.dC.symm⟩
    cases fl.right <;> simp [opM, ha]
  rw [if_neg ha]
  dsimp only
  have enl : (if fl.right = true then C.cols else C.rows) = n := by
    rw [H.Cr, H.Cc]; cases fl.right <;> rfl
  have enq : (if fl.right = true then C.rows else C.cols) = w := by
    rw [H.Cr, H.Cc]; cases fl.right <;> rfl
  obtain ⟨bi, hbi⟩ : ∃ bi, bi = min (if fl.right then c.NB else c.MB) n := ⟨_, rfl⟩
  obtain ⟨bj, hbj⟩ : ∃ bj, bj = min (if fl.right then c.MB else c.NB) w := ⟨_, rfl⟩
  have ebi : (if fl.right = true then if C.cols < c.NB then C.cols else c.NB
      else if C.rows < c.MB then C.rows else c.MB) = bi := by
    rw [hbi, H.Cr, H.Cc]; cases fl.right <;> simp <;> split <;> omega
  have ebj : (if fl.right = true then if C.rows < c.MB then C.rows else c.MB
      else if C.cols < c.NB then C.cols else c.NB) = bj := by
    rw [hbj, H.Cr, H.Cc]; cases fl.right <;> simp <;> split <;> omega
  rw [enl, enq, ebi, ebj]
  rw [← hbi] at h1 h2
  rw [← hbj] at h3
  have pb : 0 < bi := by
    have := hc.nb; have := hc.mb; rw [hbi]; split <;> omega
  have pj : 0 < bj := by
    have := hc.nb; have := hc.mb; rw [hbj]; split <;> omega
  have lbi : bi ≤ n := by omega
  have lbj : bj ≤ w := by omega
  set g : Nat → Nat → α := fun p q =>
    beta * f p q + alpha * ∑ k ∈ range n, symU fl.upper fl.unit a p k * b k q with hg
  refine Runs.bind (Runs.forUp (fun i m' => Holds m' C (opM fl.right (fun p q => if p < i then g p q else f p q)) ∧
    Frame (C.foot ∪ c.foot) m m' ∧ c.Ready m') pb
    ⟨hC.congr (by intros; simp), Frame.refl _ _, hc⟩ ?_
    (Q := fun p => Holds p.2 C (opM fl.right g) ∧ Frame (C.foot ∪ c.foot) m p.2 ∧ c.Ready p.2)
    (fun k st h1 _ h => ⟨h.1.congr ?_, h.2⟩)) (fun p hp => Runs.pure hp)
  · rintro i m1 - hi ⟨hC1, hf1, hc1⟩
    obtain ⟨nI, hnI⟩ : ∃ nI, nI = if n - i < bi then n - i else bi := ⟨_, rfl⟩
    rw [← hnI]
    have lI : i + nI ≤ n := by rw [hnI]; split <;> omega
    have lI2 : nI ≤ bi := by rw [hnI]; split <;> omega
    refine Runs.bind (Runs.forUp (fun j m' => Holds m' C (opM fl.right (fun p q =>
        if p < i ∨ (p < i + nI ∧ q < j) then g p q else f p q)) ∧
      Frame (C.foot ∪ c.foot) m m' ∧ c.Ready m') pj
      ⟨hC1.congr (by intros; simp), hf1, hc1⟩ ?_
      (Q := fun p => Holds p.2 C (opM fl.right (fun p q => if p < i + bi then g p q else f p q)) ∧
        Frame (C.foot ∪ c.foot) m p.2 ∧ c.Ready p.2)
      (fun k st h1 _ h => ⟨h.1.congr ?_, h.2⟩)) (fun p hp => Runs.pure hp)
    · rintro j m2 - hj ⟨hC2, hf2, hc2⟩
      obtain ⟨nJ, hnJ⟩ : ∃ nJ, nJ = if w - j < bj then w - j else bj := ⟨_, rfl⟩
      rw [← hnJ]
      have lJ : j + nJ ≤ w := by rw [hnJ]; split <;> omega
      have lJ2 : nJ ≤ bj := by rw [hnJ]; split <;> omega
      have lJ3 : j + nJ = w ∨ nJ = bj := by rw [hnJ]; split <;> omega
      have hCb := hC2.opSub (k := i) (nk := nI) (j := j) (nJ := nJ) H.Cr H.Cc lI lJ
      refine (symmBlock_spec ab beta alpha (H.frame hf2) hc2 lI lJ (by omega) (by omega) (by omega)
        (f := fun p q => f (i + p) (j + q)) (hCb.congr ?_)).mono ?_
      · intro p q hp hq
        have key : ∀ p q, ¬ (i + p < i ∨ i + p < i + nI ∧ j + q < j) := by intros; omega
        cases fl.right <;> simp only [opM, Bool.false_eq_true, if_true, if_false] <;>
          rw [if_neg (key _ _)]
      · rintro m3 ⟨hC3, hf3, hc3⟩
        refine ⟨(hC2.opPatch H.wf H.Cr H.Cc lI lJ hC3 hf3 H.dC).congr ?_,
          hf2.trans (hf3.mono (Set.union_subset_union_left _ (opSub_foot H.Cr H.Cc lI lJ))), hc3⟩
        have key : ∀ p q, p < n → q < w → (if i ≤ p ∧ p < i + nI ∧ j ≤ q ∧ q < j + nJ then
            beta * f (i + (p - i)) (j + (q - j)) + alpha * ∑ k ∈ range n,
              symU fl.upper fl.unit a (i + (p - i)) k * b k (j + (q - j))
            else if p < i ∨ p < i + nI ∧ q < j then g p q else f p q) =
            if p < i ∨ p < i + nI ∧ q < j + bj then g p q else f p q := by
          intro p q hp hq
          by_cases hin : i ≤ p ∧ p < i + nI ∧ j ≤ q ∧ q < j + nJ
          · rw [if_pos hin, if_pos (by omega), hg]
            dsimp only
            rw [show i + (p - i) = p by omega, show j + (q - j) = q by omega]
          · rw [if_neg hin]
            by_cases h5 : p < i ∨ p < i + nI ∧ q < j
            · rw [if_pos h5, if_pos (by omega)]
            · rw [if_neg h5, if_neg (by omega)]
        intro p q hp hq
        rw [H.Cr] at hp
        rw [H.Cc] at hq
        revert hp hq
        cases fl.right <;> simp only [opM, Bool.false_eq_true, if_true, if_false] <;> intro hp hq
        · exact key p q hp hq
        · exact key q p hq hp
    · intro p q hp hq
      have key : ∀ p q, p < n → q < w → (if p < i ∨ p < i + nI ∧ q < k then g p q else f p q) =
          if p < i + bi then g p q else f p q := by
        intro p q hp hq
        have : i + nI = n ∨ nI = bi := by rw [hnI]; split <;> omega
        by_cases h5 : p < i + bi
        · rw [if_pos (by omega), if_pos h5]
        · rw [if_neg (by omega), if_neg h5]
      rw [H.Cr] at hp
      rw [H.Cc] at hq
      revert hp hq
      cases fl.right <;> simp only [opM, Bool.false_eq_true, if_true, if_false] <;> intro hp hq
      · exact key p q hp hq
      · exact key q p hq hp
  · intro p q hp hq
    rw [H.Cr] at hp
    rw [H.Cc] at hq
    revert hp hq
    cases fl.right <;> simp only [opM, Bool.false_eq_true, if_true, if_false] <;> intro hp hq <;>
      rw [if_pos (by omega)]

/-! ## A block that is too large for the buffers -/

/-- Every cell is allocated. -/
def Mem.Total (m : Mem α) : Prop := ∀ q, ∃ v, m q = some v

omit [CommRing α] [DecidableEq α] in
theorem Mem.Total.holds {m : Mem α} (h : m.Total) (V : View) : ∃ a, Holds m V a := by
  choose v hv using h
  exact ⟨fun i j => v (V.at' i j), fun i j _ _ => hv _⟩

omit [CommRing α] [DecidableEq α] in
theorem Mem.Total.next {m m' : Mem α} (h : m.Total) {V : View} {a : Nat → Nat → α} (hV : Holds m' V a)
    (hf : Frame V.foot m m') : m'.Total := by
  intro q
  by_cases hq : q ∈ V.foot
  · obtain ⟨i, j, hi, hj, rfl⟩ := hq
    exact ⟨_, hV i j hi hj⟩
  · rw [hf q hq]; exact h q

omit [CommRing α] [DecidableEq α] in
theorem Cache.Ready.total {c : Cache} {m m' : Mem α} (h : c.Ready m) (ht : m'.Total) : c.Ready m' :=
  ⟨h.kb, h.nb, h.mb, h.rb, h.step, ht.holds _, ht.holds _, h.dis⟩

/-- `C := beta*C + alpha*B*S` for a row `C` that is longer than `MB`, when the buffers follow each other
as `armas_cache_setup2` lays them out: the copy of `B` overwrites column `MB` of the copy of `S`. -/
theorem symm_overlap (ab : α → α) {m : Mem α} {C A B : View} {c : Cache} {a b f : Nat → Nat → α}
    (beta : α) {alpha : α} (ha : alpha ≠ 0) {n : Nat} (hn : n = c.MB + 1) (hK : n ≤ c.KB) (hN : n ≤ c.NB)
    (hs : c.step = c.KB) (hBc : c.Bcpy = c.Acpy + c.MB * c.KB) (hc : c.Ready m) (hrb : c.rb ≤ c.MB)
    (ht : m.Total) (hCr : C.rows = 1) (hCc : C.cols = n) (hAr : A.rows = n) (hAc : A.cols = n)
    (hBr : B.rows = 1) (hBcc : B.cols = n) (hw : C.WF)
    (hA : HoldsOn m A (InTri true false) a) (hB : Holds m B b) (hC : Holds m C f)
    (hdA : Disjoint (A.footOn (InTri true false)) (c.foot ∪ (c.A n n).foot))
    (hdB : Disjoint B.foot (c.foot ∪ (c.A n n).foot)) (hdC : Disjoint C.foot (c.foot ∪ (c.A n n).foot))
    (hdAC : Disjoint (A.footOn (InTri true false)) C.foot) (hdBC : Disjoint B.foot C.foot) :
    Runs (symmSide ab true m beta C alpha A B { right := true, upper := true } c) (fun m' =>
      m' (C.at' 0 c.MB) = some (beta * f 0 c.MB + alpha * ∑ k ∈ range n, b 0 k * b 0 k)) := by
  have hmb := hc.mb
  rw [Set.disjoint_union_right] at hdA hdB hdC
  have hwA : (c.A n n).WF := Or.inl (le_trans hK hc.step)
  have hwB : (c.B n 1).WF := Or.inl (le_trans hK hc.step)
  have hfB : (c.B n 1).foot ⊆ c.foot := (c.B_foot hK hc.nb).trans Set.subset_union_right
  have hC0 : C.sub 0 0 1 n = C := by rw [← hCr, ← hCc]; exact View.sub_zero C
  have hA0 : A.sub 0 0 n n = A := by
    have := View.sub_zero A
    rwa [hAr, hAc] at this
  have hB0 : B.sub 0 0 1 n = B := by rw [← hBr, ← hBcc]; exact View.sub_zero B
  unfold symmSide
  rw [if_neg ha]
  simp only [if_true, hCr, hCc, hAc]
  have e1 : (if 1 < c.MB then 1 else c.MB) = 1 := by split <;> omega
  have e2 : (if n < c.NB then n else c.NB) = n := by split <;> omega
  rw [e1, e2]
  rw [forUp_eq, if_pos (by omega), if_pos (by omega)]
  simp only [Nat.sub_zero, Nat.zero_add, lt_self_iff_false, if_false]
  rw [forUp_eq, if_pos (by omega), if_pos (by omega)]
  simp only [Nat.sub_zero, Nat.zero_add, lt_self_iff_false, if_false]
  have main : Runs (symmBlock ab true m beta C alpha A B { right := true, upper := true } c 0 n 0 1)
      (fun m' => m' (C.at' 0 c.MB) = some (beta * f 0 c.MB + alpha * ∑ k ∈ range n, b 0 k * b 0 k)) := by
    unfold symmBlock
    dsimp only [symmOpB]
    simp only [if_true, Bool.false_eq_true, if_false, hC0, hA0, hB0, Nat.zero_add, hAc, hBcc, Nat.sub_self]
    refine Runs.bind (scaleUnsafe_any beta hw hC) ?_
    rintro m1 ⟨hC1, hf1⟩
    have ht1 := ht.next hC1 hf1
    obtain ⟨x1, hx1⟩ := ht1.holds (B.sub 0 0 1 0)
    obtain ⟨y1, hy1⟩ := ht1.holds (A.sub 0 0 0 n)
    have emp : ∀ {V : View} {S : Set Nat}, V.rows = 0 ∨ V.cols = 0 → Disjoint V.foot S := by
      intro V S h
      refine Set.disjoint_left.mpr ?_
      rintro q ⟨i, j, hi, hj, -⟩ -
      omega
    refine Runs.bind (multKernelNc_spec ab _ alpha hw (hc.total ht1) hrb hx1 hy1 hC1
      (emp (Or.inr rfl)) (emp (Or.inl rfl)) hdC.1 (emp (Or.inr rfl)) (emp (Or.inl rfl))
      (by simp [hCr]) (by simp [hCc]) (by simp)) ?_
    rintro m2 ⟨hC2, hf2, hc2⟩
    have hf02 : Frame (C.foot ∪ c.foot) m m2 := (hf1.mono Set.subset_union_left).trans hf2
    have ht2 : m2.Total := by
      intro q
      by_cases hq : q ∈ C.foot ∪ c.foot
      · rcases hq with ⟨i, j, hi, hj, rfl⟩ | ⟨i, j, hi, hj, rfl⟩ | ⟨i, j, hi, hj, rfl⟩
        · exact ⟨_, hC2 i j hi hj⟩
        · obtain ⟨u, hu⟩ := hc2.allocA
          exact ⟨_, hu i j hi hj⟩
        · obtain ⟨u, hu⟩ := hc2.allocB
          exact ⟨_, hu i j hi hj⟩
      · rw [hf02 q hq]; exact ht q
    have hA2 := hA.frame hf02 (Set.disjoint_union_right.mpr ⟨hdAC, hdA.1⟩)
    have hB2 := hB.frame hf02 (Set.disjoint_union_right.mpr ⟨hdBC, hdB.1⟩)
    refine Runs.bind (P := fun m' => m'.Total ∧ Holds m' C (fun i j => if j = c.MB then
        beta * f 0 c.MB + alpha * ∑ k ∈ range n, b 0 k * b 0 k else
        (m' (C.at' i j)).getD 0)) ?_ ?_
    · unfold symmDiag
      simp only [hAr, hAc, hBr, hBcc, if_true, Bool.false_eq_true, if_false]
      obtain ⟨v, hv⟩ := ht2.holds (c.A n n)
      refine Runs.bind (fillLow_spec hwA rfl rfl hAr hAc hv hA2 hdA.2) ?_
      rintro m3 ⟨hA3, hf3⟩
      have ht3 := ht2.next hA3 hf3
      obtain ⟨v', hv'⟩ := ht3.holds (c.B n 1)
      refine Runs.bind (cpBlkTrans_spec (D := c.B n 1) ab _ rfl rfl hwB (le_of_eq hBr.symm)
        (le_of_eq hBcc.symm) hv' (hB2.frame hf3 hdB.2) (hdB.1.mono_right hfB)) ?_
      rintro m4 ⟨hB4, hf4⟩
      have ht4 := ht3.next hB4 hf4
      obtain ⟨s, hs4⟩ := ht4.holds (c.A n n)
      have hC4 := (hC2.frame hf3 hdC.2).frame hf4 (hdC.1.mono_right hfB)
      refine (kernelInner_spec alpha hc.rb hw hC4 hB4 hs4 (by rw [hCr]; exact le_refl _)
        (by rw [hCc]; exact le_refl _) (le_refl _) (hdC.1.mono_right hfB).symm hdC.2.symm).mono ?_
      rintro m5 ⟨hC5, hf5⟩
      refine ⟨ht4.next hC5 hf5, ?_⟩
      intro i j hi hj
      dsimp only
      by_cases hjm : j = c.MB
      · rw [if_pos hjm, hC5 i j hi hj]
        subst hjm
        obtain rfl : i = 0 := by omega
        congr 1
        have : ∀ k ∈ range n, s k c.MB = b 0 k := by
          intro k hk
          rw [mem_range] at hk
          have q1 := hs4 k c.MB hk (show c.MB < n by omega)
          have q2 := hB4 k 0 hk (show 0 < 1 by omega)
          have q3 : (c.A n n).at' k c.MB = (c.B n 1).at' k 0 := by
            simp only [View.at', Cache.A, Cache.B, hs, hBc]; ring
          rw [q3, q2] at q1
          dsimp only at q1
          rw [Flags.elt_id rfl rfl] at q1
          exact (Option.some.inj q1).symm
        have hsum : ∑ k ∈ range n, b 0 k * s k c.MB = ∑ k ∈ range n, b 0 k * b 0 k :=
          Finset.sum_congr rfl (fun k hk => by rw [this k hk])
        rw [← hsum, show (c.B n 1).rows = n from rfl]
        simp [Flags.elt]
      · rw [if_neg hjm]
        obtain ⟨x, hx⟩ := (ht4.next hC5 hf5) (C.at' i j)
        rw [hx]
        rfl
    rintro m6 ⟨ht6, hC6⟩
    obtain ⟨x6, hx6⟩ := ht6.holds (B.sub 0 n 1 0)
    obtain ⟨y6, hy6⟩ := ht6.holds (A.sub 0 n n 0)
    refine (multKernelNc_spec ab _ alpha hw (hc.total ht6) hrb hx6 hy6 hC6
      (emp (Or.inr rfl)) (emp (Or.inr rfl)) hdC.1 (emp (Or.inr rfl)) (emp (Or.inr rfl))
      (by simp [hCr]) (by simp [hCc]) (by simp)).mono ?_
    rintro m7 ⟨hC7, -, -⟩
    rw [hC7 0 c.MB (by omega) (by omega)]
    simp
  refine Runs.bind (P := fun p => p.2 (C.at' 0 c.MB) =
    some (beta * f 0 c.MB + alpha * ∑ k ∈ range n, b 0 k * b 0 k)) ?_ (fun p hp => Runs.pure hp)
  refine Runs.bind (P := fun m' => m' (C.at' 0 c.MB) =
    some (beta * f 0 c.MB + alpha * ∑ k ∈ range n, b 0 k * b 0 k)) ?_ (fun m' h => ?_)
  · refine Runs.bind (P := fun p => p.2 (C.at' 0 c.MB) =
      some (beta * f 0 c.MB + alpha * ∑ k ∈ range n, b 0 k * b 0 k)) ?_ (fun p hp => Runs.pure hp)
    refine Runs.bind main (fun m' h => ?_)
    rw [forUp_eq, if_neg (by omega)]
    exact Runs.ok h
  · rw [forUp_eq, if_neg (by omega)]
    exact Runs.ok h

end

end Armas
