import Verif.Syr2k
import Verif.UpdtrmLemmas
import Verif.SymvLemmas
import Verif.TrxmNever

/-! # Specification of the symmetric rank-2k update -/

namespace Armas

open Finset Classical

variable {α : Type} [CommRing α] [DecidableEq α]

/-- The flags given to the kernels, with the triangle. -/
def kfl (fl : Flags) : Flags := { upper := fl.upper, transA := fl.transA, transB := !fl.transA }

theorem colsOf_kfl (fl : Flags) (B : View) (q n : Nat) : colsOf (kfl fl) B q n = rowsOf fl B q n := by
  unfold colsOf rowsOf kfl
  cases fl.transA <;> rfl

/-- The value that an element gets. -/
def syr2kVal (beta alpha : α) (K : Nat) (f x y : Nat → Nat → α) (i j : Nat) : α :=
  beta * f i j + alpha * (∑ k ∈ range K, x i k * y j k) + alpha * ∑ k ∈ range K, y i k * x j k

theorem syr2kVal_eq (beta alpha : α) (K : Nat) (f x y : Nat → Nat → α) (i j : Nat) :
    syr2kVal beta alpha K f x y i j =
      updVal 1 alpha K (updVal beta alpha K f x (fun k j => y j k)) y (fun k j => x j k) i j := by
  simp [syr2kVal, updVal]

/-- Both operands with the result. -/
structure Syr2Pre (c : Cache) (m : Mem α) (C X Y : View) (fl : Flags) (n K : Nat) (x y : Nat → Nat → α) :
    Prop where
  h1 : UpdPre c m C X Y (kfl fl) n n K x (fun k j => y j k)
  h2 : UpdPre c m C Y X (kfl fl) n n K y (fun k j => x j k)

variable {c : Cache} {m : Mem α} {C X Y : View} {fl : Flags} {n K : Nat} {x y f : Nat → Nat → α}

theorem Syr2Pre.next {m' : Mem α} (H : Syr2Pre c m C X Y fl n K x y)
    (hf : Frame (C.footOn (InTri fl.upper false) ∪ c.foot) m m') : Syr2Pre c m' C X Y fl n K x y :=
  ⟨H.h1.next hf, H.h2.next hf⟩

theorem Syr2Pre.diag (H : Syr2Pre c m C X Y fl n K x y) {p t : Nat} (hp : p + t ≤ n) :
    Syr2Pre c m (C.sub p p t t) (rowsOf fl X p t) (rowsOf fl Y p t) fl t K
      (fun i k => x (p + i) k) (fun i k => y (p + i) k) := by
  have h1 := H.h1.diag (p := p) (n := t) hp hp
  have h2 := H.h2.diag (p := p) (n := t) hp hp
  rw [colsOf_kfl] at h1 h2
  exact ⟨h1, h2⟩

theorem Syr2Pre.nX (H : Syr2Pre c m C X Y fl n K x y) : nRows fl X = n := H.h1.nRows_eq
theorem Syr2Pre.nY (H : Syr2Pre c m C X Y fl n K x y) : nRows fl Y = n := H.h2.nRows_eq

/-- One product of the off-diagonal vector. -/
theorem syr2kVec1_spec (ab : α → α) {env : Env} (hmin : env.blas2min ≠ 1) {fuel : Nat} {V : View}
    (beta alpha : α) {g : Nat → α} {i : Nat} (H : Syr2Pre c m C X Y fl n K x y) (hi : i < n)
    (h0 : i ≠ 0) (hf : n < fuel)
    (hV : V.isVec) (hw : V.WF) (hs : V.size = i) (hsub : V.foot ⊆ C.footOn (InTri fl.upper false))
    (hg : HoldsV m V g) :
    Runs (mvmultUnsafe ab env fuel m beta V alpha (rowsOf fl Y 0 i) (rowsOf fl X i 1)
        { transA := fl.transA })
      (fun m' => HoldsV m' V (fun r => beta * g r + alpha * ∑ k ∈ range K, y r k * x i k) ∧
        Frame V.foot m m') := by
  have d : (rowsOf fl Y 0 i).rows = (if fl.transA then K else i) ∧
    (rowsOf fl Y 0 i).cols = if fl.transA then i else K := H.h2.rowsDim 0 i
  have hr : HoldsV m (rowsOf fl X i 1) (fun k => x i k) ∧ (rowsOf fl X i 1).isVec ∧
      (rowsOf fl X i 1).size = K := H.h1.rowV hi
  have hK := H.h1.hK
  have hA : Holds m (rowsOf fl Y 0 i) (opM fl.transA (fun r k => y (0 + r) k)) :=
    H.h2.rowsHold (by omega)
  have fY : (rowsOf fl Y 0 i).foot ⊆ Y.foot := H.h2.rowsFoot (by omega)
  have fX : (rowsOf fl X i 1).foot ⊆ X.foot := H.h1.rowsFoot (by omega)
  refine (mvmultUnsafe_spec ab hmin beta alpha rfl (Or.inr ?_) (by omega) hV hw hr.2.1 ?_ ?_ hg
    hA hr.1 ((H.h2.dAC.mono_left fY).mono_right hsub) ((H.h1.dAC.mono_left fX).mono_right hsub)).mono ?_
  · unfold View.size; rw [d.1, d.2]
    cases fl.transA <;> simp <;> omega
  · unfold View.opRows; rw [d.1, d.2, hs]
    cases fl.transA <;> simp
  · rw [hr.2.2]; unfold View.opCols; rw [d.1, d.2]
    cases fl.transA <;> simp
  · rintro m2 ⟨g1, g2⟩
    rw [hr.2.2] at g1
    refine ⟨g1.congr (fun r _ => ?_), g2⟩
    congr 2
    refine Finset.sum_congr rfl (fun k _ => ?_)
    cases fl.transA <;> simp [opA, opM]

theorem Syr2Pre.swap (H : Syr2Pre c m C X Y fl n K x y) : Syr2Pre c m C Y X fl n K y x := ⟨H.h2, H.h1⟩

/-- The off-diagonal vector of a step. -/
theorem syr2kVec_spec (ab : α → α) {env : Env} (hmin : env.blas2min ≠ 1) {fuel : Nat} {V : View}
    (beta alpha : α) {g : Nat → α} {i : Nat} (H : Syr2Pre c m C X Y fl n K x y) (hi : i < n)
    (hf : n < fuel)
    (hV : V.isVec) (hw : V.WF) (hs : V.size = i) (hsub : V.foot ⊆ C.footOn (InTri fl.upper false))
    (hg : HoldsV m V g) :
    Runs (do
      let m ← mvmultUnsafe ab env fuel m beta V alpha (rowsOf fl Y 0 i) (rowsOf fl X i 1)
        { transA := fl.transA }
      mvmultUnsafe ab env fuel m 1 V alpha (rowsOf fl X 0 i) (rowsOf fl Y i 1)
        { transA := fl.transA })
      (fun m' => HoldsV m' V (fun r => beta * g r + alpha * (∑ k ∈ range K, y r k * x i k) +
          alpha * ∑ k ∈ range K, x r k * y i k) ∧
        Frame V.foot m m') := by
  by_cases h0 : i = 0
  · subst h0
    have e : ∀ Z, (rowsOf fl Z 0 0).size = 0 := by
      intro Z; unfold rowsOf View.size; cases fl.transA <;> simp
    unfold mvmultUnsafe
    rw [if_pos (e Y), Res.ok_bind, if_pos (e X)]
    exact Runs.pure ⟨fun k hk => by omega, Frame.refl _ _⟩
  · refine Runs.bind (syr2kVec1_spec ab hmin beta alpha H hi h0 hf hV hw hs hsub hg) ?_
    rintro m1 ⟨h1, h2⟩
    have H1 := H.next (h2.mono (hsub.trans Set.subset_union_left))
    refine (syr2kVec1_spec ab hmin 1 alpha H1.swap hi h0 hf hV hw hs hsub h1).mono ?_
    rintro m2 ⟨g1, g2⟩
    exact ⟨g1.congr (fun r _ => by ring), h2.trans g2⟩

theorem syr2kUnb_spec (ab : α → α) {env : Env} (hmin : env.blas2min ≠ 1) {fuel : Nat}
    (beta alpha : α) (H : Syr2Pre c m C X Y fl n K x y) (hc : c.Ready m)
    (hf : n + K < fuel) (hC : HoldsOn m C (InTri fl.upper false) f) :
    Runs (syr2kUnb ab env fuel m beta C alpha X Y fl)
      (UpdDone c m C fl (syr2kVal beta alpha K f x y)) := by
  unfold syr2kUnb
  have hCr := H.h1.Cr
  have hCc := H.h1.Cc
  have hwf := H.h1.wf
  have dC : Disjoint (C.footOn (InTri fl.upper false)) c.foot := H.h1.dC
  rw [hCr, hCc, min_self]
  refine Runs.bind (P := fun r => UpdC c m C (InTri fl.upper false) f (syr2kVal beta alpha K f x y)
    (fun i j => max i j < n) r.2)
    (Runs.forUp1 (fun t => UpdC c m C (InTri fl.upper false) f (syr2kVal beta alpha K f x y)
      (fun i j => max i j < t)) (Nat.zero_le _)
      ((UpdC.init hC hc _).congr (fun i j _ _ _ => by simp)) ?_ (fun _ h => h)) ?_
  · intro i m1 _ hi h
    have H1 := H.next h.frame
    have hx : HoldsV m1 (rowsOf fl X i 1) (fun k => x i k) ∧ (rowsOf fl X i 1).isVec ∧
      (rowsOf fl X i 1).size = K := H1.h1.rowV hi
    have hy : HoldsV m1 (rowsOf fl Y i 1) (fun k => y i k) ∧ (rowsOf fl Y i 1).isVec ∧
      (rowsOf fl Y i 1).size = K := H1.h2.rowV hi
    rw [adotUnsafe_spec _ _ hx.2.1 hy.2.1 (by rw [hx.2.2, hy.2.2]) (by rw [hy.2.2]; omega) hx.1 hy.1,
      Res.ok_bind, hy.2.2]
    have tii : InTri fl.upper false i i := by unfold InTri; cases fl.upper <;> simp
    have e := h.hold i i (by omega) (by omega) tii
    dsimp only at e
    rw [if_neg (by omega)] at e
    refine Runs.rd_bind e (Runs.wr_bind e ?_)
    set v : α := 0 + (∑ k ∈ range K, x i k * y i k) * ((1 + 1) * alpha) + f i i * beta with hv
    have fr : Frame ((C.sub i i 1 1).footOn (fun _ _ => True)) m1 (m1.set (C.at' i i) v) := by
      intro p hp
      have : p ≠ C.at' i i := fun e => hp ⟨0, 0, by simp, by simp, trivial, by
        rw [View.at_sub, e]; rfl⟩
      simp [Mem.set, this]
    have cs : (C.sub i i 1 1).footOn (fun _ _ => True) ⊆ C.footOn (InTri fl.upper false) :=
      View.footOn_sub (by omega) (by omega) (fun a b ha hb _ => by
        have : a = 0 := by omega
        have : b = 0 := by omega
        subst a; subst b; exact tii)
    have h2 := (h.absorb hwf dC (T' := fun _ _ => True) (r := i) (q := i) (nr := 1) (nc := 1)
      (m' := m1.set (C.at' i i) v) (by omega) (by omega) (by
        intro a b ha hb
        have : a = 0 := by omega
        have : b = 0 := by omega
        subst a; subst b; simpa using tii)
      (by
        intro a b ha hb _
        rw [View.sub_rows] at ha; rw [View.sub_cols] at hb
        have : a = 0 := by omega
        have : b = 0 := by omega
        subst a; subst b
        rw [View.at_sub]
        simp only [Nat.add_zero, Mem.set, if_true, syr2kVal]
        rw [hv]
        have : ∑ k ∈ range K, y i k * x i k = ∑ k ∈ range K, x i k * y i k :=
          Finset.sum_congr rfl (fun _ _ => mul_comm _ _)
        rw [this]
        congr 1; ring)
      (fr.mono Set.subset_union_left)
      (h.ready.frame fr (dC.symm.mono_right cs)))
    have H2 := H.next h2.frame
    generalize m1.set (C.at' i i) v = m2 at h2 H2 
    cases hu : fl.upper with
    | true =>
      rw [if_pos rfl]
      rw [hu] at h2
      have hq := h2.sub_old (T' := fun _ _ => True) (r := 0) (q := i) (nr := i) (nc := 1)
        (by omega) (by omega) (fun a b _ _ _ => by simp [InTri]; omega)
        (fun a b _ _ _ => by omega)
      have hs : (C.sub 0 i i 1).foot ⊆ C.footOn (InTri fl.upper false) :=
        View.foot_sub_footOn (by omega) (by omega)
          (fun a b _ _ => by rw [hu]; simp [InTri]; omega)
      refine (syr2kVec_spec ab hmin beta alpha H2 hi (by omega) (Or.inr rfl)
        (hwf.sub (by omega) (by omega)) (by simp [View.size]) hs (holdsV_col hq.toHolds rfl)).mono ?_
      rintro m3 ⟨g1, g2⟩
      refine (h2.absorb hwf (hu ▸ dC) (T' := fun _ _ => True) (m' := m3) (r := 0) (q := i) (nr := i)
          (nc := 1) (by omega) (by omega) ?_ ?_ ?_ ?_).congr ?_
      · intro a b _ _; simp [InTri]; omega
      · refine (holdsOn_vec g1 (Or.inr rfl)).congr ?_
        intro a b ha hb _
        rw [View.sub_cols] at hb
        have : b = 0 := by omega
        subst this
        simp only [syr2kVal, Nat.zero_add, Nat.add_zero]
        ring
      · rw [View.footOn_true]; exact g2.mono Set.subset_union_left
      · exact h2.ready.frame g2 (dC.symm.mono_right hs)
      · intro a b ha hb ht
        simp [InTri] at ht; omega
    | false =>
      rw [if_neg (by simp)]
      rw [hu] at h2
      have hq := h2.sub_old (T' := fun _ _ => True) (r := i) (q := 0) (nr := 1) (nc := i)
        (by omega) (by omega) (fun a b _ _ _ => by simp [InTri]; omega)
        (fun a b _ _ _ => by omega)
      have hs : (C.sub i 0 1 i).foot ⊆ C.footOn (InTri fl.upper false) :=
        View.foot_sub_footOn (by omega) (by omega)
          (fun a b _ _ => by rw [hu]; simp [InTri]; omega)
      refine (syr2kVec_spec ab hmin beta alpha H2 hi (by omega) (Or.inl rfl)
        (hwf.sub (by omega) (by omega)) (by simp [View.size]) hs (holdsV_row hq.toHolds rfl)).mono ?_
      rintro m3 ⟨g1, g2⟩
      refine (h2.absorb hwf (hu ▸ dC) (T' := fun _ _ => True) (m' := m3) (r := i) (q := 0) (nr := 1)
          (nc := i) (by omega) (by omega) ?_ ?_ ?_ ?_).congr ?_
      · intro a b _ _; simp [InTri]; omega
      · refine (holdsOn_vec g1 (Or.inl rfl)).congr ?_
        intro a b ha hb _
        rw [View.sub_rows] at ha
        have : a = 0 := by omega
        subst this
        simp only [syr2kVal, Nat.zero_add, Nat.add_zero]
        have e1 : ∑ k ∈ range K, y b k * x i k = ∑ k ∈ range K, x i k * y b k :=
          Finset.sum_congr rfl (fun _ _ => mul_comm _ _)
        have e2 : ∑ k ∈ range K, x b k * y i k = ∑ k ∈ range K, y i k * x b k :=
          Finset.sum_congr rfl (fun _ _ => mul_comm _ _)
        rw [e1, e2]
      · rw [View.footOn_true]; exact g2.mono Set.subset_union_left
      · exact h2.ready.frame g2 (dC.symm.mono_right hs)
      · intro a b ha hb ht
        simp [InTri] at ht; omega
  · rintro ⟨t, m1⟩ h
    refine Runs.pure ⟨h.all ?_, h.frame, h.ready⟩
    intro i j hi hj ht
    omega

/-- The second product of a full block. -/
theorem updKernelNc_spec (ab : α → α) (alpha : α) {A B : View} {M N : Nat} (hrb : c.rb ≤ c.MB)
    (H : UpdPre c m C A B fl M N K x y)
    (hc : c.Ready m) {p q nr nc : Nat} (hp : p + nr ≤ M) (hq : q + nc ≤ N)
    (hT : ∀ i j, i < nr → j < nc → InTri fl.upper false (p + i) (q + j))
    (hC : HoldsOn m (C.sub p q nr nc) (fun _ _ => True) (fun i j => f (p + i) (q + j))) :
    Runs (multKernelNc ab m (C.sub p q nr nc) alpha (rowsOf fl A p nr) (colsOf fl B q nc) fl c)
      (fun m' => HoldsOn m' (C.sub p q nr nc) (fun _ _ => True)
          (fun i j => updVal 1 alpha K f x y (p + i) (q + j)) ∧
        Frame ((C.sub p q nr nc).footOn (fun _ _ => True) ∪ c.foot) m m' ∧ c.Ready m') := by
  have hs : (C.sub p q nr nc).foot ⊆ C.footOn (InTri fl.upper false) :=
    View.foot_sub_footOn (by rw [H.Cr]; exact hp) (by rw [H.Cc]; exact hq) hT
  have d1 := H.rowsDim p nr
  have d2 := H.colsDim q nc
  rw [View.footOn_true]
  refine (multKernelNc_spec ab fl alpha
    (H.wf.sub (by rw [H.Cr]; exact hp) (by rw [H.Cc]; exact hq)) hc hrb (H.rowsHold hp) (H.colsHold hq)
    hC.toHolds (H.dA.mono_left (H.rowsFoot hp)) (H.dB.mono_left (H.colsFoot hq)) (H.dC.mono_left hs)
    ((H.dAC.mono_left (H.rowsFoot hp)).mono_right hs)
    ((H.dBC.mono_left (H.colsFoot hq)).mono_right hs) ?_ ?_ ?_).mono ?_
  · rw [d1.1, d1.2, View.sub_rows]; cases fl.transA <;> rfl
  · rw [d2.1, d2.2, View.sub_cols]; cases fl.transB <;> rfl
  · rw [d1.1, d1.2, d2.1, d2.2]; cases fl.transA <;> cases fl.transB <;> rfl
  · rintro m' ⟨h1, h2, h3⟩
    refine ⟨HoldsOn.of_holds (h1.congr ?_), h2, h3⟩
    intro i j _ _
    rw [d1.1, d1.2, show (if fl.transA = true then if fl.transA = true then K else nr
      else if fl.transA = true then nr else K) = K by cases fl.transA <;> rfl]
    unfold updVal
    rw [one_mul]
    congr 2
    refine Finset.sum_congr rfl (fun k _ => ?_)
    rw [Flags.elt_id H.absA H.absB, Flags.elt_id H.absA H.absB]
    cases fl.transA <;> cases fl.transB <;> rfl

theorem multKernel_kfl (ab : α → α) (m : Mem α) (beta : α) (V : View) (alpha : α) (A B : View) (fl : Flags)
    (c : Cache) :
    multKernel ab m beta V alpha A B { transA := fl.transA, transB := !fl.transA } c =
      multKernel ab m beta V alpha A B (kfl fl) c := rfl

theorem multKernelNc_kfl (ab : α → α) (m : Mem α) (V : View) (alpha : α) (A B : View) (fl : Flags)
    (c : Cache) :
    multKernelNc ab m V alpha A B { transA := fl.transA, transB := !fl.transA } c =
      multKernelNc ab m V alpha A B (kfl fl) c := rfl

/-- Both products of an off-diagonal block. -/
theorem syr2kBlock_spec (ab : α → α) (beta alpha : α) (hrb : c.rb ≤ c.MB)
    (H : Syr2Pre c m C X Y fl n K x y) (hc : c.Ready m) {p q nr nc : Nat} (hp : p + nr ≤ n)
    (hq : q + nc ≤ n)
    (hT : ∀ i j, i < nr → j < nc → InTri fl.upper false (p + i) (q + j))
    (hC : HoldsOn m (C.sub p q nr nc) (fun _ _ => True) (fun i j => f (p + i) (q + j))) :
    Runs (do
        let m ← multKernel ab m beta (C.sub p q nr nc) alpha (rowsOf fl X p nr) (rowsOf fl Y q nc)
          { transA := fl.transA, transB := !fl.transA } c
        multKernelNc ab m (C.sub p q nr nc) alpha (rowsOf fl Y p nr) (rowsOf fl X q nc)
          { transA := fl.transA, transB := !fl.transA } c)
      (fun m' => HoldsOn m' (C.sub p q nr nc) (fun _ _ => True)
          (fun i j => syr2kVal beta alpha K f x y (p + i) (q + j)) ∧
        Frame ((C.sub p q nr nc).footOn (fun _ _ => True) ∪ c.foot) m m' ∧ c.Ready m') := by
  have hs : (C.sub p q nr nc).footOn (fun _ _ => True) ⊆ C.footOn (InTri fl.upper false) :=
    View.footOn_sub (by rw [H.h1.Cr]; exact hp) (by rw [H.h1.Cc]; exact hq)
      (fun i j hi hj _ => hT i j hi hj)
  have k1 := updKernel_spec ab beta alpha H.h1 hc hp hq hT hC
  rw [colsOf_kfl] at k1
  refine Runs.bind ((multKernel_kfl ab m beta _ alpha _ _ fl c).symm ▸ k1) ?_
  rintro m1 ⟨g1, g2, g3⟩
  have H1 := H.next (g2.mono (Set.union_subset_union_left _ hs))
  have k2 := updKernelNc_spec ab alpha hrb H1.h2 g3 hp hq hT g1
  rw [colsOf_kfl] at k2
  refine ((multKernelNc_kfl ab m1 _ alpha _ _ fl c).symm ▸ k2).mono ?_
  rintro m2 ⟨e1, e2, e3⟩
  exact ⟨e1.congr (fun i j _ _ _ => (syr2kVal_eq _ _ _ _ _ _ _ _).symm), g2.trans e2, e3⟩

theorem syr2kRec_spec (ab : α → α) {env : Env} (hmin : env.blas2min ≠ 1) {lb : Nat} (hlb : 2 ≤ lb)
    (beta alpha : α) {fl : Flags}
    {c : Cache} (hrb : c.rb ≤ c.MB) : ∀ {fuel : Nat} {m : Mem α} {C X Y : View} {n K : Nat}
      {x y f : Nat → Nat → α},
    Syr2Pre c m C X Y fl n K x y → c.Ready m → n + K + 1 < fuel →
    HoldsOn m C (InTri fl.upper false) f →
    Runs (syr2kRec ab env lb c beta alpha fl fuel m C X Y)
      (UpdDone c m C fl (syr2kVal beta alpha K f x y)) := by
  intro fuel
  induction fuel with
  | zero => intro m C X Y n K x y f _ _ h; omega
  | succ fuel ih =>
    intro m C X Y n K x y f H hc hf hC
    unfold syr2kRec
    have hCr := H.h1.Cr
    have hCc := H.h1.Cc
    have hwf := H.h1.wf
    have dC : Disjoint (C.footOn (InTri fl.upper false)) c.foot := H.h1.dC
    rw [hCr, hCc, H.nX, H.nY]
    by_cases h0 : n < lb
    · rw [if_pos h0]
      exact syr2kUnb_spec ab hmin beta alpha H hc (by omega) hC
    rw [if_neg h0]
    dsimp only
    set q := n / 2 with hq
    -- diagonal blocks
    have D : ∀ (m1 : Mem α) (p t : Nat) (S : Nat → Nat → Prop), p + t ≤ n → t < n →
        UpdC c m C (InTri fl.upper false) f (syr2kVal beta alpha K f x y) S m1 →
        (∀ i j, i < t → j < t → ¬ S (p + i) (p + j)) →
        Runs (syr2kRec ab env lb c beta alpha fl fuel m1 (C.sub p p t t) (rowsOf fl X p t)
            (rowsOf fl Y p t))
          (fun m2 => UpdC c m C (InTri fl.upper false) f (syr2kVal beta alpha K f x y)
            (fun i j => S i j ∨ (p ≤ i ∧ i < p + t ∧ p ≤ j ∧ j < p + t)) m2) := by
      intro m1 p t S hp ht h hS
      have H1 := (H.next h.frame).diag (p := p) (t := t) (by omega)
      have hold := h.sub_old (T' := InTri fl.upper false) (r := p) (q := p) (nr := t) (nc := t)
        (by omega) (by omega) (fun a b _ _ ht => (inTri_shift _ _ _ _ _).mpr ht)
        (fun a b ha hb _ => hS a b ha hb)
      refine (ih H1 h.ready (by omega) hold).mono ?_
      rintro m2 ⟨g1, g2, g3⟩
      exact h.absorb hwf dC (by omega) (by omega)
          (fun a b _ _ => (inTri_shift _ _ _ _ _).symm) g1 g2 g3
    refine Runs.bind (P := UpdC c m C (InTri fl.upper false) f (syr2kVal beta alpha K f x y)
      (fun i j => i < q ∧ j < q)) ((D m 0 q _ (by omega) (by omega)
        (UpdC.init hC hc _) (fun _ _ _ _ => by omega)).mono
        (fun m2 h => h.congr (fun i j _ _ _ => by omega))) ?_
    intro m1 h1
    refine Runs.bind (P := UpdC c m C (InTri fl.upper false) f (syr2kVal beta alpha K f x y)
      (fun i j => i < q ∨ j < q)) ?_ ?_
    · cases hu : fl.upper with
      | true =>
        rw [hu] at h1
        rw [if_pos rfl]
        have hT : ∀ i j, i < q → j < n - q → InTri fl.upper false (0 + i) (q + j) := by
          intro i j _ _; rw [hu]; simp [InTri]; omega
        have hold := h1.sub_old (T' := fun _ _ => True) (r := 0) (q := q) (nr := q) (nc := n - q)
          (by omega) (by omega) (fun a b ha hb _ => hu ▸ hT a b ha hb)
          (fun a b _ _ _ => by omega)
        refine (syr2kBlock_spec ab beta alpha hrb (H.next (hu ▸ h1.frame)) h1.ready (by omega) (by omega)
          hT hold).mono ?_
        rintro m2 ⟨g1, g2, g3⟩
        refine (h1.absorb hwf (hu ▸ dC) (by omega) (by omega)
          (fun a b ha hb => by simp only [true_iff]; exact hu ▸ hT a b ha hb) g1 g2 g3).congr ?_
        intro i j _ _ ht
        simp [InTri] at ht
        omega
      | false =>
        rw [hu] at h1
        rw [if_neg (by simp)]
        have hT : ∀ i j, i < n - q → j < q → InTri fl.upper false (q + i) (0 + j) := by
          intro i j _ _; rw [hu]; simp [InTri]; omega
        have hold := h1.sub_old (T' := fun _ _ => True) (r := q) (q := 0) (nr := n - q) (nc := q)
          (by omega) (by omega) (fun a b ha hb _ => hu ▸ hT a b ha hb)
          (fun a b _ _ _ => by omega)
        refine (syr2kBlock_spec ab beta alpha hrb (H.next (hu ▸ h1.frame)) h1.ready (by omega) (by omega)
          hT hold).mono ?_
        rintro m2 ⟨g1, g2, g3⟩
        refine (h1.absorb hwf (hu ▸ dC) (by omega) (by omega)
          (fun a b ha hb => by simp only [true_iff]; exact hu ▸ hT a b ha hb) g1 g2 g3).congr ?_
        intro i j _ _ ht
        simp [InTri] at ht
        omega
    intro m2 h2
    refine (D m2 q (n - q) _ (by omega) (by omega) h2 (fun _ _ _ _ => by omega)).mono ?_
    intro m3 h3
    exact ⟨h3.all (fun i j _ _ _ => by omega), h3.frame, h3.ready⟩

/-- With block size zero or one the recursion does not end. -/
theorem syr2kRec_never (ab : α → α) {env : Env} {lb : Nat} (hlb : lb ≤ 1) (beta alpha : α) {fl : Flags}
    {c : Cache} : ∀ (fuel : Nat) (m : Mem α) (C X Y : View), 0 < C.rows →
    ∀ r, syr2kRec ab env lb c beta alpha fl fuel m C X Y ≠ .ok r := by
  intro fuel
  induction fuel with
  | zero => intro m C X Y _ r h; cases h
  | succ fuel ih =>
    intro m C X Y h0 r
    unfold syr2kRec
    rw [if_neg (by omega)]
    dsimp only
    have key : ∀ {β : Type} (x : Res β) (k : β → Res (Mem α)), (∀ b r, k b ≠ .ok r) →
        ∀ r, (x >>= k) ≠ .ok r := by
      intro β x k hk r
      cases x with
      | ok b => exact hk b r
      | ub => intro h; cases h
      | diverge => intro h; cases h
    refine key _ _ (fun m1 => ?_) r
    intro r
    refine key _ _ (fun m2 r => ?_) r
    exact ih _ _ _ _ (by rw [View.sub_rows]; omega) r

end Armas
