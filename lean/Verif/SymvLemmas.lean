import Verif.TrsvLemmas

/-!
# Specifications of the symmetric product and of the triangular updates

Helper lemmas about `src/blas/{symv,syr2,updtrmv}.c`.
-/

namespace Armas

open Finset

variable {α : Type} [CommRing α]

theorem adotUnsafe_spec {blas1min fuel : Nat} {m : Mem α} {X Y : View} {x y : Nat → α} (v alpha : α)
    (hX : X.isVec) (hY : Y.isVec) (hs : X.size = Y.size) (hf : Y.size < fuel)
    (hx : HoldsV m X x) (hy : HoldsV m Y y) :
    adotUnsafe fuel m blas1min v alpha X Y
      = .ok (v + (∑ k ∈ range Y.size, x k * y k) * alpha) := by
  unfold adotUnsafe
  by_cases h0 : blas1min = 0
  · rw [if_pos h0, vecDot_spec (by omega) (le_refl _) hx hy]
    simp
  · rw [if_neg h0, vecDotRec_spec (by omega) fuel Y.size hf hY hX (le_refl _) (by omega) hy hx]
    simp only [Res.ok_bind, Res.pure_eq]
    congr 3
    exact Finset.sum_congr rfl (fun _ _ => mul_comm _ _)

/-- Partial sums of the symmetric product. -/
def symvPart (alpha : α) (up : Bool) (a : Nat → Nat → α) (y x : Nat → α) (n j k : Nat) : α :=
  y k + alpha * ∑ l ∈ range (if k < j then n else j), symm up a k l * x l

theorem symvUnb_spec {env : Env} {fuel : Nat} {m : Mem α} {Y A X : View} {y x : Nat → α}
    {a : Nat → Nat → α} (alpha : α) {fl : Flags} (hfl : fl.lower = !fl.upper)
    (hv : Y.isVec) (hw : Y.WF) (hXv : X.isVec) (hr : A.rows = Y.size) (hc : A.cols = Y.size)
    (hX : X.size = Y.size) (hf : Y.size < fuel)
    (hy : HoldsV m Y y) (hx : HoldsV m X x) (hA : HoldsOn m A (InTri fl.upper false) a)
    (hdA : Disjoint (A.footOn (InTri fl.upper false)) Y.foot) (hdX : Disjoint X.foot Y.foot) :
    Runs (symvUnb env fuel m Y alpha A X fl) (fun m' =>
      HoldsV m' Y (fun i => y i + alpha * ∑ j ∈ range Y.size, symm fl.upper a i j * x j) ∧
        Frame Y.foot m m') := by
  unfold symvUnb
  refine Runs.bind (Runs.forUp1 (fun j m' => HoldsV m' Y (symvPart alpha fl.upper a y x Y.size j) ∧
      Frame Y.foot m m') (Nat.zero_le _) ⟨hy.congr (by simp [symvPart]), Frame.refl _ _⟩ ?_
    (Q := fun p => HoldsV p.2 Y (symvPart alpha fl.upper a y x Y.size Y.size) ∧ Frame Y.foot m p.2)
    (fun m' h => hc ▸ h)) ?_
  · rintro j m' - hj ⟨h, hfr⟩
    have hA' := hA.frame hfr hdA
    have hx' := hx.frame hXv hfr hdX
    refine Runs.rd_bind (h j (by omega)) ?_
    refine Runs.rd_bind (hx' j (by omega)) ?_
    refine Runs.rd_bind (hA' j j (by omega) (by omega) (by unfold InTri; cases fl.upper <;> simp)) ?_
    obtain ⟨a01, ha01⟩ : ∃ V, V = if fl.lower then A.sub (j + 1) j (A.rows - j - 1) 1
      else A.sub j (j + 1) 1 (A.cols - j - 1) := ⟨_, rfl⟩
    rw [← ha01]
    have hsz : a01.size = Y.size - j - 1 := by
      rw [ha01]; split
      · rw [View.sub_col_size, hr]
      · rw [View.sub_row_size, hc]
    have hvec : a01.isVec := by
      rw [ha01]; split
      · exact Or.inr rfl
      · exact Or.inl rfl
    have hfoot : a01.foot ⊆ A.footOn (InTri fl.upper false) := by
      rw [ha01]; split
      · refine View.foot_sub_footOn (by omega) (by omega) (fun i k hi hk => ?_)
        unfold InTri; rename_i hl; rw [hl] at hfl
        cases hu : fl.upper <;> simp [hu] at hfl ⊢; omega
      · refine View.foot_sub_footOn (by omega) (by omega) (fun i k hi hk => ?_)
        unfold InTri; rename_i hl
        cases hu : fl.upper <;> simp [hu] at hfl ⊢
        · exact absurd hfl hl
        · omega
    have hold : ∀ {m''}, HoldsOn m'' A (InTri fl.upper false) a →
        HoldsV m'' a01 (fun k => symm fl.upper a j (j + 1 + k)) := by
      intro m'' hh
      rw [ha01]; split
      · rename_i hl
        have hu : fl.upper = false := by
          rw [hl] at hfl; cases hu : fl.upper <;> simp [hu] at hfl ⊢
        refine (hh.col (by omega) (by omega) (fun i hi => ?_)).congr (fun k _ => ?_)
        · unfold InTri; rw [hu]; simp; omega
        · unfold symm; rw [hu]; simp; intro; omega
      · rename_i hl
        have hu : fl.upper = true := by
          cases hu : fl.upper <;> simp [hu] at hfl ⊢
          exact absurd hfl hl
        refine (hh.row (by omega) (by omega) (fun i hi => ?_)).congr (fun k _ => ?_)
        · unfold InTri; rw [hu]; simp; omega
        · unfold symm; rw [hu]; simp; intro; omega
    rw [hr]
    rw [adotUnsafe_spec _ _ (View.subvec_isVec _ _ _) hvec (by rw [View.subvec_size, hsz])
      (by rw [hsz]; omega) (hx'.subvec hXv (by omega)) (hold hA')]
    simp only [Res.ok_bind]
    refine Runs.wr_bind (h j (by omega)) ?_
    have hw1 := h.write hv hw (k := j) (by omega) (symvPart alpha fl.upper a y x Y.size j j
      + alpha * x j * a j j + (∑ k ∈ range a01.size, x (j + 1 + k) * symm fl.upper a j (j + 1 + k)) * alpha)
    have hf1 : Frame Y.foot m (m'.set (Y.vat j) _) :=
      hfr.trans (Frame.set (View.vat_mem_foot hv (show j < Y.size by omega)) (symvPart alpha fl.upper a y x Y.size j j
      + alpha * x j * a j j + (∑ k ∈ range a01.size, x (j + 1 + k) * symm fl.upper a j (j + 1 + k)) * alpha))
    have hsub : (Y.subvec (j + 1) (Y.size - j - 1)).foot ⊆ Y.foot := View.subvec_foot hv (by omega)
    refine (axpbyUnsafe_spec 1 (alpha * x j) hvec (View.subvec_isVec _ _ _)
      (hw.subvec hv (by omega)) (by rw [View.subvec_size, hsz]) (hold (hA.frame hf1 hdA))
      (hw1.subvec hv (by omega)) (hdA.mono hfoot hsub)).mono ?_
    rintro m2 ⟨h2, r2⟩
    refine ⟨(hw1.patch hv hw (by omega) h2 r2).congr (fun k hk => ?_), hf1.trans (r2.mono hsub)⟩
    have hsym : ∀ k, symm fl.upper a j k = symm fl.upper a k j := by
      intro k; unfold symm; cases fl.upper <;> simp <;> split <;> split <;>
        first | rfl | (have : j = k := by omega
                       rw [this]) | omega
    by_cases e1 : j + 1 ≤ k ∧ k < j + 1 + (Y.size - j - 1)
    · rw [if_pos e1, if_neg (by omega), show j + 1 + (k - (j + 1)) = k by omega]
      unfold symvPart
      rw [if_neg (by omega), if_neg (by omega), Finset.sum_range_succ, hsym k]; ring
    · rw [if_neg e1]
      by_cases e2 : k = j
      · subst e2
        unfold symvPart
        rw [if_pos rfl, if_neg (by omega), if_pos (by omega), hsz]
        rw [sum_split (n := Y.size) _ (show k + 1 ≤ Y.size by omega), Finset.sum_range_succ]
        rw [show Y.size - (k + 1) = Y.size - k - 1 by omega]
        have : symm fl.upper a k k = a k k := by unfold symm; simp
        rw [this, Finset.sum_congr (s₁ := range (Y.size - k - 1)) rfl
          (fun l _ => mul_comm (x (k + 1 + l)) _)]
        ring
      · rw [if_neg e2]
        unfold symvPart
        rw [if_pos (by omega), if_pos (by omega)]
  · rintro ⟨_, m'⟩ ⟨h, hfr⟩
    refine Runs.pure ⟨h.congr (fun k hk => ?_), hfr⟩
    unfold symvPart; rw [if_pos hk]

theorem symvRec_spec [DecidableEq α] (ab : α → α) {env : Env} (hmin : 2 ≤ env.blas2min) (alpha : α)
    {fl : Flags} (hfl : fl.lower = !fl.upper) :
    ∀ (fuel : Nat) {m : Mem α} {Y A X : View} {y x : Nat → α} {a : Nat → Nat → α},
      Y.isVec → Y.WF → X.isVec → A.rows = Y.size → A.cols = Y.size → X.size = Y.size →
      Y.size + 1 < fuel → HoldsV m Y y → HoldsV m X x → HoldsOn m A (InTri fl.upper false) a →
      Disjoint (A.footOn (InTri fl.upper false)) Y.foot → Disjoint X.foot Y.foot →
      Runs (symvRec ab env alpha fl fuel m Y A X) (fun m' =>
        HoldsV m' Y (fun i => y i + alpha * ∑ j ∈ range Y.size, symm fl.upper a i j * x j) ∧
          Frame Y.foot m m') := by
  intro fuel
  induction fuel with
  | zero => intro m Y A X y x a _ _ _ _ _ _ h; omega
  | succ fuel ih =>
    intro m Y A X y x a hv hw hXv hr hc hX hf hy hx hA hdA hdX
    rw [symvRec]
    dsimp only
    by_cases c : Y.size < env.blas2min
    · rw [if_pos c]
      exact symvUnb_spec alpha hfl hv hw hXv hr hc hX (by omega) hy hx hA hdA hdX
    rw [if_neg c]
    obtain ⟨n1, hn1⟩ : ∃ n, n = Y.size / 2 := ⟨_, rfl⟩
    obtain ⟨n2, hn2⟩ : ∃ n, n = Y.size - n1 := ⟨_, rfl⟩
    have ey : vecPartTop Y (Y.size / 2) = (Y.subvec 0 n1, Y.subvec n1 n2) := by
      rw [vecPartTop_eq (by omega), ← hn1, ← hn2]
    have ex : vecPartTop X (Y.size / 2) = (X.subvec 0 n1, X.subvec n1 n2) := by
      rw [vecPartTop_eq (by omega), ← hn1, hX, ← hn2]
    simp only [ex, ey, partition2x2]
    simp only [hr, hc, ← hn1, ← hn2]
    have d12 : Disjoint (Y.subvec n1 n2).foot (Y.subvec 0 n1).foot :=
      View.subvec_disj hv hw (by omega) (by omega) (by omega)
    have f1 : (Y.subvec 0 n1).foot ⊆ Y.foot := View.subvec_foot hv (by omega)
    have f2 : (Y.subvec n1 n2).foot ⊆ Y.foot := View.subvec_foot hv (by omega)
    have part : ∀ (o l : Nat) {m' : Mem α} {z : Nat → α}, o + l ≤ Y.size → l + 1 < fuel → l ≤ Y.size →
        Frame Y.foot m m' → HoldsV m' (Y.subvec o l) z →
        Runs (symvRec ab env alpha fl fuel m' (Y.subvec o l) (A.sub o o l l) (X.subvec o l)) (fun m'' =>
          HoldsV m'' (Y.subvec o l) (fun i => z i + alpha * ∑ j ∈ range l,
            symm fl.upper a (o + i) (o + j) * x (o + j)) ∧ Frame (Y.subvec o l).foot m' m'') := by
      intro o l m' z ho hl _ hfr hz
      refine (ih (Y := Y.subvec o l) (A := A.sub o o l l) (X := X.subvec o l) (View.subvec_isVec _ _ _)
        (hw.subvec hv ho) (View.subvec_isVec _ _ _) (by simp [View.subvec_size])
        (by simp [View.subvec_size]) (by simp [View.subvec_size]) (by rw [View.subvec_size]; omega) hz
        ((hx.frame hXv hfr hdX).subvec hXv (by omega))
        ((hA.frame hfr hdA).sub (T := InTri fl.upper false) (by omega) (by omega)
          (fun i j _ _ h => by rwa [inTri_shift]))
        (hdA.mono (View.footOn_sub (by omega) (by omega) (fun i j _ _ h => by rwa [inTri_shift]))
          (View.subvec_foot hv ho))
        (hdX.mono (View.subvec_foot hXv (by omega)) (View.subvec_foot hv ho))).mono ?_
      rintro m'' ⟨h, r⟩
      refine ⟨h.congr (fun k _ => ?_), r⟩
      simp only [View.subvec_size, symm_shift]
    cases hup : fl.upper with
    | true =>
      have hin : ∀ i j, i < n1 → j < n2 → InTri fl.upper false (0 + i) (n1 + j) := by
        intro i j hi hj; unfold InTri; rw [hup]; simp; omega
      simp only [if_true]
      refine Runs.bind (part 0 n1 (by omega) (by omega) (by omega) (Frame.refl _ _)
        (hy.subvec hv (by omega))) ?_
      rintro m1 ⟨h1, r1⟩
      refine Runs.bind (mvmultUnsafe_spec ab (by omega) 1 alpha (fl := {}) rfl (Or.inl rfl)
        (Y := Y.subvec 0 n1) (X := X.subvec n1 n2) (A := A.sub 0 n1 n1 n2)
        (by rw [View.subvec_size]; omega) (View.subvec_isVec _ _ _)
        (hw.subvec hv (by omega)) (View.subvec_isVec _ _ _) (by simp [View.opRows, View.subvec_size])
        (by simp [View.opCols, View.subvec_size]) h1
        ((hA.frame (r1.mono f1) hdA).block (by omega) (by omega) hin)
        ((hx.frame hXv (r1.mono f1) hdX).subvec hXv (by omega))
        (hdA.mono (View.foot_sub_footOn (by omega) (by omega) hin) f1)
        (hdX.mono (View.subvec_foot hXv (by omega)) f1)) ?_
      rintro m2 ⟨h2, r2⟩
      have r12 := r1.trans r2
      have hy2 := (hy.subvec (n := n1) (len := n2) hv (by omega)).frame (View.subvec_isVec _ _ _) r12 d12
      refine Runs.bind (part n1 n2 (by omega) (by omega) (by omega) (r12.mono f1) hy2) ?_
      rintro m3 ⟨h3, r3⟩
      have r13 := (r12.mono f1).trans (r3.mono f2)
      refine (mvmultUnsafe_spec ab (by omega) 1 alpha (fl := {transA := true}) rfl (Or.inl rfl)
        (Y := Y.subvec n1 n2) (X := X.subvec 0 n1) (A := A.sub 0 n1 n1 n2)
        (by rw [View.subvec_size]; omega) (View.subvec_isVec _ _ _)
        (hw.subvec hv (by omega)) (View.subvec_isVec _ _ _) (by simp [View.opRows, View.subvec_size])
        (by simp [View.opCols, View.subvec_size]) h3
        ((hA.frame r13 hdA).block (by omega) (by omega) hin)
        ((hx.frame hXv r13 hdX).subvec hXv (by omega))
        (hdA.mono (View.foot_sub_footOn (by omega) (by omega) hin) f2)
        (hdX.mono (View.subvec_foot hXv (by omega)) f2)).mono ?_
      rintro m4 ⟨h4, r4⟩
      have h2' := (h2.frame (View.subvec_isVec _ _ _) r3 d12.symm).frame (View.subvec_isVec _ _ _) r4 d12.symm
      refine ⟨(HoldsV.join hv (by omega) h2' h4).congr (fun k hk => ?_), r13.trans (r4.mono f2)⟩
      rw [sum_split (n := Y.size) _ (show n1 ≤ Y.size by omega), ← hn2]
      simp only [View.subvec_size, Nat.zero_add, hup]
      by_cases hk1 : k < n1
      · rw [if_pos hk1]
        have : ∀ j, symm true a k (n1 + j) = opA false a k (n1 + j) := by
          intro j; unfold symm opA; simp; intro; omega
        simp only [this, opA, if_true, if_false, Bool.false_eq_true]
        ring
      · rw [if_neg hk1]
        have : ∀ j ∈ range n1, symm true a k j * x j = opA true a k j * x j := by
          intro j hj
          have := Finset.mem_range.mp hj
          congr 1
          unfold symm opA; simp; intro; omega
        rw [Finset.sum_congr rfl this]
        simp only [opA, if_true, if_false, Bool.false_eq_true, show n1 + (k - n1) = k by omega]
        ring
    | false =>
      have hin : ∀ i j, i < n2 → j < n1 → InTri fl.upper false (n1 + i) (0 + j) := by
        intro i j hi hj; unfold InTri; rw [hup]; simp; omega
      simp only [if_false, Bool.false_eq_true]
      refine Runs.bind (part 0 n1 (by omega) (by omega) (by omega) (Frame.refl _ _)
        (hy.subvec hv (by omega))) ?_
      rintro m1 ⟨h1, r1⟩
      refine Runs.bind (mvmultUnsafe_spec ab (by omega) 1 alpha (fl := {transA := true}) rfl (Or.inl rfl)
        (Y := Y.subvec 0 n1) (X := X.subvec n1 n2) (A := A.sub n1 0 n2 n1)
        (by rw [View.subvec_size]; omega) (View.subvec_isVec _ _ _)
        (hw.subvec hv (by omega)) (View.subvec_isVec _ _ _) (by simp [View.opRows, View.subvec_size])
        (by simp [View.opCols, View.subvec_size]) h1
        ((hA.frame (r1.mono f1) hdA).block (by omega) (by omega) hin)
        ((hx.frame hXv (r1.mono f1) hdX).subvec hXv (by omega))
        (hdA.mono (View.foot_sub_footOn (by omega) (by omega) hin) f1)
        (hdX.mono (View.subvec_foot hXv (by omega)) f1)) ?_
      rintro m2 ⟨h2, r2⟩
      have r12 := r1.trans r2
      have hy2 := (hy.subvec (n := n1) (len := n2) hv (by omega)).frame (View.subvec_isVec _ _ _) r12 d12
      refine Runs.bind (part n1 n2 (by omega) (by omega) (by omega) (r12.mono f1) hy2) ?_
      rintro m3 ⟨h3, r3⟩
      have r13 := (r12.mono f1).trans (r3.mono f2)
      refine (mvmultUnsafe_spec ab (by omega) 1 alpha (fl := {}) rfl (Or.inl rfl)
        (Y := Y.subvec n1 n2) (X := X.subvec 0 n1) (A := A.sub n1 0 n2 n1)
        (by rw [View.subvec_size]; omega) (View.subvec_isVec _ _ _)
        (hw.subvec hv (by omega)) (View.subvec_isVec _ _ _) (by simp [View.opRows, View.subvec_size])
        (by simp [View.opCols, View.subvec_size]) h3
        ((hA.frame r13 hdA).block (by omega) (by omega) hin)
        ((hx.frame hXv r13 hdX).subvec hXv (by omega))
        (hdA.mono (View.foot_sub_footOn (by omega) (by omega) hin) f2)
        (hdX.mono (View.subvec_foot hXv (by omega)) f2)).mono ?_
      rintro m4 ⟨h4, r4⟩
      have h2' := (h2.frame (View.subvec_isVec _ _ _) r3 d12.symm).frame (View.subvec_isVec _ _ _) r4 d12.symm
      refine ⟨(HoldsV.join hv (by omega) h2' h4).congr (fun k hk => ?_), r13.trans (r4.mono f2)⟩
      rw [sum_split (n := Y.size) _ (show n1 ≤ Y.size by omega), ← hn2]
      simp only [View.subvec_size, Nat.zero_add, hup]
      by_cases hk1 : k < n1
      · rw [if_pos hk1]
        have : ∀ j, symm false a k (n1 + j) = opA true a k (n1 + j) := by
          intro j; unfold symm opA; simp; intro; omega
        simp only [this, opA, if_true, if_false, Bool.false_eq_true]
        ring
      · rw [if_neg hk1]
        have : ∀ j ∈ range n1, symm false a k j * x j = opA false a k j * x j := by
          intro j hj
          have := Finset.mem_range.mp hj
          congr 1
          unfold symm opA; simp; intro; omega
        rw [Finset.sum_congr rfl this]
        simp only [opA, if_true, if_false, Bool.false_eq_true, show n1 + (k - n1) = k by omega]
        ring

open Classical in
/-- The row (column) part starting at the diagonal element `j`. -/
theorem axpby_row {m0 m : Mem α} {A X : View} {a g : Nat → Nat → α} {x : Nat → α}
    {T S : Nat → Nat → Prop} (beta alpha : α) (hw : A.WF) {r c n : Nat} (hr : r < A.rows)
    (hc : c + n ≤ A.cols) (h : UpdOn m0 A T a g S m) (hT : ∀ k, k < n → T r (c + k))
    (hX : X.isVec) (hs : X.size = n) (hx : HoldsV m X x) (hd : Disjoint X.foot (A.footOn T))
    {v : Nat → α} (hv : ∀ k, k < n → (if S r (c + k) then g r (c + k) else a r (c + k)) = v k)
    {Q : Mem α → Prop}
    (hQ : ∀ m', HoldsV m' (A.sub r c 1 n) (fun k => v k * beta + alpha * x k) →
      Frame (A.sub r c 1 n).foot m m' → Q m') :
    Runs (axpbyUnsafe m beta (A.sub r c 1 n) alpha X) Q := by
  refine (axpbyUnsafe_spec (y := v) beta alpha hX (Or.inl rfl) (hw.sub (by omega) hc)
    (by rw [View.sub_row_size]; omega) hx ?_ (hd.mono_right (View.foot_sub_footOn (by omega) hc ?_))).mono
    (fun m' h => hQ m' h.1 h.2)
  · refine (h.hold.row hr hc hT).congr (fun k hk => ?_)
    rw [View.sub_row_size] at hk
    exact hv k hk
  · intro i j hi hj
    have : i = 0 := by omega
    subst this; exact hT j hj

open Classical in
theorem axpby_col {m0 m : Mem α} {A X : View} {a g : Nat → Nat → α} {x : Nat → α}
    {T S : Nat → Nat → Prop} (beta alpha : α) (hw : A.WF) {r c n : Nat} (hr : r + n ≤ A.rows)
    (hc : c < A.cols) (h : UpdOn m0 A T a g S m) (hT : ∀ k, k < n → T (r + k) c)
    (hX : X.isVec) (hs : X.size = n) (hx : HoldsV m X x) (hd : Disjoint X.foot (A.footOn T))
    {v : Nat → α} (hv : ∀ k, k < n → (if S (r + k) c then g (r + k) c else a (r + k) c) = v k)
    {Q : Mem α → Prop}
    (hQ : ∀ m', HoldsV m' (A.sub r c n 1) (fun k => v k * beta + alpha * x k) →
      Frame (A.sub r c n 1).foot m m' → Q m') :
    Runs (axpbyUnsafe m beta (A.sub r c n 1) alpha X) Q := by
  refine (axpbyUnsafe_spec (y := v) beta alpha hX (Or.inr rfl) (hw.sub hr (by omega))
    (by rw [View.sub_col_size]; omega) hx ?_ (hd.mono_right (View.foot_sub_footOn hr (by omega) ?_))).mono
    (fun m' h => hQ m' h.1 h.2)
  · refine (h.hold.col hr hc hT).congr (fun k hk => ?_)
    rw [View.sub_col_size] at hk
    exact hv k hk
  · intro i j hi hj
    have : j = 0 := by omega
    subst this; exact hT i hi

omit [CommRing α] in
theorem holds_row_of {m : Mem α} {A : View} {r c n : Nat} {f : Nat → α} {g : Nat → Nat → α}
    (h : HoldsV m (A.sub r c 1 n) f) (e : ∀ k, k < n → f k = g r (c + k)) :
    Holds m (A.sub r c 1 n) (fun i j => g (r + i) (c + j)) := by
  rw [holdsV_iff (Or.inl rfl)] at h
  refine h.congr (fun i j hi hj => ?_)
  rw [View.sub_rows] at hi
  rw [View.sub_cols] at hj
  have : i = 0 := by omega
  subst this
  simpa using e j hj

omit [CommRing α] in
theorem holds_col_of {m : Mem α} {A : View} {r c n : Nat} {f : Nat → α} {g : Nat → Nat → α}
    (h : HoldsV m (A.sub r c n 1) f) (e : ∀ k, k < n → f k = g (r + k) c) :
    Holds m (A.sub r c n 1) (fun i j => g (r + i) (c + j)) := by
  rw [holdsV_iff (Or.inr rfl)] at h
  refine h.congr (fun i j hi hj => ?_)
  rw [View.sub_rows] at hi
  rw [View.sub_cols] at hj
  have : j = 0 := by omega
  subst this
  simpa using e i hi

/-- Element of the symmetric rank-2 update. -/
def syr2Val (beta alpha : α) (a : Nat → Nat → α) (x y : Nat → α) (i j : Nat) : α :=
  beta * a i j + alpha * (x i * y j + y i * x j)

theorem updtrmvUnb_spec {m : Mem α} {A X Y : View} {a : Nat → Nat → α} {x y : Nat → α}
    (beta alpha : α) {fl : Flags} (hfl : fl.lower = !fl.upper) (hw : A.WF) (hXv : X.isVec)
    (hYv : Y.isVec) (hX : X.size = A.rows) (hY : Y.size = A.cols)
    (hA : HoldsOn m A (InTri fl.upper false) a) (hx : HoldsV m X x) (hy : HoldsV m Y y)
    (hdX : Disjoint X.foot (A.footOn (InTri fl.upper false)))
    (hdY : Disjoint Y.foot (A.footOn (InTri fl.upper false))) :
    Runs (updtrmvUnb m beta A alpha X Y fl) (fun m' =>
      HoldsOn m' A (InTri fl.upper false) (gerVal beta alpha a x y) ∧
        Frame (A.footOn (InTri fl.upper false)) m m') := by
  unfold updtrmvUnb
  obtain ⟨g, hg⟩ : ∃ g, g = gerVal beta alpha a x y := ⟨_, rfl⟩
  rw [← hg]
  cases hup : fl.upper with
  | true =>
    rw [hup] at hA hdX hdY
    rw [if_pos (by simp [hfl, hup])]
    refine Runs.bind (Runs.forUp1 (fun i m' => UpdOn m A (InTri true false) a g (fun k _ => k < i) m')
      (Nat.zero_le _) (UpdOn.init hA g) ?_
      (Q := fun p => HoldsOn p.2 A (InTri true false) g ∧ Frame (A.footOn (InTri true false)) m p.2)
      (fun m' h => ⟨h.all (fun i j hi _ _ => hi), h.frame⟩)) (fun p hp => Runs.pure hp)
    intro j m' _ hj h
    refine Runs.rd_bind (h.other hx hXv hdX j (by omega)) ?_
    by_cases hjc : j < A.cols
    · refine axpby_row (v := fun k => a j (j + k)) beta (alpha * x j) hw hj (by omega) h
        (by intro k hk; unfold InTri; simp)
        (View.subvec_isVec _ _ _) (View.subvec_size _ _ _)
        ((h.other hy hYv hdY).subvec hYv (by omega))
        (hdY.mono_left (View.subvec_foot hYv (by omega))) (by intro k hk; simp) ?_
      intro m'' h1 r1
      refine (h.block hw (by omega) (by omega) ?_ (holds_row_of h1 ?_) r1).congr ?_
      · intro i k hi hk; unfold InTri; simp; omega
      · intro k hk; subst hg; unfold gerVal; ring
      · intro i k hi hk ht; unfold InTri at ht; simp at ht; omega
    · have e : A.cols - j = 0 := by omega
      rw [e]
      refine (axpbyUnsafe_spec (x := y) (y := y) beta (alpha * x j) (View.subvec_isVec _ _ _) (Or.inl rfl)
        (Or.inr (by simp)) (by rw [View.sub_row_size]; omega) ?_ ?_ ?_).mono ?_
      · intro k hk; rw [View.subvec_size] at hk; omega
      · intro k hk; rw [View.sub_row_size] at hk; omega
      · refine Set.disjoint_left.mpr ?_
        rintro p - ⟨i, k, hi, hk, -⟩; simp at hk
      · rintro m'' ⟨-, r1⟩
        have em : m'' = m' := by
          funext p; refine r1 p ?_
          rintro ⟨i, k, hi, hk, -⟩; simp at hk
        subst em
        refine h.congr (fun i k hi hk ht => ?_)
        unfold InTri at ht; simp at ht; omega
  | false =>
    rw [hup] at hA hdX hdY
    rw [if_neg (by simp [hup])]
    refine Runs.bind (Runs.forUp1 (fun i m' => UpdOn m A (InTri false false) a g (fun _ k => k < i) m')
      (Nat.zero_le _) ((UpdOn.init hA g).congr (by simp)) ?_
      (Q := fun p => HoldsOn p.2 A (InTri false false) g ∧ Frame (A.footOn (InTri false false)) m p.2)
      (fun m' h => ⟨h.all (fun i j _ hj _ => hj), h.frame⟩)) (fun p hp => Runs.pure hp)
    intro j m' _ hj h
    refine Runs.rd_bind (h.other hy hYv hdY j (by omega)) ?_
    by_cases hjc : j < A.rows
    · refine axpby_col (v := fun k => a (j + k) j) beta (alpha * y j) hw (by omega) hj h
        (by intro k hk; unfold InTri; simp)
        (View.subvec_isVec _ _ _) (View.subvec_size _ _ _)
        ((h.other hx hXv hdX).subvec hXv (by omega))
        (hdX.mono_left (View.subvec_foot hXv (by omega))) (by intro k hk; simp) ?_
      intro m'' h1 r1
      refine (h.block hw (by omega) (by omega) ?_ (holds_col_of h1 ?_) r1).congr ?_
      · intro i k hi hk; unfold InTri; simp; omega
      · intro k hk; subst hg; unfold gerVal; ring
      · intro i k hi hk ht; unfold InTri at ht; simp at ht; omega
    · have e : A.rows - j = 0 := by omega
      rw [e]
      refine (axpbyUnsafe_spec (x := y) (y := y) beta (alpha * y j) (View.subvec_isVec _ _ _) (Or.inr rfl)
        (Or.inr (by simp)) (by rw [View.sub_col_size]; omega) ?_ ?_ ?_).mono ?_
      · intro k hk; rw [View.subvec_size] at hk; omega
      · intro k hk; rw [View.sub_col_size] at hk; omega
      · refine Set.disjoint_left.mpr ?_
        rintro p - ⟨i, k, hi, hk, -⟩; simp at hi
      · rintro m'' ⟨-, r1⟩
        have em : m'' = m' := by
          funext p; refine r1 p ?_
          rintro ⟨i, k, hi, hk, -⟩; simp at hi
        subst em
        refine h.congr (fun i k hi hk ht => ?_)
        unfold InTri at ht; simp at ht; omega

theorem updtrmvRec_spec {env : Env} (hmin : env.blas2min ≠ 1) (beta alpha : α) {fl : Flags}
    (hfl : fl.lower = !fl.upper) :
    ∀ (fuel : Nat) {m : Mem α} {A X Y : View} {a : Nat → Nat → α} {x y : Nat → α},
      A.rows + 1 < fuel → A.cols = A.rows → A.WF → X.isVec → Y.isVec → X.size = A.rows →
      Y.size = A.cols → HoldsOn m A (InTri fl.upper false) a → HoldsV m X x → HoldsV m Y y →
      Disjoint X.foot (A.footOn (InTri fl.upper false)) →
      Disjoint Y.foot (A.footOn (InTri fl.upper false)) →
      Runs (updtrmvRec env beta alpha fl fuel m A X Y) (fun m' =>
        HoldsOn m' A (InTri fl.upper false) (gerVal beta alpha a x y) ∧
          Frame (A.footOn (InTri fl.upper false)) m m') := by
  intro fuel
  induction fuel with
  | zero => intro m A X Y a x y h; omega
  | succ fuel ih =>
    intro m A X Y a x y hf hsq hw hXv hYv hX hY hA hx hy hdX hdY
    rw [updtrmvRec]
    by_cases c : env.blas2min = 0 ∨ A.rows < env.blas2min ∨ A.cols < env.blas2min
    · rw [if_pos c]
      exact updtrmvUnb_spec beta alpha hfl hw hXv hYv hX hY hA hx hy hdX hdY
    rw [if_neg c]
    obtain ⟨n1, hn1⟩ : ∃ n, n = A.rows / 2 := ⟨_, rfl⟩
    obtain ⟨n2, hn2⟩ : ∃ n, n = A.rows - n1 := ⟨_, rfl⟩
    have ex : vecPartTop X (A.rows / 2) = (X.subvec 0 n1, X.subvec n1 n2) := by
      rw [vecPartTop_eq (by omega), hX, ← hn1, ← hn2]
    have ey : vecPartTop Y (A.rows / 2) = (Y.subvec 0 n1, Y.subvec n1 n2) := by
      rw [vecPartTop_eq (by omega), hY, hsq, ← hn1, ← hn2]
    simp only [hsq, ey, ex, partition2x2]
    simp only [← hn1, ← hn2]
    obtain ⟨g, hg⟩ : ∃ g, g = gerVal beta alpha a x y := ⟨_, rfl⟩
    rw [← hg]
    have tri : ∀ (r nr : Nat) {m' : Mem α} {S : Nat → Nat → Prop}, r + nr ≤ A.rows →
        nr + 1 < fuel → UpdOn m A (InTri fl.upper false) a g S m' →
        (∀ i j, i < nr → j < nr → ¬ S (r + i) (r + j)) →
        Runs (updtrmvRec env beta alpha fl fuel m' (A.sub r r nr nr) (X.subvec r nr) (Y.subvec r nr))
          (UpdOn m A (InTri fl.upper false) a g (fun i j => S i j ∨
            (r ≤ i ∧ i < r + nr ∧ r ≤ j ∧ j < r + nr))) := by
      intro r nr m' S hr hfu h hS
      refine (ih (A := A.sub r r nr nr) (X := X.subvec r nr) (Y := Y.subvec r nr)
        (a := fun i j => a (r + i) (r + j)) hfu rfl
        (hw.sub hr (by omega)) (View.subvec_isVec _ _ _)
        (View.subvec_isVec _ _ _) (View.subvec_size _ _ _) (View.subvec_size _ _ _)
        ((h.hold.sub (T := InTri fl.upper false) hr (by omega)
          (fun i j _ _ h => by rwa [inTri_shift])).congr
          (fun i j hi hj _ => by simp [hS i j hi hj]))
        ((h.other hx hXv hdX).subvec (n := r) (len := nr) hXv (by omega))
        ((h.other hy hYv hdY).subvec (n := r) (len := nr) hYv (by omega))
        (hdX.mono (View.subvec_foot hXv (by omega))
          (View.footOn_sub hr (by omega) (fun i j _ _ h => by rwa [inTri_shift])))
        (hdY.mono (View.subvec_foot hYv (by omega))
          (View.footOn_sub hr (by omega) (fun i j _ _ h => by rwa [inTri_shift])))).mono ?_
      rintro m'' ⟨h1, hf⟩
      refine (h.sub hw hr (by omega) (U := InTri fl.upper false)
        (fun i j _ _ h => by rwa [inTri_shift]) (h1.congr (fun i l _ _ _ => ?_)) hf).congr ?_
      · subst hg; simp [gerVal]
      · intro i j hi hj ht
        refine or_congr_right ⟨fun h => ⟨h.1, h.2.1, h.2.2.1, h.2.2.2.1⟩,
          fun h => ⟨h.1, h.2.1, h.2.2.1, h.2.2.2, ?_⟩⟩
        rw [← inTri_shift _ _ r, Nat.add_sub_cancel' h.1, Nat.add_sub_cancel' h.2.2.1]
        exact ht
    have blk : ∀ (r nr c nc : Nat) {m' : Mem α} {S : Nat → Nat → Prop}, r + nr ≤ A.rows →
        c + nc ≤ A.cols → nr < fuel → UpdOn m A (InTri fl.upper false) a g S m' →
        (∀ i j, i < nr → j < nc → ¬ S (r + i) (c + j)) →
        (∀ i j, i < nr → j < nc → InTri fl.upper false (r + i) (c + j)) →
        Runs (mvupdateUnsafe env fuel m' beta (A.sub r c nr nc) alpha (X.subvec r nr) (Y.subvec c nc))
          (UpdOn m A (InTri fl.upper false) a g (fun i j => S i j ∨
            (r ≤ i ∧ i < r + nr ∧ c ≤ j ∧ j < c + nc))) := by
      intro r nr c nc m' S hr hc hfu h hS hT
      refine (gerRec_spec (a := fun i j => a (r + i) (c + j)) (by omega) beta alpha fuel
        (A := A.sub r c nr nc) (X := X.subvec r nr) (Y := Y.subvec c nc) hfu (hw.sub hr hc) (View.subvec_isVec _ _ _)
        (View.subvec_isVec _ _ _) (View.subvec_size _ _ _) (View.subvec_size _ _ _)
        ((h.hold.block hr hc hT).congr (fun i j hi hj => by simp [hS i j hi hj]))
        ((h.other hx hXv hdX).subvec (n := r) (len := nr) hXv (by omega))
        ((h.other hy hYv hdY).subvec (n := c) (len := nc) hYv (by omega))
        (hdX.mono (View.subvec_foot hXv (by omega)) (View.foot_sub_footOn hr hc hT))
        (hdY.mono (View.subvec_foot hYv (by omega)) (View.foot_sub_footOn hr hc hT))).mono ?_
      rintro m'' ⟨h1, hf⟩
      refine h.block hw hr hc hT (h1.congr (fun i l _ _ => ?_)) hf
      subst hg; simp [gerVal]
    refine Runs.bind (tri 0 n1 (by omega) (by omega) (S := fun i _ => i < 0) (UpdOn.init hA g) (by simp))
      (fun m' h => ?_)
    cases hup : fl.upper with
    | true =>
      rw [hup] at tri blk h
      simp only [if_true]
      refine Runs.bind (blk 0 n1 n1 n2 (by omega) (by omega) (by omega) h (by intros; bomega)
        (by intro i j hi hj; unfold InTri; simp; omega))
        (fun m' h => ?_)
      refine (tri n1 n2 (by omega) (by omega) h (by intros; bomega)).mono
        (fun m' h => ⟨h.all (fun i j hi hj ht => ?_), h.frame⟩)
      unfold InTri at ht; simp at ht; omega
    | false =>
      rw [hup] at tri blk h
      simp only [if_false, Bool.false_eq_true]
      refine Runs.bind (blk n1 n2 0 n1 (by omega) (by omega) (by omega) h (by intros; bomega)
        (by intro i j hi hj; unfold InTri; simp; omega))
        (fun m' h => ?_)
      refine (tri n1 n2 (by omega) (by omega) h (by intros; bomega)).mono
        (fun m' h => ⟨h.all (fun i j hi hj ht => ?_), h.frame⟩)
      unfold InTri at ht; simp at ht; omega

theorem syr2Unb_spec {m : Mem α} {A X Y : View} {a : Nat → Nat → α} {x y : Nat → α}
    (beta alpha : α) {fl : Flags} (hsq : A.rows = A.cols) (hw : A.WF) (hXv : X.isVec)
    (hYv : Y.isVec) (hX : X.size = A.cols) (hY : Y.size = A.cols)
    (hA : HoldsOn m A (InTri fl.upper false) a) (hx : HoldsV m X x) (hy : HoldsV m Y y)
    (hdX : Disjoint X.foot (A.footOn (InTri fl.upper false)))
    (hdY : Disjoint Y.foot (A.footOn (InTri fl.upper false))) :
    Runs (syr2Unb m beta A alpha X Y fl) (fun m' =>
      HoldsOn m' A (InTri fl.upper false) (syr2Val beta alpha a x y) ∧
        Frame (A.footOn (InTri fl.upper false)) m m') := by
  unfold syr2Unb
  obtain ⟨g, hg⟩ : ∃ g, g = syr2Val beta alpha a x y := ⟨_, rfl⟩
  rw [← hg]
  have hx0 : ∀ {m' : Mem α} {z : Nat → α} {Z : View} {j : Nat}, j < Z.size → Z.isVec → HoldsV m' Z z →
      m' ((Z.subvec j (Z.size - j)).vat 0) = some (z j) := by
    intro m' z Z j hj hZ h
    have := h.subvec (n := j) (len := Z.size - j) hZ (by omega) 0 (by rw [View.subvec_size]; omega)
    simpa using this
  cases hup : fl.upper with
  | true =>
    rw [hup] at hA hdX hdY
    simp only [if_true]
    refine Runs.bind (Runs.forUp1 (fun i m' => UpdOn m A (InTri true false) a g (fun k _ => k < i) m')
      (Nat.zero_le _) (UpdOn.init hA g) ?_
      (Q := fun p => HoldsOn p.2 A (InTri true false) g ∧ Frame (A.footOn (InTri true false)) m p.2)
      (fun m' h => ⟨h.all (fun i j hi _ _ => by omega), h.frame⟩)) (fun p hp => Runs.pure hp)
    intro j m' _ hj h
    have hx1 := h.other hx hXv hdX
    have hy1 := h.other hy hYv hdY
    have hT : ∀ i k, i < 1 → k < A.cols - j → InTri true false (j + i) (j + k) := by
      intro i k hi hk; unfold InTri; simp; omega
    have hrow : (A.sub j j 1 (A.cols - j)).foot ⊆ A.footOn (InTri true false) :=
      View.foot_sub_footOn (by omega) (by omega) hT
    refine Runs.rd_bind (by rw [← hX]; exact hx0 (by omega) hXv hx1) ?_
    refine Runs.rd_bind (by rw [← hY]; exact hx0 (by omega) hYv hy1) ?_
    refine Runs.bind (axpby_row (v := fun k => a j (j + k)) beta (alpha * y j) hw (by omega) (by omega) h
        (by intro k hk; exact hT 0 k (by omega) hk)
        (View.subvec_isVec _ _ _) (View.subvec_size _ _ _)
        (hx1.subvec hXv (by omega))
        (hdX.mono_left (View.subvec_foot hXv (by omega))) (by intro k hk; simp)
        (fun m'' h1 r1 => And.intro h1 r1)) ?_
    rintro m'' ⟨h1, r1⟩
    refine (axpbyUnsafe_spec 1 (alpha * x j) (View.subvec_isVec _ _ _) (Or.inl rfl)
      (hw.sub (by omega) (by omega)) (by rw [View.subvec_size, View.sub_row_size])
      ((hy1.frame hYv (r1.mono hrow) hdY).subvec hYv (by omega)) h1
      (hdY.mono (View.subvec_foot hYv (by omega)) hrow)).mono ?_
    rintro m3 ⟨h2, r2⟩
    refine (h.block hw (by omega) (by omega) hT (holds_row_of h2 ?_) (r1.trans r2)).congr ?_
    · intro k hk; subst hg; unfold syr2Val; ring
    · intro i k hi hk ht; unfold InTri at ht; simp at ht; omega
  | false =>
    rw [hup] at hA hdX hdY
    simp only [if_false, Bool.false_eq_true]
    refine Runs.bind (Runs.forUp1 (fun i m' => UpdOn m A (InTri false false) a g (fun _ k => k < i) m')
      (Nat.zero_le _) ((UpdOn.init hA g).congr (by simp)) ?_
      (Q := fun p => HoldsOn p.2 A (InTri false false) g ∧ Frame (A.footOn (InTri false false)) m p.2)
      (fun m' h => ⟨h.all (fun i j _ hj _ => hj), h.frame⟩)) (fun p hp => Runs.pure hp)
    intro j m' _ hj h
    have hx1 := h.other hx hXv hdX
    have hy1 := h.other hy hYv hdY
    have hT : ∀ i k, i < A.cols - j → k < 1 → InTri false false (j + i) (j + k) := by
      intro i k hi hk; unfold InTri; simp; omega
    have hrow : (A.sub j j (A.cols - j) 1).foot ⊆ A.footOn (InTri false false) :=
      View.foot_sub_footOn (by omega) (by omega) hT
    refine Runs.rd_bind (by rw [← hX]; exact hx0 (by omega) hXv hx1) ?_
    refine Runs.rd_bind (by rw [← hY]; exact hx0 (by omega) hYv hy1) ?_
    refine Runs.bind (axpby_col (v := fun k => a (j + k) j) beta (alpha * y j) hw (by omega) (by omega) h
        (by intro k hk; exact hT k 0 hk (by omega))
        (View.subvec_isVec _ _ _) (View.subvec_size _ _ _)
        (hx1.subvec hXv (by omega))
        (hdX.mono_left (View.subvec_foot hXv (by omega))) (by intro k hk; simp)
        (fun m'' h1 r1 => And.intro h1 r1)) ?_
    rintro m'' ⟨h1, r1⟩
    refine (axpbyUnsafe_spec 1 (alpha * x j) (View.subvec_isVec _ _ _) (Or.inr rfl)
      (hw.sub (by omega) (by omega)) (by rw [View.subvec_size, View.sub_col_size])
      ((hy1.frame hYv (r1.mono hrow) hdY).subvec hYv (by omega)) h1
      (hdY.mono (View.subvec_foot hYv (by omega)) hrow)).mono ?_
    rintro m3 ⟨h2, r2⟩
    refine (h.block hw (by omega) (by omega) hT (holds_col_of h2 ?_) (r1.trans r2)).congr ?_
    · intro k hk; subst hg; unfold syr2Val; ring
    · intro i k hi hk ht; unfold InTri at ht; simp at ht; omega

theorem syr2Rec_spec {env : Env} (hmin : 2 ≤ env.blas2min) (beta alpha : α) {fl : Flags} :
    ∀ (fuel : Nat) {m : Mem α} {A X Y : View} {a : Nat → Nat → α} {x y : Nat → α},
      A.rows + 1 < fuel → A.cols = A.rows → A.WF → X.isVec → Y.isVec → X.size = A.rows →
      Y.size = A.cols → HoldsOn m A (InTri fl.upper false) a → HoldsV m X x → HoldsV m Y y →
      Disjoint X.foot (A.footOn (InTri fl.upper false)) →
      Disjoint Y.foot (A.footOn (InTri fl.upper false)) →
      Runs (syr2Rec env beta alpha fl fuel m A X Y) (fun m' =>
        HoldsOn m' A (InTri fl.upper false) (syr2Val beta alpha a x y) ∧
          Frame (A.footOn (InTri fl.upper false)) m m') := by
  intro fuel
  induction fuel with
  | zero => intro m A X Y a x y h; omega
  | succ fuel ih =>
    intro m A X Y a x y hf hsq hw hXv hYv hX hY hA hx hy hdX hdY
    rw [syr2Rec]
    by_cases c : A.rows < env.blas2min
    · rw [if_pos c]
      exact syr2Unb_spec beta alpha (by omega) hw hXv hYv (by omega) hY hA hx hy hdX hdY
    rw [if_neg c]
    obtain ⟨n1, hn1⟩ : ∃ n, n = A.rows / 2 := ⟨_, rfl⟩
    obtain ⟨n2, hn2⟩ : ∃ n, n = A.rows - n1 := ⟨_, rfl⟩
    have ex : vecPartTop X (A.rows / 2) = (X.subvec 0 n1, X.subvec n1 n2) := by
      rw [vecPartTop_eq (by omega), hX, ← hn1, ← hn2]
    have ey : vecPartTop Y (A.rows / 2) = (Y.subvec 0 n1, Y.subvec n1 n2) := by
      rw [vecPartTop_eq (by omega), hY, hsq, ← hn1, ← hn2]
    simp only [hsq, ey, ex, partition2x2]
    simp only [← hn1, ← hn2]
    obtain ⟨g, hg⟩ : ∃ g, g = syr2Val beta alpha a x y := ⟨_, rfl⟩
    rw [← hg]
    have tri : ∀ (r nr : Nat) {m' : Mem α} {S : Nat → Nat → Prop}, r + nr ≤ A.rows →
        nr + 1 < fuel → UpdOn m A (InTri fl.upper false) a g S m' →
        (∀ i j, i < nr → j < nr → ¬ S (r + i) (r + j)) →
        Runs (syr2Rec env beta alpha fl fuel m' (A.sub r r nr nr) (X.subvec r nr) (Y.subvec r nr))
          (UpdOn m A (InTri fl.upper false) a g (fun i j => S i j ∨
            (r ≤ i ∧ i < r + nr ∧ r ≤ j ∧ j < r + nr))) := by
      intro r nr m' S hr hfu h hS
      refine (ih (A := A.sub r r nr nr) (X := X.subvec r nr) (Y := Y.subvec r nr)
        (a := fun i j => a (r + i) (r + j)) hfu rfl
        (hw.sub hr (by omega)) (View.subvec_isVec _ _ _)
        (View.subvec_isVec _ _ _) (View.subvec_size _ _ _) (View.subvec_size _ _ _)
        ((h.hold.sub (T := InTri fl.upper false) hr (by omega)
          (fun i j _ _ h => by rwa [inTri_shift])).congr
          (fun i j hi hj _ => by simp [hS i j hi hj]))
        ((h.other hx hXv hdX).subvec (n := r) (len := nr) hXv (by omega))
        ((h.other hy hYv hdY).subvec (n := r) (len := nr) hYv (by omega))
        (hdX.mono (View.subvec_foot hXv (by omega))
          (View.footOn_sub hr (by omega) (fun i j _ _ h => by rwa [inTri_shift])))
        (hdY.mono (View.subvec_foot hYv (by omega))
          (View.footOn_sub hr (by omega) (fun i j _ _ h => by rwa [inTri_shift])))).mono ?_
      rintro m'' ⟨h1, hf⟩
      refine (h.sub hw hr (by omega) (U := InTri fl.upper false)
        (fun i j _ _ h => by rwa [inTri_shift]) (h1.congr (fun i l _ _ _ => ?_)) hf).congr ?_
      · subst hg; simp [syr2Val]
      · intro i j hi hj ht
        refine or_congr_right ⟨fun h => ⟨h.1, h.2.1, h.2.2.1, h.2.2.2.1⟩,
          fun h => ⟨h.1, h.2.1, h.2.2.1, h.2.2.2, ?_⟩⟩
        rw [← inTri_shift _ _ r, Nat.add_sub_cancel' h.1, Nat.add_sub_cancel' h.2.2.1]
        exact ht
    have blk : ∀ (r nr c nc : Nat) {m' : Mem α} {S : Nat → Nat → Prop}, r + nr ≤ A.rows →
        c + nc ≤ A.cols → nr < fuel → UpdOn m A (InTri fl.upper false) a g S m' →
        (∀ i j, i < nr → j < nc → ¬ S (r + i) (c + j)) →
        (∀ i j, i < nr → j < nc → InTri fl.upper false (r + i) (c + j)) →
        Runs (do
          let m ← mvupdateUnsafe env fuel m' beta (A.sub r c nr nc) alpha (X.subvec r nr) (Y.subvec c nc)
          mvupdateUnsafe env fuel m 1 (A.sub r c nr nc) alpha (Y.subvec r nr) (X.subvec c nc))
          (UpdOn m A (InTri fl.upper false) a g (fun i j => S i j ∨
            (r ≤ i ∧ i < r + nr ∧ c ≤ j ∧ j < c + nc))) := by
      intro r nr c nc m' S hr hc hfu h hS hT
      have hsub := View.foot_sub_footOn hr hc hT
      refine Runs.bind (gerRec_spec (a := fun i j => a (r + i) (c + j)) (by omega) beta alpha fuel
        (A := A.sub r c nr nc) (X := X.subvec r nr) (Y := Y.subvec c nc) hfu (hw.sub hr hc) (View.subvec_isVec _ _ _)
        (View.subvec_isVec _ _ _) (View.subvec_size _ _ _) (View.subvec_size _ _ _)
        ((h.hold.block hr hc hT).congr (fun i j hi hj => by simp [hS i j hi hj]))
        ((h.other hx hXv hdX).subvec (n := r) (len := nr) hXv (by omega))
        ((h.other hy hYv hdY).subvec (n := c) (len := nc) hYv (by omega))
        (hdX.mono (View.subvec_foot hXv (by omega)) hsub)
        (hdY.mono (View.subvec_foot hYv (by omega)) hsub)) ?_
      rintro m'' ⟨h1, hf⟩
      refine (gerRec_spec (by omega) 1 alpha fuel
        (A := A.sub r c nr nc) (X := Y.subvec r nr) (Y := X.subvec c nc) hfu (hw.sub hr hc) (View.subvec_isVec _ _ _)
        (View.subvec_isVec _ _ _) (View.subvec_size _ _ _) (View.subvec_size _ _ _)
        h1
        (((h.other hy hYv hdY).frame hYv (hf.mono hsub) hdY).subvec (n := r) (len := nr) hYv (by omega))
        (((h.other hx hXv hdX).frame hXv (hf.mono hsub) hdX).subvec (n := c) (len := nc) hXv (by omega))
        (hdY.mono (View.subvec_foot hYv (by omega)) hsub)
        (hdX.mono (View.subvec_foot hXv (by omega)) hsub)).mono ?_
      rintro m3 ⟨h2, hf2⟩
      refine h.block hw hr hc hT (h2.congr (fun i l _ _ => ?_)) (hf.trans hf2)
      subst hg; simp only [gerVal, syr2Val]; ring
    refine Runs.bind (tri 0 n1 (by omega) (by omega) (S := fun i _ => i < 0) (UpdOn.init hA g) (by simp))
      (fun m' h => ?_)
    cases hup : fl.upper with
    | true =>
      rw [hup] at tri blk h
      simp only [if_true]
      refine Runs.bind (blk 0 n1 n1 n2 (by omega) (by omega) (by omega) h (by intros; bomega)
        (by intro i j hi hj; unfold InTri; simp; omega))
        (fun m' h => ?_)
      refine (tri n1 n2 (by omega) (by omega) h (by intros; bomega)).mono
        (fun m' h => ⟨h.all (fun i j hi hj ht => ?_), h.frame⟩)
      unfold InTri at ht; simp at ht; omega
    | false =>
      rw [hup] at tri blk h
      simp only [if_false, Bool.false_eq_true]
      refine Runs.bind (blk n1 n2 0 n1 (by omega) (by omega) (by omega) h (by intros; bomega)
        (by intro i j hi hj; unfold InTri; simp; omega))
        (fun m' h => ?_)
      refine (tri n1 n2 (by omega) (by omega) h (by intros; bomega)).mono
        (fun m' h => ⟨h.all (fun i j hi hj ht => ?_), h.frame⟩)
      unfold InTri at ht; simp at ht; omega

end Armas
