import Verif.QrFacLemmas
import Verif.QrMult

/-!
# Lemmas on the multiplication with the orthogonal matrix of a QR factorization
-/

namespace Armas

open Finset

section hh

variable {α : Type} [CommRing α] [DecidableEq α]

theorem mvmult_one' (ab : α → α) {env : Env} (hmin : env.blas2min ≠ 1 ∨ env.naive = true) {fuel : Nat} {m : Mem α} {Y A X : View}
    {y x : Nat → α} {a : Nat → Nat → α} (alpha : α) {fl : Flags} (hfl : fl.absA = false) (hf : Y.size < fuel)
    (hv : Y.isVec) (hw : Y.WF) (hXv : X.isVec)
    (hY : (if fl.transA then A.cols else A.rows) = Y.size) (hX : (if fl.transA then A.rows else A.cols) = X.size)
    (hy : HoldsV m Y y) (hA : Holds m A a) (hx : HoldsV m X x)
    (hdA : Disjoint A.foot Y.foot) (hdX : Disjoint X.foot Y.foot) :
    Runs (mvmult ab env fuel m 1 Y alpha A X fl) (fun r => 
      HoldsV r.2 Y (fun i => y i + alpha * ∑ j ∈ range X.size, (if fl.transA then a j i else a i j) * x j) ∧
      Frame Y.foot m r.2) := by
  by_cases h0 : A.size = 0
  · unfold mvmult
    rw [if_pos (Or.inl h0)]
    refine Runs.ok ⟨?_, Frame.refl _ _⟩
    intro k hk
    dsimp only
    rw [hy k hk]
    have : X.size = 0 := by
      rw [View.size, Nat.mul_eq_zero] at h0
      rw [← hX]
      by_cases ht : fl.transA
      · rw [if_pos ht] at hY ⊢; omega
      · rw [if_neg ht] at hY ⊢; omega
    simp [this]
  · refine (Props.C10_mvmult_partial ab hmin 1 alpha hfl h0 hf hv hw hXv hY hX hy hA hx hdA hdX).mono ?_
    rintro r ⟨-, h1, h2⟩
    exact ⟨h1.congr fun k _ => by rw [one_mul], h2⟩

/-- Applying a reflector from either side; the reflected index comes first in `a`. -/
theorem applyHH_spec (ab : α → α) {env : Env} (hmin : 2 ≤ env.blas2min ∨ (env.naive = true ∧ env.recursive = false))
    {fuel : Nat} {m : Mem α} {v a1 A2 w1 : View} {tau P K : Nat} {t : α} {f g w : Nat → α} {a : Nat → Nat → α} {right : Bool}
    (hf : K < fuel) (hf' : P < fuel) (ht : m tau = some t)
    (vv : v.isVec) (v1 : a1.isVec) (vw : w1.isVec) (w1w : w1.WF) (a1w : a1.WF) (A2w : A2.WF)
    (sr : A2.rows = if right then K else P) (sc : A2.cols = if right then P else K)
    (sv : v.size = P) (s1 : a1.size = K) (sw : w1.size = K)
    (hv : HoldsV m v f) (h1 : HoldsV m a1 g) (hA : Holds m A2 (fun i j => if right then a j i else a i j)) (hw : HoldsV m w1 w)
    (dvw : Disjoint v.foot w1.foot) (dv1 : Disjoint v.foot a1.foot) (dvA : Disjoint v.foot A2.foot)
    (d1w : Disjoint a1.foot w1.foot) (d1A : Disjoint a1.foot A2.foot) (dAw : Disjoint A2.foot w1.foot) :
    Runs (applyHH2x1 ab env fuel m (some tau) v a1 A2 w1 (!right)) (fun m' =>
      HoldsV m' a1 (fun j => g j - t * (g j + ∑ l ∈ range P, f l * a l j)) ∧
      Holds m' A2 (fun i j => if right then a j i - f j * (t * (g i + ∑ l ∈ range P, f l * a l i))
        else a i j - f i * (t * (g j + ∑ l ∈ range P, f l * a l j))) ∧
      (∃ w', HoldsV m' w1 w') ∧ Frame (a1.foot ∪ A2.foot ∪ w1.foot) m m') := by
  unfold applyHH2x1
  refine Runs.rd_bind ht ?_
  beta_reduce
  by_cases h0 : t = 0
  · rw [if_pos h0]
    refine Runs.pure ⟨fun k hk => ?_, fun i j hi hj => ?_, ⟨w, hw⟩, Frame.refl _ _⟩
    · rw [h1 k hk, h0]; simp
    · rw [hA i j hi hj, h0]; simp
  rw [if_neg h0]
  refine Runs.bind (Props.C06_axpby 0 1 v1 vw w1w (by rw [s1, sw]) h1 hw d1w) ?_
  rintro ⟨e, m1⟩ ⟨-, k1, k2⟩
  dsimp only at k1 k2 ⊢
  have hmin' : env.blas2min ≠ 1 ∨ env.naive = true := by
    rcases hmin with h | h
    · left; omega
    · exact Or.inr h.1
  refine Runs.bind (mvmult_one' (A := A2) (X := v) ab hmin' 1 rfl (by omega) vw w1w vv (by cases right <;> simp_all) (by cases right <;> simp_all) k1
    (hA.frame k2 dAw) (hv.frame vv k2 dvw) dAw dvw) ?_
  rintro ⟨e, m2⟩ ⟨k3, k4⟩
  dsimp only at k3 k4 ⊢
  have k3' : HoldsV m2 w1 (fun i => g i + ∑ l ∈ range P, f l * a l i) := by
    refine k3.congr fun i _ => ?_
    rw [sv]
    have e1 : ∑ j ∈ range P, (if (!right) = true then (if right = true then a i j else a j i) else if right = true then a j i else a i j) * f j =
        ∑ l ∈ range P, f l * a l i := sum_congr rfl fun j _ => by cases right <;> simp [mul_comm]
    rw [e1]
    ring
  refine Runs.bind (Props.C06_scale t vw w1w k3') ?_
  rintro ⟨e, m3⟩ ⟨-, k5, k6⟩
  dsimp only at k5 k6 ⊢
  have F3 : Frame w1.foot m m3 := (k2.trans k4).trans k6
  refine Runs.bind (Props.C06_axpy (-1) vw v1 a1w (by rw [s1, sw]) k5 (h1.frame v1 F3 d1w) d1w.symm) ?_
  rintro ⟨e, m4⟩ ⟨-, k7, k8⟩
  dsimp only at k7 k8
  have F4 : Frame (a1.foot ∪ w1.foot) m m4 :=
    (F3.mono Set.subset_union_right).trans (k8.mono Set.subset_union_left)
  have hA4 := hA.frame F4 (Set.disjoint_union_right.mpr ⟨d1A.symm, dAw⟩)
  have hv4 := hv.frame vv F4 (Set.disjoint_union_right.mpr ⟨dv1, dvw⟩)
  have hw4 := k5.frame vw k8 d1w.symm
  have fin : ∀ m5, Holds m5 A2 (fun i j => if right then a j i - f j * (t * (g i + ∑ l ∈ range P, f l * a l i))
      else a i j - f i * (t * (g j + ∑ l ∈ range P, f l * a l j))) → Frame A2.foot m4 m5 →
      HoldsV m5 a1 (fun j => g j - t * (g j + ∑ l ∈ range P, f l * a l j)) ∧
      Holds m5 A2 (fun i j => if right then a j i - f j * (t * (g i + ∑ l ∈ range P, f l * a l i))
        else a i j - f i * (t * (g j + ∑ l ∈ range P, f l * a l j))) ∧
      (∃ w', HoldsV m5 w1 w') ∧ Frame (a1.foot ∪ A2.foot ∪ w1.foot) m m5 := by
    intro m5 k9 k10
    refine ⟨(k7.frame v1 k10 d1A).congr fun k _ => by ring, k9, ⟨_, hw4.frame vw k10 dAw.symm⟩, ?_⟩
    refine (F4.mono ?_).trans (k10.mono ?_)
    · intro p hp
      rcases hp with h | h
      · exact Or.inl (Or.inl h)
      · exact Or.inr h
    · intro p hp
      exact Or.inl (Or.inr hp)
  cases right with
  | false =>
    simp only [Bool.false_eq_true, if_false, Bool.not_false, if_true] at *
    refine Runs.bind (Props.C11_mvupdate_partial hmin 1 (-1) (by omega) A2w vv vw (by omega) (by omega) hA4 hv4 hw4 dvA dAw.symm) ?_
    rintro ⟨e, m5⟩ ⟨-, k9, k10⟩
    exact Runs.pure (fin m5 (k9.congr fun i j _ _ => by ring) k10)
  | true =>
    simp only [if_true, Bool.not_true, Bool.false_eq_true, if_false] at *
    refine Runs.bind (Props.C11_mvupdate_partial hmin 1 (-1) (by omega) A2w vw vv (by omega) (by omega) hA4 hw4 hv4 dAw.symm dvA) ?_
    rintro ⟨e, m5⟩ ⟨-, k9, k10⟩
    exact Runs.pure (fin m5 (k9.congr fun i j _ _ => by ring) k10)

end hh

/-! ### Either side -/

/-- Rows `k .. k+n-1` of `C`, or columns for `right`. -/
def rsub (right : Bool) (C : View) (k n : Nat) : View := if right then C.sub 0 k C.rows n else C.sub k 0 n C.cols

/-- `C` holds `b`, or its transpose for `right`. -/
def HoldsR {α : Type} (right : Bool) (m : Mem α) (C : View) (b : Nat → Nat → α) : Prop := Holds m C (fun i j => if right then b j i else b i j)

/-- Number of reflected rows (columns for `right`). -/
def rlen (right : Bool) (C : View) : Nat := if right then C.cols else C.rows

/-- The other size. -/
def rwid (right : Bool) (C : View) : Nat := if right then C.rows else C.cols

theorem rsub_foot {right : Bool} {C : View} {k n : Nat} (h : k + n ≤ rlen right C) : (rsub right C k n).foot ⊆ C.foot := by
  cases right
  · exact View.sub_foot (by simpa [rlen] using h) (by simp)
  · exact View.sub_foot (by simp) (by simpa [rlen] using h)

theorem rsub_disj {right : Bool} {C : View} (hw : C.WF) {k n k' n' : Nat} (h : k + n ≤ rlen right C) (h' : k' + n' ≤ rlen right C)
    (hd : k + n ≤ k') : Disjoint (rsub right C k n).foot (rsub right C k' n').foot := by
  cases right
  · simp only [rlen, Bool.false_eq_true, if_false] at h h'
    exact View.sub_disj hw (by omega) (by omega) (by omega) (by omega) (by omega)
  · simp only [rlen, if_true] at h h'
    exact View.sub_disj hw (by omega) (by omega) (by omega) (by omega) (by omega)

theorem rsub_wf {right : Bool} {C : View} (hw : C.WF) {k n : Nat} (h : k + n ≤ rlen right C) : (rsub right C k n).WF := by
  cases right
  · simp only [rlen, Bool.false_eq_true, if_false] at h
    exact hw.sub (by omega) (by omega)
  · simp only [rlen, if_true] at h
    exact hw.sub (by omega) (by omega)

theorem rsub_shape (right : Bool) (C : View) (k n : Nat) : (rsub right C k n).rows = (if right then rwid right C else n) ∧
    (rsub right C k n).cols = (if right then n else rwid right C) := by
  cases right <;> exact ⟨rfl, rfl⟩

variable {α : Type}

theorem HoldsR.part {right : Bool} {m : Mem α} {C : View} {b : Nat → Nat → α} (hC : HoldsR right m C b) {k n : Nat} (h : k + n ≤ rlen right C) :
    HoldsR right m (rsub right C k n) (fun i j => b (k + i) j) := by
  cases right
  · simp only [rlen, Bool.false_eq_true, if_false] at h
    intro i j hi hj
    have := Holds.part hC (r := k) (c := 0) (nr := n) (nc := C.cols) (by omega) (by omega) i j hi hj
    simp only [Nat.zero_add] at this
    exact this
  · simp only [rlen, if_true] at h
    intro i j hi hj
    have := Holds.part hC (r := 0) (c := k) (nr := C.rows) (nc := n) (by omega) (by omega) i j hi hj
    simp only [Nat.zero_add] at this
    exact this

/-- Putting two adjacent parts together; the rows before them are unchanged. -/
theorem HoldsR.join {right : Bool} {m m0 : Mem α} {C : View} {b y : Nat → Nat → α} {k n : Nat} (hw : C.WF) (hk : k + n ≤ rlen right C)
    (h0 : HoldsR right m0 C b) (h1 : HoldsR right m (rsub right C k n) y)
    (h2 : HoldsR right m (rsub right C (k + n) (rlen right C - k - n)) (fun i j => y (n + i) j))
    {S : Set Nat} (F : Frame ((rsub right C k n).foot ∪ (rsub right C (k + n) (rlen right C - k - n)).foot ∪ S) m0 m) (hS : Disjoint C.foot S) :
    HoldsR right m C (fun i j => if i < k then b i j else y (i - k) j) := by
  have key : ∀ i j, i < C.rows → j < C.cols → (if right then j else i) < k → m (C.at' i j) = m0 (C.at' i j) := by
    intro i j hi hj h
    refine F _ ?_
    rintro ((h' | h') | h')
    · cases right
      · simp only [rlen, Bool.false_eq_true, if_false] at hk h
        rw [rsub, if_neg (by simp), View.mem_sub_foot hw (by omega) (by omega) hi hj] at h'
        omega
      · simp only [rlen, if_true] at hk h
        rw [rsub, if_pos rfl, View.mem_sub_foot hw (by omega) (by omega) hi hj] at h'
        omega
    · cases right
      · simp only [rlen, Bool.false_eq_true, if_false] at hk h h'
        rw [rsub, if_neg (by simp), View.mem_sub_foot hw (by omega) (by omega) hi hj] at h'
        omega
      · simp only [rlen, if_true] at hk h h'
        rw [rsub, if_pos rfl, View.mem_sub_foot hw (by omega) (by omega) hi hj] at h'
        omega
    · exact Set.disjoint_left.mp hS (View.at_mem_foot hi hj) h'
  intro i j hi hj
  cases right
  · simp only [rlen, rsub, Bool.false_eq_true, if_false] at hk h1 h2 key ⊢
    by_cases c1 : i < k
    · rw [if_pos c1, key i j hi hj c1]; exact h0 i j hi hj
    rw [if_neg c1]
    by_cases c2 : i < k + n
    · have := h1 (i - k) j (by simp only [View.sub_rows]; omega) hj
      rw [View.at_sub, show k + (i - k) = i by omega, Nat.zero_add] at this
      exact this
    · have := h2 (i - k - n) j (by simp only [View.sub_rows]; omega) hj
      rw [View.at_sub, show k + n + (i - k - n) = i by omega, Nat.zero_add] at this
      simp only [Bool.false_eq_true, if_false] at this
      rw [show n + (i - k - n) = i - k by omega] at this
      exact this
  · simp only [rlen, rsub, if_true] at hk h1 h2 key ⊢
    by_cases c1 : j < k
    · rw [if_pos c1, key i j hi hj c1]; exact h0 i j hi hj
    rw [if_neg c1]
    by_cases c2 : j < k + n
    · have := h1 i (j - k) hi (by simp only [View.sub_cols]; omega)
      rw [View.at_sub, show k + (j - k) = j by omega, Nat.zero_add] at this
      exact this
    · have := h2 i (j - k - n) hi (by simp only [View.sub_cols]; omega)
      rw [View.at_sub, show k + n + (j - k - n) = j by omega, Nat.zero_add] at this
      simp only [if_true] at this
      rw [show n + (j - k - n) = j - k by omega] at this
      exact this


/-! ### One column -/

section col

variable [Field α] [DecidableEq α]

/-- The calls of `unblkQrmultLeftStep` and `unblkQrmultRightStep`. -/
def qrmStep (ab : α → α) (env : Env) (fuel : Nat) (right : Bool) (C A tau : View) (W k : Nat) (m : Mem α) : Res (Mem α) :=
  applyHH2x1 ab env fuel m (some (tau.at' k 0)) (A.sub (k + 1) k (A.rows - k - 1) 1) (rsub right C k 1) (rsub right C (k + 1) (rlen right C - k - 1))
    ⟨W, rwid right C, rwid right C, 1⟩ (!right)

theorem qrmStep_left (ab : α → α) (env : Env) (fuel : Nat) (C A tau : View) (W k : Nat) :
    unblkQrmultLeftStep ab env fuel C A tau W k k = qrmStep ab env fuel false C A tau W k := rfl

theorem qrmStep_right (ab : α → α) (env : Env) (fuel : Nat) (C A tau : View) (W k : Nat) :
    unblkQrmultRightStep ab env fuel C A tau W k = qrmStep ab env fuel true C A tau W k := rfl

theorem HoldsR.toV {right : Bool} {m : Mem α} {C : View} {k : Nat} {b : Nat → Nat → α} (h : HoldsR right m (rsub right C k 1) b) :
    HoldsV m (rsub right C k 1) (fun j => b 0 j) := by
  cases right
  · exact Holds.toV_row h
  · exact Holds.toV_col h

theorem HoldsR.ofV {right : Bool} {m : Mem α} {C : View} {k : Nat} {g : Nat → α} (h : HoldsV m (rsub right C k 1) g) :
    HoldsR right m (rsub right C k 1) (fun _ j => g j) := by
  cases right
  · rw [holdsV_iff (Or.inl rfl)] at h
    refine Holds.congr h (fun i j hi _ => ?_)
    have : i = 0 := by have : i < 1 := hi; omega
    subst this
    simp
  · exact HoldsV.col rfl h

theorem rsub_vec (right : Bool) (C : View) (k : Nat) : (rsub right C k 1).isVec ∧ (rsub right C k 1).size = rwid right C := by
  cases right
  · exact ⟨Or.inl rfl, by simp [rsub, rwid, View.size]⟩
  · exact ⟨Or.inr rfl, by simp [rsub, rwid, View.size]⟩

/-- Arguments of the multiplication. -/
structure QrmArgs (m : Mem α) (right : Bool) (C A tau : View) (w ws : Nat) (f : Nat → Nat → α) (t : Nat → α) : Prop where
  wf : C.WF
  len : rlen right C = A.rows
  sh : A.cols ≤ A.rows
  hA : Holds m A f
  ht : ∀ k, k < A.cols → m (tau.at' k 0) = some (t k)
  hW : WAlloc m w ws
  dC : Disjoint C.foot (A.foot ∪ tcells tau A.cols ∪ wcells w ws)
  dW : Disjoint (wcells w ws) (A.foot ∪ tcells tau A.cols)

theorem QrmArgs.frame {m m' : Mem α} {right : Bool} {C A tau : View} {w ws : Nat} {f : Nat → Nat → α} {t : Nat → α}
    (H : QrmArgs m right C A tau w ws f t) {S : Set Nat} (F : Frame S m m') (hS : Disjoint (A.foot ∪ tcells tau A.cols) S) (hW : WAlloc m' w ws) :
    QrmArgs m' right C A tau w ws f t := by
  obtain ⟨wf, len, sh, hA, ht, -, dC, dW⟩ := H
  rw [Set.disjoint_union_left] at hS
  refine ⟨wf, len, sh, hA.frame F hS.1, fun k hk => ?_, hW, dC, dW⟩
  rw [F _ (Set.disjoint_left.mp hS.2 ⟨k, hk, rfl⟩)]
  exact ht k hk

theorem qrmStep_spec (ab : α → α) {env : Env} (hmin : 2 ≤ env.blas2min ∨ (env.naive = true ∧ env.recursive = false))
    {fuel : Nat} {m : Mem α} {right : Bool} {C A tau : View} {w ws k : Nat} {f b : Nat → Nat → α} {t : Nat → α}
    (H : QrmArgs m right C A tau w ws f t) (hws : rwid right C ≤ ws) (hf : A.rows < fuel) (hf' : rwid right C < fuel) (hk : k < A.cols)
    (hC : HoldsR right m C b) :
    Runs (qrmStep ab env fuel right C A tau w k m) (fun m' => HoldsR right m' C (refl A.rows (t k) (qrw f k) b) ∧
      QrmArgs m' right C A tau w ws f t ∧ Frame (C.foot ∪ wcells w ws) m m') := by
  have H' := H
  obtain ⟨wf, len, sh, hA, ht, hW, dC, dW⟩ := H
  have sW : wcells w (rwid right C) ⊆ wcells w ws := fun p hp => ⟨hp.1, by have := hp.2; omega⟩
  have sv : (A.sub (k + 1) k (A.rows - k - 1) 1).foot ⊆ A.foot := View.sub_foot (by omega) (by omega)
  have ew : (⟨w, rwid right C, rwid right C, 1⟩ : View).foot = wcells w (rwid right C) := work_foot _ _
  obtain ⟨x, hx⟩ := (hW.le hws).holds
  have c1 := hC.part (k := k) (n := 1) (by omega)
  have c2 := hC.part (k := k + 1) (n := rlen right C - k - 1) (by omega)
  have s1 := rsub_foot (right := right) (C := C) (k := k) (n := 1) (by omega)
  have s2 := rsub_foot (right := right) (C := C) (k := k + 1) (n := rlen right C - k - 1) (by omega)
  have sz : (A.sub (k + 1) k (A.rows - k - 1) 1).size = A.rows - k - 1 := by simp [View.size]
  have dCA : Disjoint C.foot A.foot := dC.mono_right fun p hp => Or.inl (Or.inl hp)
  have dCW : Disjoint C.foot (wcells w ws) := dC.mono_right fun p hp => Or.inr hp
  have dWA : Disjoint (wcells w ws) A.foot := dW.mono_right fun p hp => Or.inl hp
  unfold qrmStep
  have q := applyHH_spec ab hmin (right := right) (P := A.rows - k - 1) (K := rwid right C) (tau := tau.at' k 0) (fuel := fuel) (m := m)
    (v := A.sub (k + 1) k (A.rows - k - 1) 1) (a1 := rsub right C k 1) (A2 := rsub right C (k + 1) (rlen right C - k - 1))
    (w1 := ⟨w, rwid right C, rwid right C, 1⟩) (f := fun l => f (k + 1 + l) k) (g := fun j => b k j) (a := fun i j => b (k + 1 + i) j) (w := x)
    hf' (by omega) (ht k hk) (Or.inr rfl) (rsub_vec right C k).1 (Or.inr rfl) (Or.inr (le_refl 1)) (rsub_wf wf (by omega)) (rsub_wf wf (by omega))
    (by rw [(rsub_shape _ _ _ _).1, len]) (by rw [(rsub_shape _ _ _ _).2, len]) sz (rsub_vec right C k).2 (by simp [View.size])
    (((hA.part (by omega) (by omega)).toV_col).congr fun l _ => rfl) (c1.toV.congr fun l _ => rfl) c2 hx
    (by rw [ew]; exact (dWA.mono sW sv).symm) ((dCA.mono s1 sv).symm) ((dCA.mono s2 sv).symm) (by rw [ew]; exact dCW.mono s1 sW)
    (rsub_disj wf (by omega) (by omega) (le_refl _)) (by rw [ew]; exact dCW.mono s2 sW)
  refine q.mono ?_
  rintro m' ⟨q1, q2, ⟨x', hx'⟩, F⟩
  rw [ew] at F
  have hW' : WAlloc m' w ws := by
    intro p hp
    by_cases h : p < rwid right C
    · exact (WAlloc.of_holds hx') p h
    · obtain ⟨y, hy⟩ := hW p hp
      have hm : w + p ∈ wcells w ws := ⟨by omega, by omega⟩
      refine ⟨y, ?_⟩
      rw [← hy]
      refine F _ ?_
      rintro ((h' | h') | h')
      · exact Set.disjoint_left.mp dCW (s1 h') hm
      · exact Set.disjoint_left.mp dCW (s2 h') hm
      · have := h'.2; omega
  have FC : Frame (C.foot ∪ wcells w ws) m m' := F.mono (by
    rintro p ((h' | h') | h')
    · exact Or.inl (s1 h')
    · exact Or.inl (s2 h')
    · exact Or.inr (sW h'))
  refine ⟨?_, H'.frame FC ?_ hW', FC⟩
  · have j := HoldsR.join (y := fun i j => refl A.rows (t k) (qrw f k) b (k + i) j) (k := k) (n := 1) wf (by omega) hC ?_ ?_ F (dCW.mono_right sW)
    · refine Holds.congr j fun i j _ _ => ?_
      have e : ∀ i j, (if i < k then b i j else refl A.rows (t k) (qrw f k) b (k + (i - k)) j) = refl A.rows (t k) (qrw f k) b i j := by
        intro i j
        by_cases c : i < k
        · rw [if_pos c, refl, qrw, if_pos c]; ring
        · rw [if_neg c, show k + (i - k) = i by omega]
      simp only [e]
    · refine Holds.congr (HoldsR.ofV q1) fun i j hi hj => ?_
      have e : ∀ i j, i = 0 → b k j - t k * (b k j + ∑ l ∈ range (A.rows - k - 1), f (k + 1 + l) k * b (k + 1 + l) j) =
          refl A.rows (t k) (qrw f k) b (k + i) j := by
        intro i j hi
        subst hi
        rw [refl, sum_qrw f (fun l => b l j) (by omega)]
        simp only [Nat.add_zero]
        rw [qrw, if_neg (by omega), if_pos rfl]
        ring
      rw [(rsub_shape _ _ _ _).1] at hi
      rw [(rsub_shape _ _ _ _).2] at hj
      cases right
      · simp only [Bool.false_eq_true, if_false] at hi hj ⊢
        exact e i j (by omega)
      · simp only [if_true] at hi hj ⊢
        exact e j i (by omega)
    · refine Holds.congr q2 fun i j hi hj => ?_
      have e : ∀ i j, b (k + 1 + i) j - f (k + 1 + i) k * (t k * (b k j + ∑ l ∈ range (A.rows - k - 1), f (k + 1 + l) k * b (k + 1 + l) j)) =
          refl A.rows (t k) (qrw f k) b (k + (1 + i)) j := by
        intro i j
        rw [refl, sum_qrw f (fun l => b l j) (by omega), ← Nat.add_assoc, qrw, if_neg (by omega), if_neg (by omega)]
        ring
      cases right
      · exact e i j
      · exact e j i
  · rw [Set.disjoint_union_right]
    refine ⟨Set.disjoint_left.mpr fun p hp hq => Set.disjoint_left.mp dC hq (Or.inl hp), dW.symm⟩

/-! ### One block -/

/-- Block reflector and update of `blkQrmultLeftStep` and `blkQrmultRightStep`; `fw` means that the reflectors are applied in ascending order. -/
def qrmBlk0 (ab : α → α) (env : Env) (fuel : Nat) (right fw : Bool) (C A tau : View) (w W : Nat) (cbuf : Option Cache) (k nb : Nat)
    (m : Mem α) : Res (Mem α) := do
  let T : View := ⟨w, nb, nb, nb⟩
  let m ← qrReflector ab env fuel m T (A.sub k k (A.rows - k) nb) (tau.sub k 0 nb 1)
  updQr ab env fuel m (rsub right C k nb) (rsub right C (k + nb) (rlen right C - k - nb)) (A.sub k k nb nb)
    (A.sub (k + nb) k (A.rows - k - nb) nb) T ⟨W, rwid right C, rwid right C, nb⟩ right (!fw) cbuf

/-- The calls of `blkQrmultLeftStep` and `blkQrmultRightStep`. -/
def qrmBlk (ab : α → α) (env : Env) (fuel : Nat) (right fw : Bool) (C A tau : View) (w W : Nat) (cbuf : Option Cache) (k nb : Nat)
    (m : Mem α) : Res (Mem α) := do
  let (_, m) ← mscale m ⟨w, nb, nb, nb⟩ 0 .all false
  qrmBlk0 ab env fuel right fw C A tau w W cbuf k nb m

theorem qrmBlk_left (ab : α → α) (env : Env) (fuel : Nat) (trans : Bool) (C A tau : View) (w W : Nat) (cbuf : Option Cache) (k nb : Nat) :
    blkQrmultLeftStep ab env fuel C A tau w W trans cbuf k nb = qrmBlk ab env fuel false trans C A tau w W cbuf k nb := by
  funext m
  unfold blkQrmultLeftStep qrmBlk qrmBlk0
  simp only [updateQrLeft_eq]
  rfl

theorem qrmBlk_right (ab : α → α) (env : Env) (fuel : Nat) (trans : Bool) (C A tau : View) (w W : Nat) (cbuf : Option Cache) (k nb : Nat) :
    blkQrmultRightStep ab env fuel C A tau w W trans cbuf k nb = qrmBlk ab env fuel true (!trans) C A tau w W cbuf k nb := by
  funext m
  unfold blkQrmultRightStep qrmBlk qrmBlk0
  simp only [updateQrRight_eq, Bool.not_not]
  rfl

/-- The cache buffers are apart from everything else. -/
structure QrmCache (c : Cache) (C A tau : View) (w ws : Nat) : Prop where
  dC : Disjoint C.foot c.foot
  dA : Disjoint (A.foot ∪ tcells tau A.cols) c.foot
  dW : Disjoint (wcells w ws) c.foot

/-- The reflectors of the block of `nb` columns at `k`, applied to `b`. -/
def blkVal (M k nb : Nat) (fw : Bool) (t : Nat → α) (f b : Nat → Nat → α) (i j : Nat) : α :=
  if i < k then b i j else
    if fw then qrProdT (M - k) nb (fun l => t (k + l)) (fun i j => f (k + i) (k + j)) (fun i j => b (k + i) j) (i - k) j
    else qrProd (M - k) nb (fun l => t (k + l)) (fun i j => f (k + i) (k + j)) (fun i j => b (k + i) j) (i - k) j

theorem qrmBlk0_spec (ab : α → α) {env : Env} {c : Cache} (hc : Conf3 env c)
    {fuel : Nat} {m : Mem α} {right fw : Bool} {C A tau : View} {w ws k nb lb : Nat} {f b : Nat → Nat → α} {t : Nat → α}
    (H : QrmArgs m right C A tau w ws f t) (Hc : QrmCache c C A tau w ws) (R : c.Ready m) (hl : ∀ l, l < A.cols → l + 1 = A.rows → t l = 0)
    (hws : (rwid right C + lb) * lb ≤ ws) (hnb : nb ≤ lb) (hf : nb + rwid right C + nb < fuel) (hk : k + nb ≤ A.cols)
    (hC : HoldsR right m C b) {τ : Nat → Nat → α} (hτ1 : Holds m ⟨w, nb, nb, nb⟩ τ)
    (hz : ∀ p, p < nb → t (k + p) = 0 → (∀ i, i ≤ p → τ i p = 0) ∨
      (fw = false ∧ (∀ i, p < i → i < A.rows - k → f (k + i) (k + p) = 0) ∧ ∀ j, b (k + p) j = 0)) :
    Runs (qrmBlk0 ab env fuel right fw C A tau w (w + lb * lb) (some c) k nb m) (fun m' => HoldsR right m' C (blkVal A.rows k nb fw t f b) ∧
      QrmArgs m' right C A tau w ws f t ∧ c.Ready m' ∧ Frame (C.foot ∪ wcells w ws ∪ c.foot) m m') := by
  have H' := H
  obtain ⟨wf, len, sh, hA, ht, hW, dC, dW⟩ := H
  obtain ⟨cC, cA, cW⟩ := Hc
  have e1 : nb * nb ≤ lb * lb := Nat.mul_le_mul hnb hnb
  have e2 : rwid right C * nb ≤ rwid right C * lb := Nat.mul_le_mul_left _ hnb
  have e3 : (rwid right C + lb) * lb = rwid right C * lb + lb * lb := by ring
  have sT : (⟨w, nb, nb, nb⟩ : View).foot ⊆ wcells w (lb * lb) := view_wcells e1
  have sT' : (⟨w, nb, nb, nb⟩ : View).foot ⊆ wcells w ws := sT.trans fun p hp => ⟨hp.1, by have := hp.2; omega⟩
  have sV : (⟨w + lb * lb, rwid right C, rwid right C, nb⟩ : View).foot ⊆ wcells (w + lb * lb) (rwid right C * lb) := view_wcells e2
  have sV' : (⟨w + lb * lb, rwid right C, rwid right C, nb⟩ : View).foot ⊆ wcells w ws :=
    sV.trans fun p hp => ⟨by have := hp.1; omega, by have := hp.2; omega⟩
  have dTV : Disjoint (⟨w, nb, nb, nb⟩ : View).foot (⟨w + lb * lb, rwid right C, rwid right C, nb⟩ : View).foot :=
    Set.disjoint_left.mpr fun p hp hq => by have := (sT hp).2; have := (sV hq).1; omega
  have dCA : Disjoint C.foot A.foot := dC.mono_right fun p hp => Or.inl (Or.inl hp)
  have dCW : Disjoint C.foot (wcells w ws) := dC.mono_right fun p hp => Or.inr hp
  have dWA : Disjoint (wcells w ws) A.foot := dW.mono_right fun p hp => Or.inl hp
  have dtW : ∀ l, l < A.cols → tau.at' l 0 ∉ wcells w ws := fun l hl h => Set.disjoint_left.mp dW h (Or.inr ⟨l, hl, rfl⟩)
  have dAc : Disjoint A.foot c.foot := cA.mono_left fun p hp => Or.inl hp
  have et : ∀ p, (tau.sub k 0 nb 1).at' p 0 = tau.at' (k + p) 0 := fun p => by rw [View.at_sub]
  have sL : (A.sub k k (A.rows - k) nb).foot ⊆ A.foot := View.sub_foot (by omega) (by omega)
  have sY1 : (A.sub k k nb nb).foot ⊆ A.foot := View.sub_foot (by omega) (by omega)
  have sY2 : (A.sub (k + nb) k (A.rows - k - nb) nb).foot ⊆ A.foot := View.sub_foot (by omega) (by omega)
  have s1 := rsub_foot (right := right) (C := C) (k := k) (n := nb) (by omega)
  have s2 := rsub_foot (right := right) (C := C) (k := k + nb) (n := rlen right C - k - nb) (by omega)
  unfold qrmBlk0
  dsimp only
  have hL1 : Holds m (A.sub k k (A.rows - k) nb) (fun i j => f (k + i) (k + j)) := hA.part (by omega) (by omega)
  refine (qrReflector_weak ab (by rcases hc.min2 with h | h <;> [left; left] <;> omega) (t := fun l => t (k + l)) (Or.inl (le_refl _))
    (by simp only [View.sub_rows, View.sub_cols]; omega) (by simp only [View.sub_cols]; omega)
    (by simp only [View.sub_cols]; omega) (by simp only [View.sub_cols]; omega) hτ1 hL1
    (by
      intro p hp
      simp only [View.sub_cols] at hp
      rw [et]
      exact ht _ (by omega)) (dWA.symm.mono sL sT')
    (by intro p hp; rw [et]; simp only [View.sub_cols] at hp; exact fun h => dtW _ (by omega) (sT' h))
    (by
      intro p hp
      simp only [View.sub_cols] at hp
      by_cases h : p + 1 < A.rows - k
      · exact Or.inr (Or.inr (by simpa only [View.sub_rows] using h))
      · exact Or.inl (hl (k + p) (by omega) (by omega))) (by
      intro p hp h0
      simp only [View.sub_cols] at hp
      simp only [View.sub_rows]
      rcases hz p hp h0 with h | h
      · exact Or.inl h
      · exact Or.inr h.2.1)).bind ?_
  rintro m2 ⟨τ2, hτ2, hB, hK, F2⟩
  simp only [View.sub_rows, View.sub_cols] at hB
  have F12 : Frame (⟨w, nb, nb, nb⟩ : View).foot m m2 := F2
  have hA2 : Holds m2 A f := hA.frame F12 (dWA.symm.mono_right sT')
  have hC2 : HoldsR right m2 C b := Holds.frame hC F12 (dCW.mono_right sT')
  have hWV : WAlloc m (w + lb * lb) (rwid right C * nb) := fun p hp => by
    have := hW (lb * lb + p) (by omega)
    rwa [← Nat.add_assoc] at this
  obtain ⟨x, hx⟩ := hWV.view (le_refl _)
  have U : QrUpdArgs c m2 (rsub right C k nb) (rsub right C (k + nb) (rlen right C - k - nb)) (A.sub k k nb nb)
      (A.sub (k + nb) k (A.rows - k - nb) nb) ⟨w, nb, nb, nb⟩ ⟨w + lb * lb, rwid right C, rwid right C, nb⟩ nb (A.rows - k - nb) (rwid right C) right
      (fun i j => f (k + i) (k + j)) (fun i j => b (k + i) j) τ2 x := by
    refine ⟨(rsub_shape _ _ _ _).1, (rsub_shape _ _ _ _).2, by rw [(rsub_shape _ _ _ _).1, len], by rw [(rsub_shape _ _ _ _).2, len], ⟨rfl, rfl⟩, ⟨rfl, rfl⟩,
      ⟨rfl, rfl⟩, ⟨rfl, rfl⟩, rsub_wf wf (by omega), rsub_wf wf (by omega), Or.inl (le_refl _), R.frame F12 (cW.symm.mono_right sT'), hC2.part (by omega), ?_,
      hA2.part (by omega) (by omega), ?_, hτ2, hx.frame F12 dTV.symm, rsub_disj wf (by omega) (by omega) (le_refl _), dCW.mono s1 sV', dCW.mono s2 sV',
      ?_, ?_, ?_, ?_⟩
    · refine Holds.congr (hC2.part (k := k + nb) (n := rlen right C - k - nb) (by omega)) fun i j _ _ => ?_
      simp only [Nat.add_assoc]
    · refine (hA2.part (r := k + nb) (c := k) (nr := A.rows - k - nb) (nc := nb) (by omega) (by omega)).congr fun i j _ _ => ?_
      rw [Nat.add_assoc]
    · rw [Set.disjoint_union_right, Set.disjoint_union_right]
      exact ⟨⟨(dCA.mono s1 sY1).symm, (dCA.mono s2 sY1).symm⟩, (dWA.mono sV' sY1).symm⟩
    · rw [Set.disjoint_union_right, Set.disjoint_union_right]
      exact ⟨⟨(dCA.mono s1 sY2).symm, (dCA.mono s2 sY2).symm⟩, (dWA.mono sV' sY2).symm⟩
    · rw [Set.disjoint_union_right, Set.disjoint_union_right]
      exact ⟨⟨(dCW.mono s1 sT').symm, (dCW.mono s2 sT').symm⟩, dTV⟩
    · simp only [Set.disjoint_union_left]
      exact ⟨⟨⟨⟨⟨cC.mono_left s1, cC.mono_left s2⟩, cW.mono_left sV'⟩, dAc.mono_left sY1⟩, dAc.mono_left sY2⟩, cW.mono_left sT'⟩
  refine (updQr_spec ab hc (tA := !fw) U (by omega)).mono ?_
  rintro m3 ⟨c1, c2, F3, R3, x', hx'⟩
  have ebp : ∀ i j, blockProd (nb + (A.rows - k - nb)) nb (fun p q => if (!fw) = true then trm true false τ2 p q else trm true false τ2 q p)
      (fun i j => f (k + i) (k + j)) (fun i j => b (k + i) j) i j = blkVal A.rows k nb fw t f b (k + i) j := by
    intro i j
    rw [show nb + (A.rows - k - nb) = A.rows - k by omega, blkVal, if_neg (by omega), Nat.add_sub_cancel_left]
    cases fw
    · simp only [Bool.false_eq_true, if_false, Bool.not_false, if_true]
      rw [hB.prod]
      unfold blockProd
      congr 1
      refine sum_congr rfl fun p _ => ?_
      congr 1
      refine sum_congr rfl fun q hq => ?_
      have hq := mem_range.mp hq
      beta_reduce
      rw [trm_up, trm_up]
      by_cases c0 : t (k + q) = 0
      · rw [if_pos c0]
        rcases hz q hq c0 with h | ⟨-, h1, h2⟩
        · rw [hK p q c0]
          by_cases c1 : p ≤ q
          · rw [if_pos c1, if_pos c1, h p c1]
          · rw [if_neg c1, if_neg c1]
        · rw [sum_qrw (fun i j => f (k + i) (k + j)) (fun r => b (k + r) j) (show q < A.rows - k by omega), h2 j, sum_eq_zero, add_zero, mul_zero, mul_zero]
          intro r hr
          have := mem_range.mp hr
          rw [h1 _ (by omega) (by omega), zero_mul]
      · rw [if_neg c0]
    · simp only [if_true, Bool.not_true, Bool.false_eq_true, if_false]
      rw [hB.prodT]
      unfold blockProd
      congr 1
      refine sum_congr rfl fun p hp => ?_
      have hp := mem_range.mp hp
      congr 1
      refine sum_congr rfl fun q _ => ?_
      beta_reduce
      rw [trm_up, trm_up]
      by_cases c0 : t (k + p) = 0
      · rw [if_pos c0]
        rcases hz p hp c0 with h | ⟨h, -⟩
        · rw [hK q p c0]
          by_cases c1 : q ≤ p
          · rw [if_pos c1, if_pos c1, h q c1]
          · rw [if_neg c1, if_neg c1]
        · exact absurd h (by simp)
      · rw [if_neg c0]
  simp only [ebp] at c1 c2
  have F : Frame ((rsub right C k nb).foot ∪ (rsub right C (k + nb) (rlen right C - k - nb)).foot ∪ (wcells w ws ∪ c.foot)) m m3 := by
    refine (F12.mono ?_).trans (F3.mono ?_)
    · intro p hp; exact Or.inr (Or.inl (sT' hp))
    · rintro p (((hp | hp) | hp) | hp)
      · exact Or.inl (Or.inl hp)
      · exact Or.inl (Or.inr hp)
      · exact Or.inr (Or.inl (sV' hp))
      · exact Or.inr (Or.inr hp)
  have FC : Frame (C.foot ∪ wcells w ws ∪ c.foot) m m3 := F.mono (by
    rintro p ((hp | hp) | hp | hp)
    · exact Or.inl (Or.inl (s1 hp))
    · exact Or.inl (Or.inl (s2 hp))
    · exact Or.inl (Or.inr hp)
    · exact Or.inr hp)
  have hW3 : WAlloc m3 w ws := by
    intro p hp
    have hm : w + p ∈ wcells w ws := ⟨by omega, by omega⟩
    by_cases h1 : w + p ∈ (⟨w + lb * lb, rwid right C, rwid right C, nb⟩ : View).foot
    · obtain ⟨i, j, hi, hj, e⟩ := h1
      rw [e]; exact ⟨_, hx' i j hi hj⟩
    · rw [F3 _ ?_]
      · by_cases h2 : w + p ∈ (⟨w, nb, nb, nb⟩ : View).foot
        · obtain ⟨i, j, hi, hj, e⟩ := h2
          rw [e]; exact ⟨_, hτ2 i j hi hj⟩
        · rw [F12 _ h2]; exact hW p hp
      · rintro (((h' | h') | h') | h')
        · exact Set.disjoint_left.mp dCW (s1 h') hm
        · exact Set.disjoint_left.mp dCW (s2 h') hm
        · exact h1 h'
        · exact Set.disjoint_left.mp cW hm h'
  refine ⟨?_, H'.frame FC ?_ hW3, R3, FC⟩
  · have j := HoldsR.join (y := fun i j => blkVal A.rows k nb fw t f b (k + i) j) (k := k) (n := nb) wf (by omega) hC ?_ ?_ F
      (Set.disjoint_union_right.mpr ⟨dCW, cC⟩)
    · refine Holds.congr j fun i j _ _ => ?_
      have e : ∀ i j, (if i < k then b i j else blkVal A.rows k nb fw t f b (k + (i - k)) j) = blkVal A.rows k nb fw t f b i j := by
        intro i j
        by_cases c : i < k
        · rw [if_pos c, blkVal, if_pos c]
        · rw [if_neg c, show k + (i - k) = i by omega]
      simp only [e]
    · exact c1
    · exact c2
  · rw [Set.disjoint_union_right, Set.disjoint_union_right]
    exact ⟨⟨Set.disjoint_left.mpr fun p hp hq => Set.disjoint_left.mp dC hq (Or.inl hp), dW.symm⟩, cA⟩

theorem qrmBlk_spec (ab : α → α) {env : Env} {c : Cache} (hc : Conf3 env c)
    {fuel : Nat} {m : Mem α} {right fw : Bool} {C A tau : View} {w ws k nb lb : Nat} {f b : Nat → Nat → α} {t : Nat → α}
    (H : QrmArgs m right C A tau w ws f t) (Hc : QrmCache c C A tau w ws) (R : c.Ready m) (hl : ∀ l, l < A.cols → l + 1 = A.rows → t l = 0)
    (hws : (rwid right C + lb) * lb ≤ ws) (hnb : nb ≤ lb) (hf : nb + rwid right C + nb < fuel) (hk : k + nb ≤ A.cols)
    (hC : HoldsR right m C b) :
    Runs (qrmBlk ab env fuel right fw C A tau w (w + lb * lb) (some c) k nb m) (fun m' => HoldsR right m' C (blkVal A.rows k nb fw t f b) ∧
      QrmArgs m' right C A tau w ws f t ∧ c.Ready m' ∧ Frame (C.foot ∪ wcells w ws ∪ c.foot) m m') := by
  have H' := H
  obtain ⟨wf, len, sh, hA, ht, hW, dC, dW⟩ := H
  have e1 : nb * nb ≤ lb * lb := Nat.mul_le_mul hnb hnb
  have e3 : (rwid right C + lb) * lb = rwid right C * lb + lb * lb := by ring
  have sT' : (⟨w, nb, nb, nb⟩ : View).foot ⊆ wcells w ws := (view_wcells e1).trans fun p hp => ⟨hp.1, by have := hp.2; omega⟩
  have dCW : Disjoint C.foot (wcells w ws) := dC.mono_right fun p hp => Or.inr hp
  unfold qrmBlk
  obtain ⟨τ0, hτ0⟩ := (hW.le (n' := nb * nb) (by omega)).view (le_refl _)
  refine ((Props.C51_mscale_all (alpha := 0) (unit := false) (Or.inl (le_refl _)) hτ0).1).bind ?_
  rintro ⟨e, m1⟩ ⟨-, hτ1, F1⟩
  dsimp only at hτ1 F1 ⊢
  have hW1 : WAlloc m1 w ws := by
    intro p hp
    by_cases h2 : w + p ∈ (⟨w, nb, nb, nb⟩ : View).foot
    · obtain ⟨i, j, hi, hj, e⟩ := h2
      rw [e]; exact ⟨_, hτ1 i j hi hj⟩
    · rw [F1 _ h2]; exact hW p hp
  refine (qrmBlk0_spec ab hc (H'.frame F1 (dW.symm.mono_right sT') hW1) Hc (R.frame F1 (Hc.dW.symm.mono_right sT')) hl hws hnb hf hk
    (Holds.frame hC F1 (dCW.mono_right sT')) hτ1 (fun p _ _ => Or.inl fun i _ => by ring)).mono ?_
  rintro m2 ⟨q1, q2, q3, q4⟩
  exact ⟨q1, q2, q3, (F1.mono fun p hp => Or.inl (Or.inr (sT' hp))).trans q4⟩

/-! ### All columns -/

theorem HoldsR.congr {right : Bool} {m : Mem α} {C : View} {b b' : Nat → Nat → α} (h : HoldsR right m C b)
    (e : ∀ i j, i < rlen right C → b i j = b' i j) : HoldsR right m C b' := by
  refine Holds.congr h fun i j hi hj => ?_
  cases right
  · exact e i j hi
  · exact e j i hj

/-- What is computed. -/
def qrVal (M N : Nat) (fw : Bool) (t : Nat → α) (f b : Nat → Nat → α) (i j : Nat) : α :=
  if fw then qrProdT M N t f b i j else qrProd M N t f b i j

/-- Common program of the unblocked versions. -/
def qrmUnb (ab : α → α) (env : Env) (fuel : Nat) (right fw : Bool) (m : Mem α) (C A tau : View) (W : Nat) : Res (Mem α) :=
  if fw then do
    let (_, m) ← forUp 0 (min A.rows A.cols) 1 (qrmStep ab env fuel right C A tau W) m
    pure m
  else forDown (min A.rows A.cols) (qrmStep ab env fuel right C A tau W) m

theorem qrmUnb_left (ab : α → α) (env : Env) (fuel : Nat) (trans : Bool) (m : Mem α) (C A tau : View) (W : Nat) (h : A.cols ≤ A.rows) :
    unblkQrmultLeft ab env fuel m C A tau W trans = qrmUnb ab env fuel false trans m C A tau W := by
  unfold unblkQrmultLeft qrmUnb
  dsimp only
  rw [Nat.min_eq_right h, Nat.sub_self]
  rfl

theorem qrmUnb_right (ab : α → α) (env : Env) (fuel : Nat) (trans : Bool) (m : Mem α) (C A tau : View) (W : Nat) :
    unblkQrmultRight ab env fuel m C A tau W trans = qrmUnb ab env fuel true (!trans) m C A tau W := by
  unfold unblkQrmultRight qrmUnb
  cases trans <;> rfl

theorem qrmUnb_spec (ab : α → α) {env : Env} (hmin : 2 ≤ env.blas2min ∨ (env.naive = true ∧ env.recursive = false))
    {fuel : Nat} {m : Mem α} {right fw : Bool} {C A tau : View} {w ws : Nat} {f b : Nat → Nat → α} {t : Nat → α}
    (H : QrmArgs m right C A tau w ws f t) (hws : rwid right C ≤ ws) (hf : A.rows < fuel) (hf' : rwid right C < fuel) (hC : HoldsR right m C b) :
    Runs (qrmUnb ab env fuel right fw m C A tau w) (fun m' => HoldsR right m' C (qrVal A.rows A.cols fw t f b) ∧
      QrmArgs m' right C A tau w ws f t ∧ Frame (C.foot ∪ wcells w ws) m m') := by
  unfold qrmUnb
  rw [Nat.min_eq_right H.sh]
  cases fw
  · rw [if_neg (by simp)]
    refine Runs.forDown (I := fun k m' => ∃ y, HoldsR right m' C y ∧ (∀ i j, i < A.rows → qrProd A.rows k t f y i j = qrProd A.rows A.cols t f b i j) ∧
      QrmArgs m' right C A tau w ws f t ∧ Frame (C.foot ∪ wcells w ws) m m') ⟨b, hC, fun _ _ _ => rfl, H, Frame.refl _ _⟩ ?_ ?_
    · rintro k m1 hk ⟨y, hy, e, H1, F1⟩
      refine (qrmStep_spec ab hmin H1 hws hf hf' hk hy).mono ?_
      rintro m2 ⟨q1, q2, q3⟩
      exact ⟨_, q1, fun i j hi => by rw [← e i j hi]; rfl, q2, F1.trans q3⟩
    · rintro m' ⟨y, hy, e, H1, F1⟩
      refine ⟨hy.congr fun i j hi => ?_, H1, F1⟩
      rw [H.len] at hi
      exact e i j hi
  · rw [if_pos rfl]
    refine Runs.bind (P := fun r => HoldsR right r.2 C (qrProdT A.rows A.cols t f b) ∧
      QrmArgs r.2 right C A tau w ws f t ∧ Frame (C.foot ∪ wcells w ws) m r.2) ?_ ?_
    · refine Runs.forUp1 (i := 0) (n := A.cols) (I := fun k m' => HoldsR right m' C (qrProdT A.rows k t f b) ∧ QrmArgs m' right C A tau w ws f t ∧
        Frame (C.foot ∪ wcells w ws) m m') (Nat.zero_le _) ⟨hC, H, Frame.refl _ _⟩ ?_ (fun st h => h)
      rintro k m1 - hk ⟨hy, H1, F1⟩
      refine (qrmStep_spec ab hmin H1 hws hf hf' hk hy).mono ?_
      rintro m2 ⟨q1, q2, q3⟩
      exact ⟨q1, q2, F1.trans q3⟩
    · rintro ⟨k, m'⟩ h
      exact Runs.pure h

/-- Common program of the blocked versions. -/
def qrmBlks (ab : α → α) (env : Env) (fuel : Nat) (right fw : Bool) (m : Mem α) (C A tau : View) (w W lb : Nat) (cbuf : Option Cache) :
    Res (Mem α) := do
  let n := min A.rows A.cols
  let (_, m) ← (if fw then forUp 0 n lb (fun k => qrmBlk ab env fuel right fw C A tau w W cbuf k (min lb (n - k))) m
    else forUp 0 n lb (fun d => qrmBlk ab env fuel right fw C A tau w W cbuf (n - d - min lb (n - d)) (min lb (n - d))) m)
  pure m

theorem qrmBlks_left (ab : α → α) (env : Env) (fuel : Nat) (trans : Bool) (m : Mem α) (C A tau : View) (w W lb : Nat) (cbuf : Option Cache) :
    blkQrmultLeft ab env fuel m C A tau w W trans lb cbuf = qrmBlks ab env fuel false trans m C A tau w W lb cbuf := by
  unfold blkQrmultLeft qrmBlks
  simp only [qrmBlk_left]

theorem qrmBlks_right (ab : α → α) (env : Env) (fuel : Nat) (trans : Bool) (m : Mem α) (C A tau : View) (w W lb : Nat) (cbuf : Option Cache) :
    blkQrmultRight ab env fuel m C A tau w W trans lb cbuf = qrmBlks ab env fuel true (!trans) m C A tau w W lb cbuf := by
  unfold blkQrmultRight qrmBlks
  simp only [qrmBlk_right]
  cases trans <;> simp only [Bool.not_true, Bool.not_false, if_true, Bool.false_eq_true, if_false]

theorem qrmBlks_spec (ab : α → α) {env : Env} {c : Cache} (hc : Conf3 env c)
    {fuel : Nat} {m : Mem α} {right fw : Bool} {C A tau : View} {w ws lb : Nat} {f b : Nat → Nat → α} {t : Nat → α}
    (H : QrmArgs m right C A tau w ws f t) (Hc : QrmCache c C A tau w ws) (R : c.Ready m) (hl : ∀ l, l < A.cols → l + 1 = A.rows → t l = 0)
    (hws : (rwid right C + lb) * lb ≤ ws) (hlb : 0 < lb) (hf : lb + rwid right C + lb < fuel) (hC : HoldsR right m C b) :
    Runs (qrmBlks ab env fuel right fw m C A tau w (w + lb * lb) lb (some c)) (fun m' => HoldsR right m' C (qrVal A.rows A.cols fw t f b) ∧
      QrmArgs m' right C A tau w ws f t ∧ Frame (C.foot ∪ wcells w ws ∪ c.foot) m m' ∧ c.Ready m') := by
  have sh := H.sh
  unfold qrmBlks
  dsimp only
  rw [Nat.min_eq_right sh]
  refine Runs.bind (P := fun r => HoldsR right r.2 C (qrVal A.rows A.cols fw t f b) ∧
      QrmArgs r.2 right C A tau w ws f t ∧ Frame (C.foot ∪ wcells w ws ∪ c.foot) m r.2 ∧ c.Ready r.2) ?_ ?_
  swap
  · rintro ⟨k, m'⟩ h
    exact Runs.pure h
  cases fw
  · rw [if_neg (by simp)]
    refine Runs.forUp (I := fun d m' => ∃ y, HoldsR right m' C y ∧ (∀ i j, i < A.rows → qrProd A.rows (A.cols - d) t f y i j = qrProd A.rows A.cols t f b i j) ∧
      QrmArgs m' right C A tau w ws f t ∧ c.Ready m' ∧ Frame (C.foot ∪ wcells w ws ∪ c.foot) m m') hlb ⟨b, hC, fun _ _ _ => rfl, H, R, Frame.refl _ _⟩ ?_ ?_
    · rintro d m1 - hd ⟨y, hy, e, H1, R1, F1⟩
      refine (qrmBlk_spec ab hc (fw := false) H1 Hc R1 hl hws (k := A.cols - d - min lb (A.cols - d)) (nb := min lb (A.cols - d)) (by omega) (by omega) (by omega) hy).mono ?_
      rintro m2 ⟨q1, q2, q3, q4⟩
      refine ⟨_, q1, fun i j hi => ?_, q2, q3, F1.trans q4⟩
      rw [← e i j hi]
      have := qrProd_shift (M := A.rows) (k := A.cols - d - min lb (A.cols - d)) (by omega) (min lb (A.cols - d)) t f y j i hi
      rw [show A.cols - d - min lb (A.cols - d) + min lb (A.cols - d) = A.cols - d by omega] at this
      rw [this, show A.cols - (d + lb) = A.cols - d - min lb (A.cols - d) by omega]
      rfl
    · rintro d m1 hd - ⟨y, hy, e, H1, R1, F1⟩
      refine ⟨hy.congr fun i j hi => ?_, H1, F1, R1⟩
      rw [H.len] at hi
      have := e i j hi
      rw [show A.cols - d = 0 by omega] at this
      exact this
  · rw [if_pos rfl]
    refine Runs.forUp (I := fun k m' => HoldsR right m' C (qrProdT A.rows (min k A.cols) t f b) ∧
      QrmArgs m' right C A tau w ws f t ∧ c.Ready m' ∧ Frame (C.foot ∪ wcells w ws ∪ c.foot) m m') hlb ⟨by rw [Nat.zero_min]; exact hC, H, R, Frame.refl _ _⟩ ?_ ?_
    · rintro k m1 - hk ⟨hy, H1, R1, F1⟩
      refine (qrmBlk_spec ab hc (fw := true) H1 Hc R1 hl hws (k := k) (nb := min lb (A.cols - k)) (by omega) (by omega) (by omega) hy).mono ?_
      rintro m2 ⟨q1, q2, q3, q4⟩
      refine ⟨q1.congr fun i j hi => ?_, q2, q3, F1.trans q4⟩
      rw [H.len] at hi
      rw [show min (k + lb) A.cols = k + min lb (A.cols - k) by omega, qrProdT_shift (by omega) _ t f b j i hi, blkVal, show min k A.cols = k by omega]
      rfl
    · rintro k m1 hk - ⟨hy, H1, R1, F1⟩
      rw [show min k A.cols = A.cols by omega] at hy
      exact ⟨hy, H1, F1, R1⟩

end col

theorem qrProdT_congr {α : Type} [CommRing α] {M N k : Nat} {t t' : Nat → α} {f f' b b' : Nat → Nat → α} (ht : ∀ l, l < k → t l = t' l)
    (hf : ∀ i l, i < M → l < k → f i l = f' i l) (hb : ∀ i j, i < M → j < N → b i j = b' i j) :
    ∀ i j, i < M → j < N → qrProdT M k t f b i j = qrProdT M k t' f' b' i j := by
  induction k with
  | zero => exact hb
  | succ k ih =>
    intro i j hi hj
    unfold qrProdT
    rw [ht k (by omega)]
    refine refl_congr hi (fun l hl => ?_) fun l hl => ih (fun l hl => ht l (by omega)) (fun i l hi hl => hf i l hi (by omega)) l j hl hj
    unfold qrw
    rw [hf l k hl (by omega)]

end Armas
