import Verif.Updtrm
import Verif.TrxmLemmas

/-! # Specification of the triangular rank-k update -/

namespace Armas

open Finset Classical

variable {α : Type}

/-! ## A part of a matrix that is updated step by step, with the copy buffers as scratch -/

/-- Elements of `V` in `T` are allocated; those in `S` have their new values `g`, others the old ones
`f`; everything else except for the buffers is as in `m0`. -/
structure UpdC (c : Cache) (m0 : Mem α) (V : View) (T : Nat → Nat → Prop) (f g : Nat → Nat → α)
    (S : Nat → Nat → Prop) (m : Mem α) : Prop where
  hold : HoldsOn m V T (fun i j => if S i j then g i j else f i j)
  frame : Frame (V.footOn T ∪ c.foot) m0 m
  ready : c.Ready m

namespace UpdC

variable {c : Cache} {m0 m m' : Mem α} {V : View} {f g : Nat → Nat → α} {T T' S : Nat → Nat → Prop}

theorem init (h : HoldsOn m0 V T f) (hc : c.Ready m0) (g : Nat → Nat → α) :
    UpdC c m0 V T f g (fun i _ => i < 0) m0 :=
  ⟨h.congr (by intros; simp), Frame.refl _ _, hc⟩

theorem congr {S' : Nat → Nat → Prop} (h : UpdC c m0 V T f g S m)
    (e : ∀ i j, i < V.rows → j < V.cols → T i j → (S i j ↔ S' i j)) : UpdC c m0 V T f g S' m :=
  ⟨h.hold.congr (fun i j hi hj ht => by simp only [e i j hi hj ht]), h.frame, h.ready⟩

theorem all (h : UpdC c m0 V T f g S m) (hS : ∀ i j, i < V.rows → j < V.cols → T i j → S i j) :
    HoldsOn m V T g := h.hold.congr (fun i j hi hj ht => by rw [if_pos (hS i j hi hj ht)])

/-- Starting point for a subroutine on a part of an untouched block. -/
theorem sub_old (h : UpdC c m0 V T f g S m) {r q nr nc : Nat}
    (hr : r + nr ≤ V.rows) (hq : q + nc ≤ V.cols)
    (hT : ∀ i j, i < nr → j < nc → T' i j → T (r + i) (q + j))
    (hS : ∀ i j, i < nr → j < nc → T' i j → ¬ S (r + i) (q + j)) :
    HoldsOn m (V.sub r q nr nc) T' (fun i j => f (r + i) (q + j)) :=
  (h.hold.sub hr hq hT).congr (fun i j hi hj ht => by
    rw [View.sub_rows] at hi; rw [View.sub_cols] at hj
    rw [if_neg (hS i j hi hj ht)])

/-- A part of a block was updated by a subroutine. -/
theorem absorb (h : UpdC c m0 V T f g S m) (hw : V.WF) (hd : Disjoint (V.footOn T) c.foot)
    {r q nr nc : Nat} (hr : r + nr ≤ V.rows) (hq : q + nc ≤ V.cols)
    (hT : ∀ i j, i < nr → j < nc → (T' i j ↔ T (r + i) (q + j)))
    (hb : HoldsOn m' (V.sub r q nr nc) T' (fun i j => g (r + i) (q + j)))
    (hf : Frame ((V.sub r q nr nc).footOn T' ∪ c.foot) m m') (hc : c.Ready m') :
    UpdC c m0 V T f g (fun i j => S i j ∨ (r ≤ i ∧ i < r + nr ∧ q ≤ j ∧ j < q + nc)) m' := by
  refine ⟨?_, h.frame.trans (hf.mono (Set.union_subset_union_left _ (View.footOn_sub hr hq
    (fun i j hi hj ht => (hT i j hi hj).mp ht)))), hc⟩
  intro i j hi hj ht
  by_cases hin : r ≤ i ∧ i < r + nr ∧ q ≤ j ∧ j < q + nc
  · have e := hb (i - r) (j - q) (by rw [View.sub_rows]; omega) (by rw [View.sub_cols]; omega)
      ((hT _ _ (by omega) (by omega)).mpr (by
        rwa [show r + (i - r) = i by omega, show q + (j - q) = j by omega]))
    rw [View.at_sub, show r + (i - r) = i by omega, show q + (j - q) = j by omega] at e
    rw [e]; dsimp only
    rw [if_pos (Or.inr hin), show r + (i - r) = i by omega, show q + (j - q) = j by omega]
  · rw [hf, h.hold i j hi hj ht]
    · dsimp only
      by_cases hs : S i j
      · rw [if_pos hs, if_pos (Or.inl hs)]
      · rw [if_neg hs, if_neg (by tauto)]
    · rintro (⟨i', j', hi', hj', -, e⟩ | hp)
      · rw [View.sub_rows] at hi'
        rw [View.sub_cols] at hj'
        rw [View.at_sub] at e
        have := View.at_inj hw hi hj (show r + i' < V.rows by omega) (show q + j' < V.cols by omega) e
        omega
      · exact Set.disjoint_left.mp hd ⟨i, j, hi, hj, ht, rfl⟩ hp

end UpdC

/-- A whole block as a part of itself. -/
theorem HoldsOn.toHolds {m : Mem α} {V : View} {f : Nat → Nat → α} (h : HoldsOn m V (fun _ _ => True) f) :
    Holds m V f := fun i j hi hj => h i j hi hj trivial

theorem View.footOn_true (V : View) : V.footOn (fun _ _ => True) = V.foot := by
  ext p; constructor
  · rintro ⟨i, j, hi, hj, -, rfl⟩; exact ⟨i, j, hi, hj, rfl⟩
  · rintro ⟨i, j, hi, hj, rfl⟩; exact ⟨i, j, hi, hj, trivial, rfl⟩

section
variable [CommRing α] [DecidableEq α]

/-! ## Operands -/

/-- The value that an element gets. -/
def updVal (beta alpha : α) (K : Nat) (f x y : Nat → Nat → α) (i j : Nat) : α :=
  beta * f i j + alpha * ∑ k ∈ range K, x i k * y k j

/-- Data of the operation: `op(A)` is `M` by `K` with elements `x`, `op(B)` is `K` by `N` with elements `y`, `C` is
`M` by `N`. -/
structure UpdPre (c : Cache) (m : Mem α) (C A B : View) (fl : Flags) (M N K : Nat)
    (x y : Nat → Nat → α) : Prop where
  absA : fl.absA = false
  absB : fl.absB = false
  wf : C.WF
  hK : 0 < K
  Cr : C.rows = M
  Cc : C.cols = N
  Ar : A.rows = if fl.transA then K else M
  Ac : A.cols = if fl.transA then M else K
  Br : B.rows = if fl.transB then N else K
  Bc : B.cols = if fl.transB then K else N
  hA : Holds m A (opM fl.transA x)
  hB : Holds m B (opM fl.transB y)
  dA : Disjoint A.foot c.foot
  dB : Disjoint B.foot c.foot
  dC : Disjoint (C.footOn (InTri fl.upper false)) c.foot
  dAC : Disjoint A.foot (C.footOn (InTri fl.upper false))
  dBC : Disjoint B.foot (C.footOn (InTri fl.upper false))

namespace UpdPre
variable {c : Cache} {m m' : Mem α} {C A B : View} {fl : Flags} {M N K : Nat} {x y : Nat → Nat → α}

theorem next (H : UpdPre c m C A B fl M N K x y)
    (hf : Frame (C.footOn (InTri fl.upper false) ∪ c.foot) m m') : UpdPre c m' C A B fl M N K x y :=
  { H with
    hA := H.hA.frame hf (Set.disjoint_union_right.mpr ⟨H.dAC, H.dA⟩)
    hB := H.hB.frame hf (Set.disjoint_union_right.mpr ⟨H.dBC, H.dB⟩) }

theorem rowsHold (H : UpdPre c m C A B fl M N K x y) {p n : Nat} (hp : p + n ≤ M) :
    Holds m (rowsOf fl A p n) (opM fl.transA (fun i k => x (p + i) k)) := by
  have := H.hA; have h1 := H.Ar; have h2 := H.Ac
  unfold rowsOf
  revert this h1 h2
  cases fl.transA <;> simp only [Bool.false_eq_true, if_true, if_false] <;> intro h h1 h2
  · exact (h.sub (by omega) (by omega)).congr (fun i j _ _ => by simp [opM])
  · exact (h.sub (by omega) (by omega)).congr (fun i j _ _ => by simp [opM])

theorem rowsFoot (H : UpdPre c m C A B fl M N K x y) {p n : Nat} (hp : p + n ≤ M) :
    (rowsOf fl A p n).foot ⊆ A.foot := by
  have h1 := H.Ar; have h2 := H.Ac
  unfold rowsOf
  revert h1 h2
  cases fl.transA <;> simp only [Bool.false_eq_true, if_true, if_false] <;> intro h1 h2 <;>
    exact View.sub_foot (by omega) (by omega)

theorem colsHold (H : UpdPre c m C A B fl M N K x y) {p n : Nat} (hp : p + n ≤ N) :
    Holds m (colsOf fl B p n) (opM fl.transB (fun k j => y k (p + j))) := by
  have := H.hB; have h1 := H.Br; have h2 := H.Bc
  unfold colsOf
  revert this h1 h2
  cases fl.transB <;> simp only [Bool.false_eq_true, if_true, if_false] <;> intro h h1 h2
  · exact (h.sub (by omega) (by omega)).congr (fun i j _ _ => by simp [opM])
  · exact (h.sub (by omega) (by omega)).congr (fun i j _ _ => by simp [opM])

theorem colsFoot (H : UpdPre c m C A B fl M N K x y) {p n : Nat} (hp : p + n ≤ N) :
    (colsOf fl B p n).foot ⊆ B.foot := by
  have h1 := H.Br; have h2 := H.Bc
  unfold colsOf
  revert h1 h2
  cases fl.transB <;> simp only [Bool.false_eq_true, if_true, if_false] <;> intro h1 h2 <;>
    exact View.sub_foot (by omega) (by omega)

theorem rowsDim (H : UpdPre c m C A B fl M N K x y) (p n : Nat) :
    (rowsOf fl A p n).rows = (if fl.transA then K else n) ∧
    (rowsOf fl A p n).cols = if fl.transA then n else K := by
  have h1 := H.Ar; have h2 := H.Ac
  unfold rowsOf
  revert h1 h2
  cases fl.transA <;> simp +contextual

theorem colsDim (H : UpdPre c m C A B fl M N K x y) (p n : Nat) :
    (colsOf fl B p n).rows = (if fl.transB then n else K) ∧
    (colsOf fl B p n).cols = if fl.transB then K else n := by
  have h1 := H.Br; have h2 := H.Bc
  unfold colsOf
  revert h1 h2
  cases fl.transB <;> simp +contextual

theorem nRows_eq (H : UpdPre c m C A B fl M N K x y) : nRows fl A = M := by
  unfold nRows; rw [H.Ar, H.Ac]; cases fl.transA <;> rfl

theorem nCols_eq (H : UpdPre c m C A B fl M N K x y) : nCols fl B = N := by
  unfold nCols; rw [H.Br, H.Bc]; cases fl.transB <;> rfl

theorem rows_all (H : UpdPre c m C A B fl M N K x y) : rowsOf fl A 0 M = A := by
  have h1 := H.Ar; have h2 := H.Ac
  unfold rowsOf
  revert h1 h2
  cases fl.transA <;> simp only [Bool.false_eq_true, if_true, if_false] <;> intro h1 h2
  · rw [← h1]; exact View.sub_zero A
  · rw [← h2]; exact View.sub_zero A

theorem cols_all (H : UpdPre c m C A B fl M N K x y) : colsOf fl B 0 N = B := by
  have h1 := H.Br; have h2 := H.Bc
  unfold colsOf
  revert h1 h2
  cases fl.transB <;> simp only [Bool.false_eq_true, if_true, if_false] <;> intro h1 h2
  · rw [← h2]; exact View.sub_zero B
  · rw [← h1]; exact View.sub_zero B

/-- A diagonal block. -/
theorem diag (H : UpdPre c m C A B fl M N K x y) {p n : Nat} (hp : p + n ≤ M) (hq : p + n ≤ N) :
    UpdPre c m (C.sub p p n n) (rowsOf fl A p n) (colsOf fl B p n) fl n n K
      (fun i k => x (p + i) k) (fun k j => y k (p + j)) := by
  have hs : (C.sub p p n n).footOn (InTri fl.upper false) ⊆ C.footOn (InTri fl.upper false) :=
    View.footOn_sub (by rw [H.Cr]; exact hp) (by rw [H.Cc]; exact hq)
      (fun i j _ _ h => (inTri_shift _ _ _ _ _).mpr h)
  exact ⟨H.absA, H.absB, H.wf.sub (by rw [H.Cr]; exact hp) (by rw [H.Cc]; exact hq), H.hK, rfl, rfl,
    (H.rowsDim p n).1, (H.rowsDim p n).2, (H.colsDim p n).1, (H.colsDim p n).2,
    H.rowsHold hp, H.colsHold hq, H.dA.mono_left (H.rowsFoot hp), H.dB.mono_left (H.colsFoot hq),
    H.dC.mono_left hs, (H.dAC.mono_left (H.rowsFoot hp)).mono_right hs,
    (H.dBC.mono_left (H.colsFoot hq)).mono_right hs⟩

end UpdPre

variable {c : Cache} {m m' : Mem α} {C A B : View} {fl : Flags} {M N K : Nat} {x y f : Nat → Nat → α}

/-- Update of a full block of the triangle by the kernel. -/
theorem updKernel_spec (ab : α → α) (beta alpha : α) (H : UpdPre c m C A B fl M N K x y)
    (hc : c.Ready m) {p q nr nc : Nat} (hp : p + nr ≤ M) (hq : q + nc ≤ N)
    (hT : ∀ i j, i < nr → j < nc → InTri fl.upper false (p + i) (q + j))
    (hC : HoldsOn m (C.sub p q nr nc) (fun _ _ => True) (fun i j => f (p + i) (q + j))) :
    Runs (multKernel ab m beta (C.sub p q nr nc) alpha (rowsOf fl A p nr) (colsOf fl B q nc) fl c)
      (fun m' => HoldsOn m' (C.sub p q nr nc) (fun _ _ => True)
          (fun i j => updVal beta alpha K f x y (p + i) (q + j)) ∧
        Frame ((C.sub p q nr nc).footOn (fun _ _ => True) ∪ c.foot) m m' ∧ c.Ready m') := by
  have hs : (C.sub p q nr nc).foot ⊆ C.footOn (InTri fl.upper false) :=
    View.foot_sub_footOn (by rw [H.Cr]; exact hp) (by rw [H.Cc]; exact hq) hT
  have d1 := H.rowsDim p nr
  have d2 := H.colsDim q nc
  rw [View.footOn_true]
  refine (multKernel_spec ab fl beta alpha
    (H.wf.sub (by rw [H.Cr]; exact hp) (by rw [H.Cc]; exact hq)) hc (H.rowsHold hp) (H.colsHold hq)
    hC.toHolds (H.dA.mono_left (H.rowsFoot hp)) (H.dB.mono_left (H.colsFoot hq)) (H.dC.mono_left hs)
    ((H.dAC.mono_left (H.rowsFoot hp)).mono_right hs)
    ((H.dBC.mono_left (H.colsFoot hq)).mono_right hs) ?_ ?_ ?_).mono ?_
  · rw [d1.1, d1.2, View.sub_rows]; cases fl.transA <;> rfl
  · rw [d2.1, d2.2, View.sub_cols]; cases fl.transB <;> rfl
  · rw [d1.1, d1.2, d2.1, d2.2]; cases fl.transA <;> cases fl.transB <;> rfl
  · rintro m' ⟨h1, h2, h3⟩
    refine ⟨HoldsOn.of_holds (h1.congr ?_), h2, h3⟩
    intro i j _ _
    rw [d1.1, d1.2, show (if fl.transA = true then if fl.transA = true then K else nr
      else if fl.transA = true then nr else K) = K by cases fl.transA <;> rfl]
    unfold updVal
    congr 2
    refine Finset.sum_congr rfl (fun k _ => ?_)
    rw [Flags.elt_id H.absA H.absB, Flags.elt_id H.absA H.absB]
    cases fl.transA <;> cases fl.transB <;> rfl


/-- Outcome of the update of the triangle of a matrix. -/
def UpdDone (c : Cache) (m : Mem α) (C : View) (fl : Flags) (g : Nat → Nat → α) (m' : Mem α) : Prop :=
  HoldsOn m' C (InTri fl.upper false) g ∧ Frame (C.footOn (InTri fl.upper false) ∪ c.foot) m m' ∧
    c.Ready m'

theorem holdsV_row {m : Mem α} {V : View} {g : Nat → Nat → α} (h : Holds m V g) (hr : V.rows = 1) :
    HoldsV m V (fun k => g 0 k) :=
  (holdsV_iff (Or.inl hr)).mpr (h.congr (fun i j hi _ => by
    rw [hr] at hi; have : i = 0 := by omega
    subst this; rw [Nat.zero_add]))

theorem holdsV_col {m : Mem α} {V : View} {g : Nat → Nat → α} (h : Holds m V g) (hr : V.cols = 1) :
    HoldsV m V (fun k => g k 0) :=
  (holdsV_iff (Or.inr hr)).mpr (h.congr (fun i j _ hj => by
    rw [hr] at hj; have : j = 0 := by omega
    subst this; rw [Nat.add_zero]))

theorem UpdPre.rowV (H : UpdPre c m C A B fl M N K x y) {i : Nat} (hi : i < M) :
    HoldsV m (rowsOf fl A i 1) (fun k => x i k) ∧ (rowsOf fl A i 1).isVec ∧
      (rowsOf fl A i 1).size = K := by
  have h := H.rowsHold (p := i) (n := 1) (by omega)
  have d := H.rowsDim i 1
  generalize rowsOf fl A i 1 = V at h d ⊢
  unfold View.size View.isVec
  revert h d
  cases fl.transA <;> simp only [Bool.false_eq_true, if_true, if_false] <;> rintro h ⟨d1, d2⟩
  · exact ⟨holdsV_row h d1, Or.inl d1, by rw [d1, d2, one_mul]⟩
  · exact ⟨holdsV_col h d2, Or.inr d2, by rw [d1, d2, mul_one]⟩

theorem UpdPre.colV (H : UpdPre c m C A B fl M N K x y) {i : Nat} (hi : i < N) :
    HoldsV m (colsOf fl B i 1) (fun k => y k i) ∧ (colsOf fl B i 1).isVec ∧
      (colsOf fl B i 1).size = K := by
  have h := H.colsHold (p := i) (n := 1) (by omega)
  have d := H.colsDim i 1
  generalize colsOf fl B i 1 = V at h d ⊢
  unfold View.size View.isVec
  revert h d
  cases fl.transB <;> simp only [Bool.false_eq_true, if_true, if_false] <;> rintro h ⟨d1, d2⟩
  · exact ⟨holdsV_col h d2, Or.inr d2, by rw [d1, d2, mul_one]⟩
  · exact ⟨holdsV_row h d1, Or.inl d1, by rw [d1, d2, one_mul]⟩

theorem holdsOn_vec {m : Mem α} {V : View} {g : Nat → α} (h : HoldsV m V g) (hv : V.isVec) :
    HoldsOn m V (fun _ _ => True) (fun i j => g (i + j)) :=
  HoldsOn.of_holds ((holdsV_iff hv).mp h)

theorem updNaive_spec (ab : α → α) {env : Env} (hmin : env.blas2min ≠ 1) {fuel : Nat}
    (beta alpha : α) (H : UpdPre c m C A B fl M N K x y) (hc : c.Ready m)
    (hf : M + N < fuel) (hC : HoldsOn m C (InTri fl.upper false) f) :
    Runs (updNaive ab env fuel m beta C alpha A B fl)
      (UpdDone c m C fl (updVal beta alpha K f x y)) := by
  unfold updNaive
  rw [H.nRows_eq, H.nCols_eq, H.Cr, H.Cc]
  refine Runs.bind (P := fun r => UpdC c m C (InTri fl.upper false) f (updVal beta alpha K f x y)
    (fun i j => min i j < min M N) r.2)
    (Runs.forUp1 (fun t => UpdC c m C (InTri fl.upper false) f (updVal beta alpha K f x y)
      (fun i j => min i j < t)) (Nat.zero_le _)
      ((UpdC.init hC hc _).congr (fun i j _ _ _ => by simp)) ?_ (fun _ h => h)) ?_
  · intro i m1 _ hi h
    have H1 := H.next h.frame
    cases hu : fl.upper with
    | true =>
      rw [if_pos rfl]
      rw [hu] at h
      have hq := h.sub_old (T' := fun _ _ => True) (r := i) (q := i) (nr := 1) (nc := N - i)
        (by rw [H.Cr]; omega) (by rw [H.Cc]; omega) (fun a b _ _ _ => by simp [InTri]; omega)
        (fun a b _ _ _ => by omega)
      have hs : (C.sub i i 1 (N - i)).foot ⊆ C.footOn (InTri fl.upper false) :=
        View.foot_sub_footOn (by rw [H.Cr]; omega) (by rw [H.Cc]; omega)
          (fun a b _ _ => by rw [hu]; simp [InTri]; omega)
      have d := H.colsDim i (N - i)
      refine (mvmultUnsafe_spec ab hmin beta alpha rfl (Or.inr ?_) ?_ (Or.inl rfl)
        (H.wf.sub (by rw [H.Cr]; omega) (by rw [H.Cc]; omega)) (H1.rowV (by omega)).2.1 ?_ ?_
        (holdsV_row hq.toHolds rfl) (H1.colsHold (by omega)) (H1.rowV (by omega)).1
        ((H.dBC.mono_left (H.colsFoot (by omega))).mono_right hs)
        ((H.dAC.mono_left (H.rowsFoot (by omega))).mono_right hs)).mono ?_
      · unfold View.size; rw [d.1, d.2]
        have := H.hK
        cases fl.transB <;> simp <;> omega
      · rw [View.size, View.sub_rows, View.sub_cols, one_mul]; omega
      · unfold View.opRows View.size; rw [d.1, d.2, View.sub_rows, View.sub_cols]
        cases fl.transB <;> simp
      · rw [(H1.rowV (by omega)).2.2]; unfold View.opCols; rw [d.1, d.2]
        cases fl.transB <;> simp
      · rintro m2 ⟨g1, g2⟩
        rw [(H1.rowV (by omega)).2.2] at g1
        refine (h.absorb H.wf (hu ▸ H.dC) (T' := fun _ _ => True) (m' := m2) (r := i) (q := i) (nr := 1)
          (nc := N - i) (by rw [H.Cr]; omega) (by rw [H.Cc]; omega) ?_ ?_ ?_ ?_).congr ?_
        · intro a b _ _; simp [InTri]; omega
        · refine (holdsOn_vec g1 (Or.inl rfl)).congr ?_
          intro a b ha hb _
          rw [View.sub_rows] at ha
          have : a = 0 := by omega
          subst this
          simp only [updVal, Nat.zero_add, Nat.add_zero]
          congr 2
          refine Finset.sum_congr rfl (fun k _ => ?_)
          cases fl.transB <;> simp [opA, opM, mul_comm]
        · rw [View.footOn_true]; exact g2.mono Set.subset_union_left
        · exact h.ready.frame g2 (H.dC.symm.mono_right hs)
        · intro a b ha hb ht
          rw [H.Cr] at ha; rw [H.Cc] at hb; simp [InTri] at ht; omega
    | false =>
      rw [if_neg (by simp)]
      rw [hu] at h
      have hq := h.sub_old (T' := fun _ _ => True) (r := i) (q := i) (nr := M - i) (nc := 1)
        (by rw [H.Cr]; omega) (by rw [H.Cc]; omega) (fun a b _ _ _ => by simp [InTri]; omega)
        (fun a b _ _ _ => by omega)
      have hs : (C.sub i i (M - i) 1).foot ⊆ C.footOn (InTri fl.upper false) :=
        View.foot_sub_footOn (by rw [H.Cr]; omega) (by rw [H.Cc]; omega)
          (fun a b _ _ => by rw [hu]; simp [InTri]; omega)
      have d := H.rowsDim i (M - i)
      refine (mvmultUnsafe_spec ab hmin beta alpha rfl (Or.inr ?_) ?_ (Or.inr rfl)
        (H.wf.sub (by rw [H.Cr]; omega) (by rw [H.Cc]; omega)) (H1.colV (by omega)).2.1 ?_ ?_
        (holdsV_col hq.toHolds rfl) (H1.rowsHold (by omega)) (H1.colV (by omega)).1
        ((H.dAC.mono_left (H.rowsFoot (by omega))).mono_right hs)
        ((H.dBC.mono_left (H.colsFoot (by omega))).mono_right hs)).mono ?_
      · unfold View.size; rw [d.1, d.2]
        have := H.hK
        cases fl.transA <;> simp <;> omega
      · rw [View.size, View.sub_rows, View.sub_cols, mul_one]; omega
      · unfold View.opRows View.size; rw [d.1, d.2, View.sub_rows, View.sub_cols]
        cases fl.transA <;> simp
      · rw [(H1.colV (by omega)).2.2]; unfold View.opCols; rw [d.1, d.2]
        cases fl.transA <;> simp
      · rintro m2 ⟨g1, g2⟩
        rw [(H1.colV (by omega)).2.2] at g1
        refine (h.absorb H.wf (hu ▸ H.dC) (T' := fun _ _ => True) (m' := m2) (r := i) (q := i)
          (nr := M - i)
          (nc := 1) (by rw [H.Cr]; omega) (by rw [H.Cc]; omega) ?_ ?_ ?_ ?_).congr ?_
        · intro a b _ _; simp [InTri]; omega
        · refine (holdsOn_vec g1 (Or.inr rfl)).congr ?_
          intro a b ha hb _
          rw [View.sub_cols] at hb
          have : b = 0 := by omega
          subst this
          simp only [updVal, Nat.add_zero]
          congr 2
          refine Finset.sum_congr rfl (fun k _ => ?_)
          cases fl.transA <;> simp [opA, opM]
        · rw [View.footOn_true]; exact g2.mono Set.subset_union_left
        · exact h.ready.frame g2 (H.dC.symm.mono_right hs)
        · intro a b ha hb ht
          rw [H.Cr] at ha; rw [H.Cc] at hb; simp [InTri] at ht; omega
  · rintro ⟨t, m1⟩ h
    refine Runs.pure ⟨h.all ?_, h.frame, h.ready⟩
    intro i j hi hj ht
    rw [H.Cr] at hi; rw [H.Cc] at hj
    revert ht
    unfold InTri
    cases fl.upper <;> simp <;> omega

/-- All sizes met when `n` is halved down to below `min` are even. -/
def SplitsEven (min n : Nat) : Prop := ∀ k, min ≤ n / 2 ^ k → n / 2 ^ k % 2 = 0

theorem SplitsEven.half {k n : Nat} (h : SplitsEven k n) : SplitsEven k (n / 2) := by
  intro t ht
  rw [Nat.div_div_eq_div_mul, ← pow_succ'] at ht ⊢
  exact h _ ht

theorem updRec_spec (ab : α → α) {env : Env} (hmin : 2 ≤ env.blas2min) (beta alpha : α) {fl : Flags}
    {c : Cache} : ∀ {fuel : Nat} {m : Mem α} {C A B : View} {M N K : Nat} {x y f : Nat → Nat → α},
    UpdPre c m C A B fl M N K x y → c.Ready m → M + N + 1 < fuel →
    (fl.upper = true → SplitsEven env.blas2min (min M N)) →
    HoldsOn m C (InTri fl.upper false) f →
    Runs (updRec ab env c beta alpha fl fuel m C A B) (UpdDone c m C fl (updVal beta alpha K f x y)) := by
  intro fuel
  induction fuel with
  | zero => intro m C A B M N K x y f _ _ h; omega
  | succ fuel ih =>
    intro m C A B M N K x y f H hc hf he hC
    unfold updRec
    rw [H.Cr, H.Cc]
    dsimp only
    by_cases h0 : min M N < env.blas2min
    · rw [if_pos h0]
      exact updNaive_spec ab (by omega) beta alpha H hc (by omega) hC
    rw [if_neg h0]
    have hev : fl.upper = true → min M N / 2 + min M N / 2 = min M N := by
      intro hu
      have := he hu 0 (by simpa using Nat.le_of_not_lt h0)
      simp at this; omega
    set n := min M N with hn
    set q := n / 2 with hq
    have hnM : n ≤ M := by omega
    have hnN : n ≤ N := by omega
    -- diagonal blocks
    have D : ∀ (m1 : Mem α) (p t : Nat) (S : Nat → Nat → Prop), p + t ≤ n → t ≤ n - q →
        (fl.upper = true → t = q) → 
        UpdC c m C (InTri fl.upper false) f (updVal beta alpha K f x y) S m1 →
        (∀ i j, i < t → j < t → ¬ S (p + i) (p + j)) →
        Runs (if q < env.blas2min then
            updNaive ab env fuel m1 beta (C.sub p p t t) alpha (rowsOf fl A p t) (colsOf fl B p t) fl
          else updRec ab env c beta alpha fl fuel m1 (C.sub p p t t) (rowsOf fl A p t)
            (colsOf fl B p t))
          (fun m2 => UpdC c m C (InTri fl.upper false) f (updVal beta alpha K f x y)
            (fun i j => S i j ∨ (p ≤ i ∧ i < p + t ∧ p ≤ j ∧ j < p + t)) m2) := by
      intro m1 p t S hp htq htu h hS
      have H1 := (H.next h.frame).diag (p := p) (n := t) (by omega) (by omega)
      have hold := h.sub_old (T' := InTri fl.upper false) (r := p) (q := p) (nr := t) (nc := t)
        (by rw [H.Cr]; omega) (by rw [H.Cc]; omega) (fun a b _ _ ht => (inTri_shift _ _ _ _ _).mpr ht)
        (fun a b ha hb _ => hS a b ha hb)
      have fin : ∀ m2, UpdDone c m1 (C.sub p p t t) fl (updVal beta alpha K
          (fun i j => f (p + i) (p + j)) (fun i k => x (p + i) k) (fun k j => y k (p + j))) m2 →
          UpdC c m C (InTri fl.upper false) f (updVal beta alpha K f x y)
            (fun i j => S i j ∨ (p ≤ i ∧ i < p + t ∧ p ≤ j ∧ j < p + t)) m2 := by
        rintro m2 ⟨g1, g2, g3⟩
        exact h.absorb H.wf H.dC (by rw [H.Cr]; omega) (by rw [H.Cc]; omega)
          (fun a b _ _ => (inTri_shift _ _ _ _ _).symm) g1 g2 g3
      by_cases hb : q < env.blas2min
      · rw [if_pos hb]
        exact (updNaive_spec ab (by omega) beta alpha H1 h.ready (by omega) hold).mono fin
      · rw [if_neg hb]
        refine (ih H1 h.ready (by omega) ?_ hold).mono fin
        intro hu
        rw [min_self, htu hu]
        exact (he hu).half
    refine Runs.bind (P := UpdC c m C (InTri fl.upper false) f (updVal beta alpha K f x y)
      (fun i j => i < q ∧ j < q)) ((D m 0 q _ (by omega) (by omega) (fun _ => rfl)
        (UpdC.init hC hc _) (fun _ _ _ _ => by omega)).mono
        (fun m2 h => h.congr (fun i j _ _ _ => by omega))) ?_
    intro m1 h1
    refine Runs.bind (P := UpdC c m C (InTri fl.upper false) f (updVal beta alpha K f x y)
      (fun i j => (i < q ∧ j < n) ∨ (i < n ∧ j < q))) ?_ ?_
    · cases hu : fl.upper with
      | true =>
        rw [hu] at h1 
        rw [if_pos rfl, show n - q = q by have := hev hu; omega]
        have hT : ∀ i j, i < q → j < q → InTri fl.upper false (0 + i) (q + j) := by
          intro i j _ _; rw [hu]; simp [InTri]; omega
        have hold := h1.sub_old (T' := fun _ _ => True) (r := 0) (q := q) (nr := q) (nc := q)
          (by rw [H.Cr]; omega) (by rw [H.Cc]; omega) (fun a b ha hb _ => hu ▸ hT a b ha hb)
          (fun a b _ _ _ => by omega)
        refine (updKernel_spec ab beta alpha (H.next (hu ▸ h1.frame)) h1.ready (by omega) (by omega)
          hT hold).mono ?_
        rintro m2 ⟨g1, g2, g3⟩
        refine (h1.absorb H.wf (hu ▸ H.dC) (by rw [H.Cr]; omega) (by rw [H.Cc]; omega)
          (fun a b ha hb => by simp only [true_iff]; exact hu ▸ hT a b ha hb) g1 g2 g3).congr ?_
        intro i j _ _ ht
        have := hev hu
        simp [InTri] at ht
        omega
      | false =>
        rw [hu] at h1 
        rw [if_neg (by simp)]
        have hT : ∀ i j, i < n - q → j < q → InTri fl.upper false (q + i) (0 + j) := by
          intro i j _ _; rw [hu]; simp [InTri]; omega
        have hold := h1.sub_old (T' := fun _ _ => True) (r := q) (q := 0) (nr := n - q) (nc := q)
          (by rw [H.Cr]; omega) (by rw [H.Cc]; omega) (fun a b ha hb _ => hu ▸ hT a b ha hb)
          (fun a b _ _ _ => by omega)
        refine (updKernel_spec ab beta alpha (H.next (hu ▸ h1.frame)) h1.ready (by omega) (by omega)
          hT hold).mono ?_
        rintro m2 ⟨g1, g2, g3⟩
        refine (h1.absorb H.wf (hu ▸ H.dC) (by rw [H.Cr]; omega) (by rw [H.Cc]; omega)
          (fun a b ha hb => by simp only [true_iff]; exact hu ▸ hT a b ha hb) g1 g2 g3).congr ?_
        intro i j _ _ ht
        simp [InTri] at ht
        omega
    intro m2 h2
    refine Runs.bind (P := UpdC c m C (InTri fl.upper false) f (updVal beta alpha K f x y)
      (fun i j => i < n ∧ j < n)) ((D m2 q (n - q) _ (by omega) (by omega)
        (fun hu => by have := hev hu; omega)
        h2 (fun _ _ _ _ => by omega)).mono
        (fun m2 h => h.congr (fun i j _ _ _ => by omega))) ?_
    intro m3 h3
    have H3 := H.next h3.frame
    unfold updTrap
    rw [H.Cr, H.Cc, H.nRows_eq, H.nCols_eq]
    cases hu : fl.upper with
    | true =>
      rw [hu] at h3
      rw [if_pos rfl]
      by_cases hMN : M ≥ N
      · rw [if_pos hMN]
        refine Runs.pure ⟨?_, hu ▸ h3.frame, h3.ready⟩
        rw [hu]
        refine h3.all (fun i j hi hj ht => ?_)
        rw [H.Cc] at hj; simp [InTri] at ht; omega
      · rw [if_neg hMN, View.sub_zero]
        have hT : ∀ i j, i < M → j < N - n → InTri fl.upper false (0 + i) (n + j) := by
          intro i j _ _; rw [hu]; simp [InTri]; omega
        have hold := h3.sub_old (T' := fun _ _ => True) (r := 0) (q := n) (nr := M) (nc := N - n)
          (by rw [H.Cr]; omega) (by rw [H.Cc]; omega) (fun a b ha hb _ => hu ▸ hT a b ha hb)
          (fun a b _ _ _ => by omega)
        have key := updKernel_spec ab beta alpha H3 h3.ready (by omega) (by omega) hT hold
        rw [H.rows_all] at key
        refine key.mono ?_
        rintro m4 ⟨g1, g2, g3⟩
        have := h3.absorb H.wf (hu ▸ H.dC) (by rw [H.Cr]; omega) (by rw [H.Cc]; omega)
          (fun a b ha hb => by simp only [true_iff]; exact hu ▸ hT a b ha hb) g1 g2 g3
        refine ⟨?_, hu ▸ this.frame, this.ready⟩
        rw [hu]
        refine this.all (fun i j hi hj ht => ?_)
        rw [H.Cr] at hi; rw [H.Cc] at hj; simp [InTri] at ht; omega
    | false =>
      rw [hu] at h3
      rw [if_neg (by simp)]
      by_cases hMN : N ≥ M
      · rw [if_pos hMN]
        refine Runs.pure ⟨?_, hu ▸ h3.frame, h3.ready⟩
        rw [hu]
        refine h3.all (fun i j hi hj ht => ?_)
        rw [H.Cr] at hi; simp [InTri] at ht; omega
      · rw [if_neg hMN, View.sub_zero]
        have hT : ∀ i j, i < M - n → j < N → InTri fl.upper false (n + i) (0 + j) := by
          intro i j _ _; rw [hu]; simp [InTri]; omega
        have hold := h3.sub_old (T' := fun _ _ => True) (r := n) (q := 0) (nr := M - n) (nc := N)
          (by rw [H.Cr]; omega) (by rw [H.Cc]; omega) (fun a b ha hb _ => hu ▸ hT a b ha hb)
          (fun a b _ _ _ => by omega)
        have key := updKernel_spec ab beta alpha H3 h3.ready (by omega) (by omega) hT hold
        rw [H.cols_all] at key
        refine key.mono ?_
        rintro m4 ⟨g1, g2, g3⟩
        have := h3.absorb H.wf (hu ▸ H.dC) (by rw [H.Cr]; omega) (by rw [H.Cc]; omega)
          (fun a b ha hb => by simp only [true_iff]; exact hu ▸ hT a b ha hb) g1 g2 g3
        refine ⟨?_, hu ▸ this.frame, this.ready⟩
        rw [hu]
        refine this.all (fun i j hi hj ht => ?_)
        rw [H.Cr] at hi; rw [H.Cc] at hj; simp [InTri] at ht; omega

theorem updBlk_spec (ab : α → α) {env : Env} (hmin : 2 ≤ env.blas2min) (beta alpha : α)
    {fuel : Nat} (H : UpdPre c m C A B fl M N K x y) (hc : c.Ready m) (hf : 2 * (M + N) + 1 < fuel)
    (he : fl.upper = true → SplitsEven env.blas2min c.NB ∧
      SplitsEven env.blas2min (min M N % c.NB)) (hNB : 0 < c.NB)
    (hC : HoldsOn m C (InTri fl.upper false) f) :
    Runs (updBlk ab env fuel m beta C alpha A B fl c)
      (UpdDone c m C fl (updVal beta alpha K f x y)) := by
  unfold updBlk
  rw [H.nRows_eq, H.nCols_eq, H.Cr, H.Cc]
  dsimp only
  set n := min M N with hn
  refine Runs.bind (P := fun r => UpdC c m C (InTri fl.upper false) f (updVal beta alpha K f x y)
    (fun i j => min i j < n) r.2)
    (Runs.forUp (fun t m' => c.NB ∣ t ∧ UpdC c m C (InTri fl.upper false) f (updVal beta alpha K f x y)
      (fun i j => min i j < t) m') hNB
      ⟨dvd_zero _, (UpdC.init hC hc _).congr (fun i j _ _ _ => by simp)⟩ ?_ ?_) ?_
  · rintro i m1 _ hi ⟨hdv, h⟩
    set t := (if n - i < c.NB then n - i else c.NB) with ht
    have ht1 : i + t ≤ n := by rw [ht]; split <;> omega
    have ht2 : t = c.NB ∨ i + t = n := by rw [ht]; split <;> omega
    have ht3 : t ≤ c.NB := by rw [ht]; split <;> omega
    have hte : fl.upper = true → SplitsEven env.blas2min t := by
      intro hu
      rw [ht]
      split
      · have : n - i = n % c.NB := by
          obtain ⟨w, rfl⟩ := hdv
          rw [← Nat.sub_add_cancel (Nat.le_of_lt hi), Nat.add_mul_mod_self_left, 
            Nat.sub_add_cancel (Nat.le_of_lt hi), Nat.mod_eq_of_lt (by assumption)]
        rw [this]; exact (he hu).2
      · exact (he hu).1
    have H1 := (H.next h.frame).diag (p := i) (n := t) (by omega) (by omega)
    have hold := h.sub_old (T' := InTri fl.upper false) (r := i) (q := i) (nr := t) (nc := t)
      (by rw [H.Cr]; omega) (by rw [H.Cc]; omega) (fun a b _ _ ht => (inTri_shift _ _ _ _ _).mpr ht)
      (fun a b _ _ _ => by omega)
    refine Runs.bind (P := UpdC c m C (InTri fl.upper false) f (updVal beta alpha K f x y)
      (fun a b => min a b < i ∨ (i ≤ a ∧ a < i + t ∧ i ≤ b ∧ b < i + t)))
      ((updRec_spec ab hmin beta alpha H1 h.ready (by omega) (by rw [min_self]; exact hte) hold).mono ?_)
      ?_
    · rintro m2 ⟨g1, g2, g3⟩
      exact h.absorb H.wf H.dC (by rw [H.Cr]; omega) (by rw [H.Cc]; omega)
        (fun a b _ _ => (inTri_shift _ _ _ _ _).symm) g1 g2 g3
    intro m2 h2
    have H2 := H.next h2.frame
    cases hu : fl.upper with
    | true =>
      rw [hu] at h2
      rw [if_pos rfl]
      have hT : ∀ a b, a < t → b < N - (i + t) → InTri fl.upper false (i + a) (i + t + b) := by
        intro a b _ _; rw [hu]; simp [InTri]; omega
      have hold := h2.sub_old (T' := fun _ _ => True) (r := i) (q := i + t) (nr := t) (nc := N - (i + t))
        (by rw [H.Cr]; omega) (by rw [H.Cc]; omega) (fun a b ha hb _ => hu ▸ hT a b ha hb)
        (fun a b _ _ _ => by omega)
      refine (updKernel_spec ab beta alpha H2 h2.ready (by omega) (by omega) hT hold).mono ?_
      rintro m3 ⟨g1, g2, g3⟩
      refine ⟨(Nat.dvd_add_right hdv).mpr dvd_rfl, (h2.absorb H.wf (hu ▸ H.dC) (by rw [H.Cr]; omega)
        (by rw [H.Cc]; omega)
        (fun a b ha hb => by simp only [true_iff]; exact hu ▸ hT a b ha hb) g1 g2 g3).congr ?_⟩
      intro a b ha hb h3
      rw [H.Cr] at ha; rw [H.Cc] at hb; simp [InTri] at h3
      omega
    | false =>
      rw [hu] at h2
      rw [if_neg (by simp)]
      have hT : ∀ a b, a < M - (i + t) → b < t → InTri fl.upper false (i + t + a) (i + b) := by
        intro a b _ _; rw [hu]; simp [InTri]; omega
      have hold := h2.sub_old (T' := fun _ _ => True) (r := i + t) (q := i) (nr := M - (i + t)) (nc := t)
        (by rw [H.Cr]; omega) (by rw [H.Cc]; omega) (fun a b ha hb _ => hu ▸ hT a b ha hb)
        (fun a b _ _ _ => by omega)
      refine (updKernel_spec ab beta alpha H2 h2.ready (by omega) (by omega) hT hold).mono ?_
      rintro m3 ⟨g1, g2, g3⟩
      refine ⟨(Nat.dvd_add_right hdv).mpr dvd_rfl, (h2.absorb H.wf (hu ▸ H.dC) (by rw [H.Cr]; omega)
        (by rw [H.Cc]; omega)
        (fun a b ha hb => by simp only [true_iff]; exact hu ▸ hT a b ha hb) g1 g2 g3).congr ?_⟩
      intro a b ha hb h3
      rw [H.Cr] at ha; rw [H.Cc] at hb; simp [InTri] at h3
      omega
  · rintro k m1 hk _ ⟨_, h⟩
    refine h.congr (fun i j hi hj ht => ?_)
    rw [H.Cr] at hi; rw [H.Cc] at hj
    omega
  · rintro ⟨t, m1⟩ h
    refine Runs.pure ⟨h.all ?_, h.frame, h.ready⟩
    intro i j hi hj ht
    rw [H.Cr] at hi; rw [H.Cc] at hj
    revert ht
    unfold InTri
    cases fl.upper <;> simp <;> omega


theorem SplitsEven.of_lt {k n : Nat} (h : n < k) : SplitsEven k n := by
  intro t ht
  have := Nat.div_le_self n (2 ^ t)
  omega

/-- Order 3, upper triangle, threshold 2: the recursion updates row 1 of the result twice. -/
theorem upd_twice (ab : α → α) {env : Env} (hmin : env.blas2min = 2) (beta alpha : α)
    {fuel : Nat} (hu : fl.upper = true) (hta : fl.transA = false)
    (H : UpdPre c m C A B fl 3 3 K x y) (hc : c.Ready m) (hf : 7 < fuel)
    (hC : HoldsOn m C (InTri fl.upper false) f) :
    Runs (updRec ab env c beta alpha fl fuel m C A B) (fun m' =>
      m' (C.at' 1 1) = some (updVal beta alpha K (updVal beta alpha K f x y) x y 1 1)) := by
  obtain ⟨fuel, rfl⟩ : ∃ k, fuel = k + 1 := ⟨fuel - 1, by omega⟩
  unfold updRec
  rw [H.Cr, H.Cc, hmin]
  dsimp only
  rw [min_self, if_neg (by decide)]
  have H1 := H.diag (p := 0) (n := 1) (by omega) (by omega)
  have h0 := UpdC.init hC hc (updVal beta alpha K f x y)
  refine Runs.bind (P := UpdC c m C (InTri fl.upper false) f (updVal beta alpha K f x y)
    (fun i j => i < 1 ∧ j < 1)) ?_ ?_
  · rw [if_pos (by decide)]
    refine (updNaive_spec ab (by omega) beta alpha H1 hc (by omega)
      (h0.sub_old (by rw [H.Cr]; omega) (by rw [H.Cc]; omega)
        (fun a b _ _ ht => (inTri_shift _ _ _ _ _).mpr ht) (fun a b _ _ _ => by omega))).mono ?_
    rintro m2 ⟨g1, g2, g3⟩
    refine (h0.absorb H.wf H.dC (by rw [H.Cr]; omega) (by rw [H.Cc]; omega)
      (fun a b _ _ => (inTri_shift _ _ _ _ _).symm) g1 g2 g3).congr ?_
    intro i j _ _ _; omega
  intro m1 h1
  refine Runs.bind (P := UpdC c m C (InTri fl.upper false) f (updVal beta alpha K f x y)
    (fun i j => i < 2)) ?_ ?_
  · rw [if_pos hu]
    have hT : ∀ i j, i < 2 → j < 2 → InTri fl.upper false (0 + i) (1 + j) := by
      intro i j _ _; rw [hu]; simp [InTri]; omega
    have key := updKernel_spec ab beta alpha (H.next h1.frame) h1.ready (p := 0) (q := 1) (nr := 2) (nc := 2)
      (by omega) (by omega) hT (h1.sub_old (by rw [H.Cr]; omega) (by rw [H.Cc])
        (fun a b ha hb _ => hT a b ha hb) (fun a b _ _ _ => by omega))
    have e : multKernel ab m1 beta (C.sub 0 1 2 2) alpha (rowsOf fl A 0 1) (colsOf fl B 1 2) fl c =
        multKernel ab m1 beta (C.sub 0 1 2 2) alpha (rowsOf fl A 0 2) (colsOf fl B 1 2) fl c := by
      simp only [rowsOf, hta, Bool.false_eq_true, if_false]
      unfold multKernel
      simp only [hta, Bool.false_eq_true, if_false]
      rfl
    refine (e ▸ key).mono ?_
    rintro m2 ⟨g1, g2, g3⟩
    refine (h1.absorb H.wf H.dC (by rw [H.Cr]; omega) (by rw [H.Cc])
      (fun a b ha hb => by simp only [true_iff]; exact hT a b ha hb) g1 g2 g3).congr ?_
    intro i j _ hj ht
    rw [hu] at ht; rw [H.Cc] at hj
    simp [InTri] at ht; omega
  intro m2 h2
  have H2 := (H.next h2.frame).diag (p := 1) (n := 2) (by omega) (by omega)
  have hold := (h2.hold.sub (T := InTri fl.upper false) (r := 1) (c := 1) (nr := 2) (nc := 2)
    (by rw [H.Cr]) (by rw [H.Cc]) (fun a b _ _ ht => (inTri_shift _ _ _ _ _).mpr ht))
  refine Runs.bind (P := fun m' =>
      m' (C.at' 1 1) = some (updVal beta alpha K (updVal beta alpha K f x y) x y 1 1)) ?_ ?_
  · rw [if_pos (by decide)]
    refine (updNaive_spec ab (by omega) beta alpha H2 h2.ready (by omega) hold).mono ?_
    rintro m3 ⟨g1, -, -⟩
    have := g1 0 0 (by rw [View.sub_rows]; omega) (by rw [View.sub_cols]; omega) (by rw [hu]; simp [InTri])
    rw [View.at_sub] at this
    simpa [updVal] using this
  intro m3 h3
  unfold updTrap
  rw [if_pos hu, H.Cr, H.Cc, if_pos (le_refl _)]
  exact Runs.pure h3

/-- With the threshold zero the recursion never ends. -/
theorem updRec_diverges (ab : α → α) {env : Env} (hmin : env.blas2min = 0) (beta alpha : α) {fl : Flags}
    {c : Cache} : ∀ (fuel : Nat) (m : Mem α) (C A B : View),
    updRec ab env c beta alpha fl fuel m C A B = .diverge := by
  intro fuel
  induction fuel with
  | zero => intros; rfl
  | succ fuel ih =>
    intro m C A B
    unfold updRec
    simp only [hmin, Nat.not_lt_zero, if_false, ih, Res.diverge_bind]

end

end Armas
