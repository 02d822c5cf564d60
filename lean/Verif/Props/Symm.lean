import Verif.SymmLemmas
import Verif.CacheLemmas
import Verif.Demo
import Mathlib.Algebra.Order.Ring.Int

/-!
# C20: symmetric matrix-matrix multiplication

`S` is the symmetric matrix given by the selected triangle of `A`; `SymArgs` says that the arguments
are as the documentation wants them.  Only the selected triangle of `A` (without its diagonal when the
diagonal is unit) has to be allocated: a read of any other element is undefined behaviour in the model.
-/

namespace Armas.Props

open Armas Finset

variable {α : Type}

/-- The symmetric matrix of which one triangle is given. -/
def symOf [One α] (fl : Flags) (a : Nat → Nat → α) (i j : Nat) : α :=
  if i = j then (if fl.unit then 1 else a i i)
  else if fl.upper then a (min i j) (max i j) else a (max i j) (min i j)

theorem symU_eq [One α] (fl : Flags) (a : Nat → Nat → α) (i j : Nat) :
    symU fl.upper fl.unit a i j = symOf fl a i j := by
  unfold symU symm symOf
  cases fl.upper <;> cases fl.unit <;> grind

/-- `S*op(B)` or `op(B)*S`, `n` the order of `S`. -/
def symProd [CommRing α] (fl : Flags) (n : Nat) (a b : Nat → Nat → α) (i j : Nat) : α :=
  if fl.right then ∑ k ∈ range n, (if fl.transB then b k i else b i k) * symOf fl a k j
  else ∑ k ∈ range n, symOf fl a i k * (if fl.transB then b j k else b k j)

/-- Arguments of `armas_mult_sym`. -/
structure SymArgs (c : Cache) (m : Mem α) (C A B : View) (f a b : Nat → Nat → α) (fl : Flags) : Prop where
  uplo : fl.lower = !fl.upper
  side : fl.right = true → fl.left = false
  absA : fl.absA = false
  absB : fl.absB = false
  wf : C.WF
  sq : A.rows = A.cols
  Cr : C.rows = if fl.right then (if fl.transB then B.cols else B.rows) else A.rows
  Cc : C.cols = if fl.right then A.rows else (if fl.transB then B.rows else B.cols)
  Bk : (if fl.right ^^ fl.transB then B.cols else B.rows) = A.rows
  ready : c.Ready m
  rb : c.rb ≤ c.MB
  hA : HoldsOn m A (InTri fl.upper fl.unit) a
  hB : Holds m B b
  hC : Holds m C f
  dA : Disjoint (A.footOn (InTri fl.upper fl.unit)) c.foot
  dB : Disjoint B.foot c.foot
  dC : Disjoint C.foot c.foot
  dAC : Disjoint (A.footOn (InTri fl.upper fl.unit)) C.foot
  dBC : Disjoint B.foot C.foot

/-- The diagonal blocks fit to the buffers: a diagonal block is copied to the `KB` by `MB` buffer, and
the block of `B` to the `KB` by `NB` buffer. -/
def BlocksFit (c : Cache) (n w : Nat) (fl : Flags) : Prop :=
  if fl.right then min c.NB n ≤ c.KB ∧ min c.NB n ≤ c.MB ∧ min c.MB w ≤ c.NB else min c.MB n ≤ c.KB

/-- C20 and that the copy buffers stay usable. -/
theorem multSym_ready [CommRing α] [DecidableEq α] (ab : α → α) {c : Cache} {m : Mem α}
    {C A B : View} {f a b : Nat → Nat → α} (beta alpha : α) {fl : Flags}
    (H : SymArgs c m C A B f a b fl)
    (hfit : BlocksFit c A.rows (if fl.right then C.rows else C.cols) fl) :
    Runs (multSym ab m beta C alpha A B fl (some c)) (fun r => r.1 = 0 ∧
      Holds r.2 C (fun i j => beta * f i j + alpha * symProd fl A.rows a b i j) ∧
      Frame (C.foot ∪ c.foot) m r.2 ∧ c.Ready r.2) := by
  obtain ⟨huplo, hside, habsA, habsB, hwf, hsq, hCr, hCc, hBk, hready, hrb, hA, hB, hC, dA, dB, dC, dAC, dBC⟩ := H
  unfold multSym
  by_cases h0 : C.rows = 0 ∨ C.cols = 0
  · rw [if_pos h0]
    exact Runs.ok ⟨rfl, fun i j hi hj => by omega, Frame.refl _ _, hready⟩
  rw [if_neg h0]
  have hz : ¬ (A.size = 0 ∨ B.size = 0) := by
    simp only [View.size, mul_eq_zero]
    revert hCr hCc hBk
    cases fl.right <;> cases fl.transB <;> intros <;> simp at * <;> omega
  rw [if_neg hz]
  have hs : symmSizes C A B fl = true := by
    unfold symmSizes
    revert hCr hCc hBk hside
    cases fl.right <;> cases fl.transB <;> cases fl.left <;> intros <;> simp at * <;> omega
  rw [hs, if_neg (by simp)]
  have P : SymPre m C A B fl c a (opM (fl.right ^^ fl.transB) b) A.rows
      (if fl.right then C.rows else C.cols) := by
    refine ⟨huplo, habsA, habsB, hwf, hrb, rfl, hsq.symm, ?_, ?_, ?_, ?_, hA, hB.congr ?_, dA, dB, dC, dAC, dBC⟩
    · rw [hCr]; cases fl.right <;> rfl
    · rw [hCc]; cases fl.right <;> rfl
    · revert hCr hCc hBk
      cases fl.right <;> cases fl.transB <;> intros <;> simp at * <;> omega
    · revert hCr hCc hBk
      cases fl.right <;> cases fl.transB <;> intros <;> simp at * <;> omega
    · intro i j _ _; cases (fl.right ^^ fl.transB) <;> rfl
  have hn : 0 < A.rows := by
    revert hCr hCc
    cases fl.right <;> intros <;> simp at * <;> omega
  have hwd : 0 < (if fl.right then C.rows else C.cols) := by split <;> omega
  refine Runs.bind (symmSide_spec ab beta alpha P hready hn hwd ?_ ?_ ?_
    (f := opM fl.right f) (hC.congr (fun i j _ _ => by cases fl.right <;> rfl))) ?_
  · unfold BlocksFit at hfit
    split at hfit <;> simp_all
  · unfold BlocksFit at hfit
    split at hfit <;> simp_all
  · unfold BlocksFit at hfit
    split at hfit <;> simp_all
  rintro m' ⟨h1, h2, h3⟩
  refine Runs.pure ⟨rfl, h1.congr ?_, h2, h3⟩
  intro i j _ _
  simp only [symU_eq, symProd]
  have hcomm : ∀ i j, symOf fl a i j = symOf fl a j i := fun i j => by
    rw [← symU_eq, symU_comm, symU_eq]
  cases fl.right <;> cases fl.transB <;> simp only [opM, Bool.xor_self, Bool.xor_false, Bool.xor_true,
    Bool.not_true, Bool.not_false, Bool.false_eq_true, if_true, if_false]
  all_goals
    congr 2
    refine Finset.sum_congr rfl (fun k _ => ?_)
    first
    | rfl
    | rw [mul_comm, hcomm]

/-- C20: `C = beta*C + alpha*S*op(B)` or `beta*C + alpha*op(B)*S` for all sizes and strides and every
block configuration for which the blocks fit to the buffers.  Only `C` and the buffers are written.
Missing: configurations in which the blocks do not fit, which are accepted settings and give a wrong
result (`C20_overlap_false`), and the flags for absolute values. -/
theorem C20_mult_sym_partial [CommRing α] [DecidableEq α] (ab : α → α) {c : Cache} {m : Mem α}
    {C A B : View} {f a b : Nat → Nat → α} (beta alpha : α) {fl : Flags}
    (H : SymArgs c m C A B f a b fl)
    (hfit : BlocksFit c A.rows (if fl.right then C.rows else C.cols) fl) :
    Runs (multSym ab m beta C alpha A B fl (some c)) (fun r => r.1 = 0 ∧
      Holds r.2 C (fun i j => beta * f i j + alpha * symProd fl A.rows a b i j) ∧
      Frame (C.foot ∪ c.foot) m r.2) :=
  (multSym_ready ab beta alpha H hfit).mono (fun _ h => ⟨h.1, h.2.1, h.2.2.1⟩)

/-- The buffers of the examples: `KB` 4, `NB` 2, `MB` 3, row block 1. -/
def exCache : Cache := ⟨500, 600, 4, 4, 2, 3, 1⟩

theorem exReady : exCache.Ready (tot (fun p => (p : ℤ))) :=
  ⟨by decide, by decide, by decide, by decide, by decide, ⟨_, holds_tot _ _⟩, ⟨_, holds_tot _ _⟩,
    View.disj_below (by decide)⟩

/-- 7x6 result, symmetric matrix of order 7 from the left, lower triangle. -/
example := C20_mult_sym_partial (α := ℤ) (m := tot (fun p => (p : ℤ))) (C := ⟨0, 8, 7, 6⟩)
    (A := ⟨100, 9, 7, 7⟩) (B := ⟨200, 9, 7, 6⟩) (c := exCache) id 3 (-2) (fl := { lower := true })
    ⟨rfl, by decide, rfl, rfl, Or.inl (by decide), rfl, rfl, rfl, rfl, exReady, by decide,
      HoldsOn.of_holds (holds_tot _ _), holds_tot _ _, holds_tot _ _,
      (Set.disjoint_union_right.mpr ⟨View.disj_below (by decide), View.disj_below (by decide)⟩).mono_left
        (View.footOn_sub_foot _ _),
      Set.disjoint_union_right.mpr ⟨View.disj_below (by decide), View.disj_below (by decide)⟩,
      Set.disjoint_union_right.mpr ⟨View.disj_below (by decide), View.disj_below (by decide)⟩,
      (View.disj_below (by decide)).symm.mono_left (View.footOn_sub_foot _ _),
      (View.disj_below (by decide)).symm⟩ (by unfold BlocksFit; decide)

/-- 6x7 result, unit upper triangle from the right, `B` transposed. -/
example := C20_mult_sym_partial (α := ℤ) (m := tot (fun p => (p : ℤ))) (C := ⟨0, 8, 2, 7⟩)
    (A := ⟨100, 9, 7, 7⟩) (B := ⟨200, 9, 7, 2⟩) (c := exCache) id 3 (-2)
    (fl := { upper := true, right := true, transB := true, unit := true })
    ⟨rfl, by decide, rfl, rfl, Or.inl (by decide), rfl, rfl, rfl, rfl, exReady, by decide,
      HoldsOn.of_holds (holds_tot _ _), holds_tot _ _, holds_tot _ _,
      (Set.disjoint_union_right.mpr ⟨View.disj_below (by decide), View.disj_below (by decide)⟩).mono_left
        (View.footOn_sub_foot _ _),
      Set.disjoint_union_right.mpr ⟨View.disj_below (by decide), View.disj_below (by decide)⟩,
      Set.disjoint_union_right.mpr ⟨View.disj_below (by decide), View.disj_below (by decide)⟩,
      (View.disj_below (by decide)).symm.mono_left (View.footOn_sub_foot _ _),
      (View.disj_below (by decide)).symm⟩ (by unfold BlocksFit; decide)

/-- C20: arguments of the wrong size are refused and nothing is written. -/
theorem C20_size_error [CommRing α] [DecidableEq α] (ab : α → α) (m : Mem α) (beta alpha : α)
    {C A B : View} {fl : Flags} (cbuf : Option Cache) (h0 : C.size ≠ 0 ∧ A.size ≠ 0 ∧ B.size ≠ 0)
    (hs : fl.right = false ∧ (A.rows ≠ A.cols ∨ C.rows ≠ A.rows ∨
        (fl.transB = false ∧ (C.cols ≠ B.cols ∨ A.cols ≠ B.rows)) ∨
        (fl.transB = true ∧ (C.cols ≠ B.rows ∨ A.cols ≠ B.cols))) ∨
      fl.right = true ∧ fl.left = false ∧ (A.rows ≠ A.cols ∨ C.cols ≠ A.rows ∨
        (fl.transB = false ∧ (C.rows ≠ B.rows ∨ A.cols ≠ B.cols)) ∨
        (fl.transB = true ∧ (C.rows ≠ B.cols ∨ A.cols ≠ B.rows)))) :
    multSym ab m beta C alpha A B fl cbuf = .ok (-ESIZE, m) := by
  unfold multSym
  have hC := h0.1
  simp only [View.size, ne_eq, mul_eq_zero, not_or] at hC
  rw [if_neg (by omega), if_neg (by omega), if_pos]
  unfold symmSizes
  cases h1 : fl.right <;> cases h2 : fl.left <;> cases h3 : fl.transB <;>
    simp only [h1, h2, h3, Bool.not_eq_true, decide_eq_false_iff_not, true_and, false_and, or_false,
      false_or, Bool.false_eq_true, Bool.true_eq_false] at hs ⊢ <;> omega

example := C20_size_error (α := ℤ) id (tot (fun p => (p : ℤ))) 1 2 (C := ⟨0, 8, 7, 6⟩)
    (A := ⟨100, 9, 7, 7⟩) (B := ⟨200, 9, 6, 7⟩) (fl := { lower := true }) none (by decide) (by decide)

/-- C20 is false for accepted settings: with `ARMAS_CONFIG=32,64,160` and the default cache memory the
buffers are 232x44 and 232x92.  For a row of 45 elements the diagonal block of order 45 does not fit to
the first buffer, and the copy of `B` overwrites its last column.  Here `S = 0` and `B` is all ones; the last
element of `C = B*S` is 45 instead of 0, with status 0. -/
theorem C20_overlap_false : ∃ (c : Cache) (m m' : Mem ℤ) (C A B : View),
    setup2 (cbufMake 32768 262144 32768) 32 64 160 8 = .ok c ∧
    SymArgs c m C A B (fun _ _ => 0) (fun _ _ => 0) (fun _ _ => 1) { right := true, upper := true } ∧
    C.rows = 1 ∧ C.cols = 45 ∧
    multSym id m 0 C 1 A B { right := true, upper := true } (some c) = .ok (0, m') ∧
    m' (C.at' 0 44) = some 45 ∧
    symProd { right := true, upper := true } 45 (fun _ _ => (0 : ℤ)) (fun _ _ => 1) 0 44 = 0 := by
  have hs : setup2 (cbufMake 32768 262144 32768) 32 64 160 8 = .ok ⟨4104, 14312, 232, 232, 92, 44, 16⟩ := by
    have h : Nat.sqrt 54600 = 233 := by symm; rw [Nat.eq_sqrt]; omega
    simp [setup2, split2, cbufMake, alignSkip, h, mask4, setupRb]
  set m : Mem ℤ := tot (fun p => if 100 ≤ p ∧ p < 200 then 1 else 0) with hm
  have hR : (⟨4104, 14312, 232, 232, 92, 44, 16⟩ : Cache).Ready m :=
    (Cache.ready_of_range (D := 4104) (S := 32760) (by decide) (by decide) (by decide) (by decide) rfl rfl
      rfl (by decide) (fun q _ _ => ⟨_, rfl⟩)).1
  have hA : Holds m ⟨1000, 45, 45, 45⟩ (fun _ _ => 0) := by
    refine (holds_tot _ _).congr (fun i j _ _ => if_neg ?_)
    simp only [View.at']; omega
  have hB : Holds m ⟨100, 1, 1, 45⟩ (fun _ _ => 1) := by
    refine (holds_tot _ _).congr (fun i j hi hj => if_pos ?_)
    simp only [View.at'] at hi hj ⊢; omega
  have hC : Holds m ⟨0, 1, 1, 45⟩ (fun _ _ => 0) := by
    refine (holds_tot _ _).congr (fun i j hi hj => if_neg ?_)
    simp only [View.at'] at hi hj ⊢; omega
  have H : SymArgs ⟨4104, 14312, 232, 232, 92, 44, 16⟩ m ⟨0, 1, 1, 45⟩ ⟨1000, 45, 45, 45⟩ ⟨100, 1, 1, 45⟩
      (fun _ _ => 0) (fun _ _ => 0) (fun _ _ => 1) { right := true, upper := true } :=
    ⟨rfl, by decide, rfl, rfl, Or.inl (by decide), rfl, rfl, rfl, rfl, hR, by decide,
      HoldsOn.of_holds hA, hB, hC,
      (Set.disjoint_union_right.mpr ⟨View.disj_below (by decide), View.disj_below (by decide)⟩).mono_left
        (View.footOn_sub_foot _ _),
      Set.disjoint_union_right.mpr ⟨View.disj_below (by decide), View.disj_below (by decide)⟩,
      Set.disjoint_union_right.mpr ⟨View.disj_below (by decide), View.disj_below (by decide)⟩,
      (View.disj_below (by decide)).symm.mono_left (View.footOn_sub_foot _ _),
      (View.disj_below (by decide)).symm⟩
  obtain ⟨m', e, h⟩ := symm_overlap id 0 (alpha := 1) (by decide) (n := 45) rfl (by decide) (by decide)
    rfl rfl hR H.rb (fun q => ⟨_, rfl⟩) rfl rfl rfl rfl rfl rfl H.wf H.hA hB hC
    (Set.disjoint_union_right.mpr ⟨H.dA, (View.disj_below (by decide)).mono_left (View.footOn_sub_foot _ _)⟩)
    (Set.disjoint_union_right.mpr ⟨H.dB, View.disj_below (by decide)⟩)
    (Set.disjoint_union_right.mpr ⟨H.dC, View.disj_below (by decide)⟩) H.dAC H.dBC
  refine ⟨_, m, m', _, _, _, hs, H, rfl, rfl, ?_, ?_, ?_⟩
  · unfold multSym
    rw [if_neg (by decide), if_neg (by decide), if_neg (by decide)]
    simp only [e, Res.ok_bind]
    rfl
  · simpa using h
  · simp [symProd, symOf]

end Armas.Props
