import Verif.SymvLemmas
import Verif.TrsvLemmas
import Verif.Demo
import Mathlib.Data.Rat.Defs
import Mathlib.Algebra.Field.Rat

/-!
# C10 .. C15: level-2 operations

Arithmetic is exact (a commutative ring, a field for the solver).  `Holds m A a` asks only that the
elements of the view are allocated; the rest of memory may be unallocated, so "`Runs`" contains the
claim that nothing outside of the operands is read.  `HoldsOn m A T a` asks this only for the index
pairs in `T`: elements of `A` outside of `T` may be unallocated, hence are never read.

`fuel` bounds the depth of recursion; every theorem holds for every bound larger than the dimension,
i.e. the recursion ends after at most that many levels.

Specifications: `opA trans a i j` is `a j i` or `a i j`; `trm upper unit a` is the triangular matrix
selected by the flags (`Verif/Tri.lean`); `symm upper a` the symmetric matrix given by one triangle.
-/

namespace Armas.Props

open Armas Finset

variable {α : Type}

/-! ## C10 -/

section ring
variable [CommRing α]

/-- C10: `y = beta*y + alpha*op(A)*x`, only `y` changes; for both code paths and every threshold
except 1.  Missing: threshold 1 and empty `A`, for which the claim is false (below). -/
theorem C10_mvmult_partial [DecidableEq α] (ab : α → α) {env : Env}
    (hmin : env.blas2min ≠ 1 ∨ env.naive = true) {fuel : Nat} {m : Mem α} {Y A X : View}
    {y x : Nat → α} {a : Nat → Nat → α} (beta alpha : α) {fl : Flags} (hfl : fl.absA = false)
    (h0 : A.size ≠ 0) (hf : Y.size < fuel)
    (hv : Y.isVec) (hw : Y.WF) (hXv : X.isVec)
    (hY : (if fl.transA then A.cols else A.rows) = Y.size)
    (hX : (if fl.transA then A.rows else A.cols) = X.size)
    (hy : HoldsV m Y y) (hA : Holds m A a) (hx : HoldsV m X x)
    (hdA : Disjoint A.foot Y.foot) (hdX : Disjoint X.foot Y.foot) :
    Runs (mvmult ab env fuel m beta Y alpha A X fl) (fun r => r.1 = 0 ∧
      HoldsV r.2 Y (fun i => beta * y i +
        alpha * ∑ j ∈ range X.size, (if fl.transA then a j i else a i j) * x j) ∧
      Frame Y.foot m r.2) := by
  have hrc : A.rows ≠ 0 ∧ A.cols ≠ 0 := by
    simpa [View.size] using h0
  unfold mvmult
  have hsz : ¬ (A.size = 0 ∨ X.size = 0 ∨ Y.size = 0) := by
    rintro (h | h | h)
    · exact h0 h
    · rw [← hX] at h; split at h <;> omega
    · rw [← hY] at h; split at h <;> omega
  rw [if_neg hsz, if_neg (by simp [hXv, hv]), if_neg (by
    rw [not_not]; split at hY <;> simp_all)]
  refine Runs.bind (scaleUnsafe_vec beta hv hw hy) ?_
  rintro m1 ⟨h1, f1⟩
  refine Runs.bind (P := fun m' => HoldsV m' Y (fun i => beta * y i +
        alpha * ∑ j ∈ range X.size, opA fl.transA a i j * x j) ∧ Frame Y.foot m1 m') ?_
    (fun m2 h2 => Runs.pure ⟨rfl, h2.1, f1.trans h2.2⟩)
  by_cases c : env.naive = true
  · rw [if_pos c]
    exact gemvUnb_spec ab alpha hfl hv hw hXv hY hX h1 (hA.frame f1 hdA) (hx.frame hXv f1 hdX) hdA hdX
  · rw [if_neg c]
    exact gemvRec_spec ab (hmin.resolve_right c) alpha hfl fuel hf hv hw hXv hY hX h1
      (hA.frame f1 hdA) (hx.frame hXv f1 hdX) hdA hdX

/-- 5x6 matrix with leading dimension 7 at 100, row vector `x` with stride 3, threshold 2. -/
example : Runs (mvmult (fun z : ℤ => |z|) ⟨8, 2, false, false⟩ 9 (tot (fun p => (p : ℤ))) 3 ⟨0, 5, 5, 1⟩ 2
    ⟨100, 7, 5, 6⟩ ⟨200, 3, 1, 6⟩ {}) (fun r => r.1 = 0 ∧
      HoldsV r.2 ⟨0, 5, 5, 1⟩ (fun i => 3 * (tot (fun p => (p : ℤ)) (View.vat ⟨0, 5, 5, 1⟩ i)).get! +
        2 * ∑ j ∈ range 6, ((100 + i + j * 7 : ℕ) : ℤ) * ((200 + j * 3 : ℕ) : ℤ)) ∧
      Frame (View.foot ⟨0, 5, 5, 1⟩) (tot (fun p => (p : ℤ))) r.2) :=
  C10_mvmult_partial (fun z : ℤ => |z|) (Or.inl (by decide)) 3 2 rfl (by decide) (by decide) (Or.inr rfl)
    (Or.inr (by decide)) (Or.inl rfl) (by rfl) (by rfl) (holdsV_tot _ _) (holds_tot _ _) (holdsV_tot _ _)
    (View.disj_below (by decide)).symm (View.disj_below (by decide)).symm

/-- C10 is false for the threshold 1 (which the environment variable may set): the recursive code
does not end on 1x1 operands, whatever their contents. -/
theorem C10_threshold1_false [DecidableEq α] (ab : α → α) {env : Env} (hmin : env.blas2min = 1)
    (hn : env.naive = false) (fuel : Nat) {m : Mem α} {Y A X : View}
    {y x : Nat → α} {a : Nat → Nat → α} (beta alpha : α) {fl : Flags} (hfl : fl.absA = false)
    (hv : Y.isVec) (hw : Y.WF) (hXv : X.isVec) (hr : A.rows = 1) (hc : A.cols = 1)
    (hY : Y.size = 1) (hX : X.size = 1)
    (hy : HoldsV m Y y) (hA : Holds m A a) (hx : HoldsV m X x)
    (hdA : Disjoint A.foot Y.foot) (hdX : Disjoint X.foot Y.foot) :
    mvmult ab env fuel m beta Y alpha A X fl = .diverge := by
  unfold mvmult
  rw [if_neg (by simp [View.size] at *; omega), if_neg (by simp [hXv, hv]),
    if_neg (by simp [hr, hc, hX, hY])]
  obtain ⟨m1, e1, h1, f1⟩ := scaleUnsafe_vec beta hv hw hy
  rw [e1]
  simp only [Res.ok_bind, hn, Bool.false_eq_true, if_false, hmin]
  rw [gemvRec_diverges ab alpha hfl fuel hv hw hXv hr hc hY hX h1 (hA.frame f1 hdA)
    (hx.frame hXv f1 hdX) hdA hdX]
  rfl

example : ∀ fuel, mvmult (fun z : ℤ => |z|) ⟨8, 1, false, false⟩ fuel (tot (fun p => (p : ℤ))) 3 ⟨0, 1, 1, 1⟩ 2
    ⟨1, 1, 1, 1⟩ ⟨2, 1, 1, 1⟩ {} = .diverge := fun fuel =>
  C10_threshold1_false _ rfl rfl fuel 3 2 rfl (Or.inl rfl) (Or.inl (by decide)) (Or.inl rfl) rfl rfl rfl rfl
    (holdsV_tot _ _) (holds_tot _ _) (holdsV_tot _ _) (by
      refine Set.disjoint_left.mpr ?_
      rintro p ⟨i, j, hi, hj, rfl⟩ ⟨i', j', hi', hj', e⟩
      simp only [View.at'] at *; omega) (by
      refine Set.disjoint_left.mpr ?_
      rintro p ⟨i, j, hi, hj, rfl⟩ ⟨i', j', hi', hj', e⟩
      simp only [View.at'] at *; omega)

end ring

/-- C10 is false for an empty `A` (conforming: 2x0 matrix, `x` of length 0): `y` is not multiplied by
`beta`, yet 0 is returned. -/
theorem C10_empty_false : ∃ (m : Mem ℤ) (Y A X : View), Y.isVec ∧ Y.WF ∧ A.rows = Y.size ∧
    A.cols = X.size ∧ HoldsV m Y (fun _ => 1) ∧ ∀ (env : Env) (fuel : Nat),
    ∃ m', mvmult (fun z => |z|) env fuel m 5 Y 1 A X {} = .ok (0, m') ∧
      ¬ HoldsV m' Y (fun _ => 5 * 1 + 1 * ∑ _j ∈ range X.size, 0) := by
  refine ⟨tot (fun _ => 1), ⟨0, 2, 2, 1⟩, ⟨10, 2, 2, 0⟩, ⟨20, 1, 0, 1⟩, Or.inr rfl, Or.inr (by decide),
    rfl, rfl, fun _ _ => rfl, fun env fuel => ⟨tot (fun _ => 1), ?_, ?_⟩⟩
  · unfold mvmult; rw [if_pos (by decide)]
  · intro h
    have := h 0 (by decide)
    simp [tot] at this

/-- With `ARMAS_ABS` and no transpose the unblocked kernel starts at the second element of `y`
(`src/blas/gemv.c:82`): for 1x1 operands it accesses memory outside of every operand. -/
theorem C10_abs_false : ∃ (m : Mem ℤ) (Y A X : View), Y.isVec ∧ Y.WF ∧ A.rows = Y.size ∧
    A.cols = X.size ∧ X.isVec ∧ HoldsV m Y (fun _ => 1) ∧ HoldsV m X (fun _ => 1) ∧
    Holds m A (fun _ _ => 1) ∧
    mvmult (fun z => |z|) ⟨8, 2, true, false⟩ 5 m 1 Y 1 A X {absA := true} = .ub := by
  refine ⟨fun p => if p % 10 = 0 then some 1 else none, ⟨0, 1, 1, 1⟩, ⟨10, 1, 1, 1⟩, ⟨20, 1, 1, 1⟩,
    Or.inl rfl, Or.inl (by decide), rfl, rfl, Or.inl rfl, ?_, ?_, ?_, by rfl⟩
  · intro k hk; simp [View.size] at hk; subst hk; rfl
  · intro k hk; simp [View.size] at hk; subst hk; rfl
  · intro k l hk hl; simp at hk hl; subst hk; subst hl; rfl

/-! ## C11 -/

section ring
variable [CommRing α]

/-- C11: `A = beta*A + alpha*x*y^T`; nothing else changes.  Missing: thresholds 0 and 1 in the
recursive code (false, below). -/
theorem C11_mvupdate_partial {env : Env} (hmin : 2 ≤ env.blas2min ∨ (env.naive = true ∧ env.recursive = false))
    {fuel : Nat} {m : Mem α} {A X Y : View} {a : Nat → Nat → α} {x y : Nat → α} (beta alpha : α)
    (hf : A.rows < fuel) (hw : A.WF) (hXv : X.isVec) (hYv : Y.isVec) (hX : X.size = A.rows)
    (hY : Y.size = A.cols) (hA : Holds m A a) (hx : HoldsV m X x) (hy : HoldsV m Y y)
    (hdX : Disjoint X.foot A.foot) (hdY : Disjoint Y.foot A.foot) :
    Runs (mvupdate env fuel m beta A alpha X Y) (fun r => r.1 = 0 ∧
      Holds r.2 A (fun i j => beta * a i j + alpha * (x i * y j)) ∧ Frame A.foot m r.2) := by
  unfold mvupdate
  by_cases h0 : A.size = 0 ∨ X.size = 0 ∨ Y.size = 0
  · rw [if_pos h0]
    refine Runs.ok ⟨rfl, fun i j hi hj => ?_, Frame.refl _ _⟩
    have : A.rows = 0 ∨ A.cols = 0 := by
      rw [hX, hY] at h0; simpa [View.size, or_assoc] using h0
    omega
  rw [if_neg h0, if_neg (not_not.mpr hXv), if_neg (not_not.mpr hYv), if_neg (by omega)]
  refine Runs.bind (P := fun m' => Holds m' A (gerVal beta alpha a x y) ∧ Frame A.foot m m') ?_
    (fun m' h => Runs.pure ⟨rfl, h⟩)
  by_cases c : env.naive = true ∧ ¬ env.recursive = true
  · rw [if_pos c]; exact gerUnb_spec beta alpha hw hXv hYv hX hY hA hx hy hdX hdY
  · rw [if_neg c]
    exact gerRec_spec (hmin.resolve_right (by simpa using c)) beta alpha fuel hf hw hXv hYv hX hY hA hx hy
      hdX hdY

example : Runs (mvupdate ⟨8, 2, false, false⟩ 9 (tot (fun p => (p : ℤ))) 3 ⟨100, 7, 5, 6⟩ 2
    ⟨0, 5, 5, 1⟩ ⟨200, 3, 1, 6⟩) (fun r => r.1 = 0 ∧
      Holds r.2 ⟨100, 7, 5, 6⟩ (fun i j => 3 * ((100 + i + j * 7 : ℕ) : ℤ) + 2 *
        (((View.vat ⟨0, 5, 5, 1⟩ i : ℕ) : ℤ) * ((View.vat ⟨200, 3, 1, 6⟩ j : ℕ) : ℤ))) ∧
      Frame (View.foot ⟨100, 7, 5, 6⟩) (tot (fun p => (p : ℤ))) r.2) :=
  C11_mvupdate_partial (Or.inl (by decide)) 3 2 (by decide) (Or.inl (by decide)) (Or.inr rfl) (Or.inl rfl)
    (by rfl) (by rfl) (holds_tot _ _) (holdsV_tot _ _) (holdsV_tot _ _)
    (View.disj_below (by decide)) (View.disj_below (by decide)).symm

/-- C11 is false for threshold 1: the recursion never ends on a 1x1 matrix. -/
theorem C11_threshold1_false {env : Env} (hmin : env.blas2min = 1) (hn : env.naive = false)
    (fuel : Nat) {m : Mem α} {A X Y : View} {a : Nat → Nat → α} {x y : Nat → α} (beta alpha : α)
    (hw : A.WF) (hr : A.rows = 1) (hc : A.cols = 1) (hXv : X.isVec) (hYv : Y.isVec) (hX : X.size = 1)
    (hY : Y.size = 1) (hA : Holds m A a) (hx : HoldsV m X x) (hy : HoldsV m Y y)
    (hdX : Disjoint X.foot A.foot) (hdY : Disjoint Y.foot A.foot) :
    mvupdate env fuel m beta A alpha X Y = .diverge := by
  unfold mvupdate
  rw [if_neg (by simp [View.size] at *; omega), if_neg (not_not.mpr hXv), if_neg (not_not.mpr hYv),
    if_neg (by omega), if_neg (by simp [hn]), hmin,
    gerRec_diverges beta alpha fuel hw hr hc hXv hYv hX hY hA hx hy hdX hdY]
  rfl

example : ∀ fuel, mvupdate ⟨8, 1, false, false⟩ fuel (tot (fun p => (p : ℤ))) 3 ⟨0, 1, 1, 1⟩ 2
    ⟨3, 1, 1, 1⟩ ⟨3, 1, 1, 1⟩ = .diverge := fun fuel =>
  C11_threshold1_false rfl rfl fuel 3 2 (Or.inl (by decide)) rfl rfl (Or.inl rfl) (Or.inl rfl) rfl rfl
    (holds_tot _ _) (holdsV_tot _ _) (holdsV_tot _ _)
    (View.disj_below (by decide)).symm (View.disj_below (by decide)).symm

end ring

/-! ## C12 -/

section ring
variable [CommRing α]

/-- C12: `x = alpha*op(T)*x` for the eight variants and both code paths.  Only elements of the
selected triangle are assumed to be allocated.  Missing: threshold 1 (false, below). -/
theorem C12_mvmult_trm_partial [DecidableEq α] (ab : α → α) {env : Env}
    (hmin : env.blas2min ≠ 1 ∨ env.naive = true) (alpha : α) {fl : Flags} (hfl : fl.lower = !fl.upper)
    {fuel : Nat} {m : Mem α} {X A : View}
    {x : Nat → α} {a : Nat → Nat → α} (hv : X.isVec) (hw : X.WF) (hAw : A.WF)
    (hr : A.rows = X.size) (hc : A.cols = X.size) (hf : X.size + 1 < fuel)
    (hx : HoldsV m X x) (hA : HoldsOn m A (InTri fl.upper fl.unit) a)
    (hd : Disjoint (A.footOn (InTri fl.upper fl.unit)) X.foot) :
    Runs (mvmultTrm ab env fuel m X alpha A fl) (fun r => r.1 = 0 ∧
      HoldsV r.2 X (fun i => alpha * ∑ j ∈ range X.size,
        (if fl.transA then trm fl.upper fl.unit a j i else trm fl.upper fl.unit a i j) * x j) ∧
      Frame X.foot m r.2) := by
  unfold mvmultTrm
  by_cases h0 : A.size = 0 ∨ X.size = 0
  · rw [if_pos h0]
    have : X.size = 0 := by
      rcases h0 with h | h
      · simpa [View.size, hr, hc] using h
      · exact h
    exact Runs.ok ⟨rfl, fun k hk => by omega, Frame.refl _ _⟩
  rw [if_neg h0, if_neg (not_not.mpr hv), if_neg (by omega)]
  refine Runs.bind (P := fun m' => HoldsV m' X (trmvVal alpha fl a x X.size) ∧ Frame X.foot m m') ?_
    (fun m' h => Runs.pure ⟨rfl, h.1, h.2⟩)
  by_cases c : env.naive = true ∨ env.blas2min = 0
  · rw [if_pos c]; exact trmvUnb_spec alpha hfl hv hw hr hc (by omega) hx hA hd
  rw [if_neg c]
  have hmin2 : 2 ≤ env.blas2min := by
    rw [not_or] at c; have := hmin.resolve_right c.1; omega
  by_cases hF : fl.trFwd = true
  · rw [if_pos hF]
    exact trmvFwdRec_spec ab hmin2 alpha hfl (by rw [Flags.trFwd_eq hfl] at hF; revert hF; cases fl.upper <;> cases fl.transA <;> decide)
      fuel hv hw hAw hr hc hf hx hA hd
  · rw [if_neg hF]
    exact trmvBwdRec_spec ab hmin2 alpha hfl (by rw [Flags.trFwd_eq hfl] at hF; revert hF; cases fl.upper <;> cases fl.transA <;> decide)
      fuel hv hw hAw hr hc hf hx hA hd

example : Runs (mvmultTrm (fun z : ℤ => |z|) ⟨8, 2, false, false⟩ 9 (tot (fun p => (p : ℤ))) ⟨0, 5, 5, 1⟩ 2
    ⟨100, 7, 5, 5⟩ {lower := true, transA := true, unit := true}) (fun r => r.1 = 0 ∧
      HoldsV r.2 ⟨0, 5, 5, 1⟩ (fun i => 2 * ∑ j ∈ range 5,
        (trm false true (fun i j => ((100 + i + j * 7 : ℕ) : ℤ)) j i) * ((View.vat ⟨0, 5, 5, 1⟩ j : ℕ) : ℤ)) ∧
      Frame (View.foot ⟨0, 5, 5, 1⟩) (tot (fun p => (p : ℤ))) r.2) :=
  C12_mvmult_trm_partial (X := ⟨0, 5, 5, 1⟩) _ (Or.inl (by decide)) 2 rfl (Or.inr rfl) (Or.inr (by decide))
    (Or.inl (by decide)) (by rfl) (by rfl) (by decide) (holdsV_tot _ _) (HoldsOn.of_holds (holds_tot _ _))
    ((View.disj_below (by decide)).symm.mono_left (View.footOn_sub_foot _ _))

theorem trmvBwdRec_diverges [DecidableEq α] (ab : α → α) {env : Env} (hmin : env.blas2min = 1)
    (alpha : α) (fl : Flags) : ∀ (fuel : Nat) (m : Mem α) (X A : View), A.rows = 1 → A.cols = 1 →
    trmvBwdRec ab env alpha fl fuel m X A = .diverge := by
  intro fuel
  induction fuel with
  | zero => intros; rfl
  | succ fuel ih =>
    intro m X A hr hc
    rw [trmvBwdRec, if_neg (by omega)]
    simp only [partition2x2]
    rw [ih _ _ _ (by simp [hr]) (by simp [hr, hc])]
    rfl

/-- C12 is false for threshold 1 (lower triangle, no transpose): the recursion never ends on a 1x1
matrix. -/
theorem C12_threshold1_false [DecidableEq α] (ab : α → α) {env : Env} (hmin : env.blas2min = 1)
    (hn : env.naive = false) (alpha : α) (fuel : Nat) (m : Mem α) {X A : View} (hv : X.isVec)
    (hX : X.size = 1) (hr : A.rows = 1) (hc : A.cols = 1) :
    mvmultTrm ab env fuel m X alpha A {lower := true} = .diverge := by
  unfold mvmultTrm
  rw [if_neg (by simp [View.size] at *; omega), if_neg (not_not.mpr hv), if_neg (by omega),
    if_neg (by simp [hn, hmin]), if_neg (by decide), trmvBwdRec_diverges ab hmin alpha _ fuel m X A hr hc]
  rfl

example : ∀ fuel, mvmultTrm (fun z : ℤ => |z|) ⟨8, 1, false, false⟩ fuel (tot (fun p => (p : ℤ)))
    ⟨0, 1, 1, 1⟩ 2 ⟨3, 1, 1, 1⟩ {lower := true} = .diverge := fun fuel =>
  C12_threshold1_false _ rfl rfl 2 fuel _ (Or.inl rfl) rfl rfl rfl

end ring

/-! ## C13 -/

section field
variable [Field α]

/-- C13: the result satisfies `op(T)*x = alpha*b` if `T` has no zero on its diagonal, for all
variants and both code paths; only the triangle is read, only `x` changes.  Missing: threshold 1. -/
theorem C13_mvsolve_trm_partial [DecidableEq α] (ab : α → α) {env : Env}
    (hmin : env.blas2min ≠ 1 ∨ env.naive = true) (alpha : α) {fl : Flags} (hfl : fl.lower = !fl.upper)
    {fuel : Nat} {m : Mem α} {X A : View}
    {b : Nat → α} {a : Nat → Nat → α} (hv : X.isVec) (hw : X.WF) (hAw : A.WF)
    (hr : A.rows = X.size) (hc : A.cols = X.size) (hf : X.size + 1 < fuel)
    (hx : HoldsV m X b) (hA : HoldsOn m A (InTri fl.upper fl.unit) a)
    (hd : Disjoint (A.footOn (InTri fl.upper fl.unit)) X.foot)
    (hnz : fl.unit = false → ∀ i, i < X.size → a i i ≠ 0) :
    Runs (mvsolveTrm ab env fuel m X alpha A fl) (fun r => r.1 = 0 ∧ ∃ z, HoldsV r.2 X z ∧
      (∀ i, i < X.size → ∑ j ∈ range X.size,
        (if fl.transA then trm fl.upper fl.unit a j i else trm fl.upper fl.unit a i j) * z j
          = alpha * b i) ∧
      Frame X.foot m r.2) := by
  have hnz' : ∀ i, i < X.size → opTri fl a i i ≠ 0 := by
    intro i hi
    rw [opTri_diag]
    split
    · exact one_ne_zero
    · rename_i hu; exact hnz (by simpa using hu) i hi
  unfold mvsolveTrm
  by_cases h0 : A.size = 0 ∨ X.size = 0
  · rw [if_pos h0]
    have : X.size = 0 := by
      rcases h0 with h | h
      · simpa [View.size, hr, hc] using h
      · exact h
    exact Runs.ok ⟨rfl, b, hx, fun k hk => by omega, Frame.refl _ _⟩
  rw [if_neg h0, if_neg (not_not.mpr hv), if_neg (by omega)]
  refine Runs.bind (P := fun m' => ∃ z, HoldsV m' X z ∧
      (∀ k, k < X.size → ∑ j ∈ range X.size, opTri fl a k j * z j = alpha * b k) ∧ Frame X.foot m m') ?_
    (fun m' h => Runs.pure ⟨rfl, h⟩)
  by_cases c : env.naive = true ∨ env.blas2min = 0
  · rw [if_pos c]; exact trsvUnb_spec alpha hfl hv hw hr hc (by omega) (by omega) hx hA hd hnz'
  rw [if_neg c]
  have hmin2 : 2 ≤ env.blas2min := by
    rw [not_or] at c; have := hmin.resolve_right c.1; omega
  by_cases hF : fl.trFwd = true
  · rw [if_pos hF]
    exact trsvBwdRec_spec ab hmin2 hfl (by rw [Flags.trFwd_eq hfl] at hF; revert hF; cases fl.upper <;> cases fl.transA <;> decide)
      fuel alpha hv hw hAw hr hc (by omega) hf hx hA hd hnz'
  · rw [if_neg hF]
    exact trsvFwdRec_spec ab hmin2 hfl (by rw [Flags.trFwd_eq hfl] at hF; revert hF; cases fl.upper <;> cases fl.transA <;> decide)
      fuel alpha hv hw hAw hr hc (by omega) hf hx hA hd hnz'

example : Runs (mvsolveTrm (fun z : ℚ => |z|) ⟨8, 2, false, false⟩ 9 (tot (fun p => (p : ℚ))) ⟨0, 5, 5, 1⟩ 2
    ⟨100, 7, 5, 5⟩ {upper := true, transA := true}) (fun r => r.1 = 0 ∧ ∃ z,
      HoldsV r.2 ⟨0, 5, 5, 1⟩ z ∧ (∀ i, i < 5 → ∑ j ∈ range 5,
        (trm true false (fun i j => ((100 + i + j * 7 : ℕ) : ℚ)) j i) * z j =
          2 * ((View.vat ⟨0, 5, 5, 1⟩ i : ℕ) : ℚ)) ∧
      Frame (View.foot ⟨0, 5, 5, 1⟩) (tot (fun p => (p : ℚ))) r.2) :=
  C13_mvsolve_trm_partial (X := ⟨0, 5, 5, 1⟩) _ (Or.inl (by decide)) 2 rfl (Or.inr rfl) (Or.inr (by decide))
    (Or.inl (by decide)) (by rfl) (by rfl) (by decide) (holdsV_tot _ _) (HoldsOn.of_holds (holds_tot _ _))
    ((View.disj_below (by decide)).symm.mono_left (View.footOn_sub_foot _ _))
    (fun _ i _ => by
      have : (View.at' ⟨100, 7, 5, 5⟩ i i) ≠ 0 := by simp only [View.at']; omega
      exact_mod_cast this)

theorem trsvBwdRec_diverges [DecidableEq α] (ab : α → α) {env : Env} (hmin : env.blas2min = 1)
    (fl : Flags) : ∀ (fuel : Nat) (m : Mem α) (X : View) (alpha : α) (A : View), A.rows = 1 → A.cols = 1 →
    trsvBwdRec ab env fl fuel m X alpha A = .diverge := by
  intro fuel
  induction fuel with
  | zero => intros; rfl
  | succ fuel ih =>
    intro m X alpha A hr hc
    rw [trsvBwdRec, if_neg (by omega)]
    simp only [partition2x2]
    rw [ih _ _ _ _ (by simp [hr]) (by simp [hr, hc])]
    rfl

/-- C13 is false for threshold 1 (upper triangle, no transpose): the recursion never ends on a 1x1
matrix. -/
theorem C13_threshold1_false [DecidableEq α] (ab : α → α) {env : Env} (hmin : env.blas2min = 1)
    (hn : env.naive = false) (alpha : α) (fuel : Nat) (m : Mem α) {X A : View} (hv : X.isVec)
    (hX : X.size = 1) (hr : A.rows = 1) (hc : A.cols = 1) :
    mvsolveTrm ab env fuel m X alpha A {upper := true} = .diverge := by
  unfold mvsolveTrm
  rw [if_neg (by simp [View.size] at *; omega), if_neg (not_not.mpr hv), if_neg (by omega),
    if_neg (by simp [hn, hmin]), if_pos (by decide), trsvBwdRec_diverges ab hmin _ fuel m X alpha A hr hc]
  rfl

example : ∀ fuel, mvsolveTrm (fun z : ℚ => |z|) ⟨8, 1, false, false⟩ fuel (tot (fun p => (p : ℚ)))
    ⟨0, 1, 1, 1⟩ 2 ⟨3, 1, 1, 1⟩ {upper := true} = .diverge := fun fuel =>
  C13_threshold1_false _ rfl rfl 2 fuel _ (Or.inl rfl) rfl rfl rfl

end field

/-! ## C14 -/

section ring
variable [CommRing α]

/-- C14: `y = beta*y + alpha*S*x`; elements of `A` outside of the selected triangle may be
unallocated.  Missing: thresholds 0 and 1 (false for 1, below). -/
theorem C14_mvmult_sym_partial [DecidableEq α] (ab : α → α) {env : Env} (hmin : 2 ≤ env.blas2min)
    (beta alpha : α) {fl : Flags} (hfl : fl.lower = !fl.upper) {fuel : Nat} {m : Mem α} {Y A X : View}
    {y x : Nat → α} {a : Nat → Nat → α} (hv : Y.isVec) (hw : Y.WF) (hXv : X.isVec)
    (hr : A.rows = Y.size) (hc : A.cols = Y.size) (hX : X.size = Y.size) (hf : Y.size + 1 < fuel)
    (hy : HoldsV m Y y) (hx : HoldsV m X x) (hA : HoldsOn m A (InTri fl.upper false) a)
    (hdA : Disjoint (A.footOn (InTri fl.upper false)) Y.foot) (hdX : Disjoint X.foot Y.foot) :
    Runs (mvmultSym ab env fuel m beta Y alpha A X fl) (fun r => r.1 = 0 ∧
      HoldsV r.2 Y (fun i => beta * y i + alpha * ∑ j ∈ range Y.size, symm fl.upper a i j * x j) ∧
      Frame Y.foot m r.2) := by
  unfold mvmultSym
  by_cases h0 : A.size = 0 ∨ X.size = 0 ∨ Y.size = 0
  · rw [if_pos h0]
    have : Y.size = 0 := by
      rcases h0 with h | h | h
      · simpa [View.size, hr, hc] using h
      · omega
      · exact h
    exact Runs.ok ⟨rfl, fun k hk => by omega, Frame.refl _ _⟩
  rw [if_neg h0, if_neg (not_not.mpr hXv), if_neg (not_not.mpr hv), if_neg (by omega)]
  refine Runs.bind (scaleUnsafe_vec beta hv hw hy) ?_
  rintro m1 ⟨h1, f1⟩
  refine Runs.bind (symvRec_spec ab hmin alpha hfl fuel hv hw hXv hr hc hX hf h1 (hx.frame hXv f1 hdX)
    (hA.frame f1 hdA) hdA hdX) ?_
  rintro m2 ⟨h2, f2⟩
  exact Runs.pure ⟨rfl, h2, f1.trans f2⟩

example : Runs (mvmultSym (fun z : ℤ => |z|) ⟨8, 2, false, false⟩ 9 (tot (fun p => (p : ℤ))) 3 ⟨0, 5, 5, 1⟩ 2
    ⟨100, 7, 5, 5⟩ ⟨200, 3, 1, 5⟩ {upper := true}) (fun r => r.1 = 0 ∧
      HoldsV r.2 ⟨0, 5, 5, 1⟩ (fun i => 3 * ((View.vat ⟨0, 5, 5, 1⟩ i : ℕ) : ℤ) + 2 * ∑ j ∈ range 5,
        symm true (fun i j => ((100 + i + j * 7 : ℕ) : ℤ)) i j * ((View.vat ⟨200, 3, 1, 5⟩ j : ℕ) : ℤ)) ∧
      Frame (View.foot ⟨0, 5, 5, 1⟩) (tot (fun p => (p : ℤ))) r.2) :=
  C14_mvmult_sym_partial (Y := ⟨0, 5, 5, 1⟩) (X := ⟨200, 3, 1, 5⟩) _ (by decide) 3 2 rfl (Or.inr rfl) (Or.inr (by decide))
    (Or.inl rfl) (by rfl) (by rfl) (by rfl) (by decide) (holdsV_tot _ _) (holdsV_tot _ _)
    (HoldsOn.of_holds (holds_tot _ _))
    ((View.disj_below (by decide)).symm.mono_left (View.footOn_sub_foot _ _))
    (View.disj_below (by decide)).symm

theorem symvRec_diverges [DecidableEq α] (ab : α → α) {env : Env} (hmin : env.blas2min = 1)
    (alpha : α) (fl : Flags) : ∀ (fuel : Nat) (m : Mem α) (Y A X : View), Y.size = 1 → A.rows = 1 →
    A.cols = 1 → symvRec ab env alpha fl fuel m Y A X = .diverge := by
  intro fuel
  induction fuel with
  | zero => intros; rfl
  | succ fuel ih =>
    intro m Y A X hY hr hc
    rw [symvRec]
    dsimp only
    rw [if_neg (by omega)]
    have ey : vecPartTop Y (Y.size / 2) = (Y.subvec 0 0, Y.subvec 0 1) := by
      rw [vecPartTop_eq (by omega), hY]
    simp only [ey, partition2x2]
    simp only [hY, hr, hc, Nat.reduceDiv, Nat.sub_zero]
    cases fuel with
    | zero => simp [symvRec]
    | succ fuel =>
      have e1 : ∀ X', symvRec ab env alpha fl (fuel + 1) m (Y.subvec 0 0) (A.sub 0 0 0 0) X' = .ok m := by
        intro X'
        rw [symvRec]
        dsimp only
        rw [View.subvec_size, if_pos (by omega)]
        unfold symvUnb
        simp [forUp, forUpN]
      have e2 : ∀ Y' X' fl' r c, r = 0 ∨ c = 0 →
          mvmultUnsafe ab env (fuel + 1) m 1 Y' alpha (A.sub 0 0 r c) X' fl' = .ok m := by
        intro Y' X' fl' r c h
        unfold mvmultUnsafe
        rw [if_pos (by rcases h with h | h <;> simp [View.size, h])]
      simp only [e1, Res.ok_bind, e2 _ _ _ _ _ (Or.inl rfl), e2 _ _ _ _ _ (Or.inr rfl),
        ih _ (Y.subvec 0 1) (A.sub 0 0 1 1) _ (View.subvec_size _ _ _) rfl rfl, Res.diverge_bind, ite_self]

/-- C14 is false for threshold 1: the recursion never ends on a 1x1 matrix. -/
theorem C14_threshold1_false [DecidableEq α] (ab : α → α) {env : Env} (hmin : env.blas2min = 1)
    (alpha : α) (fl : Flags) (fuel : Nat) (m : Mem α) {Y A X : View} (hv : Y.isVec)
    (hXv : X.isVec) (hX : X.size = 1) (hY : Y.size = 1) (hr : A.rows = 1) (hc : A.cols = 1) :
    mvmultSym ab env fuel m 1 Y alpha A X fl = .diverge := by
  unfold mvmultSym
  rw [if_neg (by simp [View.size] at *; omega), if_neg (not_not.mpr hXv), if_neg (not_not.mpr hv),
    if_neg (by omega), if_neg (by simp)]
  simp only [Res.pure_eq, Res.ok_bind]
  rw [symvRec_diverges ab hmin alpha _ fuel m Y A X hY hr hc]
  rfl

example : ∀ fuel, mvmultSym (fun z : ℤ => |z|) ⟨8, 1, false, false⟩ fuel (tot (fun p => (p : ℤ)))
    1 ⟨0, 1, 1, 1⟩ 2 ⟨3, 1, 1, 1⟩ ⟨3, 1, 1, 1⟩ {lower := true} = .diverge := fun fuel =>
  C14_threshold1_false _ rfl 2 _ fuel _ (Or.inl rfl) (Or.inl rfl) rfl rfl rfl rfl

/-! ## C15 -/

/-- C15 (rank-1): exactly the selected trapezoid of `A` becomes `beta*A + alpha*x*y^T`.  Missing: the
recursive version (`ARMAS_ORECURSIVE`) on non-square matrices and with threshold 1 (false, below). -/
theorem C15_mvupdate_trm_partial {env : Env} (beta alpha : α) {fl : Flags} (hfl : fl.lower = !fl.upper)
    {fuel : Nat} {m : Mem α} {A X Y : View} {a : Nat → Nat → α} {x y : Nat → α}
    (hrec : env.recursive = false ∨ env.naive = true ∨ (env.blas2min ≠ 1 ∧ A.cols = A.rows))
    (hf : A.rows + 1 < fuel) (hw : A.WF) (hXv : X.isVec) (hYv : Y.isVec) (hX : X.size = A.rows)
    (hY : Y.size = A.cols) (hA : HoldsOn m A (InTri fl.upper false) a) (hx : HoldsV m X x)
    (hy : HoldsV m Y y) (hdX : Disjoint X.foot (A.footOn (InTri fl.upper false)))
    (hdY : Disjoint Y.foot (A.footOn (InTri fl.upper false))) :
    Runs (mvupdateTrm env fuel m beta A alpha X Y fl) (fun r => r.1 = 0 ∧
      HoldsOn r.2 A (InTri fl.upper false) (fun i j => beta * a i j + alpha * (x i * y j)) ∧
      Frame (A.footOn (InTri fl.upper false)) m r.2) := by
  unfold mvupdateTrm
  by_cases h0 : A.size = 0 ∨ X.size = 0 ∨ Y.size = 0
  · rw [if_pos h0]
    refine Runs.ok ⟨rfl, fun i j hi hj => ?_, Frame.refl _ _⟩
    have : A.rows = 0 ∨ A.cols = 0 := by
      rw [hX, hY] at h0; simpa [View.size, or_assoc] using h0
    omega
  rw [if_neg h0, if_neg (not_not.mpr hXv), if_neg (not_not.mpr hYv), if_neg (by omega)]
  refine Runs.bind (P := fun m' => HoldsOn m' A (InTri fl.upper false) (gerVal beta alpha a x y) ∧
      Frame (A.footOn (InTri fl.upper false)) m m') ?_ (fun m' h => Runs.pure ⟨rfl, h⟩)
  by_cases c : env.recursive = true ∧ ¬ env.naive = true
  · rw [if_pos c]
    have h := (hrec.resolve_left (by simp [c.1])).resolve_left c.2
    exact updtrmvRec_spec h.1 beta alpha hfl fuel hf h.2 hw hXv hYv hX hY hA hx hy hdX hdY
  · rw [if_neg c]
    exact updtrmvUnb_spec beta alpha hfl hw hXv hYv hX hY hA hx hy hdX hdY

example : Runs (mvupdateTrm ⟨8, 2, false, true⟩ 9 (tot (fun p => (p : ℤ))) 3 ⟨100, 7, 5, 5⟩ 2
    ⟨0, 5, 5, 1⟩ ⟨200, 3, 1, 5⟩ {upper := true}) (fun r => r.1 = 0 ∧
      HoldsOn r.2 ⟨100, 7, 5, 5⟩ (InTri true false) (fun i j => 3 * ((100 + i + j * 7 : ℕ) : ℤ) + 2 *
        (((View.vat ⟨0, 5, 5, 1⟩ i : ℕ) : ℤ) * ((View.vat ⟨200, 3, 1, 5⟩ j : ℕ) : ℤ))) ∧
      Frame (View.footOn ⟨100, 7, 5, 5⟩ (InTri true false)) (tot (fun p => (p : ℤ))) r.2) :=
  C15_mvupdate_trm_partial 3 2 rfl (Or.inr (Or.inr ⟨by decide, rfl⟩)) (by decide) (Or.inl (by decide))
    (Or.inr rfl) (Or.inl rfl)
    (by rfl) (by rfl) (HoldsOn.of_holds (holds_tot _ _)) (holdsV_tot _ _) (holdsV_tot _ _)
    ((View.disj_below (by decide)).mono_right (View.footOn_sub_foot _ _))
    ((View.disj_below (by decide)).symm.mono_right (View.footOn_sub_foot _ _))

/-- C15 (symmetric rank-1): `armas_mvupdate_sym`, square `A`. -/
theorem C15_mvupdate_sym_partial {env : Env} (beta alpha : α) {fl : Flags} (hfl : fl.lower = !fl.upper)
    {fuel : Nat} {m : Mem α} {A X : View} {a : Nat → Nat → α} {x : Nat → α}
    (hrec : env.recursive = false ∨ env.naive = true ∨ env.blas2min ≠ 1) (hsq : A.cols = A.rows)
    (hf : A.rows + 1 < fuel) (hw : A.WF) (hXv : X.isVec) (hX : X.size = A.rows)
    (hA : HoldsOn m A (InTri fl.upper false) a) (hx : HoldsV m X x)
    (hdX : Disjoint X.foot (A.footOn (InTri fl.upper false))) :
    Runs (mvupdateSym env fuel m beta A alpha X fl) (fun r => r.1 = 0 ∧
      HoldsOn r.2 A (InTri fl.upper false) (fun i j => beta * a i j + alpha * (x i * x j)) ∧
      Frame (A.footOn (InTri fl.upper false)) m r.2) :=
  C15_mvupdate_trm_partial beta alpha hfl (hrec.imp id (Or.imp id (fun h => ⟨h, hsq⟩))) hf hw hXv hXv hX
    (by omega) hA hx hx hdX hdX

example : Runs (mvupdateSym ⟨8, 2, false, true⟩ 9 (tot (fun p => (p : ℤ))) 3 ⟨100, 7, 5, 5⟩ 2
    ⟨0, 5, 5, 1⟩ {lower := true}) (fun r => r.1 = 0 ∧
      HoldsOn r.2 ⟨100, 7, 5, 5⟩ (InTri false false) (fun i j => 3 * ((100 + i + j * 7 : ℕ) : ℤ) + 2 *
        (((View.vat ⟨0, 5, 5, 1⟩ i : ℕ) : ℤ) * ((View.vat ⟨0, 5, 5, 1⟩ j : ℕ) : ℤ))) ∧
      Frame (View.footOn ⟨100, 7, 5, 5⟩ (InTri false false)) (tot (fun p => (p : ℤ))) r.2) :=
  C15_mvupdate_sym_partial 3 2 rfl (Or.inr (Or.inr (by decide))) rfl (by decide) (Or.inl (by decide))
    (Or.inr rfl) (by rfl) (HoldsOn.of_holds (holds_tot _ _)) (holdsV_tot _ _)
    ((View.disj_below (by decide)).mono_right (View.footOn_sub_foot _ _))

/-- C15 (symmetric rank-2): exactly the selected triangle becomes `beta*A + alpha*(x*y^T + y*x^T)`.
Missing: thresholds 0 and 1 in the recursive code, and vectors whose length is not that of `A`,
which the code does not reject (false, below). -/
theorem C15_mvupdate2_sym_partial {env : Env}
    (hmin : 2 ≤ env.blas2min ∨ (env.naive = true ∧ env.recursive = false)) (beta alpha : α) {fl : Flags}
    {fuel : Nat} {m : Mem α} {A X Y : View} {a : Nat → Nat → α} {x y : Nat → α}
    (hf : A.rows + 1 < fuel) (hsq : A.cols = A.rows) (hw : A.WF) (hXv : X.isVec) (hYv : Y.isVec)
    (hX : X.size = A.rows) (hY : Y.size = A.rows) (hA : HoldsOn m A (InTri fl.upper false) a)
    (hx : HoldsV m X x) (hy : HoldsV m Y y)
    (hdX : Disjoint X.foot (A.footOn (InTri fl.upper false)))
    (hdY : Disjoint Y.foot (A.footOn (InTri fl.upper false))) :
    Runs (mvupdate2Sym env fuel m beta A alpha X Y fl) (fun r => r.1 = 0 ∧
      HoldsOn r.2 A (InTri fl.upper false)
        (fun i j => beta * a i j + alpha * (x i * y j + y i * x j)) ∧
      Frame (A.footOn (InTri fl.upper false)) m r.2) := by
  unfold mvupdate2Sym
  by_cases h0 : A.size = 0 ∨ X.size = 0 ∨ Y.size = 0
  · rw [if_pos h0]
    refine Runs.ok ⟨rfl, fun i j hi hj => ?_, Frame.refl _ _⟩
    have : A.rows = 0 ∨ A.cols = 0 := by
      rw [hX, hY] at h0
      rcases h0 with h | h | h
      · simpa [View.size] using h
      · exact Or.inl h
      · exact Or.inl h
    omega
  rw [if_neg h0, if_neg (not_not.mpr hXv), if_neg (not_not.mpr hYv), if_neg (by omega)]
  refine Runs.bind (P := fun m' => HoldsOn m' A (InTri fl.upper false) (syr2Val beta alpha a x y) ∧
      Frame (A.footOn (InTri fl.upper false)) m m') ?_ (fun m' h => Runs.pure ⟨rfl, h⟩)
  by_cases c : env.naive = true ∧ ¬ env.recursive = true
  · rw [if_pos c]
    exact syr2Unb_spec beta alpha hsq.symm hw hXv hYv (by omega) (by omega) hA hx hy hdX hdY
  · rw [if_neg c]
    exact syr2Rec_spec (hmin.resolve_right (by simpa using c)) beta alpha fuel hf hsq hw hXv hYv hX
      (by omega) hA hx hy hdX hdY

example : Runs (mvupdate2Sym ⟨8, 2, false, false⟩ 9 (tot (fun p => (p : ℤ))) 3 ⟨100, 7, 5, 5⟩ 2
    ⟨0, 5, 5, 1⟩ ⟨200, 3, 1, 5⟩ {lower := true}) (fun r => r.1 = 0 ∧
      HoldsOn r.2 ⟨100, 7, 5, 5⟩ (InTri false false) (fun i j => 3 * ((100 + i + j * 7 : ℕ) : ℤ) + 2 *
        (((View.vat ⟨0, 5, 5, 1⟩ i : ℕ) : ℤ) * ((View.vat ⟨200, 3, 1, 5⟩ j : ℕ) : ℤ) +
         ((View.vat ⟨200, 3, 1, 5⟩ i : ℕ) : ℤ) * ((View.vat ⟨0, 5, 5, 1⟩ j : ℕ) : ℤ))) ∧
      Frame (View.footOn ⟨100, 7, 5, 5⟩ (InTri false false)) (tot (fun p => (p : ℤ))) r.2) :=
  C15_mvupdate2_sym_partial (Or.inl (by decide)) 3 2 (by decide) rfl (Or.inl (by decide))
    (Or.inr rfl) (Or.inl rfl)
    (by rfl) (by rfl) (HoldsOn.of_holds (holds_tot _ _)) (holdsV_tot _ _) (holdsV_tot _ _)
    ((View.disj_below (by decide)).mono_right (View.footOn_sub_foot _ _))
    ((View.disj_below (by decide)).symm.mono_right (View.footOn_sub_foot _ _))

end ring

/-- C15: `armas_mvupdate2_sym` does not compare the vectors with the matrix: with a 2x2 matrix and
vectors of length 1 it reads beyond the vectors instead of returning an error. -/
theorem C15_update2_size_false : ∃ (m : Mem ℤ) (A X Y : View), A.WF ∧ A.rows = 2 ∧ A.cols = 2 ∧
    X.isVec ∧ Y.isVec ∧ X.size = 1 ∧ Y.size = 1 ∧ Holds m A (fun _ _ => 1) ∧
    HoldsV m X (fun _ => 1) ∧ HoldsV m Y (fun _ => 1) ∧
    mvupdate2Sym ⟨8, 2, true, false⟩ 9 m 1 A 1 X Y {lower := true} = .ub := by
  refine ⟨fun p => if p < 4 ∨ p % 10 = 0 then some 1 else none, ⟨0, 2, 2, 2⟩, ⟨10, 1, 1, 1⟩,
    ⟨20, 1, 1, 1⟩, Or.inl (by decide), rfl, rfl, Or.inl rfl, Or.inl rfl, rfl, rfl, ?_, ?_, ?_, by rfl⟩
  · intro k l hk hl; simp at hk hl
    have : View.at' ⟨0, 2, 2, 2⟩ k l < 4 := by simp only [View.at']; omega
    simp [this]
  · intro k hk; simp [View.size] at hk; subst hk; rfl
  · intro k hk; simp [View.size] at hk; subst hk; rfl

/-- C15: the recursive triangular update splits a non-square matrix away from its diagonal: for a
lower 2x4 matrix with threshold 2 the element (1,2), which is above the diagonal, is changed. -/
theorem C15_update_trm_rect_false : ∃ (m : Mem ℤ) (A X Y : View) (m' : Mem ℤ), A.WF ∧
    A.rows = X.size ∧ A.cols = Y.size ∧ X.isVec ∧ Y.isVec ∧
    Disjoint X.foot A.foot ∧ Disjoint Y.foot A.foot ∧ Holds m A (fun _ _ => 1) ∧
    HoldsV m X (fun _ => 1) ∧ HoldsV m Y (fun _ => 1) ∧
    mvupdateTrm ⟨8, 2, false, true⟩ 9 m 1 A 1 X Y {lower := true} = .ok (0, m') ∧
    ¬ Frame (A.footOn (InTri false false)) m m' := by
  obtain ⟨m', e, h⟩ : ∃ m', mvupdateTrm ⟨8, 2, false, true⟩ 9 (tot (fun _ => (1 : ℤ))) 1 ⟨0, 2, 2, 4⟩ 1
      ⟨10, 1, 1, 2⟩ ⟨20, 1, 1, 4⟩ {lower := true} = .ok (0, m') ∧ m' 5 = some 2 := ⟨_, by rfl, by rfl⟩
  refine ⟨_, ⟨0, 2, 2, 4⟩, ⟨10, 1, 1, 2⟩, ⟨20, 1, 1, 4⟩, m', Or.inl (by decide), rfl, rfl, Or.inl rfl,
    Or.inl rfl, (View.disj_below (by decide)).symm, (View.disj_below (by decide)).symm, fun _ _ _ _ => rfl, fun _ _ => rfl, fun _ _ => rfl, e, ?_⟩
  intro hf
  have := hf 5 (by
    rintro ⟨i, j, hi, hj, ht, e⟩
    unfold InTri at ht
    simp only [View.at'] at e hi hj
    simp at ht; omega)
  rw [h] at this
  simp [tot] at this

end Armas.Props
