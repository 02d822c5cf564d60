import Verif.TrxmNever
import Verif.Demo
import Mathlib.Algebra.Field.Rat

/-!
# C18, C19: triangular multiply and solve with a matrix

`InTri upper unit` is the part of `A` that may be referenced (the selected triangle, without the diagonal
for a unit triangle); `HoldsOn m A (InTri …) a` says that these elements are allocated and hold `a`,
nothing is assumed of the others.  `trm upper unit a` is the matrix which this data stands for: zeros in
the other triangle, ones on a unit diagonal.
-/

namespace Armas.Props

open Armas Finset

variable {α : Type}

/-- The two sides of a triangular system or product: `op(T)*X` or `X*op(T)`. -/
def triProd [CommRing α] (fl : Flags) (n : Nat) (a x : Nat → Nat → α) (i j : Nat) : α :=
  ∑ k ∈ range n, if fl.right then
    x i k * (if fl.transA then trm fl.upper fl.unit a j k else trm fl.upper fl.unit a k j)
  else (if fl.transA then trm fl.upper fl.unit a k i else trm fl.upper fl.unit a i k) * x k j

theorem triProd_lines [CommRing α] (fl : Flags) (n : Nat) (a x : Nat → Nat → α) (i j : Nat) :
    ∑ k ∈ range n, trE fl a i k * x k j = opM fl.right (triProd fl n a (opM fl.right x)) i j := by
  unfold triProd trE opM
  cases h1 : fl.right <;> simp only [Bool.false_eq_true, if_true, if_false] <;>
    refine Finset.sum_congr rfl (fun k _ => ?_) <;> cases fl.transA <;> simp [mul_comm]

theorem opM_opM (r : Bool) (f : Nat → Nat → α) : opM r (opM r f) = f := by
  cases r <;> rfl

/-- What both operations assume of the arguments. -/
structure TrArgs (c : Cache) (m : Mem α) (B A : View) (f a : Nat → Nat → α) (fl : Flags) : Prop where
  /-- `ARMAS_RIGHT` is used without `ARMAS_LEFT` -/
  side : fl.right = true → fl.left = false
  /-- one of `ARMAS_LOWER` and `ARMAS_UPPER` -/
  uplo : fl.lower = !fl.upper
  absA : fl.absA = false
  wf : B.WF
  square : A.rows = A.cols
  size : A.cols = if fl.right then B.cols else B.rows
  ready : c.Ready m
  rb : c.rb ≤ c.MB
  hB : Holds m B f
  hA : HoldsOn m A (InTri fl.upper fl.unit) a
  dAB : Disjoint (A.footOn (InTri fl.upper fl.unit)) B.foot
  dAc : Disjoint (A.footOn (InTri fl.upper fl.unit)) c.foot
  dBc : Disjoint B.foot c.foot

theorem TrArgs.pre {c : Cache} {m : Mem α} {B A : View} {f a : Nat → Nat → α} {fl : Flags}
    (H : TrArgs c m B A f a fl) (h : ¬ (B.size = 0 ∨ A.size = 0)) :
    TrPre c m B A (opM fl.right f) a fl ∧ trxmSizes B A fl = true ∧ B.wd fl.right ≤ B.rows + B.cols := by
  have hs := H.size
  have hq := H.square
  have hside := H.side
  simp only [View.size, mul_eq_zero, not_or] at h
  refine ⟨⟨H.wf, H.ready, H.rb, by rw [opM_opM]; exact H.hB, ?_, H.square, by omega, H.hA, H.dAB, H.dAc,
    H.dBc⟩, ?_, ?_⟩
  · rw [hs]; rfl
  · unfold trxmSizes
    cases h1 : fl.right
    · rw [h1] at hs; simp at hs ⊢; omega
    · rw [h1] at hs; rw [hside h1]; simp at hs ⊢; omega
  · unfold View.wd; split <;> omega

theorem TrArgs.empty {c : Cache} {m : Mem α} {B A : View} {f a : Nat → Nat → α} {fl : Flags}
    (H : TrArgs c m B A f a fl) (h : B.size = 0 ∨ A.size = 0) : B.rows = 0 ∨ B.cols = 0 := by
  have hs := H.size
  have hq := H.square
  simp only [View.size, mul_eq_zero] at h
  revert hs; split <;> intro hs <;> omega

/-! ## C18 -/

section ring
variable [CommRing α] [DecidableEq α]

/-- C18: `B = alpha*op(T)*B` or `B = alpha*B*op(T)` for the sixteen variants, all three algorithms, all
sizes and strides and every positive configuration of block sizes; only `B` and the copy buffers change.
Missing: recursion thresholds below 2 (false, `C18_threshold1_false`), a block size of zero (false,
`C18_zero_block_false`) and a row block `rb` larger than `MB`. -/
theorem C18_mult_trm_partial (ab : α → α) {env : Env}
    (hmin : 2 ≤ env.blas2min ∨ env.naive = true ∧ env.blas2min ≠ 1) {c : Cache} {m : Mem α} {B A : View}
    {f a : Nat → Nat → α} (alpha : α) {fl : Flags} (H : TrArgs c m B A f a fl) {fuel : Nat}
    (hf : A.cols + B.rows + B.cols < fuel) :
    Runs (multTrm ab env fuel m B alpha A fl (some c)) (fun r => r.1 = 0 ∧
      Holds r.2 B (fun i j => alpha * triProd fl A.cols a f i j) ∧ Frame (B.foot ∪ c.foot) m r.2) := by
  unfold multTrm
  by_cases h : B.size = 0 ∨ A.size = 0
  · rw [if_pos h]
    have := H.empty h
    exact Runs.ok ⟨rfl, fun i j hi hj => by omega, Frame.refl _ _⟩
  obtain ⟨P, hs, hw⟩ := H.pre h
  rw [if_neg h, hs, if_neg (by simp)]
  have fin : ∀ m', Holds m' B (opM fl.right (trmmVal fl alpha A.cols a (opM fl.right f))) →
      Holds m' B (fun i j => alpha * triProd fl A.cols a f i j) := by
    intro m' hm
    refine hm.congr (fun i j _ _ => ?_)
    have : trmmVal fl alpha A.cols a (opM fl.right f) =
        opM fl.right (fun i j => alpha * triProd fl A.cols a f i j) := by
      funext i j
      rw [trmmVal, triProd_lines, opM_opM]
      unfold opM; split <;> rfl
    rw [this, opM_opM]
  cases hn : env.naive
  · have hm2 : 2 ≤ env.blas2min := hmin.resolve_right (by simp [hn])
    rw [if_neg (by simp)]
    dsimp only
    refine Runs.bind (P := TrMid c m B fl.right (trmmVal fl alpha A.cols a (opM fl.right f))) ?_
      (fun m' hm => Runs.pure ⟨rfl, fin _ hm.hold, hm.frame⟩)
    split
    · exact trmmRecursive_spec ab hm2 alpha H.uplo P (by omega)
    · exact trmmBlk_spec ab hm2 alpha H.uplo H.absA P (by omega)
  · rw [if_pos rfl]
    refine Runs.bind (trmmUnb_spec ab (by omega) alpha P.wf P.hB P.hn P.hsq P.h0 (by omega) P.hA P.dAB)
      (fun m' hm => Runs.pure ⟨rfl, fin _ hm.1, hm.2.mono Set.subset_union_left⟩)

/-- A 7x6 matrix times the transpose of a lower triangle from the right, blocks of 3. -/
example := C18_mult_trm_partial (α := ℤ) (env := ⟨8, 2, false, false⟩) (m := tot (fun p => (p : ℤ)))
    (B := ⟨0, 8, 7, 6⟩) (A := ⟨100, 9, 6, 6⟩) (c := ⟨500, 600, 4, 2, 3, 2, 1⟩) id (Or.inl (by decide)) 3
    (fl := { lower := true, right := true, transA := true })
    ⟨fun _ => rfl, rfl, rfl, Or.inl (by decide), rfl, rfl,
      ⟨by decide, by decide, by decide, by decide, by decide, ⟨_, holds_tot _ _⟩, ⟨_, holds_tot _ _⟩,
        View.disj_below (by decide)⟩, by decide, holds_tot _ _, HoldsOn.of_holds (holds_tot _ _),
      (View.disj_below (by decide)).symm.mono_left (View.footOn_sub_foot _ _),
      (Set.disjoint_union_right.mpr ⟨View.disj_below (by decide), View.disj_below (by decide)⟩).mono_left
        (View.footOn_sub_foot _ _),
      Set.disjoint_union_right.mpr ⟨View.disj_below (by decide), View.disj_below (by decide)⟩⟩
    (fuel := 100) (by decide)

/-- C18: an argument of the wrong size is refused and nothing is written. -/
theorem C18_size_error (ab : α → α) (env : Env) (fuel : Nat) (m : Mem α) {B A : View} (alpha : α) {fl : Flags}
    (cbuf : Option Cache) (h0 : B.size ≠ 0 ∧ A.size ≠ 0)
    (hs : A.rows ≠ A.cols ∨ (fl.right = true ∧ fl.left = false ∧ B.cols ≠ A.rows) ∨
      (fl.right = false ∧ B.rows ≠ A.cols)) :
    multTrm ab env fuel m B alpha A fl cbuf = .ok (-ESIZE, m) := by
  unfold multTrm
  rw [if_neg (by omega), if_pos (by
    unfold trxmSizes
    cases h1 : fl.right <;> cases h2 : fl.left <;> simp [h1, h2] at hs ⊢ <;> omega)]

example := C18_size_error (α := ℤ) id ⟨8, 2, false, false⟩ 10 (tot (fun p => (p : ℤ))) (B := ⟨0, 8, 7, 6⟩)
    (A := ⟨100, 9, 6, 6⟩) 3 (fl := { lower := true }) none (by decide) (by decide)

/-- C18 is false for a recursion threshold (`blas2min`) of 1 or 0: neither the recursive nor the blocked
algorithm ever returns, for any arguments.  For threshold 1 the code enters the unblocked function
with an empty matrix and addresses elements outside of it (undefined in the model), for threshold 0 it
calls itself without end. -/
theorem C18_threshold1_false (ab : α → α) {env : Env} (hmin : env.blas2min ≤ 1) (hn : env.naive = false)
    (fuel : Nat) (m : Mem α) {B A : View} (alpha : α) {fl : Flags} (c : Cache)
    (h0 : B.size ≠ 0 ∧ A.size ≠ 0) (hs : trxmSizes B A fl = true) (r : Int × Mem α) :
    multTrm ab env fuel m B alpha A fl (some c) ≠ .ok r := by
  have hA : 0 < A.cols := by
    have := h0.2
    simp only [View.size, ne_eq, mul_eq_zero, not_or] at this
    omega
  unfold multTrm
  rw [if_neg (by omega), hs, if_neg (by simp), hn, if_neg (by simp)]
  dsimp only
  refine Res.bind_never (fun r => ?_) _
  split
  · exact trmmRecursive_never ab hmin alpha fl c fuel m B A r
  · have U : ∀ A0 trans, trmmBlkUp ab env fuel fl.right A0 trans m B alpha A fl c ≠ .ok r := by
      intro A0 trans
      unfold trmmBlkUp
      exact Res.bind_never (forUp_never hA (Res.bind_never (trmmRecursive_never ab hmin alpha fl c fuel _ _ _))) _
    have D : ∀ A0 trans, trmmBlkDown ab env fuel fl.right A0 trans m B alpha A fl c ≠ .ok r := by
      intro A0 trans
      unfold trmmBlkDown
      exact Res.bind_never (forUp_never hA (Res.bind_never (trmmRecursive_never ab hmin alpha fl c fuel _ _ _))) _
    unfold trmmBlk
    revert U D
    cases fl.right <;> intro U D <;> simp only [Bool.false_eq_true, if_true, if_false] <;> split <;> split <;>
      first | exact U _ _ | exact D _ _

example : ∀ fuel r, multTrm (α := ℤ) id ⟨8, 1, false, true⟩ fuel (tot (fun p => (p : ℤ))) ⟨0, 8, 7, 6⟩ 3
    ⟨100, 9, 7, 7⟩ { lower := true } (some ⟨500, 600, 4, 2, 3, 2, 1⟩) ≠ .ok r := fun fuel r =>
  C18_threshold1_false id (by decide) rfl fuel _ 3 _ (by decide) (by decide) r

/-- C18 is false for a block size of zero (see C25 for the settings that produce it): the blocked
algorithm runs forever. -/
theorem C18_zero_block_false (ab : α → α) {env : Env} (hn : env.naive = false) (hr : env.recursive = false)
    (fuel : Nat) (m : Mem α) {B A : View} (alpha : α) {fl : Flags} {c : Cache} (hc : c.NB = 0)
    (h0 : B.size ≠ 0 ∧ A.size ≠ 0) (hs : trxmSizes B A fl = true) :
    multTrm ab env fuel m B alpha A fl (some c) = .diverge := by
  have hA : 0 < A.cols := by
    have := h0.2
    simp only [View.size, ne_eq, mul_eq_zero, not_or] at this
    omega
  unfold multTrm
  rw [if_neg (by omega), hs, if_neg (by simp), hn, if_neg (by simp)]
  dsimp only
  rw [hr, if_neg (by simp)]
  unfold trmmBlk trmmBlkUp trmmBlkDown
  simp only [forUp, hc, hA, and_self, if_true, Res.diverge_bind]
  split <;> split <;> split <;> rfl

example : ∀ fuel, multTrm (α := ℤ) id ⟨8, 4, false, false⟩ fuel (tot (fun p => (p : ℤ))) ⟨0, 8, 7, 6⟩ 3
    ⟨100, 9, 7, 7⟩ { lower := true } (some ⟨500, 600, 4, 2, 0, 2, 1⟩) = .diverge := fun fuel =>
  C18_zero_block_false id rfl rfl fuel _ 3 rfl (by decide) (by decide)

end ring

/-! ## C19 -/

section field
variable [Field α] [DecidableEq α]

/-- C19: `B` is replaced by the `X` with `op(T)*X = alpha*B` or `X*op(T) = alpha*B`, for the sixteen
variants, all sizes and strides and every positive configuration of block sizes: for every `alpha` in the
unblocked algorithm and when the matrix (or, in the blocked algorithm, a block) is below the recursion
threshold, for `alpha = 1` in all cases.
Missing: other `alpha` when the recursion is entered; the claim is false then, see
`C19_recursive_alpha_false`.  Also missing as in C18: thresholds below 2 (`C19_threshold1_false`), block
size zero, `rb > MB`. -/
theorem C19_solve_trm_partial (ab : α → α) {env : Env}
    (hmin : 2 ≤ env.blas2min ∨ env.naive = true ∧ env.blas2min ≠ 1) {c : Cache} {m : Mem α} {B A : View}
    {f a : Nat → Nat → α} (alpha : α) {fl : Flags} (H : TrArgs c m B A f a fl)
    (htb : fl.transB = false) (hab : fl.absB = false)
    (hnz : fl.unit = true ∨ ∀ i, i < A.cols → a i i ≠ 0)
    (hal : alpha = 1 ∨ env.naive = true ∨ A.cols < env.blas2min ∨
      (env.recursive = false ∧ c.NB < env.blas2min)) {fuel : Nat}
    (hf : A.cols + B.rows + B.cols < fuel) :
    Runs (solveTrm ab env fuel m B alpha A fl (some c)) (fun r => r.1 = 0 ∧
      (∃ X, Holds r.2 B X ∧ ∀ i j, i < B.rows → j < B.cols → triProd fl A.cols a X i j = alpha * f i j) ∧
      Frame (B.foot ∪ c.foot) m r.2 ∧ c.Ready r.2) := by
  unfold solveTrm
  by_cases h : B.size = 0 ∨ A.size = 0
  · rw [if_pos h]
    have := H.empty h
    exact Runs.ok ⟨rfl, ⟨f, H.hB, fun i j hi hj => by omega⟩, Frame.refl _ _, H.ready⟩
  obtain ⟨P, hs, hw⟩ := H.pre h
  rw [if_neg h, hs, if_neg (by simp)]
  have hE : ∀ i, i < A.cols → trE fl a i i ≠ 0 := by
    intro i hi
    rw [trE_diag]
    cases hu : fl.unit
    · exact hnz.resolve_left (by simp [hu]) i hi
    · simp
  obtain ⟨g, hg⟩ : ∃ g, TrSol fl alpha A.cols (B.wd fl.right) a (opM fl.right f) g := by
    choose z hz using fun q => tri_solvable fl a (fun i => alpha * opM fl.right f i q) A.cols hE
    exact ⟨fun i q => z q i, fun i q hi _ => hz q i hi⟩
  have fin : ∀ i j, i < B.rows → j < B.cols → triProd fl A.cols a (opM fl.right g) i j = alpha * f i j := by
    intro i j hi hj
    have h1 := P.hn
    unfold TrSol at hg
    simp only [triProd_lines] at hg
    revert h1 hg
    cases fl.right <;> simp only [View.nl, View.wd, opM, Bool.false_eq_true, if_true, if_false] <;> intro h1 hg
    · exact hg i j (by omega) hj
    · exact hg j i (by omega) hi
  cases hn : env.naive
  · have hm2 : 2 ≤ env.blas2min := hmin.resolve_right (by simp [hn])
    rw [if_neg (by simp)]
    dsimp only
    refine Runs.bind (P := TrMid c m B fl.right g) ?_
      (fun m' hm => Runs.pure ⟨rfl, ⟨_, hm.hold, fin⟩, hm.frame, hm.ready⟩)
    rw [hn] at hal
    split
    · rename_i hr
      exact trsmRecursive_spec ab hm2 alpha H.uplo P (by omega) (by simpa [hr] using hal) hg hE
    · refine trsmBlk_spec ab hm2 alpha H.uplo htb H.absA hab P (by omega) ?_ hg hE
      rcases hal with h | h | h | h
      · exact Or.inl h
      · cases h
      · right; omega
      · right; omega
  · rw [if_pos rfl]
    refine Runs.bind (trsmUnb_spec ab (by omega) alpha H.uplo P.wf P.hB P.hn P.hsq P.h0 (by omega) P.hA P.dAB
        hg hE)
      (fun m' hm => Runs.pure ⟨rfl, ⟨_, hm.1, fin⟩, hm.2.mono Set.subset_union_left,
        H.ready.frame hm.2 H.dBc.symm⟩)

/-- A 7x6 right hand side, upper triangle from the right, blocks of 3 below the threshold 4, `alpha = 5`. -/
example := C19_solve_trm_partial (α := ℚ) (env := ⟨8, 4, false, false⟩) (m := tot (fun p => (p + 1 : ℚ)))
    (B := ⟨0, 8, 7, 6⟩) (A := ⟨100, 9, 6, 6⟩) (c := ⟨500, 600, 4, 2, 3, 2, 1⟩) id (Or.inl (by decide)) 5
    (fl := { upper := true, right := true })
    ⟨fun _ => rfl, rfl, rfl, Or.inl (by decide), rfl, rfl,
      ⟨by decide, by decide, by decide, by decide, by decide, ⟨_, holds_tot _ _⟩, ⟨_, holds_tot _ _⟩,
        View.disj_below (by decide)⟩, by decide, holds_tot _ _, HoldsOn.of_holds (holds_tot _ _),
      (View.disj_below (by decide)).symm.mono_left (View.footOn_sub_foot _ _),
      (Set.disjoint_union_right.mpr ⟨View.disj_below (by decide), View.disj_below (by decide)⟩).mono_left
        (View.footOn_sub_foot _ _),
      Set.disjoint_union_right.mpr ⟨View.disj_below (by decide), View.disj_below (by decide)⟩⟩
    rfl rfl (Or.inr (fun i _ => Nat.cast_add_one_ne_zero _)) (Or.inr (Or.inr (Or.inr ⟨rfl, by decide⟩)))
    (fuel := 100) (by decide)

omit [Field α] [DecidableEq α] in
/-- C19: an argument of the wrong size is refused and nothing is written. -/
theorem C19_size_error [Field α] [DecidableEq α] (ab : α → α) (env : Env) (fuel : Nat) (m : Mem α) {B A : View}
    (alpha : α) {fl : Flags}
    (cbuf : Option Cache) (h0 : B.size ≠ 0 ∧ A.size ≠ 0)
    (hs : A.rows ≠ A.cols ∨ (fl.right = true ∧ fl.left = false ∧ B.cols ≠ A.rows) ∨
      (fl.right = false ∧ B.rows ≠ A.cols)) :
    solveTrm ab env fuel m B alpha A fl cbuf = .ok (-ESIZE, m) := by
  unfold solveTrm
  rw [if_neg (by omega), if_pos (by
    unfold trxmSizes
    cases h1 : fl.right <;> cases h2 : fl.left <;> simp [h1, h2] at hs ⊢ <;> omega)]

example := C19_size_error (α := ℚ) id ⟨8, 2, false, false⟩ 10 (tot (fun p => (p : ℚ))) (B := ⟨0, 8, 7, 6⟩)
    (A := ⟨100, 9, 6, 6⟩) 3 (fl := { lower := true }) none (by decide) (by decide)

/-- C19 is false for a recursion threshold of 1 or 0: neither the recursive nor the blocked algorithm
ever returns. -/
theorem C19_threshold1_false (ab : α → α) {env : Env} (hmin : env.blas2min ≤ 1) (hn : env.naive = false)
    (fuel : Nat) (m : Mem α) {B A : View} (alpha : α) {fl : Flags} (huplo : fl.lower = !fl.upper) (c : Cache)
    (h0 : B.size ≠ 0 ∧ A.size ≠ 0) (hs : trxmSizes B A fl = true) (r : Int × Mem α) :
    solveTrm ab env fuel m B alpha A fl (some c) ≠ .ok r := by
  unfold solveTrm
  rw [if_neg (by omega), hs, if_neg (by simp), hn, if_neg (by simp)]
  dsimp only
  refine Res.bind_never (fun r => ?_) _
  split
  · exact trsmRecursive_never ab hmin alpha fl c fuel m B A r
  · have U : trsmBlkUp ab env fuel fl.right m B alpha A fl c ≠ .ok r := by
      unfold trsmBlkUp
      exact Res.bind_never (trsmRecursive_never ab hmin alpha _ c fuel _ _ _) _
    have D : trsmBlkDown ab env fuel fl.right m B alpha A fl c ≠ .ok r := by
      unfold trsmBlkDown
      exact Res.bind_never (trsmRecursive_never ab hmin alpha _ c fuel _ _ _) _
    unfold trsmBlk
    rw [huplo]
    revert U D
    cases fl.right <;> cases fl.upper <;> cases fl.transA <;> intro U D <;>
      simp only [Bool.not_true, Bool.not_false] <;> first | exact U | exact D

example : ∀ fuel r, solveTrm (α := ℚ) id ⟨8, 1, false, false⟩ fuel (tot (fun p => (p : ℚ))) ⟨0, 8, 7, 6⟩ 3
    ⟨100, 9, 7, 7⟩ { lower := true } (some ⟨500, 600, 4, 2, 3, 2, 1⟩) ≠ .ok r := fun fuel r =>
  C19_threshold1_false id (by decide) rfl fuel _ 3 rfl _ (by decide) (by decide) r

end field

/-- C19 is false for `alpha ≠ 1` in the recursive algorithm: `alpha` multiplies the right hand side of the
second half after the first half, already multiplied, was subtracted.  Here `T = [1 0; 1 1]`,
`B = (1, 1)` and `alpha = 2`: the solution is `(2, 0)`, the code returns `(2, -2)` with status 0. -/
theorem C19_recursive_alpha_false : ∃ (m : Mem ℚ) (B A : View) (c : Cache) (env : Env),
    TrArgs c m B A (fun _ _ => 1) (fun _ _ => 1) { lower := true } ∧ 2 ≤ env.blas2min ∧
    ∀ fuel, 5 < fuel → ∃ m', solveTrm id env fuel m B 2 A { lower := true } (some c) = .ok (0, m') ∧
      m' (B.at' 0 0) = some 2 ∧ m' (B.at' 1 0) = some (-2) ∧
      ¬ ∃ X, Holds m' B X ∧ ∀ i, i < 2 → triProd { lower := true } 2 (fun _ _ => (1 : ℚ)) X i 0 = 2 * 1 := by
  have H : TrArgs (α := ℚ) ⟨500, 600, 4, 2, 3, 2, 1⟩ (tot (fun _ => 1)) ⟨0, 2, 2, 1⟩ ⟨100, 2, 2, 2⟩
      (fun _ _ => 1) (fun _ _ => 1) { lower := true } :=
    ⟨fun _ => rfl, rfl, rfl, Or.inl (by decide), rfl, rfl,
      ⟨by decide, by decide, by decide, by decide, by decide, ⟨_, holds_tot _ _⟩, ⟨_, holds_tot _ _⟩,
        View.disj_below (by decide)⟩, by decide, holds_tot _ _, HoldsOn.of_holds (holds_tot _ _),
      (View.disj_below (by decide)).symm.mono_left (View.footOn_sub_foot _ _),
      (Set.disjoint_union_right.mpr ⟨View.disj_below (by decide), View.disj_below (by decide)⟩).mono_left
        (View.footOn_sub_foot _ _),
      Set.disjoint_union_right.mpr ⟨View.disj_below (by decide), View.disj_below (by decide)⟩⟩
  refine ⟨_, _, _, _, ⟨8, 2, false, true⟩, H, le_refl _, fun fuel hf => ?_⟩
  obtain ⟨P, hs, -⟩ := H.pre (by decide)
  obtain ⟨m', e, hm⟩ := trsm_alpha_twice (env := ⟨8, 2, false, true⟩) rfl P rfl rfl (fun i => rfl) rfl hf
  refine ⟨m', ?_, hm.1, hm.2, ?_⟩
  · unfold solveTrm
    rw [if_neg (by decide), hs, if_neg (by simp), if_neg (by simp)]
    dsimp only
    rw [if_pos rfl, e]
    rfl
  · rintro ⟨X, hX, h⟩
    have h0 := hX 0 0 (by decide) (by decide)
    have h1 := hX 1 0 (by decide) (by decide)
    rw [hm.1] at h0
    rw [hm.2] at h1
    have := h 1 (by decide)
    simp [triProd, Finset.sum_range_succ, trm, ← Option.some.inj h0, ← Option.some.inj h1] at this

end Armas.Props
