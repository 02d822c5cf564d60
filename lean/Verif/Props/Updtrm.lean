import Verif.UpdtrmLemmas
import Verif.Demo
import Mathlib.Algebra.Order.Ring.Int

/-!
# C21: triangular and symmetric rank-k updates

Only the selected triangle (or trapezoid) of `C` has to be allocated: any access to an element of the
opposite part is undefined behaviour in the model, so the theorems also say that it is not referenced.
-/

namespace Armas.Props

open Armas Finset

variable {α : Type}

/-- Element of `op(A)*op(B)`, `n` the inner dimension. -/
def rankSum [CommRing α] (transA transB : Bool) (n : Nat) (a b : Nat → Nat → α) (i j : Nat) : α :=
  ∑ k ∈ range n, (if transA then a k i else a i k) * (if transB then b j k else b k j)

/-- Arguments of `armas_update_trm`: conforming sizes, `A` and `B` apart from the triangle of `C` (they may
overlap each other), buffers usable and apart from the operands. -/
structure UpdArgs (c : Cache) (m : Mem α) (C A B : View) (f a b : Nat → Nat → α) (K : Nat) (fl : Flags) :
    Prop where
  absA : fl.absA = false
  absB : fl.absB = false
  wf : C.WF
  inner : 0 < K
  Ar : (if fl.transA then A.cols else A.rows) = C.rows
  Ak : (if fl.transA then A.rows else A.cols) = K
  Bk : (if fl.transB then B.cols else B.rows) = K
  Bc : (if fl.transB then B.rows else B.cols) = C.cols
  ready : c.Ready m
  hA : Holds m A a
  hB : Holds m B b
  hC : HoldsOn m C (InTri fl.upper false) f
  dA : Disjoint A.foot c.foot
  dB : Disjoint B.foot c.foot
  dC : Disjoint (C.footOn (InTri fl.upper false)) c.foot
  dAC : Disjoint A.foot (C.footOn (InTri fl.upper false))
  dBC : Disjoint B.foot (C.footOn (InTri fl.upper false))

/-- The condition that the splits of the upper triangle meet only even sizes: when the order is halved
until it is below the threshold.  It concerns the order of the triangle in the recursive version and the
size of the blocks in the blocked one. -/
def EvenSplits (env : Env) (c : Cache) (n : Nat) (fl : Flags) : Prop :=
  fl.upper = false ∨ env.naive = true ∨
    if env.recursive then ∀ k, env.blas2min ≤ n / 2 ^ k → Even (n / 2 ^ k)
    else ∀ k, (env.blas2min ≤ c.NB / 2 ^ k → Even (c.NB / 2 ^ k)) ∧
      (env.blas2min ≤ n % c.NB / 2 ^ k → Even (n % c.NB / 2 ^ k))

section ring
variable [CommRing α] [DecidableEq α]

theorem UpdArgs.pre {c : Cache} {m : Mem α} {C A B : View} {f a b : Nat → Nat → α} {K : Nat} {fl : Flags}
    (H : UpdArgs c m C A B f a b K fl) :
    UpdPre c m C A B fl C.rows C.cols K (opM fl.transA a) (opM fl.transB b) := by
  obtain ⟨h1, h2, h3, h4, h5, h6, h7, h8, h9, h10, h11, h12, h13, h14, h15, h16, h17⟩ := H
  refine ⟨h1, h2, h3, h4, rfl, rfl, ?_, ?_, ?_, ?_, h10.congr ?_, h11.congr ?_, h13, h14, h15, h16, h17⟩
  · revert h5 h6; cases fl.transA <;> simp <;> omega
  · revert h5 h6; cases fl.transA <;> simp <;> omega
  · revert h7 h8; cases fl.transB <;> simp <;> omega
  · revert h7 h8; cases fl.transB <;> simp <;> omega
  · intro i j _ _; cases fl.transA <;> rfl
  · intro i j _ _; cases fl.transB <;> rfl

/-- C21: the selected triangle of `C` becomes `beta*C + alpha*op(A)*op(B)`, all else except the buffers is
unchanged (and the opposite triangle not even read), for all sizes, strides, transposes and every
configuration in the unblocked, blocked and recursive versions; for the upper triangle under the condition
that sizes are split evenly.
Missing: odd sizes above the threshold for the upper triangle, for which the claim is false
(`C21_odd_upper_false`); inner dimension zero (`C21_inner_zero_false`); thresholds below 2 except for the
unblocked version (`C21_threshold0_false`). -/
theorem C21_update_trm_partial (ab : α → α) {env : Env}
    (hmin : 2 ≤ env.blas2min ∨ env.naive = true ∧ env.blas2min ≠ 1) {c : Cache} {m : Mem α} {C A B : View}
    {f a b : Nat → Nat → α} {K : Nat} (beta alpha : α) {fl : Flags} (H : UpdArgs c m C A B f a b K fl)
    (he : EvenSplits env c (min C.rows C.cols) fl) {fuel : Nat} (hf : 2 * (C.rows + C.cols) + 1 < fuel) :
    Runs (updateTrm ab env fuel m beta C alpha A B fl (some c)) (fun r => r.1 = 0 ∧
      HoldsOn r.2 C (InTri fl.upper false)
        (fun i j => beta * f i j + alpha * rankSum fl.transA fl.transB K a b i j) ∧
      Frame (C.footOn (InTri fl.upper false) ∪ c.foot) m r.2 ∧ c.Ready r.2) := by
  have P := H.pre
  unfold updateTrm
  by_cases h0 : C.size = 0 ∨ A.size = 0 ∨ B.size = 0
  · rw [if_pos h0]
    refine Runs.ok ⟨rfl, ?_, Frame.refl _ _, H.ready⟩
    have : C.rows = 0 ∨ C.cols = 0 := by
      have h1 := P.Ar; have h2 := P.Ac; have h3 := P.Br; have h4 := P.Bc; have h5 := H.inner
      simp only [View.size, mul_eq_zero] at h0
      revert h1 h2 h3 h4
      cases fl.transA <;> cases fl.transB <;> simp <;> omega
    intro i j hi hj; omega
  rw [if_neg h0]
  have hs : updSizes C A B fl = true := by
    have h1 := P.Ar; have h2 := P.Ac; have h3 := P.Br; have h4 := P.Bc
    unfold updSizes
    revert h1 h2 h3 h4
    cases fl.transA <;> cases fl.transB <;> simp <;> omega
  rw [hs, if_neg (by simp)]
  have fin : ∀ m', UpdDone c m C fl (updVal beta alpha K f (opM fl.transA a) (opM fl.transB b)) m' →
      HoldsOn m' C (InTri fl.upper false)
        (fun i j => beta * f i j + alpha * rankSum fl.transA fl.transB K a b i j) ∧
      Frame (C.footOn (InTri fl.upper false) ∪ c.foot) m m' ∧ c.Ready m' := by
    rintro m' ⟨h1, h2, h3⟩
    refine ⟨h1.congr (fun i j _ _ _ => ?_), h2, h3⟩
    simp only [updVal, rankSum, opM]
  cases hn : env.naive
  · have hm2 : 2 ≤ env.blas2min := hmin.resolve_right (by simp [hn])
    rw [if_neg (by simp)]
    dsimp only
    refine Runs.bind (P := UpdDone c m C fl (updVal beta alpha K f (opM fl.transA a) (opM fl.transB b)))
      ?_ (fun m' hm => Runs.pure ⟨rfl, fin m' hm⟩)
    unfold EvenSplits at he
    cases hr : env.recursive
    · rw [if_neg (by simp)]
      refine updBlk_spec ab hm2 beta alpha P H.ready hf ?_ H.ready.nb H.hC
      intro hu
      have := (he.resolve_left (by simp [hu])).resolve_left (by simp [hn])
      rw [hr, if_neg (by simp)] at this
      exact ⟨fun k hk => Nat.even_iff.mp ((this k).1 hk), fun k hk => Nat.even_iff.mp ((this k).2 hk)⟩
    · rw [if_pos rfl]
      refine updRec_spec ab hm2 beta alpha P H.ready (by omega) ?_ H.hC
      intro hu
      have := (he.resolve_left (by simp [hu])).resolve_left (by simp [hn])
      rw [hr, if_pos rfl] at this
      exact fun k hk => Nat.even_iff.mp (this k hk)
  · rw [if_pos rfl]
    exact Runs.bind (updNaive_spec ab (by omega) beta alpha P H.ready (by omega) H.hC)
      (fun m' hm => Runs.pure ⟨rfl, fin m' hm⟩)

/-- The buffers of the examples. -/
def exUpdCache : Cache := ⟨500, 600, 4, 4, 3, 3, 1⟩

theorem exUpdReady : exUpdCache.Ready (tot (fun p => (p : ℤ))) :=
  ⟨by decide, by decide, by decide, by decide, by decide, ⟨_, holds_tot _ _⟩, ⟨_, holds_tot _ _⟩,
    View.disj_below (by decide)⟩

/-- A 9x7 lower trapezoid, recursive, threshold 2: sizes 7, 3, 4 are split. -/
example := C21_update_trm_partial (α := ℤ) (env := ⟨8, 2, false, true⟩) id (Or.inl (by decide))
    (m := tot (fun p => (p : ℤ))) (C := ⟨0, 10, 9, 7⟩) (A := ⟨100, 9, 9, 4⟩) (B := ⟨200, 8, 7, 4⟩)
    (c := exUpdCache) (K := 4) 3 (-2) (fl := { lower := true, transB := true })
    ⟨rfl, rfl, Or.inl (by decide), by decide, rfl, rfl, rfl, rfl, exUpdReady,
      holds_tot _ _, holds_tot _ _, HoldsOn.of_holds (holds_tot _ _),
      Set.disjoint_union_right.mpr ⟨View.disj_below (by decide), View.disj_below (by decide)⟩,
      Set.disjoint_union_right.mpr ⟨View.disj_below (by decide), View.disj_below (by decide)⟩,
      (Set.disjoint_union_right.mpr ⟨View.disj_below (by decide), View.disj_below (by decide)⟩).mono_left
        (View.footOn_sub_foot _ _),
      (View.disj_below (by decide)).symm.mono_right (View.footOn_sub_foot _ _),
      (View.disj_below (by decide)).symm.mono_right (View.footOn_sub_foot _ _)⟩
    (Or.inl rfl) (fuel := 100) (by decide)

/-- A 5x7 upper trapezoid, blocked; the blocks of 3 are below the threshold 4. -/
example := C21_update_trm_partial (α := ℤ) (env := ⟨8, 4, false, false⟩) id (Or.inl (by decide))
    (m := tot (fun p => (p : ℤ))) (C := ⟨0, 10, 5, 7⟩) (A := ⟨100, 9, 4, 5⟩) (B := ⟨200, 8, 4, 7⟩)
    (c := exUpdCache) (K := 4) 3 (-2) (fl := { upper := true, transA := true })
    ⟨rfl, rfl, Or.inl (by decide), by decide, rfl, rfl, rfl, rfl, exUpdReady,
      holds_tot _ _, holds_tot _ _, HoldsOn.of_holds (holds_tot _ _),
      Set.disjoint_union_right.mpr ⟨View.disj_below (by decide), View.disj_below (by decide)⟩,
      Set.disjoint_union_right.mpr ⟨View.disj_below (by decide), View.disj_below (by decide)⟩,
      (Set.disjoint_union_right.mpr ⟨View.disj_below (by decide), View.disj_below (by decide)⟩).mono_left
        (View.footOn_sub_foot _ _),
      (View.disj_below (by decide)).symm.mono_right (View.footOn_sub_foot _ _),
      (View.disj_below (by decide)).symm.mono_right (View.footOn_sub_foot _ _)⟩
    (Or.inr (Or.inr (fun k =>
      ⟨fun h => absurd (h.trans (Nat.div_le_self _ _)) (by decide),
       fun h => absurd (h.trans (Nat.div_le_self _ _)) (by decide)⟩))) (fuel := 100) (by decide)

/-- C21 for `armas_update_sym`: the selected triangle of the square `C` becomes `beta*C + alpha*A*A^T`, or
`beta*C + alpha*A^T*A` with the transpose flag.  Same restrictions as in `C21_update_trm_partial`. -/
theorem C21_update_sym_partial (ab : α → α) {env : Env}
    (hmin : 2 ≤ env.blas2min ∨ env.naive = true ∧ env.blas2min ≠ 1) {c : Cache} {m : Mem α} {C A : View}
    {f a : Nat → Nat → α} (beta alpha : α) {fl : Flags} (hw : C.WF) (hsq : C.rows = C.cols)
    (hr : C.rows = if fl.transA then A.cols else A.rows)
    (hk : 0 < if fl.transA then A.rows else A.cols) (hc : c.Ready m) (hA : Holds m A a)
    (hC : HoldsOn m C (InTri fl.upper false) f) (dA : Disjoint A.foot c.foot)
    (dC : Disjoint (C.footOn (InTri fl.upper false)) c.foot)
    (dAC : Disjoint A.foot (C.footOn (InTri fl.upper false)))
    (he : EvenSplits env c C.rows fl) {fuel : Nat} (hf : 4 * C.rows + 1 < fuel) :
    Runs (updateSym ab env fuel m beta C alpha A fl (some c)) (fun r => r.1 = 0 ∧
      HoldsOn r.2 C (InTri fl.upper false) (fun i j => beta * f i j + alpha *
        (if fl.transA then ∑ k ∈ range A.rows, a k i * a k j else ∑ k ∈ range A.cols, a i k * a j k)) ∧
      Frame (C.footOn (InTri fl.upper false) ∪ c.foot) m r.2 ∧ c.Ready r.2) := by
  unfold updateSym
  by_cases h0 : A.size = 0 ∨ C.size = 0
  · rw [if_pos h0]
    refine Runs.ok ⟨rfl, ?_, Frame.refl _ _, hc⟩
    simp only [View.size, mul_eq_zero] at h0
    intro i j hi hj
    exfalso
    revert hr hk
    cases fl.transA <;> simp <;> omega
  rw [if_neg h0, if_neg (by
    revert hr; cases fl.transA <;> simp <;> omega)]
  have key := C21_update_trm_partial ab hmin (m := m) (C := C) (A := A) (B := A) (c := c) (f := f) (a := a) (b := a)
    (K := if fl.transA then A.rows else A.cols)
    beta alpha (fl := { upper := fl.upper, lower := fl.lower, transA := fl.transA, transB := !fl.transA })
    ⟨rfl, rfl, hw, hk, hr.symm, rfl, by cases fl.transA <;> rfl,
      by rw [← hsq, hr]; cases fl.transA <;> rfl, hc, hA, hA, hC, dA, dA, dC, dAC, dAC⟩
    (by rw [← hsq, min_self]; exact he) (fuel := fuel) (by omega)
  refine key.mono ?_
  rintro r ⟨h1, h2, h3⟩
  refine ⟨h1, h2.congr (fun i j _ _ _ => ?_), h3⟩
  unfold rankSum
  cases fl.transA <;> simp

/-- `C = 2*C + A^T*A` on the upper triangle, order 4 with threshold 2 (sizes 4 and 2 are split). -/
example := C21_update_sym_partial (α := ℤ) (env := ⟨8, 2, false, true⟩) id (Or.inl (by decide))
    (m := tot (fun p => (p : ℤ))) (C := ⟨0, 10, 4, 4⟩) (A := ⟨100, 9, 7, 4⟩)
    (c := exUpdCache) 2 1 (fl := { upper := true, transA := true }) (Or.inl (by decide)) rfl rfl (by decide)
    exUpdReady (holds_tot _ _) (HoldsOn.of_holds (holds_tot _ _))
    (Set.disjoint_union_right.mpr ⟨View.disj_below (by decide), View.disj_below (by decide)⟩)
    ((Set.disjoint_union_right.mpr ⟨View.disj_below (by decide), View.disj_below (by decide)⟩).mono_left
        (View.footOn_sub_foot _ _))
    ((View.disj_below (by decide)).symm.mono_right (View.footOn_sub_foot _ _))
    (Or.inr (Or.inr (by
      rw [if_pos rfl]
      intro k hk
      match k with
      | 0 => decide
      | 1 => decide
      | k + 2 =>
        have : (4 : Nat) / 2 ^ (k + 2) ≤ 1 := by
          rw [pow_add, mul_comm, ← Nat.div_div_eq_div_mul]; exact Nat.div_le_self _ _
        exact absurd (hk.trans this) (by decide)))) (fuel := 100) (by decide)

/-- Non-conforming operands give `-ESIZE` and leave the memory alone. -/
theorem C21_size_error (ab : α → α) (env : Env) (fuel : Nat) (m : Mem α) (beta alpha : α) {C A B : View}
    {fl : Flags} (cbuf : Option Cache) (h0 : C.size ≠ 0 ∧ A.size ≠ 0 ∧ B.size ≠ 0)
    (hs : ¬ ((if fl.transA then A.rows else A.cols) = (if fl.transB then B.cols else B.rows) ∧
      C.rows = (if fl.transA then A.cols else A.rows) ∧
      C.cols = (if fl.transB then B.rows else B.cols))) :
    updateTrm ab env fuel m beta C alpha A B fl cbuf = .ok (-ESIZE, m) := by
  unfold updateTrm
  rw [if_neg (by omega), if_pos]
  unfold updSizes
  revert hs
  cases fl.transA <;> cases fl.transB <;> simp <;> omega

example := C21_size_error (α := ℤ) id ⟨8, 4, false, false⟩ 5 (tot (fun p => (p : ℤ))) 1 2 (C := ⟨0, 8, 7, 6⟩)
    (A := ⟨100, 9, 7, 3⟩) (B := ⟨200, 9, 6, 3⟩) (fl := { lower := true }) none (by decide) (by decide)

/-- C21 is false when the inner dimension is zero: `C` is not scaled by `beta`. -/
theorem C21_inner_zero_false (ab : α → α) (env : Env) (fuel : Nat) (m : Mem α) (beta alpha : α)
    (C A B : View) (fl : Flags) (cbuf : Option Cache)
    (hk : (if fl.transA then A.rows else A.cols) = 0) :
    updateTrm ab env fuel m beta C alpha A B fl cbuf = .ok (0, m) := by
  unfold updateTrm
  rw [if_pos]
  right; left
  unfold View.size
  revert hk
  cases fl.transA <;> simp <;> intro h <;> simp [h]

/-- The triangle of `C` holds 7, the documented result is `0*C = 0`, `C` is left with 7. -/
example : ∃ m', updateTrm (α := ℤ) id ⟨8, 4, false, false⟩ 50 (tot (fun _ => 7)) 0 ⟨0, 3, 3, 3⟩ 1 ⟨100, 3, 3, 0⟩
      ⟨200, 1, 0, 3⟩ { upper := true } (some exUpdCache) = .ok (0, m') ∧ m' ((⟨0, 3, 3, 3⟩ : View).at' 0 1) = some 7 :=
  ⟨_, C21_inner_zero_false _ _ _ _ _ _ _ _ _ _ _ rfl, rfl⟩

/-- With the threshold zero, which the settings allow, the recursive version never returns. -/
theorem C21_threshold0_false (ab : α → α) {env : Env} (hmin : env.blas2min = 0) (hn : env.naive = false)
    (hr : env.recursive = true) (fuel : Nat) (m : Mem α) (beta alpha : α) {C A B : View} {fl : Flags} (c : Cache)
    (h0 : C.size ≠ 0 ∧ A.size ≠ 0 ∧ B.size ≠ 0) (hs : updSizes C A B fl = true) :
    updateTrm ab env fuel m beta C alpha A B fl (some c) = .diverge := by
  unfold updateTrm
  rw [if_neg (by omega), hs, if_neg (by simp), hn, if_neg (by simp)]
  simp only [hr, if_true, updRec_diverges ab hmin, Res.diverge_bind]

example := C21_threshold0_false (α := ℤ) id (env := ⟨8, 0, false, true⟩) rfl rfl rfl 1000
    (tot (fun p => (p : ℤ))) 1 2 (C := ⟨0, 8, 7, 7⟩) (A := ⟨100, 9, 7, 3⟩) (B := ⟨200, 9, 3, 7⟩)
    (fl := { lower := true }) exUpdCache (by decide) (by decide)

end ring

/-- C21 is false for odd sizes in the recursion for the upper triangle: the block right of the first
diagonal block is taken with one row too many, so a row is updated twice.  Here `C = 0` has order 3, `A` and
`B` are all ones with inner dimension 1, `beta = alpha = 1` and the threshold is 2: all elements of the triangle
should become 1, but element (1,1) becomes 2, with status 0. -/
theorem C21_odd_upper_false : ∃ (m : Mem ℤ) (C A B : View) (c : Cache) (env : Env),
    UpdArgs c m C A B (fun _ _ => 0) (fun _ _ => 1) (fun _ _ => 1) 1 { upper := true } ∧
    2 ≤ env.blas2min ∧
    ∀ fuel, 7 < fuel → ∃ m', updateTrm id env fuel m 1 C 1 A B { upper := true } (some c) = .ok (0, m') ∧
      m' (C.at' 1 1) = some 2 ∧
      1 * 0 + 1 * rankSum false false 1 (fun _ _ => (1 : ℤ)) (fun _ _ => 1) 1 1 = 1 := by
  have H : UpdArgs (α := ℤ) exUpdCache (tot (fun p => if p < 100 then 0 else 1)) ⟨0, 3, 3, 3⟩ ⟨100, 3, 3, 1⟩
      ⟨200, 1, 1, 3⟩ (fun _ _ => 0) (fun _ _ => 1) (fun _ _ => 1) 1 { upper := true } := by
    refine ⟨rfl, rfl, Or.inl (by decide), by decide, rfl, rfl, rfl, rfl,
      ⟨by decide, by decide, by decide, by decide, by decide, ⟨_, holds_tot _ _⟩, ⟨_, holds_tot _ _⟩,
        View.disj_below (by decide)⟩, (holds_tot _ _).congr ?_, (holds_tot _ _).congr ?_,
      HoldsOn.of_holds ((holds_tot _ _).congr ?_),
      Set.disjoint_union_right.mpr ⟨View.disj_below (by decide), View.disj_below (by decide)⟩,
      Set.disjoint_union_right.mpr ⟨View.disj_below (by decide), View.disj_below (by decide)⟩,
      (Set.disjoint_union_right.mpr ⟨View.disj_below (by decide), View.disj_below (by decide)⟩).mono_left
        (View.footOn_sub_foot _ _),
      (View.disj_below (by decide)).symm.mono_right (View.footOn_sub_foot _ _),
      (View.disj_below (by decide)).symm.mono_right (View.footOn_sub_foot _ _)⟩
    · intro i j _ _; exact if_neg (by simp only [View.at']; omega)
    · intro i j _ _; exact if_neg (by simp only [View.at']; omega)
    · intro i j hi hj; refine if_pos ?_; simp only [View.at'] at hi hj ⊢; omega
  refine ⟨_, _, _, _, _, ⟨8, 2, false, true⟩, H, le_refl _, fun fuel hf => ?_⟩
  obtain ⟨m', e, hm⟩ := upd_twice id (env := ⟨8, 2, false, true⟩) rfl 1 1 rfl rfl H.pre H.ready hf H.hC
  refine ⟨m', ?_, ?_, by simp [rankSum]⟩
  · unfold updateTrm
    rw [if_neg (by decide), if_neg (by decide), if_neg (by simp)]
    dsimp only
    rw [if_pos rfl, e]
    rfl
  · rw [hm]; simp [updVal, opM]

end Armas.Props
