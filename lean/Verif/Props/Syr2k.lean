import Verif.Syr2kLemmas
import Verif.Demo
import Mathlib.Algebra.Order.Ring.Int

/-!
# C22: symmetric rank-2k update

Only the selected triangle of `C` has to be allocated: any access to an element of the opposite part is
undefined behaviour in the model.
-/

namespace Armas.Props

open Armas Finset

variable {α : Type} [CommRing α] [DecidableEq α]

/-- Element of `A*B^T`, or of `A^T*B`; `k` runs over the inner dimension. -/
def crossSum (trans : Bool) (K : Nat) (a b : Nat → Nat → α) (i j : Nat) : α :=
  if trans then ∑ k ∈ range K, a k i * b k j else ∑ k ∈ range K, a i k * b j k

/-- C22: the selected triangle of `C` becomes `beta*C + alpha*A*B^T + alpha*B*A^T` (or the form with the
operands transposed), everything else except the buffers is unchanged, for all sizes, strides and buffer
configurations, every block size `lb ≥ 2` and the unblocked version.
Missing: `lb < 2`, an accepted setting with which the call does not return (`C22_block1_false`); inner dimension zero
(`C22_inner_zero_false`); `rb > MB`. -/
theorem C22_update2_sym_partial (ab : α → α) {env : Env} (hmin : env.blas2min ≠ 1) {lb : Nat}
    (hlb : 2 ≤ lb ∨ env.naive = true) {c : Cache} {m : Mem α} {C A B : View} {f a b : Nat → Nat → α}
    (beta alpha : α) {fl : Flags} {K : Nat} (hw : C.WF) (hsq : C.rows = C.cols)
    (hr : C.rows = if fl.transA then A.cols else A.rows)
    (hK : K = if fl.transA then A.rows else A.cols) (hK0 : 0 < K)
    (hAB : A.rows = B.rows ∧ A.cols = B.cols) (hc : c.Ready m) (hrb : c.rb ≤ c.MB)
    (hA : Holds m A a) (hB : Holds m B b)
    (hC : HoldsOn m C (InTri fl.upper false) f) (dA : Disjoint A.foot c.foot) (dB : Disjoint B.foot c.foot)
    (dC : Disjoint (C.footOn (InTri fl.upper false)) c.foot)
    (dAC : Disjoint A.foot (C.footOn (InTri fl.upper false)))
    (dBC : Disjoint B.foot (C.footOn (InTri fl.upper false)))
    {fuel : Nat} (hf : C.rows + K + 1 < fuel) :
    Runs (update2Sym ab env lb fuel m beta C alpha A B fl (some c)) (fun r => r.1 = 0 ∧
      HoldsOn r.2 C (InTri fl.upper false) (fun i j => beta * f i j +
        alpha * crossSum fl.transA K a b i j + alpha * crossSum fl.transA K b a i j) ∧
      Frame (C.footOn (InTri fl.upper false) ∪ c.foot) m r.2) := by
  unfold update2Sym
  by_cases h0 : C.size = 0 ∨ A.size = 0 ∨ B.size = 0
  · rw [if_pos h0]
    refine Runs.ok ⟨rfl, ?_, Frame.refl _ _⟩
    simp only [View.size, mul_eq_zero] at h0
    intro i j hi hj
    exfalso
    revert hr hK
    cases fl.transA <;> simp <;> omega
  rw [if_neg h0, if_neg (by
    simp only [not_not]
    refine ⟨hAB.1, hAB.2, hsq, ?_⟩
    rw [hr]; cases fl.transA <;> simp)]
  have P : Syr2Pre c m C A B fl C.rows K (opM fl.transA a) (opM fl.transA b) := by
    constructor
    · refine ⟨rfl, rfl, hw, hK0, rfl, hsq.symm, ?_, ?_, ?_, ?_, hA.congr ?_, hB.congr ?_, dA, dB, dC, dAC, dBC⟩ <;>
        unfold kfl <;> dsimp only <;> revert hr hK <;> cases fl.transA <;> simp [opM] <;> omega
    · refine ⟨rfl, rfl, hw, hK0, rfl, hsq.symm, ?_, ?_, ?_, ?_, hB.congr ?_, hA.congr ?_, dB, dA, dC, dBC, dAC⟩ <;>
        unfold kfl <;> dsimp only <;> revert hr hK <;> cases fl.transA <;> simp [opM] <;> omega
  have fin : ∀ m', UpdDone c m C fl (syr2kVal beta alpha K f (opM fl.transA a) (opM fl.transA b)) m' →
      HoldsOn m' C (InTri fl.upper false) (fun i j => beta * f i j +
        alpha * crossSum fl.transA K a b i j + alpha * crossSum fl.transA K b a i j) ∧
      Frame (C.footOn (InTri fl.upper false) ∪ c.foot) m m' := by
    rintro m' ⟨h1, h2, -⟩
    refine ⟨h1.congr (fun i j _ _ _ => ?_), h2⟩
    simp only [syr2kVal, crossSum, opM]
    cases fl.transA <;> rfl
  cases hn : env.naive
  · rw [if_neg (by simp)]
    dsimp only
    exact Runs.bind (syr2kRec_spec ab hmin (hlb.resolve_right (by simp [hn])) beta alpha hrb P hc hf hC)
      (fun m' hm => Runs.pure ⟨rfl, fin m' hm⟩)
  · rw [if_pos rfl]
    exact Runs.bind (syr2kUnb_spec ab hmin beta alpha P hc (by omega) hC)
      (fun m' hm => Runs.pure ⟨rfl, fin m' hm⟩)

/-- Order 7 with inner dimension 3, upper triangle, block size 2: sizes 7, 3, 4, 2 are split. -/
example := C22_update2_sym_partial (α := ℤ) (env := ⟨8, 4, false, false⟩) id (by decide) (lb := 2)
    (Or.inl (by decide))
    (m := tot (fun p => (p : ℤ))) (C := ⟨0, 10, 7, 7⟩) (A := ⟨100, 9, 3, 7⟩) (B := ⟨200, 8, 3, 7⟩)
    (c := ⟨500, 600, 4, 4, 3, 3, 1⟩) (K := 3) 3 (-2) (fl := { upper := true, transA := true })
    (Or.inl (by decide)) rfl rfl rfl (by decide) ⟨rfl, rfl⟩
    ⟨by decide, by decide, by decide, by decide, by decide, ⟨_, holds_tot _ _⟩, ⟨_, holds_tot _ _⟩,
      View.disj_below (by decide)⟩ (by decide)
    (holds_tot _ _) (holds_tot _ _) (HoldsOn.of_holds (holds_tot _ _))
    (Set.disjoint_union_right.mpr ⟨View.disj_below (by decide), View.disj_below (by decide)⟩)
    (Set.disjoint_union_right.mpr ⟨View.disj_below (by decide), View.disj_below (by decide)⟩)
    ((Set.disjoint_union_right.mpr ⟨View.disj_below (by decide), View.disj_below (by decide)⟩).mono_left
        (View.footOn_sub_foot _ _))
    ((View.disj_below (by decide)).symm.mono_right (View.footOn_sub_foot _ _))
    ((View.disj_below (by decide)).symm.mono_right (View.footOn_sub_foot _ _)) (fuel := 100) (by decide)

/-- Non-conforming operands: the status is -1 (not `-ESIZE` as in the other functions; the numbers agree) and the
memory is unchanged. -/
theorem C22_size_error (ab : α → α) (env : Env) (lb fuel : Nat) (m : Mem α) (beta alpha : α) {C A B : View}
    {fl : Flags} (cbuf : Option Cache) (h0 : C.size ≠ 0 ∧ A.size ≠ 0 ∧ B.size ≠ 0)
    (hs : A.rows ≠ B.rows ∨ A.cols ≠ B.cols ∨ C.rows ≠ C.cols ∨
      C.rows ≠ if fl.transA then A.cols else A.rows) :
    update2Sym ab env lb fuel m beta C alpha A B fl cbuf = .ok (-1, m) := by
  unfold update2Sym
  rw [if_neg (by omega), if_pos]
  revert hs
  cases fl.transA <;> simp <;> omega

example := C22_size_error (α := ℤ) id ⟨8, 4, false, false⟩ 64 5 (tot (fun p => (p : ℤ))) 1 2 (C := ⟨0, 8, 7, 7⟩)
    (A := ⟨100, 9, 7, 3⟩) (B := ⟨200, 9, 6, 3⟩) (fl := { lower := true }) none (by decide) (by decide)

/-- C22 is false for inner dimension zero: `C` is not scaled by `beta`. -/
theorem C22_inner_zero_false (ab : α → α) (env : Env) (lb fuel : Nat) (m : Mem α) (beta alpha : α)
    (C A B : View) (fl : Flags) (cbuf : Option Cache)
    (hk : (if fl.transA then A.rows else A.cols) = 0) :
    update2Sym ab env lb fuel m beta C alpha A B fl cbuf = .ok (0, m) := by
  unfold update2Sym
  rw [if_pos]
  right; left
  unfold View.size
  revert hk
  cases fl.transA <;> simp <;> intro h <;> simp [h]

/-- The triangle of `C` holds 7, the documented result is `0*C = 0`, `C` is left with 7. -/
example : ∃ m', update2Sym (α := ℤ) id ⟨8, 4, false, false⟩ 64 50 (tot (fun _ => 7)) 0 ⟨0, 3, 3, 3⟩ 1 ⟨100, 3, 3, 0⟩
      ⟨200, 3, 3, 0⟩ { upper := true } none = .ok (0, m') ∧ m' ((⟨0, 3, 3, 3⟩ : View).at' 0 1) = some 7 :=
  ⟨_, C22_inner_zero_false _ _ _ _ _ _ _ _ _ _ _ _ rfl, rfl⟩

/-- C22 is false for the block sizes 0 and 1, which the settings accept: the call never returns a result, for any
operands of conforming sizes. -/
theorem C22_block1_false (ab : α → α) {env : Env} (hn : env.naive = false) {lb : Nat} (hlb : lb ≤ 1)
    (fuel : Nat) (m : Mem α) (beta alpha : α) {C A B : View} {fl : Flags} (c : Cache)
    (h0 : C.size ≠ 0 ∧ A.size ≠ 0 ∧ B.size ≠ 0)
    (hs : A.rows = B.rows ∧ A.cols = B.cols ∧ C.rows = C.cols ∧
      C.rows = if fl.transA then A.cols else A.rows) (r : Int × Mem α) :
    update2Sym ab env lb fuel m beta C alpha A B fl (some c) ≠ .ok r := by
  unfold update2Sym
  rw [if_neg (by omega), if_neg (by
    simp only [not_not]
    refine ⟨hs.1, hs.2.1, hs.2.2.1, ?_⟩
    rw [hs.2.2.2]; cases fl.transA <;> simp), hn, if_neg (by simp)]
  refine Res.bind_never (syr2kRec_never ab hlb beta alpha _ _ _ _ _ ?_) r
  have := h0.1
  unfold View.size at this
  exact Nat.pos_of_ne_zero (left_ne_zero_of_mul this)

example : ∀ fuel r, update2Sym (α := ℤ) id ⟨8, 4, false, false⟩ 1 fuel (tot (fun p => (p : ℤ))) 1 ⟨0, 8, 7, 7⟩ 3
    ⟨100, 9, 7, 3⟩ ⟨200, 9, 7, 3⟩ { lower := true } (some ⟨500, 600, 4, 2, 3, 2, 1⟩) ≠ .ok r := fun fuel r =>
  C22_block1_false id rfl (by decide) fuel _ 1 3 _ (by decide) (by decide) r

end Armas.Props
