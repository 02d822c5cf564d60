import Verif.Rbt2Lemmas
import Verif.Props.LqBuild

/-!
# C97, C98, C99: multiplication by random butterfly matrices (`src/lapack/rbtgm.c`, `src/lapack/rbtgu.c`)

`rbtMul N w r d a` is `B_0 B_1 ⋯ B_{d-1} a` with the matrices of the documentation, see `Verif/RbtSpec.lean`; `w = ⌈N / 2^d⌉`.
-/

namespace Armas.Props

open Finset

section field

variable {α : Type} [Field α] [DecidableEq α]

/-- C97: `armas_mult_rbt` with `ARMAS_LEFT` computes `c U A`, with `ARMAS_TRANS` it computes `c Uᵀ A`, and writes `A` only, for every butterfly
matrix whose last block of every size is at least half full or has at most one row; `c` is the factor `(1/sqrt 2)^d` of the last statement.  The number
of columns of `R` is less than 31 (`1 << R->cols`), and positive with `ARMAS_TRANS`. -/
theorem C97_left_partial {c : α} {m : Mem α} {A R : View} {r a : Nat → Nat → α} {w : Nat} (trans : Bool) (hw : A.WF) (hA : Holds m A a)
    (hR : Holds m R r) (hd : Disjoint A.foot R.foot) (hs : A.rows = R.rows) (hW : w = (A.rows + 2 ^ R.cols - 1) / 2 ^ R.cols)
    (hf : ∀ k, k < R.cols → A.rows % (w * 2 ^ (k + 1)) ≤ 1 ∨ w * 2 ^ k ≤ A.rows % (w * 2 ^ (k + 1))) (hc : trans = true → 0 < R.cols) :
    Runs (multRbt c m A R false trans) (fun s => s.1 = 0 ∧ Holds s.2 A (fun i j =>
      c * (if trans then rbtMulT A.rows w r R.cols a i j else rbtMul A.rows w r R.cols a i j)) ∧ Frame A.foot m s.2) := by
  unfold multRbt
  rw [if_neg (by simpa using hs)]
  have hM : RMat m A R (rlen false A) r :=
    ⟨fun i k hi hk => hR i k (by rw [← hs]; exact hi) hk,
      fun i k hi hk h => Set.disjoint_left.mp hd h (View.at_mem_foot (by rw [← hs]; exact hi) hk)⟩
  refine (rbtRecursive_spec (right := false) (trans := trans) (c := c) (a := a) (w := w) hw hA hM hW hf hc (fun h => by simp at h)).bind ?_
  rintro m1 ⟨h1, F1⟩
  refine Runs.pure ⟨rfl, ?_, F1⟩
  refine Holds.congr h1 fun i j _ _ => ?_
  cases trans
  · simp only [Bool.false_eq_true, if_false]
    rw [passDown_mul]
    rfl
  · simp only [Bool.false_eq_true, if_false, if_true]
    rw [Bool.not_false, passUp_mulT]
    rfl

/-- C97 for depths one and two, every number of rows. -/
theorem C97_depth2_partial {c : α} {m : Mem α} {A R : View} {r a : Nat → Nat → α} (trans : Bool) (hw : A.WF) (hA : Holds m A a)
    (hR : Holds m R r) (hd : Disjoint A.foot R.foot) (hs : A.rows = R.rows) (h1 : 0 < R.cols) (h2 : R.cols ≤ 2) :
    Runs (multRbt c m A R false trans) (fun s => s.1 = 0 ∧ Holds s.2 A (fun i j =>
      c * (if trans then rbtMulT A.rows ((A.rows + 2 ^ R.cols - 1) / 2 ^ R.cols) r R.cols a i j
        else rbtMul A.rows ((A.rows + 2 ^ R.cols - 1) / 2 ^ R.cols) r R.cols a i j)) ∧ Frame A.foot m s.2) :=
  C97_left_partial trans hw hA hR hd hs rfl (rbtFit_two h2) fun _ => h1

example := C97_depth2_partial (α := ℚ) (c := 1 / 2) true (m := tot fun p => (p : ℚ)) (A := ⟨0, 8, 7, 3⟩) (R := ⟨100, 8, 7, 2⟩) (Or.inl (by decide))
  (holds_tot _ _) (holds_tot _ _) (View.disj_below (by decide)) rfl (by decide) (by decide)

example := C97_left_partial (α := ℚ) (c := 1 / 3) false (m := tot fun p => (p : ℚ)) (A := ⟨0, 16, 16, 3⟩) (R := ⟨100, 16, 16, 3⟩) (Or.inl (by decide))
  (holds_tot _ _) (holds_tot _ _) (View.disj_below (by decide)) rfl rfl (by decide) (by decide)

/-- C97, C98: sizes that do not fit are refused and nothing is written. -/
theorem C97_errors (c : α) (m : Mem α) (A R : View) (right trans : Bool) (h : (if right then A.cols else A.rows) ≠ R.rows) :
    multRbt c m A R right trans = .ok (-1, m) := by
  unfold multRbt
  rw [if_pos h]
  rfl

example := C97_errors (1 : ℚ) (tot fun p => (p : ℚ)) ⟨0, 8, 7, 3⟩ ⟨100, 8, 6, 2⟩ false true (by decide)

/-- C97: the products with `ARMAS_TRANS` and without are transposed to each other: `⟨U a, b⟩ = ⟨a, Uᵀ b⟩`. -/
theorem C97_adjoint (N w : Nat) (r : Nat → Nat → α) (d : Nat) (a b : Nat → Nat → α) (j k : Nat) :
    ∑ i ∈ range N, rbtMul N w r d a i j * b i k = ∑ i ∈ range N, a i j * rbtMulT N w r d b i k := cdot_rbt N w r d a b j k

example := C97_adjoint 7 2 (fun i j => (i + j : ℚ)) 2 (fun i j => (i * j : ℚ)) (fun i j => (i - j : ℚ)) 1 2

/-- C97: `armas_size_rbt` returns the least multiple of `2^d` that is not less than `n`. -/
theorem C97_size (n d : Nat) (v : Int) : ∃ f, sizeRbt (some v) n d = .ok (rbtSize n d, f) ∧ 2 ^ d ∣ rbtSize n d ∧ n ≤ rbtSize n d ∧
    (∀ k, 2 ^ d ∣ k → n ≤ k → rbtSize n d ≤ k) ∧ (v ≠ 0 → f = some ((2 ^ d / 2 : Nat) : Int)) := by
  refine ⟨_, rfl, ⟨_, Nat.mul_comm _ _⟩, ?_, ?_, fun h => by rw [if_pos h]⟩
  · have hp : 0 < 2 ^ d := Nat.two_pow_pos _
    have h1 := Nat.div_add_mod (n + 2 ^ d - 1) (2 ^ d)
    have h2 := Nat.mod_lt (n + 2 ^ d - 1) hp
    rw [Nat.mul_comm] at h1
    unfold rbtSize
    omega
  · rintro k ⟨q, rfl⟩ hk
    have hp : 0 < 2 ^ d := Nat.two_pow_pos _
    unfold rbtSize
    rw [Nat.mul_comm (2 ^ d) q]
    refine Nat.mul_le_mul_right _ ?_
    have : (n + 2 ^ d - 1) / 2 ^ d < q + 1 := by
      rw [Nat.div_lt_iff_lt_mul hp]
      rw [Nat.add_mul, Nat.one_mul, Nat.mul_comm q]
      omega
    omega

example := C97_size 10 3 1

/-- C97 is false of `armas_size_rbt` with the null pointer the documentation allows (`src/lapack/rbtgm.c:386-387`, `:403`): the pointer is
dereferenced; and the factor is not stored when `*fact` is 0 before the call. -/
theorem C97_size_false : (∀ n d, sizeRbt none n d = .ub) ∧ ∀ n d, sizeRbt (some 0) n d = .ok (rbtSize n d, some 0) :=
  ⟨fun _ _ => rfl, fun _ _ => rfl⟩

/-- C98: `armas_mult_rbt` with `ARMAS_RIGHT`.  The factors are applied in the order opposite to that of the left side: without `ARMAS_TRANS` the result
is `c A (B_{d-1} ⋯ B_1 B_0)`, with it `c A (B_{d-1} ⋯ B_1 B_0)ᵀ` (stated for the transposed matrices); this is `c A U` and `c A Uᵀ` for depth 1.  With
`ARMAS_TRANS` the number of columns is a multiple of `2^d` and there is at least one row. -/
theorem C98_right_partial {c : α} {m : Mem α} {A R : View} {r a : Nat → Nat → α} {w : Nat} (trans : Bool) (hw : A.WF)
    (hA : Holds m A (fun i j => a j i))
    (hR : Holds m R r) (hd : Disjoint A.foot R.foot) (hs : A.cols = R.rows) (hW : w = (A.cols + 2 ^ R.cols - 1) / 2 ^ R.cols)
    (hf : ∀ k, k < R.cols → A.cols % (w * 2 ^ (k + 1)) ≤ 1 ∨ w * 2 ^ k ≤ A.cols % (w * 2 ^ (k + 1)))
    (hc : trans = true → 0 < R.cols ∧ 2 ^ R.cols ∣ A.cols ∧ 0 < A.rows) :
    Runs (multRbt c m A R true trans) (fun s => s.1 = 0 ∧ Holds s.2 A (fun i j =>
      c * (if trans then rbtRev A.cols w r R.cols a j i else rbtRevT A.cols w r R.cols a j i)) ∧ Frame A.foot m s.2) := by
  unfold multRbt
  rw [if_neg (by simpa using hs)]
  have hM : RMat m A R (rlen true A) r :=
    ⟨fun i k hi hk => hR i k (by rw [← hs]; exact hi) hk,
      fun i k hi hk h => Set.disjoint_left.mp hd h (View.at_mem_foot (by rw [← hs]; exact hi) hk)⟩
  refine (rbtRecursive_spec (right := true) (trans := trans) (c := c) (a := a) (w := w) hw hA hM hW hf (fun h => (hc h).1) (fun _ h => (hc h).2)).bind ?_
  rintro m1 ⟨h1, F1⟩
  refine Runs.pure ⟨rfl, ?_, F1⟩
  refine Holds.congr h1 fun i j _ _ => ?_
  cases trans
  · simp only [Bool.false_eq_true, if_false, if_true]
    rw [passDown_revT]
    rfl
  · simp only [if_true]
    rw [Bool.not_true, passUp_rev]
    rfl

example := C98_right_partial (α := ℚ) (c := 1 / 2) true (m := tot fun p => (p : ℚ)) (A := ⟨0, 8, 3, 8⟩) (R := ⟨100, 8, 8, 2⟩)
  (a := fun i j => ((0 + i * 8 + j : Nat) : ℚ)) (Or.inl (by decide))
  (fun i j _ _ => by simp [tot, View.at']; ring) (holds_tot _ _) (View.disj_below (by decide)) rfl rfl (by decide) (fun _ => by decide)

/-- C98 for depth 1 without `ARMAS_TRANS`: `c A B` for every number of columns. -/
theorem C98_depth1_partial {c : α} {m : Mem α} {A R : View} {r a : Nat → Nat → α} (hw : A.WF) (hA : Holds m A (fun i j => a j i))
    (hR : Holds m R r) (hd : Disjoint A.foot R.foot) (hs : A.cols = R.rows) (h1 : R.cols = 1) :
    Runs (multRbt c m A R true false) (fun s => s.1 = 0 ∧ Holds s.2 A (fun i j =>
      c * ∑ p ∈ range A.cols, a p i * bflyMat ((A.cols + 1) / 2 * 2) (fun i => r i 0) p j) ∧ Frame A.foot m s.2) := by
  refine (C98_right_partial (c := c) false hw hA hR hd hs rfl (rbtFit_two (by omega)) (fun h => by simp at h)).mono ?_
  rintro ⟨e, m'⟩ ⟨h2, h3, h4⟩
  refine ⟨h2, Holds.congr h3 fun i j _ _ => ?_, h4⟩
  simp only [Bool.false_eq_true, if_false]
  rw [h1]
  simp only [rbtRevT, bflyT]
  congr 1
  refine Finset.sum_congr rfl fun p _ => ?_
  rw [mul_comm]
  rfl

example := C98_depth1_partial (α := ℚ) (c := 1 / 2) (m := tot fun p => (p : ℚ)) (A := ⟨0, 8, 3, 7⟩) (R := ⟨100, 8, 7, 1⟩)
  (a := fun i j => ((0 + i * 8 + j : Nat) : ℚ)) (Or.inl (by decide))
  (fun i j _ _ => by simp [tot, View.at']; ring) (holds_tot _ _) (View.disj_below (by decide)) rfl rfl

/-- C99: `armas_update2_rbt` replaces `A` by `f^d Uᵀ A V` with the butterfly matrices of `U` and `V` and `f = 1/2`, and writes `A` only, when the
extended size `w 2^d` exceeds the order of `A` by at most `w`.  Level by level the result is `rbt2`. -/
theorem C99_update2_partial {hf : α} {m : Mem α} {A U V : View} {u v a : Nat → Nat → α} {w : Nat} (hw : A.WF) (hA : Holds m A a)
    (hU : Holds m U u) (hV : Holds m V v) (dU : Disjoint A.foot U.foot) (dV : Disjoint A.foot V.foot) (hs : A.cols = A.rows) (h1 : U.rows = V.rows)
    (h2 : U.cols = V.cols) (h3 : A.rows ≤ U.rows) (hc : 0 < U.cols) (hW : w = (A.rows + 2 ^ U.cols - 1) / 2 ^ U.cols)
    (hf' : w * 2 ^ U.cols ≤ A.rows + w) :
    Runs (update2RbtW hf m A U V) (fun s => s.1 = 0 ∧ Holds s.2 A (fun i j =>
      hf ^ U.cols * rbtMulT A.rows w v U.cols (fun q p => rbtMulT A.rows w u U.cols a p q) j i) ∧ Frame A.foot m s.2) := by
  unfold update2RbtW
  rw [if_neg (not_not.mpr ⟨hs, h1, h2, h3⟩)]
  have hp : 0 < 2 ^ U.cols := Nat.two_pow_pos _
  have hle : A.rows ≤ w * 2 ^ U.cols := by
    have h1 := Nat.div_add_mod (A.rows + 2 ^ U.cols - 1) (2 ^ U.cols)
    have h2 := Nat.mod_lt (A.rows + 2 ^ U.cols - 1) hp
    rw [← hW, Nat.mul_comm] at h1
    omega
  obtain ⟨d, hd⟩ : ∃ d, U.cols = d + 1 := ⟨U.cols - 1, by omega⟩
  have eN : rbtSize A.cols U.cols = w * 2 ^ U.cols := by rw [hs, hW]; rfl
  rw [eN, hd, Nat.add_sub_cancel]
  rw [hd] at hf' hle h2
  have UU : UMat m A U A.rows (d + 1) u := ⟨fun i k hi hk => hU i k (by omega) (by omega),
    fun i k hi hk h => Set.disjoint_left.mp dU h (View.at_mem_foot (by omega) (by omega))⟩
  have VV : UMat m A V A.cols (d + 1) v := ⟨fun i k hi hk => hV i k (by omega) (by omega),
    fun i k hi hk h => Set.disjoint_left.mp dV h (View.at_mem_foot (by omega) (by omega))⟩
  refine (update2Descend_spec (w := w) d hw hA UU VV hd h2.symm h3 (by omega) rfl hle (by omega) hf' (by omega)).bind ?_
  rintro m1 ⟨k1, F1⟩
  refine Runs.pure ⟨rfl, k1.congr fun i j hi hj => ?_, F1⟩
  have w0 : 0 < w := by
    rcases Nat.eq_zero_or_pos w with e | e
    · rw [e, Nat.zero_mul] at hle
      omega
    · exact e
  rw [hs, pass2_rbt2 w0 (d + 1) hi (by omega), rbt2_eq]
  rfl

example := C99_update2_partial (α := ℚ) (hf := 1 / 2) (m := tot fun p => (p : ℚ)) (A := ⟨0, 8, 7, 7⟩) (U := ⟨100, 8, 8, 2⟩) (V := ⟨200, 8, 8, 2⟩)
  (Or.inl (by decide)) (holds_tot _ _) (holds_tot _ _) (holds_tot _ _) (View.disj_below (by decide)) (View.disj_below (by decide)) rfl rfl rfl (by decide)
  (by decide) rfl (by decide)

/-- C99: sizes that do not fit are refused and nothing is written. -/
theorem C99_errors (hf : α) (m : Mem α) (A U V : View) (h : A.cols ≠ A.rows ∨ U.rows ≠ V.rows ∨ U.cols ≠ V.cols ∨ U.rows < A.rows) :
    update2RbtW hf m A U V = .ok (-1, m) := by
  unfold update2RbtW
  rw [if_pos (by omega)]
  rfl

example := C99_errors (1 : ℚ) (tot fun p => (p : ℚ)) ⟨0, 8, 7, 7⟩ ⟨100, 8, 8, 2⟩ ⟨200, 8, 8, 1⟩ (by decide)

end field

/-- Memory for the counterexamples. -/
def rbtMem : Mem Int := tot fun p => (p : Int)

/-- The unit matrix of order 4 and eight scalars. -/
def rbtMem2 : Mem Int := tot fun p => if p < 16 then (if p % 5 = 0 then 1 else 0) else (p - 31 : Int)

/-- C97 is false for depth 3 and a block with more than one row that is less than half full: with ten rows the blocks of size 8 have 8 and 2 rows, and
the loop behind (`src/lapack/rbtgm.c:80-84`, `:96-100`) reads rows 2 and 3 of the second (accesses outside of the matrix and of `R`). -/
theorem C97_fit_false : ∃ (m : Mem Int) (A R : View), A.rows = 10 ∧ R.rows = 10 ∧ R.cols = 3 ∧ A.WF ∧ (∀ p, p ∈ A.foot → (m p).isSome) ∧
    (∀ p, p ∈ R.foot → (m p).isSome) ∧ multRbt 1 m A R false false = .ub := by
  refine ⟨fun p => if p < 10 ∨ 100 ≤ p ∧ p < 130 then some (p : Int) else none, ⟨0, 10, 10, 1⟩, ⟨100, 10, 10, 3⟩, rfl, rfl, rfl, Or.inl (by decide), ?_, ?_,
    isUb_eq (by decide +kernel)⟩
  · rintro p ⟨i, j, hi, hj, rfl⟩
    beta_reduce
    rw [if_pos]
    · rfl
    · simp only [View.at'] at *
      omega
  · rintro p ⟨i, j, hi, hj, rfl⟩
    beta_reduce
    rw [if_pos]
    · rfl
    · simp only [View.at'] at *
      omega

/-- C97 is false for a matrix `R` without columns and `ARMAS_TRANS`: division by zero (`src/lapack/rbtgm.c:123-127`); without `ARMAS_TRANS` the call
leaves `A` as it is. -/
theorem C97_depth0_false (m : Mem Int) (A R : View) (right : Bool) (c : Int) (h : (if right then A.cols else A.rows) = R.rows) (h0 : R.cols = 0) :
    multRbt c m A R right true = .ub := by
  unfold multRbt rbtRecursive
  rw [if_neg (not_not.mpr h)]
  simp [h0]

example := C97_depth0_false rbtMem ⟨0, 4, 4, 2⟩ ⟨100, 4, 4, 0⟩ false 1 rfl rfl

/-- C98 is false for depth 2 (`src/lapack/rbtgm.c:285-318`): the product from the right takes the largest butterfly first.  With `A` the unit matrix of
order 4 the products from the left and from the right should both be `c U`, and they differ. -/
theorem C98_order_false : ∃ (m : Mem Int) (A R : View) (m1 m2 : Mem Int), A.rows = 4 ∧ A.cols = 4 ∧ R.rows = 4 ∧ R.cols = 2 ∧ A.WF ∧
    Holds m A (fun i j => if i = j then 1 else 0) ∧ Disjoint A.foot R.foot ∧ multRbt 1 m A R false false = .ok (0, m1) ∧
    multRbt 1 m A R true false = .ok (0, m2) ∧ m1 (A.at' 0 1) ≠ m2 (A.at' 0 1) := by
  obtain ⟨m1, e1, h1⟩ := okay_ok (r := multRbt 1 rbtMem2 ⟨0, 4, 4, 4⟩ ⟨32, 4, 4, 2⟩ false false) (by decide +kernel)
  obtain ⟨m2, e2, h2⟩ := okay_ok (r := multRbt 1 rbtMem2 ⟨0, 4, 4, 4⟩ ⟨32, 4, 4, 2⟩ true false) (by decide +kernel)
  refine ⟨rbtMem2, ⟨0, 4, 4, 4⟩, ⟨32, 4, 4, 2⟩, m1, m2, rfl, rfl, rfl, rfl, Or.inl (by decide), ?_, View.disj_below (by decide), e1, e2, ?_⟩
  · intro i j hi hj
    have hi' : i < 4 := hi
    have hj' : j < 4 := hj
    interval_cases i <;> interval_cases j <;> rfl
  · rw [h1, h2]
    decide +kernel

/-- C98 is false with `ARMAS_TRANS` when the last block is not full (`src/lapack/rbtgm.c:213-218`): the loop that scales the columns without a partner
is behind the loop over the rows and accesses the row behind the last (outside of the matrix), the columns stay as they are. -/
theorem C98_tail_false : ∃ (m : Mem Int) (A R : View), A.rows = 2 ∧ A.cols = 3 ∧ R.rows = 3 ∧ R.cols = 1 ∧ A.WF ∧ (∀ p, p ∈ A.foot → (m p).isSome) ∧
    (∀ p, p ∈ R.foot → (m p).isSome) ∧ multRbt 1 m A R true true = .ub := by
  refine ⟨fun p => if p < 8 ∧ p % 3 < 2 ∨ 100 ≤ p ∧ p < 103 then some (p : Int) else none, ⟨0, 3, 2, 3⟩, ⟨100, 3, 3, 1⟩, rfl, rfl, rfl, rfl, Or.inl (by decide), ?_, ?_,
    isUb_eq (by decide +kernel)⟩
  · rintro p ⟨i, j, hi, hj, rfl⟩
    beta_reduce
    rw [if_pos]
    · rfl
    · simp only [View.at'] at *
      omega
  · rintro p ⟨i, j, hi, hj, rfl⟩
    beta_reduce
    rw [if_pos]
    · rfl
    · simp only [View.at'] at *
      omega

/-- C99 is false when the last block is less than half full: for order 5 and depth 2 the blocks have 4 and 1 rows, and the loops of
`update2_rbt` (`src/lapack/rbtgu.c:89-95`, `:110-115`) access a second row of the last block (outside of the matrix). -/
theorem C99_fit_false : ∃ (m : Mem Int) (A U V : View), A.rows = 5 ∧ A.cols = 5 ∧ U.rows = 5 ∧ V.rows = 5 ∧ U.cols = 2 ∧ V.cols = 2 ∧ A.WF ∧
    (∀ p, p ∈ A.foot → (m p).isSome) ∧ (∀ p, p ∈ U.foot → (m p).isSome) ∧ (∀ p, p ∈ V.foot → (m p).isSome) ∧ update2RbtW 1 m A U V = .ub := by
  refine ⟨fun p => if p < 30 ∧ p % 6 < 5 ∨ 100 ≤ p ∧ p < 110 ∨ 200 ≤ p ∧ p < 210 then some (p : Int) else none, ⟨0, 6, 5, 5⟩, ⟨100, 5, 5, 2⟩, ⟨200, 5, 5, 2⟩, rfl, rfl,
    rfl, rfl, rfl, rfl, Or.inl (by decide), ?_, ?_, ?_, isUb_eq (by decide +kernel)⟩
  all_goals
    rintro p ⟨i, j, hi, hj, rfl⟩
    beta_reduce
    rw [if_pos]
    · rfl
    · simp only [View.at'] at *
      omega

end Armas.Props
