import Verif.SparseSolve
import Verif.Props.Blas1
import Verif.Props.Sparse

/-!
# Properties C40, C41, C43: sparse product, sparse triangular solve, incomplete LU preconditioner
-/

namespace Armas.Props

open Armas Finset

variable {α : Type}

/-! ## Column vectors -/

private theorem size_col {X : View} (h : X.cols = 1) : X.size = X.rows := by unfold View.size; rw [h, Nat.mul_one]

private theorem vat_col {X : View} (h : X.cols = 1) {k : Nat} (hk : k < X.rows) : X.vat k = X.base + k := by
  unfold View.vat View.inc
  split
  · have : k = 0 := by omega
    subst this; simp
  · simp

private theorem vecAt_iff {m : Mem α} {X : View} {f : Nat → α} (h : X.cols = 1) : VecAt m X.base X.rows f ↔ HoldsV m X f := by
  unfold VecAt HoldsV
  rw [size_col h]
  constructor
  · intro H k hk; rw [vat_col h hk]; exact H k hk
  · intro H k hk; rw [← vat_col h hk]; exact H k hk

private theorem foot_col {X : View} (h : X.cols = 1) : X.foot = rng X.base X.rows := by
  ext q
  constructor
  · rintro ⟨i, j, hi, hj, rfl⟩
    rw [h] at hj
    have : j = 0 := by omega
    subst this
    refine ⟨?_, ?_⟩ <;> simp only [View.at'] <;> omega
  · rintro ⟨h1, h2⟩
    exact ⟨q - X.base, 0, by omega, by omega, by simp only [View.at']; omega⟩

private theorem disj_col {X Y : View} (hX : X.cols = 1) (hY : Y.cols = 1) (hd : Disjoint Y.foot X.foot) :
    ∀ i j, i < Y.rows → j < X.rows → Y.base + i ≠ X.base + j := by
  intro i j hi hj e
  rw [foot_col hX, foot_col hY] at hd
  have h := (@Set.disjoint_left Nat (rng Y.base Y.rows) (rng X.base X.rows)).mp hd
  exact @h (Y.base + i) (by constructor <;> omega) (by constructor <;> omega)

/-! ## C40 -/

private theorem dense_flip [AddCommMonoid α] (N : Nat) (e : Nat → Ent α) (i j : Nat) :
    dense N (fun p => (e p).flip) i j = dense N e j i := by
  unfold dense
  refine sum_congr rfl fun p _ => ?_
  simp only [Ent.flip]
  congr 1
  exact propext and_comm

private theorem sum_all [CommRing α] {N d : Nat} {f : Nat → Ent α} (h : ∀ p, p < N → (f p).2.1 < d) (i : Nat) (x : Nat → α) :
    ∑ j ∈ range d, dense N f i j * x j = ∑ p ∈ range N, if (f p).1 = i then (f p).2.2 * x (f p).2.1 else 0 := by
  rw [sum_dense]
  refine sum_congr rfl fun p hp => ?_
  have := h p (mem_range.mp hp)
  by_cases c : (f p).1 = i
  · rw [if_pos ⟨c, mem_range.mpr this⟩, if_pos c]
  · rw [if_neg (fun h => c h.1), if_neg c]

private theorem sum_all_t [CommRing α] {N n : Nat} {f : Nat → Ent α} (h : ∀ p, p < N → (f p).1 < n) (alpha : α) (i : Nat) (x : Nat → α) :
    alpha * ∑ j ∈ range n, dense N f j i * x j = ∑ p ∈ range N, if (f p).2.1 = i then alpha * x (f p).1 * (f p).2.2 else 0 := by
  have := sum_all (f := fun p => (f p).flip) (d := n) (N := N) h i x
  simp only [dense_flip] at this
  rw [this, mul_sum]
  refine sum_congr rfl fun p _ => ?_
  show alpha * (if (f p).2.1 = i then (f p).2.2 * x (f p).1 else 0) = _
  by_cases c : (f p).2.1 = i
  · rw [if_pos c, if_pos c]; ring
  · rw [if_neg c, if_neg c, mul_zero]

/-- C40 for operands of the right size: `armassp_mvmult` computes `y = beta*y + alpha*op(A)*x` and changes nothing else.  Missing: the
transposed product of a rectangular matrix in compressed rows, where the code is wrong (`C40_csr_trans`, `C40_csr_trans_false`), and the
rejection of operands of wrong size (`C40_reject_partial`, `C40_reject_false`). -/
theorem C40_mvmult_partial [CommRing α] {A : Sp α} {N : Nat} {e : Nat → Ent α} (hA : SpIs A N e) (hk : A.kind ≠ .coo) {X Y : View}
    {m : Mem α} {x y : Nat → α} {trans : Bool} (beta alpha : α) (hXc : X.cols = 1) (hYc : Y.cols = 1)
    (hYr : Y.rows = if trans then A.cols else A.rows) (hXr : X.rows = if trans then A.rows else A.cols)
    (hsq : trans = true → A.kind = .csr → A.rows = A.cols) (hy : HoldsV m Y y) (hx : HoldsV m X x) (hd : Disjoint Y.foot X.foot) :
    Runs (spMvmult beta Y alpha A X trans false m) (fun r => r.1 = 0 ∧ Frame Y.foot m r.2 ∧
      HoldsV r.2 Y (fun i => beta * y i + alpha * ∑ j ∈ range X.rows, (if trans then dense N e j i else dense N e i j) * x j)) := by
  have hdj := disj_col hXc hYc hd
  rw [← vecAt_iff hYc] at hy
  rw [← vecAt_iff hXc] at hx
  obtain ⟨-, hA⟩ := hA
  unfold spMvmult spMvOk
  rw [size_col hXc, size_col hYc, foot_col hYc]
  cases trans with
  | false =>
    simp only [Bool.false_eq_true, if_false] at hYr hXr ⊢
    simp only [hYr, hXr, Bool.not_false, if_true, beq_self_eq_true, Bool.and_self, Bool.not_true, Bool.false_eq_true, if_false]
    rw [hYr] at hy hdj
    rw [hXr] at hx hdj
    cases h : A.kind with
    | coo => exact absurd h hk
    | csr =>
      rw [h] at hA
      obtain ⟨-, H⟩ := hA
      simp only [csrMvmult, if_true]
      refine Runs.bind (spGather_spec H beta alpha hy hx hdj) fun m' h' => Runs.pure ⟨rfl, h'.2, ?_⟩
      rw [← vecAt_iff hYc, hYr]
      exact h'.1.congr fun i _ => by rw [sum_all H.minor]
    | csc =>
      rw [h] at hA
      obtain ⟨-, H⟩ := hA
      simp only [cscMvmult, if_true]
      refine Runs.bind (spScatter_spec H beta alpha (le_refl _) hy hx hdj) fun m' h' => Runs.pure ⟨rfl, h'.2, ?_⟩
      rw [← vecAt_iff hYc, hYr]
      refine h'.1.congr fun i hi => ?_
      rw [if_pos hi, ← sum_all_t H.major]
      simp only [dense_flip]
      ring
  | true =>
    simp only [if_true] at hYr hXr ⊢
    simp only [hYr, hXr, Bool.not_true, Bool.false_eq_true, if_false, beq_self_eq_true, Bool.and_false, Bool.false_and]
    rw [hYr] at hy hdj
    rw [hXr] at hx hdj
    cases h : A.kind with
    | coo => exact absurd h hk
    | csr =>
      rw [h] at hA
      obtain ⟨-, H⟩ := hA
      simp only [csrMvmult, Bool.false_eq_true, if_false]
      refine Runs.bind (spScatter_spec H beta alpha (le_of_eq (hsq rfl h)) hy hx hdj) fun m' h' => Runs.pure ⟨rfl, h'.2, ?_⟩
      rw [← vecAt_iff hYc, hYr]
      refine h'.1.congr fun i hi => ?_
      rw [if_pos (by rw [hsq rfl h]; exact hi), ← sum_all_t H.major]
      ring
    | csc =>
      rw [h] at hA
      obtain ⟨-, H⟩ := hA
      simp only [cscMvmult, Bool.false_eq_true, if_false]
      refine Runs.bind (spGather_spec H beta alpha hy hx hdj) fun m' h' => Runs.pure ⟨rfl, h'.2, ?_⟩
      rw [← vecAt_iff hYc, hYr]
      refine h'.1.congr fun i _ => ?_
      rw [← sum_all H.minor]
      simp only [dense_flip]

example := C40_mvmult_partial (trans := false) demoCsr_is (by decide) (X := ⟨100, 4, 4, 1⟩) (Y := ⟨0, 3, 3, 1⟩)
  (m := tot (fun p => (p : ℤ))) 2 3 rfl rfl rfl rfl (fun h => absurd h (by decide)) (holdsV_tot _ _) (holdsV_tot _ _) (View.disj_below (by decide))

/-- What the code computes for the transposed product of a matrix in compressed rows with at most as many rows as columns: only the first
`rows` elements of `y` are multiplied by `beta`. -/
theorem C40_csr_trans [CommRing α] {A : Sp α} {N : Nat} {e : Nat → Ent α} (hA : SpIs A N e) (hk : A.kind = .csr) {X Y : View}
    {m : Mem α} {x y : Nat → α} (beta alpha : α) (hXc : X.cols = 1) (hYc : Y.cols = 1)
    (hYr : Y.rows = A.cols) (hXr : X.rows = A.rows) (hle : A.rows ≤ A.cols) (hy : HoldsV m Y y) (hx : HoldsV m X x)
    (hd : Disjoint Y.foot X.foot) :
    Runs (spMvmult beta Y alpha A X true false m) (fun r => r.1 = 0 ∧ Frame Y.foot m r.2 ∧
      HoldsV r.2 Y (fun i => (if i < A.rows then beta else 1) * y i + alpha * ∑ j ∈ range A.rows, dense N e j i * x j)) := by
  have hdj := disj_col hXc hYc hd
  rw [← vecAt_iff hYc] at hy
  rw [← vecAt_iff hXc] at hx
  obtain ⟨-, hA⟩ := hA
  rw [hk] at hA
  obtain ⟨-, H⟩ := hA
  unfold spMvmult spMvOk
  rw [size_col hXc, size_col hYc, foot_col hYc, hk]
  simp only [hYr, hXr, Bool.not_true, Bool.false_eq_true, if_false, beq_self_eq_true, Bool.and_false, Bool.false_and]
  rw [hYr] at hy hdj
  rw [hXr] at hx hdj
  simp only [csrMvmult, Bool.false_eq_true, if_false]
  refine Runs.bind (spScatter_spec H beta alpha hle hy hx hdj) fun m' h' => Runs.pure ⟨rfl, h'.2, ?_⟩
  rw [← vecAt_iff hYc, hYr]
  refine h'.1.congr fun i hi => ?_
  rw [← sum_all_t H.major]
  ring

example := C40_csr_trans demoCsr_is rfl (Y := ⟨0, 4, 4, 1⟩) (X := ⟨100, 3, 3, 1⟩)
  (m := tot (fun p => (p : ℤ))) 2 3 rfl rfl rfl rfl (by decide) (holdsV_tot _ _) (holdsV_tot _ _) (View.disj_below (by decide))

/-- Values in a range of cells, for the concrete cases below. -/
def cellsOf {β : Type} (r : Res (Int × Mem β)) (b n : Nat) : Option (List (Option β)) :=
  match r with
  | .ok (_, m) => some ((List.range n).map fun i => m (b + i))
  | _ => none

/-- The 1 × 2 matrix (1 1) in compressed rows. -/
def rowMat : Sp Int := ⟨.csr, 1, 2, 2, 1, 2, 32, 2, 2, fun k => [(1 : Int), 1][k]?, fun k => [0, 2][k]?, fun k => [0, 1][k]?, noMem⟩

/-- The 2 × 1 matrix (1 1)ᵀ in compressed rows. -/
def colMat : Sp Int := ⟨.csr, 2, 1, 2, 2, 2, 36, 2, 3, fun k => [(1 : Int), 1][k]?, fun k => [0, 1, 2][k]?, fun k => [0, 0][k]?, noMem⟩

/-- The transposed product is wrong for a 1 × 2 matrix: `y = 0*y + Aᵀ*x` with `x` = 1, `y` = (7, 7) gives (1, 8) instead of (1, 1). -/
theorem C40_csr_trans_false :
    cellsOf (spMvmult 0 ⟨0, 2, 2, 1⟩ 1 rowMat ⟨10, 1, 1, 1⟩ true false (fun p => if p < 2 then some 7 else if p = 10 then some 1 else none)) 0 2 =
      some [some 1, some 8] := by decide

/-- The transposed product of a 2 × 1 matrix writes behind the one element vector `y`. -/
theorem C40_csr_trans_ub :
    isUB (spMvmult 1 ⟨0, 1, 1, 1⟩ 1 colMat ⟨10, 2, 2, 1⟩ true false
      (fun p => if p < 1 then some 7 else if p = 10 ∨ p = 11 then some 1 else none)) = true := by decide

/-- Operands that are rejected: a matrix in coordinate format; `x` of wrong size if `y` has the right size or the product is transposed. -/
theorem C40_reject_partial [CommRing α] {A : Sp α} {X Y : View} {m : Mem α} {trans other : Bool} {beta alpha : α}
    (h : A.kind = .coo ∨ (trans = false ∧ Y.size = A.rows ∧ X.size ≠ A.cols) ∨ (trans = true ∧ X.size ≠ A.rows)) :
    spMvmult beta Y alpha A X trans other m = .ok (-1, m) := by
  unfold spMvmult
  rcases h with h | ⟨rfl, h1, h2⟩ | ⟨rfl, h⟩
  · rw [h]; split_ifs <;> rfl
  · rw [if_pos]
    · rfl
    · simp [spMvOk, h1, h2]
  · rw [if_pos]
    · rfl
    · simp [spMvOk, h]

example : spMvmult 2 ⟨0, 3, 3, 1⟩ 3 demoCsr ⟨100, 5, 5, 1⟩ false false (tot (fun p => (p : ℤ))) = .ok (-1, tot (fun p => (p : ℤ))) :=
  C40_reject_partial (Or.inr (Or.inl ⟨rfl, rfl, by decide⟩))

/-- Wrong sizes are accepted: `y` with 1 and `x` with 3 elements for a 3 × 4 matrix, and the product then runs out of bounds. -/
theorem C40_reject_false : spMvOk 1 3 demoCsr false = true ∧
    isUB (spMvmult 1 ⟨0, 1, 1, 1⟩ 1 demoCsr ⟨10, 3, 3, 1⟩ false false
      (fun p => if p < 1 then some 7 else if 10 ≤ p ∧ p < 13 then some 1 else none)) = true := by
  constructor
  · decide
  · decide

/-- A flag without meaning for this operation (e.g. `ARMAS_LOWER`) makes the product transposed: the code tests `flags == 0`.  For the
2 × 2 matrix with the single element (0,1) = 1 and `x` = (3, 5), the result is (0, 3) instead of (5, 0). -/
theorem C40_flags_false :
    cellsOf (spMvmult 0 ⟨0, 2, 2, 1⟩ 1
      (⟨.csr, 2, 2, 1, 2, 1, 28, 1, 3, fun k => [(1 : Int)][k]?, fun k => [0, 1, 1][k]?, fun k => [1][k]?, noMem⟩ : Sp Int)
      ⟨10, 2, 2, 1⟩ false true (fun p => if p < 2 then some 7 else if p = 10 then some 3 else if p = 11 then some 5 else none)) 0 2 =
      some [some 0, some 3] := by decide

/-! ## C41 -/

theorem tri_upper [CommRing α] {n i : Nat} (hi : i < n) (unit : Bool) (a : Nat → Nat → α) (x : Nat → α) :
    ∑ j ∈ range n, triOf true unit a i j * x j = x i * (if unit then 1 else a i i) + ∑ j ∈ Ico (i + 1) n, a i j * x j := by
  rw [range_eq_Ico, ← sum_Ico_consecutive _ (Nat.zero_le i) (le_of_lt hi), sum_eq_sum_Ico_succ_bot hi, sum_eq_zero, zero_add]
  · congr 1
    · unfold triOf; rw [if_pos rfl]; ring
    · refine sum_congr rfl fun j hj => ?_
      rw [mem_Ico] at hj
      unfold triOf; rw [if_neg (by omega), if_pos (by simp; omega)]
  · intro j hj
    rw [mem_Ico] at hj
    unfold triOf; rw [if_neg (by omega), if_neg (by simp; omega), zero_mul]

theorem tri_lower [CommRing α] {n i : Nat} (hi : i < n) (unit : Bool) (a : Nat → Nat → α) (x : Nat → α) :
    ∑ j ∈ range n, triOf false unit a i j * x j = x i * (if unit then 1 else a i i) + ∑ j ∈ range i, a i j * x j := by
  rw [range_eq_Ico, ← sum_Ico_consecutive _ (Nat.zero_le i) (le_of_lt hi), sum_eq_sum_Ico_succ_bot hi, add_comm, range_eq_Ico]
  congr 1
  · rw [sum_eq_zero (s := Ico (i + 1) n), add_zero]
    · unfold triOf; rw [if_pos rfl]; ring
    · intro j hj
      rw [mem_Ico] at hj
      unfold triOf; rw [if_neg (by omega), if_neg (by simp; omega), zero_mul]
  · refine sum_congr rfl fun j hj => ?_
    rw [mem_Ico] at hj
    unfold triOf; rw [if_neg (by omega), if_pos (by simp; omega)]

theorem triOf_swap [Zero α] [One α] (up unit : Bool) (a : Nat → Nat → α) (i j : Nat) :
    triOf up unit a j i = triOf (!up) unit (fun i j => a j i) i j := by
  unfold triOf
  by_cases c : i = j
  · subst c; rw [if_pos rfl, if_pos rfl]
  · rw [if_neg c, if_neg (fun h => c h.symm)]
    cases up <;> simp

/-- Square sparse matrix in compressed format, indices strictly ascending in every row (column), diagonal stored and, without
`ARMAS_UNIT`, not zero. -/
structure Triangular [Field α] (A : Sp α) (n N : Nat) (e : Nat → Ent α) (unit : Bool) : Prop where
  is : SpIs A N e
  kind : A.kind ≠ .coo
  rows : A.rows = n
  cols : A.cols = n
  asc : StrictlyAscending A.kind N e
  diag : ∀ j, j < n → ∃ p, p < N ∧ (e p).1 = j ∧ (e p).2.1 = j
  nz : unit = false → ∀ j, j < n → dense N e j j ≠ 0

theorem triMat_csr [Field α] {A : Sp α} {n N : Nat} {e : Nat → Ent α} {unit : Bool} (T : Triangular A n N e unit) (hk : A.kind = .csr) :
    TriMat A n N e unit := by
  have h := T.is
  have ha := T.asc
  obtain ⟨h1, h2⟩ := h
  rw [hk] at h2 ha
  obtain ⟨-, H⟩ := h2
  rw [T.rows, T.cols] at H
  refine ⟨H, h1, ⟨ha, T.diag⟩, fun j hj => ?_⟩
  unfold dg
  cases unit with
  | true => simp
  | false => simpa using T.nz rfl j hj

theorem triMat_csc [Field α] {A : Sp α} {n N : Nat} {e : Nat → Ent α} {unit : Bool} (T : Triangular A n N e unit) (hk : A.kind = .csc) :
    TriMat A n N (fun p => (e p).flip) unit := by
  have h := T.is
  have ha := T.asc
  obtain ⟨h1, h2⟩ := h
  rw [hk] at h2 ha
  obtain ⟨-, H⟩ := h2
  rw [T.rows, T.cols] at H
  refine ⟨H, h1, ⟨ha, fun j hj => ?_⟩, fun j hj => ?_⟩
  · obtain ⟨p, a, b, c⟩ := T.diag j hj
    exact ⟨p, a, c, b⟩
  · unfold dg
    cases unit with
    | true => simp
    | false => simpa [dense_flip] using T.nz rfl j hj

/-- C41 for `alpha` = 1 (the code ignores `alpha`, see `C41_alpha_false`) and stored diagonal elements (also with `ARMAS_UNIT`, see
`C41_unit_false`): for both formats, upper and lower, transposed or not, unit or not, the result `x` satisfies `op(T)*x = b`, and nothing
else changes.  Elements stored outside the triangle are ignored. -/
theorem C41_solve_partial [Field α] {A : Sp α} {n N : Nat} {e : Nat → Ent α} {upper lower trans unit : Bool} (T : Triangular A n N e unit)
    (hn : 0 < n) (hul : ¬ (upper = true ∧ lower = true)) {X : View} {m : Mem α} {bv : Nat → α} (hXc : X.cols = 1) (hXr : X.rows = n)
    (hb : HoldsV m X bv) :
    Runs (spMvsolveTrm X 1 A upper lower trans unit m) (fun r => r.1 = 0 ∧ Frame X.foot m r.2 ∧ ∃ x, HoldsV r.2 X x ∧
      ∀ i, i < n → ∑ j ∈ range n, (if trans then triOf upper unit (dense N e) j i else triOf upper unit (dense N e) i j) * x j = bv i) := by
  rw [← vecAt_iff hXc, hXr] at hb
  unfold spMvsolveTrm
  rw [if_neg T.kind, size_col hXc, hXr, T.rows, T.cols, if_neg (by simp), foot_col hXc, hXr]
  suffices h : Runs (spSolveSwitch A X.base upper lower trans unit m) (Solved m X.base n (fun x i =>
      ∑ j ∈ range n, (if trans then triOf upper unit (dense N e) j i else triOf upper unit (dense N e) i j) * x j = bv i)) by
    refine Runs.bind h fun m' h' => Runs.pure ⟨rfl, ?_⟩
    obtain ⟨x, h1, h2, h3⟩ := h'
    exact ⟨h3, x, by rw [← vecAt_iff hXc, hXr]; exact h1, h2⟩
  have conv : ∀ {r : Res (Mem α)} {E E' : (Nat → α) → Nat → Prop}, Runs r (Solved m X.base n E) → (∀ x k, k < n → E x k → E' x k) →
      Runs r (Solved m X.base n E') := by
    intro r E E' h hE
    refine h.mono fun m' h' => ?_
    obtain ⟨x, h1, h2, h3⟩ := h'
    exact ⟨x, h1, fun k hk => hE x k hk (h2 k hk), h3⟩
  unfold spSolveSwitch
  cases h : A.kind with
  | coo => exact absurd h T.kind
  | csr =>
    have M := triMat_csr T h
    cases upper with
    | true =>
      cases lower with
      | true => exact absurd ⟨rfl, rfl⟩ hul
      | false =>
        cases trans with
        | true =>
          refine conv (csrMvsolveUt_spec M T.rows hb) fun x k hk hE => ?_
          simp only [if_true, triOf_swap true, Bool.not_true]
          rw [tri_lower hk]; exact hE
        | false =>
          refine conv (csrMvsolveUn_spec M T.rows hb) fun x k hk hE => ?_
          simp only [Bool.false_eq_true, if_false]
          rw [tri_upper hk]; exact hE
    | false =>
      cases trans with
      | true =>
        refine conv (csrMvsolveLt_spec M T.rows hb) fun x k hk hE => ?_
        simp only [if_true, triOf_swap false, Bool.not_false]
        rw [tri_upper hk]; exact hE
      | false =>
        refine conv (csrMvsolveLn_spec M T.rows hn hb) fun x k hk hE => ?_
        simp only [Bool.false_eq_true, if_false]
        rw [tri_lower hk]; exact hE
  | csc =>
    have M := triMat_csc T h
    cases upper with
    | true =>
      cases lower with
      | true => exact absurd ⟨rfl, rfl⟩ hul
      | false =>
        cases trans with
        | true =>
          refine conv (cscMvsolveUt_spec M T.cols hb) fun x k hk hE => ?_
          simp only [if_true, triOf_swap true, Bool.not_true]
          rw [tri_lower hk]
          simpa only [Eqn, dense_flip, dg] using hE
        | false =>
          refine conv (cscMvsolveUn_spec M T.cols hb) fun x k hk hE => ?_
          simp only [Bool.false_eq_true, if_false]
          rw [tri_upper hk]
          simpa only [Eqn, dense_flip, dg] using hE
    | false =>
      cases trans with
      | true =>
        refine conv (cscMvsolveLt_spec M T.cols hn hb) fun x k hk hE => ?_
        simp only [if_true, triOf_swap false, Bool.not_false]
        rw [tri_upper hk]
        simpa only [Eqn, dense_flip, dg] using hE
      | false =>
        refine conv (cscMvsolveLn_spec M T.cols hb) fun x k hk hE => ?_
        simp only [Bool.false_eq_true, if_false]
        rw [tri_lower hk]
        simpa only [Eqn, dense_flip, dg] using hE

/-- The matrix with rows (2 1 0), (4 3 5), (0 6 1) in compressed rows. -/
def demoTri : Sp ℚ :=
  ⟨.csr, 3, 3, 7, 3, 7, 100, 7, 4, fun k => [(2 : ℚ), 1, 4, 3, 5, 6, 1][k]?, fun k => [0, 2, 5, 7][k]?, fun k => [0, 1, 0, 1, 2, 1, 2][k]?, noMem⟩

def demoTriEnt (p : Nat) : Ent ℚ := [(0, 0, 2), (0, 1, 1), (1, 0, 4), (1, 1, 3), (1, 2, 5), (2, 1, 6), (2, 2, 1)].getD p (0, 0, 0)

private theorem lt7 {P : Nat → Prop} (h : P 0 ∧ P 1 ∧ P 2 ∧ P 3 ∧ P 4 ∧ P 5 ∧ P 6) : ∀ p, p < 7 → P p := by
  obtain ⟨h0, h1, h2, h3, h4, h5, h6⟩ := h
  intro p hp
  have : p = 0 ∨ p = 1 ∨ p = 2 ∨ p = 3 ∨ p = 4 ∨ p = 5 ∨ p = 6 := by omega
  rcases this with rfl | rfl | rfl | rfl | rfl | rfl | rfl <;> assumption

theorem demoTri_is (unit : Bool) : Triangular demoTri 3 7 demoTriEnt unit := by
  have hmaj : ∀ p, p < 7 → (demoTriEnt p).1 = [0, 0, 1, 1, 1, 2, 2].getD p 0 := lt7 ⟨rfl, rfl, rfl, rfl, rfl, rfl, rfl⟩
  have hmin : ∀ p, p < 7 → (demoTriEnt p).2.1 = [0, 1, 0, 1, 2, 1, 2].getD p 0 := lt7 ⟨rfl, rfl, rfl, rfl, rfl, rfl, rfl⟩
  refine ⟨⟨rfl, rfl, ⟨?_, ?_, ?_, ?_, ?_, ?_⟩⟩, by decide, rfl, rfl, ?_, ?_, ?_⟩
  · intro p q hpq hq
    rw [hmaj p (by omega), hmaj q hq]
    have : ∀ q, q < 7 → ∀ p, p ≤ q → [0, 0, 1, 1, 1, 2, 2].getD p 0 ≤ [0, 0, 1, 1, 1, 2, 2].getD q 0 := by decide
    exact this q hq p hpq
  · exact lt7 ⟨by decide, by decide, by decide, by decide, by decide, by decide, by decide⟩
  · exact lt7 ⟨by decide, by decide, by decide, by decide, by decide, by decide, by decide⟩
  · intro k hk
    have hk : k ≤ 3 := hk
    have : k = 0 ∨ k = 1 ∨ k = 2 ∨ k = 3 := by omega
    rcases this with rfl | rfl | rfl | rfl <;> rfl
  · exact lt7 ⟨rfl, rfl, rfl, rfl, rfl, rfl, rfl⟩
  · exact lt7 ⟨rfl, rfl, rfl, rfl, rfl, rfl, rfl⟩
  · intro p q hpq hq
    show (demoTriEnt p).1 = (demoTriEnt q).1 → (demoTriEnt p).2.1 < (demoTriEnt q).2.1
    rw [hmaj p (by omega), hmaj q hq, hmin p (by omega), hmin q hq]
    have : ∀ q, q < 7 → ∀ p, p < q → [0, 0, 1, 1, 1, 2, 2].getD p 0 = [0, 0, 1, 1, 1, 2, 2].getD q 0 →
        [0, 1, 0, 1, 2, 1, 2].getD p 0 < [0, 1, 0, 1, 2, 1, 2].getD q 0 := by decide
    exact this q hq p hpq
  · intro j hj
    have : j = 0 ∨ j = 1 ∨ j = 2 := by omega
    rcases this with rfl | rfl | rfl
    · exact ⟨0, by omega, rfl, rfl⟩
    · exact ⟨3, by omega, rfl, rfl⟩
    · exact ⟨6, by omega, rfl, rfl⟩
  · intro _ j hj
    have : j = 0 ∨ j = 1 ∨ j = 2 := by omega
    rcases this with rfl | rfl | rfl <;> simp [dense, sum_range_succ, demoTriEnt]

example := C41_solve_partial (upper := true) (lower := false) (trans := true) (demoTri_is false) (by decide) (by decide) (X := ⟨20, 3, 3, 1⟩)
  (m := tot (fun p => (p : ℚ))) rfl rfl (holdsV_tot _ _)

/-- `alpha` is ignored: with the 1 × 1 matrix (1), `alpha` = 2 and `b` = 1 the result is 1 instead of 2. -/
theorem C41_alpha_false :
    cellsOf (spMvsolveTrm ⟨0, 1, 1, 1⟩ (2 : ℚ)
      ⟨.csr, 1, 1, 1, 1, 1, 24, 1, 2, fun k => [(1 : ℚ)][k]?, fun k => [0, 1][k]?, fun k => [0][k]?, noMem⟩ false true false false
      (fun p => if p = 0 then some 1 else none)) 0 1 = some [some 1] := by decide +kernel

/-- With `ARMAS_UNIT` and a diagonal that is not stored the solver for compressed columns skips an element and reads behind the index
array: 3 × 3 unit lower matrix with the elements (2,0) = 1 and (2,1) = 1, `b` = (1, 1, 1), where the solution is (1, 1, -1). -/
theorem C41_unit_false :
    isUB (spMvsolveTrm ⟨0, 3, 3, 1⟩ (1 : ℚ)
      ⟨.csc, 3, 3, 2, 3, 2, 60, 2, 4, fun k => [(1 : ℚ), 1][k]?, fun k => [0, 1, 2, 2][k]?, fun k => [2, 2][k]?, noMem⟩ false true false true
      (fun p => if p < 3 then some 1 else none)) = true := by decide +kernel

/-! ## C43 -/

/-- What `precond_ilu` computes: with `U` the upper triangle and `L` the unit lower triangle of the factored matrix, the result satisfies
`U*(L*z) = x`.  The claim is `L*(U*z) = x`, see `C43_order_false`. -/
theorem C43_precond_partial [Field α] {M : Sp α} {n N : Nat} {e : Nat → Ent α} (T : Triangular M n N e false) (hn : 0 < n) {Z X : View}
    {same : Bool} {m : Mem α} {xv zv : Nat → α} (hZc : Z.cols = 1) (hZr : Z.rows = n) (hXc : X.cols = 1) (hXr : X.rows = n)
    (hx : HoldsV m X xv) (hz : HoldsV m Z zv) (hs : if same then X = Z else Disjoint X.foot Z.foot) :
    Runs (precondIlu Z M X same m) (fun r => r.1 = 0 ∧ Frame Z.foot m r.2 ∧ ∃ z, HoldsV r.2 Z z ∧
      ∀ i, i < n → ∑ j ∈ range n, triOf true false (dense N e) i j * (∑ k ∈ range n, triOf false true (dense N e) j k * z k) = xv i) := by
  unfold precondIlu
  have hw : Z.WF := Or.inr (by omega)
  have hc : Runs (precondCopy Z X same m) (fun r => HoldsV r.2 Z xv ∧ Frame Z.foot m r.2) := by
    unfold precondCopy
    cases same with
    | true =>
      simp only [if_true] at hs ⊢
      rw [hs] at hx
      exact Runs.pure ⟨hx, Frame.refl _ _⟩
    | false =>
      simp only [Bool.false_eq_true, if_false] at hs ⊢
      exact (C05_mcopy_vector false hw (Or.inr hZc) (Or.inr hXc) hz hx hs (by rw [size_col hZc, size_col hXc, hZr, hXr])).mono fun r h => h.2
  refine Runs.bind hc fun r1 h1 => ?_
  refine Runs.bind (C41_solve_partial T hn (by simp) hZc hZr h1.1) fun r2 h2 => ?_
  obtain ⟨-, hf2, y, hy, hye⟩ := h2
  have T' : Triangular M n N e true := ⟨T.is, T.kind, T.rows, T.cols, T.asc, T.diag, by simp⟩
  refine Runs.bind (C41_solve_partial T' hn (by simp) hZc hZr hy) fun r3 h3 => ?_
  obtain ⟨-, hf3, z, hz', hze⟩ := h3
  refine Runs.pure ⟨rfl, (h1.2.trans hf2).trans hf3, z, hz', fun i hi => ?_⟩
  simp only [Bool.false_eq_true, if_false] at hye hze
  rw [← hye i hi]
  refine sum_congr rfl fun j hj => ?_
  rw [hze j (mem_range.mp hj)]

example := C43_precond_partial (same := false) (demoTri_is false) (by decide) (Z := ⟨20, 3, 3, 1⟩) (X := ⟨10, 3, 3, 1⟩)
  (m := tot (fun p => (p : ℚ))) rfl rfl rfl rfl (holdsV_tot _ _) (holdsV_tot _ _) (View.disj_below (by decide))

/-- The factors are applied in the wrong order.  With the 2 × 2 factors `L` = (1 0; 1 1), `U` = (1 1; 0 1), stored as (1 1; 1 1), and
`x` = (1, 0) the result is `z` = (1, -1), but `L*U*z` = (0, -1). -/
theorem C43_order_false :
    cellsOf (precondIlu ⟨0, 2, 2, 1⟩
      (⟨.csr, 2, 2, 4, 2, 4, 60, 4, 3, fun k => [(1 : ℚ), 1, 1, 1][k]?, fun k => [0, 2, 4][k]?, fun k => [0, 1, 0, 1][k]?, noMem⟩ : Sp ℚ)
      ⟨0, 2, 2, 1⟩ true (fun p => if p = 0 then some 1 else if p = 1 then some 0 else none)) 0 2 = some [some 1, some (-1)] ∧
    ∑ j ∈ range 2, triOf false true (fun _ _ => (1 : ℚ)) 0 j * (∑ k ∈ range 2, triOf true false (fun _ _ => (1 : ℚ)) j k * [1, -1].getD k 0) ≠ 1 := by
  constructor
  · decide +kernel
  · simp [sum_range_succ, triOf]

end Armas.Props
