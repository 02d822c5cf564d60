import Verif.LuNopivLemmas
import Verif.Demo
import Verif.Props.Ldl
import Mathlib.Algebra.Order.Field.Rat

/-!
# C45, C46: LU factorization and solve

The specification is `luProd r v`, the product of the unit lower and the upper triangular matrix stored in
`v` (`r` the smaller dimension), `fwdPerm`, the composition of the recorded row interchanges
(`Verif.PivotLemmas`), and `LeadingRegular` (`Verif.PosDef`).
-/

namespace Armas.Props

open Armas Finset

variable {α : Type} [Field α]

/-- What the factorization is called with. -/
structure LuArgs (env : Env) (c : Cache) (m : Mem α) (A : View) (a : Nat → Nat → α) : Prop where
  conf : Conf3 env c
  min1 : 2 ≤ env.blas2min ∨ (env.naive = true ∧ env.recursive = false)
  wf : A.WF
  ready : c.Ready m
  hA : Holds m A a
  dA : Disjoint A.foot c.foot

section ordered
variable [LinearOrder α] [IsStrictOrderedRing α]

/-- C45 with pivoting: for every matrix (any shape, singular or not) and every block size the product of the
stored factors is the original matrix with its rows in the order given by the pivots.  Pivot `l` (counted from
one) names row `l` or a later one, no multiplier exceeds one, and only `A` and the kernels' buffers are written.
The status is negative exactly if the *last* pivot is zero (see `C45_singular_false`).
Partial: for a pivot vector of exactly `min(rows, cols)` elements and the configurations of `Conf3`. -/
theorem C45_pivot_partial (ab : α → α) {env : Env} {c : Cache} {m : Mem α} {A : View} {a : Nat → Nat → α}
    (H : LuArgs env c m A a) {P : Piv} (hP : P.n = min A.rows A.cols) (lb : Nat) {fuel : Nat}
    (hf : 2 * A.rows + A.cols + 1 < fuel) :
    Runs (lufactor ab env lb fuel m A (some P) (some c)) (fun r => ∃ Q v, r.2.2 = some Q ∧ Q.n = P.n ∧
      Holds r.2.1 A v ∧
      (∀ i j, i < A.rows → j < A.cols → luProd (min A.rows A.cols) v i j = a (fwdPerm A.rows Q.ix Q.n i) j) ∧
      (∀ l, l < Q.n → (l : Int) + 1 ≤ Q.ix l ∧ Q.ix l ≤ A.rows) ∧
      (∀ i j, i < A.rows → j < A.cols → j < i → |v i j| ≤ 1) ∧
      (r.1 = if 0 < P.n ∧ v (P.n - 1) (P.n - 1) = 0 then -1 else 0) ∧
      Frame (A.foot ∪ c.foot) m r.2.1 ∧ c.Ready r.2.1) := by
  unfold lufactor
  have key : ∀ {r : Int × Mem α × Piv}, ((∃ v, LuDone A a r.1 r.2.1 r.2.2 v) ∧
      Frame (A.foot ∪ c.foot) m r.2.1 ∧ c.Ready r.2.1 ∧ r.2.2.n = P.n) → ∃ Q v, some r.2.2 = some Q ∧ Q.n = P.n ∧
      Holds r.2.1 A v ∧
      (∀ i j, i < A.rows → j < A.cols → luProd (min A.rows A.cols) v i j = a (fwdPerm A.rows Q.ix Q.n i) j) ∧
      (∀ l, l < Q.n → (l : Int) + 1 ≤ Q.ix l ∧ Q.ix l ≤ A.rows) ∧
      (∀ i j, i < A.rows → j < A.cols → j < i → |v i j| ≤ 1) ∧
      (r.1 = if 0 < P.n ∧ v (P.n - 1) (P.n - 1) = 0 then -1 else 0) ∧
      Frame (A.foot ∪ c.foot) m r.2.1 ∧ c.Ready r.2.1 := by
    rintro ⟨e, m', Q⟩ ⟨⟨v, h⟩, h1, h2, h3⟩
    dsimp only at h h1 h2 h3 ⊢
    obtain ⟨d1, d2, d3, d4, d5⟩ := h
    rw [← hP, ← h3] at d2 d3
    rw [← hP] at d4
    exact ⟨Q, v, rfl, h3, d1, fun i j hi hj => by rw [← hP, ← h3]; exact d2 i j hi hj, d3,
      fun i j hi hj hij => d5 i j hi (by omega) hij, d4, h1, h2⟩
  split
  · refine (unblkLu_spec ab H.conf H.wf hP hf H.ready H.dA H.hA).bind ?_
    exact fun r h => Runs.pure (key h)
  · rename_i hlb
    refine (blkLu_spec ab H.conf H.wf (lb := lb) (by omega) hP hf H.ready H.dA H.hA).bind ?_
    exact fun r h => Runs.pure (key h)

example := C45_pivot_partial (α := ℚ) id (env := ⟨8, 8, false, true⟩) (c := ⟨500, 600, 4, 4, 3, 3, 1⟩)
  (m := tot (fun p => ((p % 7 : Nat) : ℚ))) (A := ⟨0, 8, 7, 5⟩)
  ⟨⟨Or.inl (by decide), by decide⟩, Or.inl (by decide), Or.inl (by decide),
    ⟨by decide, by decide, by decide, by decide, by decide, ⟨_, holds_tot _ _⟩, ⟨_, holds_tot _ _⟩,
      View.disj_below (by decide)⟩, holds_tot _ _,
    Set.disjoint_union_right.mpr ⟨View.disj_below (by decide), View.disj_below (by decide)⟩⟩
  (P := ⟨5, fun _ => 0⟩) rfl 2 (fuel := 30) (by decide)

/-- C45 without pivoting: if the leading blocks are nonsingular the product of the stored factors is the original
matrix, for every shape and block size, and the call reports success.
Partial: for the configurations of `Conf3`. -/
theorem C45_nopiv_partial (ab : α → α) {env : Env} {c : Cache} {m : Mem α} {A : View} {a : Nat → Nat → α}
    (H : LuArgs env c m A a) (hreg : LeadingRegular (min A.rows A.cols) a) (lb : Nat) {fuel : Nat}
    (hf : 2 * A.rows + A.cols < fuel) :
    Runs (lufactor ab env lb fuel m A none (some c)) (fun r => r.1 = 0 ∧ r.2.2 = none ∧
      (∃ v, Holds r.2.1 A v ∧
        (∀ i j, i < A.rows → j < A.cols → luProd (min A.rows A.cols) v i j = a i j) ∧
        ∀ i, i < min A.rows A.cols → v i i ≠ 0) ∧
      Frame (A.foot ∪ c.foot) m r.2.1 ∧ c.Ready r.2.1) := by
  unfold lufactor
  have hnz := hreg.pivots
  have fin : (∀ i j, i < A.rows → j < A.cols → luProd (min A.rows A.cols) (luF a) i j = a i j) ∧
      ∀ i, i < min A.rows A.cols → luF a i i ≠ 0 := by
    refine ⟨fun i j hi hj => luF_prod rfl hnz (fun _ _ _ _ => rfl) hi hj, fun i hi => ?_⟩
    unfold luF
    rw [if_neg (by omega)]
    exact hnz i hi
  split
  · refine (unblkLuNopiv_spec H.min1 H.wf (by omega) H.hA).bind ?_
    rintro ⟨e, m1⟩ ⟨h1, h2, h3⟩
    exact Runs.pure ⟨h1, rfl, ⟨_, h2, fin⟩, h3.mono Set.subset_union_left, H.ready.frame h3 H.dA.symm⟩
  · rename_i hlb
    refine (blkLuNopiv_spec ab H.conf H.min1 H.wf (lb := lb) (by omega) hf H.ready H.dA hnz H.hA).bind ?_
    rintro ⟨e, m1⟩ ⟨h1, h2, h3, h4⟩
    exact Runs.pure ⟨h1, rfl, ⟨_, h2, fin⟩, h3, h4⟩

/-- A 5x7 upper trapezoidal matrix with ones on the diagonal, at address 0 with step 8. -/
def luDemo : Mem ℚ := tot (fun p => if p % 9 = 0 then 1 else if p % 8 < p / 8 then (p : ℚ) else 0)

/-- The same matrix as a function. -/
def luDemoF (i j : Nat) : ℚ := if (i + j * 8) % 9 = 0 then 1 else if (i + j * 8) % 8 < (i + j * 8) / 8 then
  ((i + j * 8 : Nat) : ℚ) else 0

theorem luDemoF_schur {k : Nat} (hk : k ≤ 5) : ∀ {i j : Nat}, i < 5 → j < 5 →
    (j < i → schur luDemoF k i j = 0) ∧ (k ≤ i → schur luDemoF k i i = 1) := by
  induction k with
  | zero =>
    intro i j hi hj
    refine ⟨fun h => ?_, fun _ => ?_⟩
    · show luDemoF i j = 0
      interval_cases i <;> interval_cases j <;> first | omega | (simp [luDemoF])
    · show luDemoF i i = 1
      interval_cases i <;> simp [luDemoF]
  | succ k ih =>
    intro i j hi hj
    have hk' := fun {i j : Nat} => ih (by omega) (i := i) (j := j)
    refine ⟨fun h => ?_, fun h => ?_⟩
    · rw [schur_succ, (hk' hi hj).1 h]
      by_cases c : j < k
      · rw [(hk' (i := k) (by omega) hj).1 c]; simp
      · rw [(hk' (i := i) (j := k) hi (by omega)).1 (by omega)]; simp
    · rw [schur_succ, (hk' hi hi).2 (by omega), (hk' (i := i) (j := k) hi (by omega)).1 (by omega)]; simp

example := C45_nopiv_partial (α := ℚ) id (env := ⟨8, 8, false, true⟩) (c := ⟨500, 600, 4, 4, 3, 3, 1⟩)
  (m := luDemo) (A := ⟨0, 8, 5, 7⟩) (a := luDemoF)
  ⟨⟨Or.inl (by decide), by decide⟩, Or.inl (by decide), Or.inl (by decide),
    ⟨by decide, by decide, by decide, by decide, by decide, ⟨_, holds_tot _ _⟩, ⟨_, holds_tot _ _⟩,
      View.disj_below (by decide)⟩, (holds_tot _ _).congr (fun i j _ _ => by simp [View.at', luDemoF]),
    Set.disjoint_union_right.mpr ⟨View.disj_below (by decide), View.disj_below (by decide)⟩⟩
  (leadingRegular_of_pivots (fun p hp => by
    have : p < 5 := by simpa using hp
    rw [(luDemoF_schur (by omega) this this).2 le_rfl]; norm_num)) 2 (fuel := 30) (by decide)

end ordered

/-- The matrix `[[0, 0], [0, 1]]` at address 0. -/
def luSingDemo : Mem ℚ := tot (fun p => if p = 3 then 1 else 0)

/-- A singular matrix is reported as success: the status of each column overwrites that of the columns before.
The stored upper factor has a zero on its diagonal. -/
theorem C45_singular_false :
    ∃ m' Q, lufactor id ⟨8, 8, false, true⟩ 64 20 luSingDemo ⟨0, 2, 2, 2⟩ (some ⟨2, fun _ => 0⟩)
        (some ⟨500, 600, 4, 4, 3, 3, 1⟩) = .ok (0, m', some Q) ∧ m' 0 = some 0 ∧ m' 3 = some 1 := by
  obtain ⟨r, hr⟩ : ∃ r, r = lufactor id ⟨8, 8, false, true⟩ 64 20 luSingDemo ⟨0, 2, 2, 2⟩ (some ⟨2, fun _ => 0⟩)
    (some ⟨500, 600, 4, 4, 3, 3, 1⟩) := ⟨_, rfl⟩
  have hs : (match r with | .ok (e, m, some _) => some (e, m 0, m 3) | _ => none) = some (0, some 0, some 1) := by
    rw [hr]; decide +kernel
  rw [← hr]
  revert hs
  match r with
  | .ub => simp
  | .diverge => simp
  | .ok (e, m, none) => simp
  | .ok (e, m, some Q) =>
    simp only [Option.some.injEq, Prod.mk.injEq]
    rintro ⟨rfl, h1, h2⟩
    exact ⟨m, Q, rfl, h1, h2⟩

/-! ## Solving with the factors -/

section solve
variable [LinearOrder α]

/-- What `armas_lusolve` is called with: `A` holds `v`, whose factors give `a` with rows permuted by `P`. -/
structure LuSolveArgs (env : Env) (c : Cache) (m : Mem α) (B A : View) (P : Option Piv) (f v a : Nat → Nat → α) :
    Prop where
  conf : Conf3 env c
  wf : B.WF
  square : A.rows = A.cols
  size : B.rows = A.cols
  ready : c.Ready m
  hB : Holds m B f
  hA : Holds m A v
  dAB : Disjoint A.foot B.foot
  dAc : Disjoint A.foot c.foot
  dBc : Disjoint B.foot c.foot
  piv : ∀ Q, P = some Q → Q.n ≤ A.rows
  prod : ∀ i j, i < A.rows → j < A.cols →
    luProd A.rows v i j = a (match P with | some Q => fwdPerm A.rows Q.ix Q.n i | none => i) j
  nz : ∀ i, i < A.rows → v i i ≠ 0

theorem fwdPerm_symm_lt {N : Nat} {ix : Nat → Int} : ∀ {n : Nat}, n ≤ N → ∀ {i}, i < N →
    (fwdPerm N ix n).symm i < N := by
  intro n
  induction n with
  | zero => intro _ i hi; exact hi
  | succ n ih =>
    intro hn i hi
    have e : (fwdPerm N ix (n + 1)).symm i = pivTau N (ix n) n ((fwdPerm N ix n).symm i) := by
      rw [Equiv.symm_apply_eq]
      show i = (fwdPerm N ix n * pivTau N (ix n) n) _
      have := pivTau_inv N (ix n) n
      rw [Equiv.Perm.mul_apply, ← Equiv.Perm.mul_apply (pivTau N (ix n) n), this]
      simp
    rw [e]
    exact pivTau_lt (by omega) (ih (by omega) hi)

/-- C46, plain system: with factors of `a` in `A` (and the pivots, if any) the call returns 0 and leaves in `B`
the `X` with `a X = B`; only `B` and the kernels' buffers are written.
Partial: without `ARMAS_TRANS` (see `C46_trans_false`) and for the configurations of `Conf3`. -/
theorem C46_solve_partial (ab : α → α) {env : Env} {c : Cache} {m : Mem α} {B A : View} {P : Option Piv}
    {f v a : Nat → Nat → α} (H : LuSolveArgs env c m B A P f v a) {fl : Flags} (htr : fl.transA = false)
    {fuel : Nat} (hf : A.cols + B.rows + B.cols < fuel) :
    Runs (lusolve ab env fuel m B A P fl (some c)) (fun r => r.1 = 0 ∧
      (∃ X, Holds r.2 B X ∧ ∀ i j, i < A.rows → j < B.cols → ∑ k ∈ range A.cols, a i k * X k j = f i j) ∧
      Frame (B.foot ∪ c.foot) m r.2) := by
  obtain ⟨k1, k2, k3, k4, k5, k6, k7, k8, k9, k10, k11, k12, k13⟩ := H
  unfold lusolve
  rw [if_neg (by simp only [not_not]; exact ⟨k4, k3⟩)]
  obtain ⟨σ, hσ⟩ : ∃ σ : Equiv.Perm Nat, σ = match P with | some Q => fwdPerm A.rows Q.ix Q.n | none => 1 := ⟨_, rfl⟩
  have hσ' : ∀ i, i < A.rows → σ.symm i < A.rows := by
    intro i hi
    rw [hσ]
    cases P with
    | none => exact hi
    | some Q => exact fwdPerm_symm_lt (k11 Q rfl) hi
  have hprod : ∀ i j, i < A.rows → j < A.cols → luProd A.rows v i j = a (σ i) j := by
    intro i j hi hj
    rw [k12 i j hi hj, hσ]
    cases P <;> rfl
  refine Runs.bind (P := fun m1 => Holds m1 B (fun i j => f (σ i) j) ∧ Frame B.foot m m1) ?_ ?_
  · cases P with
    | none => exact Runs.pure ⟨by rw [hσ]; exact k6, Frame.refl _ _⟩
    | some Q =>
      have := k11 Q rfl
      refine (pivotRows_fwd k2 k6 (by omega)).bind ?_
      rintro ⟨e, m1⟩ ⟨-, h1, f1⟩
      refine Runs.pure ⟨?_, f1⟩
      rw [hσ]
      simpa only [show B.rows = A.rows by omega] using h1
  intro m1 ⟨h1, f1⟩
  rw [if_neg (by simp [htr])]
  have hA1 : Holds m1 A v := k7.frame f1 k8
  have hR1 : c.Ready m1 := k5.frame f1 k10.symm
  refine (C19_solve_trm_partial ab k1.min2 1 (c := c) (m := m1) (B := B) (A := A)
    (fl := { left := true, lower := true, unit := true })
    ⟨by simp, rfl, rfl, k2, k3, by simpa using k4.symm, hR1, k1.rb, h1, HoldsOn.of_holds hA1,
      k8.mono_left (View.footOn_sub_foot _ _), k9.mono_left (View.footOn_sub_foot _ _), k10⟩ rfl rfl (Or.inl rfl)
    (Or.inl rfl) hf).bind ?_
  rintro ⟨e2, m2⟩ ⟨-, ⟨Y, h2, hY⟩, f2, R2⟩
  dsimp only at h2 f2 R2 ⊢
  have hA2 : Holds m2 A v := hA1.frame f2 (Set.disjoint_union_right.mpr ⟨k8, k9⟩)
  refine (C19_solve_trm_partial ab k1.min2 1 (c := c) (m := m2) (B := B) (A := A)
    (fl := { left := true, upper := true })
    ⟨by simp, rfl, rfl, k2, k3, by simpa using k4.symm, R2, k1.rb, h2, HoldsOn.of_holds hA2,
      k8.mono_left (View.footOn_sub_foot _ _), k9.mono_left (View.footOn_sub_foot _ _), k10⟩ rfl rfl
      (Or.inr (fun i hi => k13 i (by omega)))
    (Or.inl rfl) hf).bind ?_
  rintro ⟨e3, m3⟩ ⟨-, ⟨X, h3, hX⟩, f3, R3⟩
  dsimp only at h3 f3 R3 ⊢
  refine Runs.pure ⟨rfl, ⟨X, h3, fun i j hi hj => ?_⟩, (f1.mono Set.subset_union_left).trans (f2.trans f3)⟩
  have e1 := hY (σ.symm i) j (by have := hσ' i hi; omega) hj
  simp only [triProd, Bool.false_eq_true, if_false, one_mul, Equiv.apply_symm_apply] at e1
  rw [← e1]
  have e2 : ∀ k ∈ range A.cols, a i k * X k j = ∑ p ∈ range A.cols, trm false true v (σ.symm i) p * (trm true false v p k * X k j) := by
    intro k hk
    have := hprod (σ.symm i) k (hσ' i hi) (Finset.mem_range.mp hk)
    rw [Equiv.apply_symm_apply] at this
    rw [← this, luProd, Finset.sum_mul, k3]
    exact Finset.sum_congr rfl (fun p _ => by ring)
  rw [Finset.sum_congr rfl e2, Finset.sum_comm]
  refine Finset.sum_congr rfl (fun p hp => ?_)
  have hp' := Finset.mem_range.mp hp
  have e3 := hX p j (by omega) hj
  simp only [triProd, Bool.false_eq_true, if_false, one_mul] at e3
  rw [← e3, Finset.mul_sum]

/-- Identity factors at address 0, right-hand sides elsewhere. -/
def luSolveDemo : Mem ℚ := tot (fun p => if p % 9 = 0 then 1 else if p < 64 then 0 else (p : ℚ))

/-- A factorization with a real interchange: `v` is the unit matrix, the pivots exchange rows 0 and 2. -/
example := C46_solve_partial (α := ℚ) id (m := luSolveDemo) (B := ⟨100, 4, 3, 2⟩) (A := ⟨0, 8, 3, 3⟩)
  (P := some ⟨3, fun l => if l = 0 then 3 else 0⟩)
  (v := fun i j => if i = j then 1 else 0) (a := fun i j => if fwdPerm 3 (fun l => if l = 0 then 3 else 0) 3 j = i then 1 else 0)
  (env := ⟨8, 8, false, true⟩) (c := ⟨500, 600, 4, 4, 3, 3, 1⟩)
  ⟨⟨Or.inl (by decide), by decide⟩, Or.inl (by decide), rfl, rfl,
    ⟨by decide, by decide, by decide, by decide, by decide, ⟨_, holds_tot _ _⟩, ⟨_, holds_tot _ _⟩,
      View.disj_below (by decide)⟩, holds_tot _ _,
    (holds_tot _ _).congr (fun i j hi hj => by
      have hi' : i < 3 := hi
      have hj' : j < 3 := hj
      interval_cases i <;> interval_cases j <;> simp [View.at']),
    View.disj_below (by decide),
    Set.disjoint_union_right.mpr ⟨View.disj_below (by decide), View.disj_below (by decide)⟩,
    Set.disjoint_union_right.mpr ⟨View.disj_below (by decide), View.disj_below (by decide)⟩,
    (by rintro Q ⟨⟩; decide),
    (by
      intro i j hi hj
      have hi' : i < 3 := hi
      have hj' : j < 3 := hj
      have hinj : (fwdPerm 3 (fun l => if l = 0 then 3 else 0) 3 j = fwdPerm 3 (fun l => if l = 0 then 3 else 0) 3 i)
        ↔ j = i := (fwdPerm 3 (fun l => if l = 0 then 3 else 0) 3).apply_eq_iff_eq
      simp only [hinj]
      interval_cases i <;> interval_cases j <;> simp [luProd, trm, Finset.sum_range_succ]),
    fun i hi => by simp⟩ (fl := {}) rfl (fuel := 20) (by decide)

/-- Sizes that do not match give `-ARMAS_ESIZE` and nothing is written. -/
theorem C46_size (ab : α → α) (env : Env) (fuel : Nat) (m : Mem α) (B A : View) (P : Option Piv) (fl : Flags)
    (cbuf : Option Cache) (h : ¬ (B.rows = A.cols ∧ A.rows = A.cols)) :
    lusolve ab env fuel m B A P fl cbuf = .ok (-ESIZE, m) := by
  unfold lusolve; rw [if_pos h]

example := C46_size (α := ℚ) id ⟨8, 8, false, true⟩ 9 luSolveDemo ⟨100, 4, 3, 2⟩ ⟨0, 8, 3, 4⟩ none {} none (by decide)

/-! ## From the matrix to the solution -/

theorem upper_exists {α : Type} [Field α] {T : Nat → Nat → α} {n : Nat} (hT : ∀ i k, i < n → k < i → T i k = 0)
    (hnz : ∀ i, i < n → T i i ≠ 0) (b : Nat → α) :
    ∃ x : Nat → α, ∀ i, i < n → ∑ k ∈ range n, T i k * x k = b i := by
  induction n generalizing b with
  | zero => exact ⟨fun _ => 0, by omega⟩
  | succ n ih =>
    obtain ⟨x, hx⟩ := ih (fun i k hi hk => hT i k (by omega) hk) (fun i hi => hnz i (by omega))
      (fun i => b i - T i n * (b n / T n n))
    refine ⟨fun k => if k < n then x k else b n / T n n, fun i hi => ?_⟩
    rw [Finset.sum_range_succ]
    have e : ∑ k ∈ range n, T i k * (if k < n then x k else b n / T n n) = ∑ k ∈ range n, T i k * x k :=
      Finset.sum_congr rfl (fun k hk => by rw [if_pos (Finset.mem_range.mp hk)])
    beta_reduce
    rw [e, if_neg (by omega)]
    by_cases c : i < n
    · rw [hx i c]; ring
    · have : i = n := by omega
      subst this
      rw [Finset.sum_eq_zero (fun k hk => by rw [hT i k hi (Finset.mem_range.mp hk), zero_mul])]
      have := hnz i hi
      field_simp
      ring

/-- A product of triangular matrices that is nonsingular has no zero on the diagonal of the upper factor. -/
theorem lu_diag_ne {α : Type} [Field α] {v : Nat → Nat → α} {n : Nat}
    (h : ∀ x : Nat → α, (∀ i, i < n → ∑ j ∈ range n, luProd n v i j * x j = 0) → ∀ i, i < n → x i = 0) :
    ∀ p, p < n → v p p ≠ 0 := by
  intro p
  induction p using Nat.strong_induction_on with
  | _ p ih =>
    intro hp h0
    obtain ⟨x, hx⟩ := upper_exists (T := trm true false v) (n := p) (fun i k _ hk => trmU_gt hk)
      (fun i hi => by rw [trmU_le le_rfl]; exact ih i hi (by omega)) (fun i => - v i p)
    have hz : ∀ i, i < n → ∑ j ∈ range n, trm true false v i j * (if j < p then x j else if j = p then 1 else 0) = 0 := by
      intro i hi
      have e : ∀ j ∈ range n, trm true false v i j * (if j < p then x j else if j = p then 1 else 0) =
          if j < p + 1 then trm true false v i j * (if j < p then x j else 1) else 0 := by
        intro j _
        by_cases c1 : j < p
        · rw [if_pos c1, if_pos (by omega), if_pos c1]
        · by_cases c2 : j = p
          · rw [if_neg c1, if_pos c2, if_pos (by omega), if_neg c1]
          · rw [if_neg c1, if_neg c2, if_neg (by omega), mul_zero]
      rw [Finset.sum_congr rfl e, ← Finset.sum_filter,
        show (range n).filter (fun j => j < p + 1) = range (p + 1) by
          ext j; simp only [Finset.mem_filter, Finset.mem_range]; omega, Finset.sum_range_succ, if_neg (by omega), mul_one]
      rw [Finset.sum_congr rfl (fun j hj => by rw [if_pos (Finset.mem_range.mp hj)])]
      by_cases c : i < p
      · rw [hx i c, trmU_le (by omega)]; ring
      · rw [Finset.sum_eq_zero (fun j hj => by
          rw [trmU_gt (by have := Finset.mem_range.mp hj; omega), zero_mul])]
        by_cases c' : i = p
        · subst c'; rw [trmU_le le_rfl, h0, add_zero]
        · rw [trmU_gt (by omega), add_zero]
    have := h (fun j => if j < p then x j else if j = p then 1 else 0) (fun i hi => ?_) p hp
    · simp at this
    · simp only [luProd, Finset.sum_mul]
      rw [Finset.sum_comm]
      refine Finset.sum_eq_zero (fun q hq => ?_)
      have := congrArg (trm false true v i q * ·) (hz q (Finset.mem_range.mp hq))
      simp only [mul_zero, Finset.mul_sum, ← mul_assoc] at this
      exact this

variable [IsStrictOrderedRing α]

/-- C46 from end to end: for every nonsingular `a`, factorization with pivoting followed by the plain solve leaves
in `B` the `X` with `a X = B`, and both calls return 0.
Partial: without `ARMAS_TRANS` and for the configurations of `Conf3`. -/
theorem C46_driver_partial (ab : α → α) {env : Env} {c : Cache} {m : Mem α} {B A : View} {a f : Nat → Nat → α}
    (H : LuArgs env c m A a) (hq : A.rows = A.cols)
    (hreg : ∀ x : Nat → α, (∀ i, i < A.rows → ∑ j ∈ range A.rows, a i j * x j = 0) → ∀ i, i < A.rows → x i = 0)
    {P : Piv} (hP : P.n = A.rows) (hBw : B.WF) (hs : B.rows = A.cols) (hB : Holds m B f)
    (dAB : Disjoint A.foot B.foot) (dBc : Disjoint B.foot c.foot) (lb : Nat) {fl : Flags} (htr : fl.transA = false)
    {fuel : Nat} (hf : 3 * A.rows + B.cols + 1 < fuel) :
    Runs (do
      let (e1, m, P) ← lufactor ab env lb fuel m A (some P) (some c)
      let (e2, m) ← lusolve ab env fuel m B A P fl (some c)
      pure (e1, e2, m)) (fun r => r.1 = 0 ∧ r.2.1 = 0 ∧
      (∃ X, Holds r.2.2 B X ∧ ∀ i j, i < A.rows → j < B.cols → ∑ k ∈ range A.cols, a i k * X k j = f i j) ∧
      Frame (A.foot ∪ B.foot ∪ c.foot) m r.2.2) := by
  refine (C45_pivot_partial ab H (P := P) (by omega) lb (by omega)).bind ?_
  rintro ⟨e1, m1, P1⟩ ⟨Q, v, hQ, hn, h1, hprod, -, -, herr, f1, R1⟩
  dsimp only at hQ h1 herr f1 R1 ⊢
  subst hQ
  have hmin : min A.rows A.cols = A.rows := by omega
  rw [hmin] at hprod
  have hnz : ∀ p, p < A.rows → v p p ≠ 0 := by
    refine lu_diag_ne (fun x hx i hi => hreg x (fun i hi => ?_) i hi)
    have := hx ((fwdPerm A.rows Q.ix Q.n).symm i) (fwdPerm_symm_lt (by omega) hi)
    rw [← this]
    refine Finset.sum_congr rfl (fun j hj => ?_)
    rw [hprod _ j (fwdPerm_symm_lt (by omega) hi) (by have := Finset.mem_range.mp hj; omega),
      Equiv.apply_symm_apply]
  refine (C46_solve_partial ab (m := m1) (B := B) (A := A) (P := some Q) (f := f) (v := v) (a := a)
    ⟨H.conf, hBw, hq, hs, R1, hB.frame f1 (Set.disjoint_union_right.mpr ⟨dAB.symm, dBc⟩), h1, dAB, H.dA, dBc,
      (by rintro Q' ⟨⟩; omega), hprod, hnz⟩ htr (fuel := fuel) (by omega)).bind ?_
  rintro ⟨e2, m2⟩ ⟨h2, h3, f2⟩
  dsimp only at h2 h3 f2 ⊢
  refine Runs.pure ⟨?_, h2, h3, ?_⟩
  · dsimp only
    rw [herr]
    refine if_neg (fun hc => ?_)
    exact hnz _ (by omega) hc.2
  · refine (f1.mono ?_).trans (f2.mono ?_)
    · exact Set.union_subset_union_left _ Set.subset_union_left
    · exact Set.union_subset_union_left _ Set.subset_union_right

/-- The matrix `[[0, 2], [1, 0]]` at address 0 needs an interchange. -/
example := C46_driver_partial (α := ℚ) id (m := tot (fun p => if p = 2 then 2 else if p = 1 then 1 else 0))
  (B := ⟨100, 4, 2, 3⟩) (A := ⟨0, 2, 2, 2⟩)
  (a := fun i j => if i + j * 2 = 2 then 2 else if i + j * 2 = 1 then 1 else 0)
  (env := ⟨8, 8, false, true⟩) (c := ⟨500, 600, 4, 4, 3, 3, 1⟩)
  ⟨⟨Or.inl (by decide), by decide⟩, Or.inl (by decide), Or.inl (by decide),
    ⟨by decide, by decide, by decide, by decide, by decide, ⟨_, holds_tot _ _⟩, ⟨_, holds_tot _ _⟩,
      View.disj_below (by decide)⟩, (holds_tot _ _).congr (fun i j _ _ => by simp [View.at']),
    Set.disjoint_union_right.mpr ⟨View.disj_below (by decide), View.disj_below (by decide)⟩⟩ rfl
  (by
    intro x hx i hi
    have h0 := hx 0 (by decide)
    have h1 := hx 1 (by decide)
    simp [Finset.sum_range_succ] at h0 h1
    have hi' : i < 2 := hi
    interval_cases i
    · exact h1
    · exact h0)
  (P := ⟨2, fun _ => 0⟩) rfl (Or.inl (by decide)) rfl (holds_tot _ _) (View.disj_below (by decide))
  (Set.disjoint_union_right.mpr ⟨View.disj_below (by decide), View.disj_below (by decide)⟩) 64 (fl := {}) rfl
  (fuel := 20) (by decide)

end solve

/-- `L = [[1, 0], [1, 1]]`, `U = [[1, 1], [0, 1]]` stored at address 0, so the factored matrix is
`[[1, 1], [1, 2]]`; `B = (1, 0)` at address 10. -/
def luTransDemo : Mem ℚ := tot (fun p => if p < 4 ∨ p = 10 then 1 else 0)

/-- With `ARMAS_TRANS` the two triangular solves are done in the wrong order (`L^T` first, then `U^T`): the call
returns 0 and the result does not solve the transposed system, not even without pivoting and in exact arithmetic. -/
theorem C46_trans_false :
    ∃ m', lusolve id ⟨8, 8, false, true⟩ 20 luTransDemo ⟨10, 2, 2, 1⟩ ⟨0, 2, 2, 2⟩ none { transA := true }
        (some ⟨500, 600, 4, 4, 3, 3, 1⟩) = .ok (0, m') ∧
      ∀ v f X, Holds luTransDemo ⟨0, 2, 2, 2⟩ v → Holds luTransDemo ⟨10, 2, 2, 1⟩ f →
        Holds m' ⟨10, 2, 2, 1⟩ X → ∑ k ∈ range 2, luProd 2 v k 0 * X k 0 ≠ f 0 0 := by
  obtain ⟨r, hr⟩ : ∃ r, r = lusolve id ⟨8, 8, false, true⟩ 20 luTransDemo ⟨10, 2, 2, 1⟩ ⟨0, 2, 2, 2⟩ none
    { transA := true } (some ⟨500, 600, 4, 4, 3, 3, 1⟩) := ⟨_, rfl⟩
  have hs : (match r with | .ok (e, _) => some e | _ => none) = some 0 := by rw [hr]; decide +kernel
  have h0 : memOf r 10 = some 1 := by rw [hr]; decide +kernel
  have h1 : memOf r 11 = some (-1) := by rw [hr]; decide +kernel
  rw [← hr]
  revert hs h0 h1
  cases r with
  | ub => simp
  | diverge => simp
  | ok r =>
    obtain ⟨e, m'⟩ := r
    simp only [memOf, Option.some.injEq]
    rintro rfl h0 h1
    refine ⟨m', rfl, fun v f X hv hf hX => ?_⟩
    have a0 := hv 0 0 (by decide) (by decide)
    have a1 := hv 1 0 (by decide) (by decide)
    have a2 := hv 0 1 (by decide) (by decide)
    have a3 := hv 1 1 (by decide) (by decide)
    have b0 := hf 0 0 (by decide) (by decide)
    have x0 := hX 0 0 (by decide) (by decide)
    have x1 := hX 1 0 (by decide) (by decide)
    simp only [View.at'] at a0 a1 a2 a3 b0 x0 x1
    have x0' := x0.symm.trans h0
    have x1' := x1.symm.trans h1
    simp [luTransDemo, tot] at a0 a1 a2 a3 b0 x0' x1'
    simp [luProd, Finset.sum_range_succ, trm, ← a0, ← a1, ← a2, ← a3, ← b0, x0', x1']

end Armas.Props
