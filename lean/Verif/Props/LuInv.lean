import Mathlib.LinearAlgebra.Matrix.NonsingularInverse
import Verif.LuInvLemmas
import Verif.Props.Inv
import Verif.Props.Lu

/-!
# C60: inverse of a general matrix from its LU factorization
-/

namespace Armas.Props

open Finset Armas

variable {α : Type} [Field α]

theorem isInverse_of_left {n : Nat} {t x : Nat → Nat → α}
    (h : ∀ i j, i < n → j < n → ∑ p ∈ range n, x i p * t p j = if i = j then 1 else 0) : IsInverse n t x := by
  have e : (Matrix.of fun i j : Fin n => x i j) * (Matrix.of fun i j : Fin n => t i j) = 1 := by
    ext i j
    rw [Matrix.mul_apply, Matrix.one_apply]
    have := h i j i.2 j.2
    rw [Finset.sum_range] at this
    simpa [Fin.ext_iff] using this
  have e2 := mul_eq_one_comm.mp e
  intro i j hi hj
  refine ⟨?_, h i j hi hj⟩
  have := congrFun (congrFun e2 ⟨i, hi⟩) ⟨j, hj⟩
  rw [Matrix.mul_apply, Matrix.one_apply] at this
  rw [Finset.sum_range]
  simpa [Fin.ext_iff] using this

theorem luX_left {n : Nat} {v g x : Nat → Nat → α} (h : LuX n v g x) {i j : Nat} (hi : i < n) (hj : j < n) :
    ∑ p ∈ range n, x i p * luProd n v p j = if i = j then 1 else 0 := by
  rw [← h.inv.left i j hi hj]
  simp only [luProd, Finset.mul_sum]
  rw [Finset.sum_comm]
  refine Finset.sum_congr rfl (fun q hq => ?_)
  rw [Finset.mem_range] at hq
  rw [← h.eqn i q hi hq, Finset.sum_mul]
  exact Finset.sum_congr rfl (fun p _ => (mul_assoc _ _ _).symm)

/-- The block size used fits into the work space. -/
theorem invBlock_le {elb rows ws : Nat} (h : invBlock elb rows ws ≠ 0) :
    invBlock elb rows ws ≤ elb ∧ (invBlock elb rows ws < rows → rows * invBlock elb rows ws ≤ ws) := by
  unfold invBlock at h ⊢
  by_cases c : elb < rows ∧ ws < elb * rows
  · rw [if_pos c] at h ⊢
    by_cases c2 : ws / rows / 4 * 4 < 32
    · rw [if_pos c2] at h; exact absurd rfl h
    · rw [if_neg c2]
      have h1 : ws / rows < elb := Nat.div_lt_of_lt_mul (by rw [Nat.mul_comm]; exact c.2)
      have h2 : ws / rows / 4 * 4 ≤ ws / rows := Nat.div_mul_le_self _ _
      exact ⟨by omega, fun _ => (Nat.mul_le_mul_left _ h2).trans (Nat.mul_div_le _ _)⟩
  · rw [if_neg c] at h ⊢
    refine ⟨le_refl _, fun h1 => ?_⟩
    rw [not_and, not_lt] at c
    rw [Nat.mul_comm]
    exact c h1

/-- What `armas_luinverse_w` is called with: `A` holds the factors of `a` (rows in the order of the pivots), the work
space has at least `rows` elements, and the recursion of `armas_solve_trm` is not entered. -/
structure LuInvArgs (env : Env) (c : Cache) (m : Mem α) (A : View) (P : Option Piv) (v a : Nat → Nat → α) (w ws : Nat) :
    Prop where
  conf : Conf3 env c
  norec : NoRec env c A.rows
  wf : A.WF
  sq : A.rows = A.cols
  ready : c.Ready m
  hA : Holds m A v
  dA : Disjoint A.foot (c.foot ∪ wkset w ws)
  dcw : Disjoint c.foot (wkset w ws)
  piv : ∀ Q, P = some Q → Q.n = A.rows
  prod : ∀ i j, i < A.rows → j < A.cols →
    luProd A.rows v i j = a (match P with | some Q => fwdPerm A.rows Q.ix Q.n i | none => i) j
  nz : ∀ i, i < A.rows → v i i ≠ 0
  work : A.rows ≤ ws
  alloc : Alloc (wkset w ws) m

/-- C60: from the factors of a nonsingular `a`, with or without pivots, `armas_luinverse_w` computes the inverse of
`a`, for every block size and every work space not smaller than `rows` elements; it returns 0 and writes nothing
but the matrix, the work space and the copy buffers.
Partial: the recursion of `armas_solve_trm` must not be entered (`NoRec`, see `C60_recursion_false`); singular
factors are not covered. -/
theorem C60_luinverse_partial [DecidableEq α] (ab : α → α) {env : Env} {c : Cache} {m : Mem α} {A : View} {P : Option Piv}
    {v a : Nat → Nat → α} {w ws : Nat} (H : LuInvArgs env c m A P v a w ws) (elb : Nat) {fuel : Nat}
    (hf : 3 * A.rows + 1 < fuel) :
    Runs (luinverseW ab env elb fuel m A P w ws (some c)) (fun r => r.1 = 0 ∧
      (∃ y, Holds r.2 A y ∧ IsInverse A.rows a y) ∧ Frame (A.foot ∪ (c.foot ∪ wkset w ws)) m r.2) := by
  obtain ⟨k1, k2, k3, k4, k5, k6, k7, k8, k9, k10, k11, k12, k13⟩ := H
  have hmin : env.blas2min ≠ 1 ∨ env.naive = true := by
    rcases k1.min2 with h | h
    · left; omega
    · exact Or.inr h.1
  obtain ⟨g, x, hx⟩ := luX_exists (n := A.rows) (v := v) k11
  unfold luinverseW
  rw [if_neg (by
    rw [not_or]
    refine ⟨not_not.mpr k4, ?_⟩
    cases P with
    | none => simp
    | some Q => simpa using k9 Q rfl), if_neg (by omega)]
  refine Runs.bind (P := fun r => r.1 = 0 ∧ Holds r.2 A x ∧ Frame (A.foot ∪ (c.foot ∪ wkset w ws)) m r.2) ?_ ?_
  · split
    · refine (unblkLuInv_spec ab hmin k3 k4.symm (by omega) k12 (k7.mono_right Set.subset_union_right) k11 hx k13 k6).mono ?_
      rintro r ⟨h1, h2, h3⟩
      exact ⟨h1, h2, h3.mono (Set.union_subset_union_right _ Set.subset_union_right)⟩
    · rename_i hb
      rw [not_or] at hb
      obtain ⟨b1, b2⟩ := invBlock_le hb.1
      exact blkLuInv_spec ab k1 k3 k4.symm hf (by omega) b1 (b2 (by omega)) k2 k7 k8 k11 hx k5 k13 k6
  · rintro ⟨e, m1⟩ ⟨he, h1, f1⟩
    dsimp only at he h1 f1 ⊢
    subst he
    cases P with
    | none =>
      refine Runs.pure ⟨rfl, ⟨x, h1, isInverse_of_left (fun i j hi hj => ?_)⟩, f1⟩
      rw [← luX_left hx hi hj]
      refine Finset.sum_congr rfl (fun p hp => ?_)
      rw [k10 p j (Finset.mem_range.mp hp) (by omega)]
    | some Q =>
      have hQ := k9 Q rfl
      dsimp only at k10 ⊢
      rw [if_pos rfl]
      unfold pivot
      rw [if_neg (by rw [if_pos rfl]; omega)]
      refine Runs.bind (P := fun r => Holds r.2 A (fun i j => x i (bwdPerm A.rows Q.ix 0 Q.n j)) ∧
          Frame A.foot m1 r.2) ((applyPivots_bwd (col := true) k3 h1 (by simp [nLines]; omega)).bind ?_) ?_
      · rintro m2 ⟨p2, p3⟩
        refine Runs.pure ⟨p2.congr (fun i j _ _ => ?_), p3⟩
        simp only [nLines, permLines, if_true]
        rw [← k4, hQ, Nat.sub_self]
      rintro ⟨e2, m2⟩ ⟨h2, f2⟩
      refine Runs.pure ⟨rfl, ⟨_, h2, isInverse_of_left (fun i j hi hj => ?_)⟩,
        f1.trans (f2.mono Set.subset_union_left)⟩
      have hfb : ∀ p, fwdPerm A.rows Q.ix Q.n (bwdPerm A.rows Q.ix 0 Q.n p) = p := by
        intro p
        have := fwd_bwd A.rows Q.ix Q.n
        rw [← Equiv.Perm.mul_apply, this]; rfl
      rw [← luX_left hx hi hj]
      refine Finset.sum_equiv (bwdPerm A.rows Q.ix 0 Q.n) (fun p => ?_) (fun p hp => ?_)
      · simp only [Finset.mem_range]
        refine ⟨fun h => bwdPerm_lt (by omega) h, fun h => ?_⟩
        rw [← hfb p]
        exact fwdPerm_lt (by omega) h
      · rw [Finset.mem_range] at hp
        rw [k10 _ j (bwdPerm_lt (by omega) hp) (by omega), hfb]

/-- Factors of a 4x4 matrix without pivots (all ones: `L` unit lower, `U` upper), three columns of work space. -/
example := C60_luinverse_partial (α := ℚ) id (m := tot (fun _ => 1)) (A := ⟨0, 5, 4, 4⟩) (P := none)
  (v := fun _ _ => 1) (a := luProd 4 (fun _ _ => 1)) (w := 50) (ws := 12)
  (env := ⟨8, 8, false, false⟩) (c := ⟨500, 600, 4, 4, 3, 3, 1⟩)
  ⟨⟨Or.inl (by decide), by decide⟩, Or.inr (Or.inl (by decide)), Or.inl (by decide), rfl,
    ⟨by decide, by decide, by decide, by decide, by decide, ⟨_, holds_tot _ _⟩, ⟨_, holds_tot _ _⟩,
      View.disj_below (by decide)⟩, holds_tot _ _,
    Set.disjoint_union_right.mpr ⟨Set.disjoint_union_right.mpr ⟨View.disj_below (by decide),
      View.disj_below (by decide)⟩, Set.disjoint_left.mpr (by
        rintro p ⟨i, j, hi, hj, rfl⟩ ⟨h1, h2⟩
        simp [View.at'] at hi hj h1 h2; omega)⟩,
    Set.disjoint_left.mpr (by
      rintro p (⟨i, j, hi, hj, rfl⟩ | ⟨i, j, hi, hj, rfl⟩) ⟨h1, h2⟩ <;> simp [View.at', Cache.A, Cache.B] at h1 h2 <;> omega),
    (by simp), fun _ _ _ _ => rfl, fun _ _ => one_ne_zero, by decide, fun _ _ => ⟨_, rfl⟩⟩ 3 (fuel := 20) (by decide)

/-- The size check. -/
theorem C60_size_error [DecidableEq α] (ab : α → α) (env : Env) (elb fuel : Nat) (m : Mem α) (A : View)
    (P : Option Piv) (w ws : Nat) (cbuf : Option Cache)
    (h : A.rows ≠ A.cols ∨ ∃ Q, P = some Q ∧ Q.n ≠ A.rows) :
    luinverseW ab env elb fuel m A P w ws cbuf = .ok (-1, m) := by
  unfold luinverseW
  rw [if_pos ?_]
  · rfl
  · rcases h with h | ⟨Q, rfl, h⟩
    · exact Or.inl h
    · exact Or.inr (by simpa using h)

example := C60_size_error (α := ℚ) id ⟨8, 8, false, true⟩ 64 10 (tot (fun _ => 1)) ⟨0, 5, 4, 4⟩ (some ⟨3, fun _ => 0⟩) 50 12
  none (Or.inr ⟨_, rfl, by decide⟩)

/-- Fewer than `rows` elements of work space are refused and nothing is written. -/
theorem C60_work_error [DecidableEq α] (ab : α → α) (env : Env) (elb fuel : Nat) (m : Mem α) (A : View)
    (P : Option Piv) (w ws : Nat) (cbuf : Option Cache) (hs : A.rows = A.cols) (hp : ∀ Q, P = some Q → Q.n = A.rows)
    (h : ws < A.rows) : luinverseW ab env elb fuel m A P w ws cbuf = .ok (-5, m) := by
  unfold luinverseW
  rw [if_neg ?_, if_pos h]
  · rfl
  · rw [not_or]
    refine ⟨not_not.mpr hs, ?_⟩
    cases P with
    | none => simp
    | some Q => simpa using hp Q rfl

example := C60_work_error (α := ℚ) id ⟨8, 8, false, true⟩ 64 10 (tot (fun _ => 1)) ⟨0, 5, 4, 4⟩ (some ⟨4, fun _ => 0⟩) 50 3
  none rfl (by rintro Q ⟨⟩; rfl) (by decide)

/-- C60 is false when the recursion of `armas_solve_trm` is entered with the factor -1 (see `C59_recursion_false`):
`L` the identity, `U` the upper triangle of ones, block size 2 and threshold 2; the inverse has 0 at (0,2), the code
stores -2 and reports success. -/
theorem C60_recursion_false : ∃ (m : Mem ℚ) (A : View) (v : Nat → Nat → ℚ) (env : Env) (c : Cache) (w ws : Nat),
    Holds m A v ∧ A.WF ∧ A.rows = 4 ∧ A.cols = 4 ∧ Conf3 env c ∧ c.Ready m ∧
    Disjoint A.foot (c.foot ∪ wkset w ws) ∧ Disjoint c.foot (wkset w ws) ∧ 4 ≤ ws ∧ Alloc (wkset w ws) m ∧
    (∀ i, i < 4 → v i i ≠ 0) ∧ ∃ m', luinverseW id env 2 30 m A none w ws (some c) = .ok (0, m') ∧
      ∀ y, Holds m' A y → ¬ IsInverse 4 (luProd 4 v) y := by
  obtain ⟨m', hm, hp⟩ := okay_ok (r := luinverseW id ⟨8, 2, false, true⟩ 2 30
    (tot fun p => if p % 4 ≤ p / 4 then (1 : ℚ) else 0) ⟨0, 4, 4, 4⟩ none 50 8
    (some ⟨100, 200, 4, 2, 3, 2, 1⟩)) (by decide +kernel)
  refine ⟨tot (fun p => if p % 4 ≤ p / 4 then 1 else 0), ⟨0, 4, 4, 4⟩, _, ⟨8, 2, false, true⟩,
    ⟨100, 200, 4, 2, 3, 2, 1⟩, 50, 8, holds_tot _ _,
    Or.inl (by decide), rfl, rfl, ⟨Or.inl (by decide), by decide⟩,
    ⟨by decide, by decide, by decide, by decide, by decide, ⟨_, holds_tot _ _⟩, ⟨_, holds_tot _ _⟩,
      View.disj_below (by decide)⟩,
    Set.disjoint_union_right.mpr ⟨Set.disjoint_union_right.mpr ⟨View.disj_below (by decide),
      View.disj_below (by decide)⟩, Set.disjoint_left.mpr (by
        rintro p ⟨i, j, hi, hj, rfl⟩ ⟨h1, h2⟩
        simp [View.at'] at hi hj h1 h2; omega)⟩,
    Set.disjoint_left.mpr (by
      rintro p (⟨i, j, hi, hj, rfl⟩ | ⟨i, j, hi, hj, rfl⟩) ⟨h1, h2⟩ <;> simp [View.at', Cache.A, Cache.B] at h1 h2 <;> omega),
    by decide, fun _ _ => ⟨_, rfl⟩, fun i hi => by interval_cases i <;> simp [View.at'],
    m', hm, fun y hy h => ?_⟩
  have e := hy 0 2 (by decide) (by decide)
  have f := hy 1 2 (by decide) (by decide)
  have d := hy 2 2 (by decide) (by decide)
  have q := hy 3 2 (by decide) (by decide)
  rw [hp] at e f d q
  have e2 := (h 0 2 (by decide) (by decide)).1
  have e3 : y 0 2 = -2 := Option.some.inj (e.symm.trans (by decide +kernel))
  have f3 : y 1 2 = -1 := Option.some.inj (f.symm.trans (by decide +kernel))
  have d3 : y 2 2 = 1 := Option.some.inj (d.symm.trans (by decide +kernel))
  have q3 : y 3 2 = 0 := Option.some.inj (q.symm.trans (by decide +kernel))
  simp [Finset.sum_range_succ, luProd, trm, View.at', e3, f3, d3, q3] at e2

variable [LinearOrder α] [IsStrictOrderedRing α]

/-- C60 from end to end: for every nonsingular `a`, `armas_lufactor` with pivoting followed by `armas_luinverse_w`
leaves the inverse of `a` in the matrix, and both calls return 0. -/
theorem C60_driver_partial (ab : α → α) {env : Env} {c : Cache} {m : Mem α} {A : View} {a : Nat → Nat → α}
    (H : LuArgs env c m A a) (hq : A.rows = A.cols) (hnr : NoRec env c A.rows)
    (hreg : ∀ x : Nat → α, (∀ i, i < A.rows → ∑ j ∈ range A.rows, a i j * x j = 0) → ∀ i, i < A.rows → x i = 0)
    {P : Piv} (hP : P.n = A.rows) {w ws : Nat} (hws : A.rows ≤ ws) (hal : Alloc (wkset w ws) m)
    (dAw : Disjoint A.foot (wkset w ws)) (dcw : Disjoint c.foot (wkset w ws)) (lb elb : Nat)
    {fuel : Nat} (hf : 3 * A.rows + 1 < fuel) :
    Runs (do
      let (e1, m, P) ← lufactor ab env lb fuel m A (some P) (some c)
      let (e2, m) ← luinverseW ab env elb fuel m A P w ws (some c)
      pure (e1, e2, m)) (fun r => r.1 = 0 ∧ r.2.1 = 0 ∧
      (∃ y, Holds r.2.2 A y ∧ IsInverse A.rows a y) ∧
      Frame (A.foot ∪ (c.foot ∪ wkset w ws)) m r.2.2) := by
  refine (C45_pivot_partial ab H (P := P) (by omega) lb (by omega)).bind ?_
  rintro ⟨e1, m1, P1⟩ ⟨Q, v, hQ, hn, h1, hprod, -, -, herr, f1, R1⟩
  dsimp only at hQ h1 herr f1 R1 ⊢
  subst hQ
  have hmin : min A.rows A.cols = A.rows := by omega
  rw [hmin] at hprod
  have hnz : ∀ p, p < A.rows → v p p ≠ 0 := by
    refine lu_diag_ne (fun x hx i hi => hreg x (fun i hi => ?_) i hi)
    have := hx ((fwdPerm A.rows Q.ix Q.n).symm i) (fwdPerm_symm_lt (by omega) hi)
    rw [← this]
    refine Finset.sum_congr rfl (fun j hj => ?_)
    rw [hprod _ j (fwdPerm_symm_lt (by omega) hi) (by have := Finset.mem_range.mp hj; omega),
      Equiv.apply_symm_apply]
  refine (C60_luinverse_partial ab (m := m1) (A := A) (P := some Q) (v := v) (a := a) (w := w) (ws := ws)
    ⟨H.conf, hnr, H.wf, hq, R1, h1, Set.disjoint_union_right.mpr ⟨H.dA, dAw⟩, dcw, (by rintro Q' ⟨⟩; omega),
      hprod, hnz, hws, hal.frame f1 (Set.disjoint_union_left.mpr ⟨dAw, dcw⟩)⟩ elb (fuel := fuel) (by omega)).bind ?_
  rintro ⟨e2, m2⟩ ⟨h2, h3, f2⟩
  dsimp only at h2 h3 f2 ⊢
  refine Runs.pure ⟨?_, h2, h3, (f1.mono ?_).trans f2⟩
  · dsimp only
    rw [herr]
    exact if_neg (fun hc => hnz _ (by omega) hc.2)
  · exact Set.union_subset_union_right _ Set.subset_union_left

/-- The matrix `[[0, 2], [1, 0]]` at address 0 needs an interchange; block size 1. -/
example := C60_driver_partial (α := ℚ) id (m := tot (fun p => if p = 2 then 2 else if p = 1 then 1 else 0))
  (A := ⟨0, 2, 2, 2⟩) (a := fun i j => if i + j * 2 = 2 then 2 else if i + j * 2 = 1 then 1 else 0)
  (env := ⟨8, 8, false, true⟩) (c := ⟨500, 600, 4, 4, 3, 3, 1⟩)
  ⟨⟨Or.inl (by decide), by decide⟩, Or.inl (by decide), Or.inl (by decide),
    ⟨by decide, by decide, by decide, by decide, by decide, ⟨_, holds_tot _ _⟩, ⟨_, holds_tot _ _⟩,
      View.disj_below (by decide)⟩, (holds_tot _ _).congr (fun i j _ _ => by simp [View.at']),
    Set.disjoint_union_right.mpr ⟨View.disj_below (by decide), View.disj_below (by decide)⟩⟩ rfl
  (Or.inr (Or.inl (by decide)))
  (by
    intro x hx i hi
    have h0 := hx 0 (by decide)
    have h1 := hx 1 (by decide)
    simp [Finset.sum_range_succ] at h0 h1
    have hi' : i < 2 := hi
    interval_cases i
    · exact h1
    · exact h0)
  (P := ⟨2, fun _ => 0⟩) rfl (w := 50) (ws := 2) (by decide) (fun _ _ => ⟨_, rfl⟩)
  (Set.disjoint_left.mpr (by
    rintro p ⟨i, j, hi, hj, rfl⟩ ⟨h1, h2⟩
    simp [View.at'] at hi hj h1 h2; omega))
  (Set.disjoint_left.mpr (by
    rintro p (⟨i, j, hi, hj, rfl⟩ | ⟨i, j, hi, hj, rfl⟩) ⟨h1, h2⟩ <;> simp [View.at', Cache.A, Cache.B] at h1 h2 <;> omega))
  64 1 (fuel := 20) (by decide)

end Armas.Props
