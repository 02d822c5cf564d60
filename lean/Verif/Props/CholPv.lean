import Verif.CholPvLemmas
import Verif.Props.Chol
import Verif.Props.Blas1
import Verif.Props.LqBuild

/-!
# C100, C101: pivoted Cholesky factorization
-/

namespace Armas.Props

open Classical Finset

theorem cholProd_tv {upper : Bool} {n r : Nat} {g : Nat → Nat → ℝ} (hr : r ≤ n) (hp : ∀ p, p < r → 0 < schur g p p p)
    {i j : Nat} : cholProd upper n (tv upper (cholR g r)) i j = ∑ p ∈ Ico 0 r, cholF g i p * cholF g j p := by
  have key : ∀ i p, (if p ≤ i then cholR g r i p else 0) = if p < r then cholF g i p else 0 := by
    intro i p
    by_cases h1 : p < r
    · rw [if_pos h1, cholR, if_pos h1]
      split
      · rfl
      · rw [cholF, schur_zero (fun q hq => (hp q (by omega)).ne') (Or.inl (by omega)), zero_div]
    · rw [if_neg h1, cholR, if_neg h1, ite_self]
  have e : cholProd upper n (tv upper (cholR g r)) i j =
      ∑ p ∈ range n, if p < r then cholF g i p * cholF g j p else 0 := by
    unfold cholProd
    refine Finset.sum_congr rfl (fun p _ => ?_)
    have t1 : ∀ i, trm false false (tv false (cholR g r)) i p = if p ≤ i then cholR g r i p else 0 := by
      intro i
      rcases Nat.lt_trichotomy p i with h | h | h
      · simp [trm, tv, InTri, h, h.le, h.ne']
      · simp [trm, tv, InTri, h]
      · simp [trm, tv, InTri, h.not_ge, h.ne, h.not_gt]
    have t2 : ∀ i, trm true false (tv true (cholR g r)) p i = if p ≤ i then cholR g r i p else 0 := by
      intro i
      rcases Nat.lt_trichotomy p i with h | h | h
      · simp [trm, tv, InTri, h, h.le, h.ne]
      · simp [trm, tv, InTri, h]
      · simp [trm, tv, InTri, h.not_ge, h.ne', h.not_gt]
    cases upper <;> simp only [Bool.false_eq_true, if_true, if_false, t1, t2, key] <;> split <;> simp
  rw [e, ← Finset.sum_filter]
  refine Finset.sum_congr ?_ (fun _ _ => rfl)
  ext p; simp; omega

/-- The stopping level: `stop` if it is positive, otherwise the largest diagonal element (in absolute value) times
`smult` (if positive) or `n*eps`. -/
def StopLevel (n : Nat) (f : Nat → Nat → ℝ) (stop smult eps xs : ℝ) : Prop :=
  (0 < stop → xs = stop) ∧
  (¬ 0 < stop → ∃ d, (∀ i, i < n → |f i i| ≤ d) ∧ (∃ i, i < n ∧ d = |f i i|) ∧
    xs = d * (if 0 < smult then smult else n * eps))

/-- The result of a pivoted Cholesky factorization of the symmetric matrix `f` of order `n` with rank `r`, pivots
`P` and stopping level `xs`, stored in the triangle `v`:  the factor has `r` nonzero columns, positive and
nonincreasing diagonal, and is a factor of the permuted matrix.  `σ` is what applying the first `r` pivots does. -/
structure IsPivChol (upper : Bool) (n : Nat) (f v : Nat → Nat → ℝ) (P : Piv) (xs : ℝ) (r : Nat) : Prop where
  pivots : ∀ p, p < r → (p : Int) + 1 ≤ P.ix p ∧ P.ix p ≤ n
  zero : ∀ i j, r ≤ min i j → v i j = 0
  diag : ∀ p, p < r → 0 < v p p ∧ xs < v p p * v p p
  mono : ∀ p, p + 1 < r → v (p + 1) (p + 1) ≤ v p p
  /-- exact in the first `r` rows and columns, so everywhere for full rank -/
  exact : ∀ i j, i < n → j < n → min i j < r →
    f (fwdPerm n P.ix r i) (fwdPerm n P.ix r j) = cholProd upper n v i j
  /-- for a semidefinite matrix the rest is not above the stopping level -/
  rest : PosSemi n f → ∀ i j, i < n → j < n →
    |f (fwdPerm n P.ix r i) (fwdPerm n P.ix r j) - cholProd upper n v i j| ≤ xs

theorem isPivChol {upper : Bool} {n r : Nat} {f : Nat → Nat → ℝ} (hs : ∀ i j, f i j = f j i) {P : Piv} {xs : ℝ} (h0 : 0 ≤ xs)
    (H : PivEnd n f xs P r) : IsPivChol upper n f (tv upper (cholR (pivM n P r f) r)) P xs r := by
  have hs' : ∀ i j, pivM n P r f i j = pivM n P r f j i := permM_symm hs _
  have hp : ∀ p, p < r → 0 < schur (pivM n P r f) p p p := fun p hp => by
    have := H.inv.above p hp; linarith
  have hd : ∀ p, p < r → tv upper (cholR (pivM n P r f) r) p p = Real.sqrt (schur (pivM n P r f) p p p) := by
    intro p hp'
    rw [← cholF_diag]
    unfold tv cholR; simp [hp']
  refine ⟨H.inv.range, ?_, ?_, ?_, ?_, ?_⟩
  · intro i j hij
    unfold tv cholR
    cases upper
    · simp; omega
    · simp; omega
  · intro p hp'
    rw [hd p hp', Real.mul_self_sqrt (hp p hp').le]
    exact ⟨Real.sqrt_pos.mpr (hp p hp'), H.inv.above p hp'⟩
  · intro p hp'
    rw [hd p (by omega), hd (p + 1) hp']
    refine Real.sqrt_le_sqrt ?_
    have h1 := H.inv.dom p (p + 1) (by omega) (by omega) (by have := H.le; omega)
    have h2 : schur (pivM n P r f) (p + 1) (p + 1) (p + 1) ≤ schur (pivM n P r f) p (p + 1) (p + 1) := by
      rw [schur_succ, schur_symm hs' p p (p + 1)]
      have : 0 ≤ schur (pivM n P r f) p (p + 1) p * schur (pivM n P r f) p (p + 1) p / schur (pivM n P r f) p p p :=
        div_nonneg (mul_self_nonneg _) (hp p (by omega)).le
      linarith
    exact h2.trans ((le_abs_self _).trans h1)
  · intro i j hi hj hij
    rw [cholProd_tv H.le hp]
    exact cholF_full (f := pivM n P r f) hs' (Nat.zero_le r) hp (by omega)
  · intro hpsd i j hi hj
    rw [cholProd_tv H.le hp]
    have e := cholF_sum (f := pivM n P r f) hs' (Nat.zero_le r) hp i j
    have e' : f (fwdPerm n P.ix r i) (fwdPerm n P.ix r j) = schur (pivM n P r f) 0 i j := rfl
    rw [e', e, add_sub_cancel_left]
    by_cases hij : i < r ∨ j < r
    · rw [schur_zero (fun p hp' => (hp p hp').ne') hij]; simpa using h0
    · have hrn : r < n := by omega
      obtain ⟨i0, h1, h2, h3, h4⟩ := H.stop hrn
      have hps : PosSemi (n - r) (fun i j => schur (pivM n P r f) r (r + i) (r + j)) :=
        PosSemi.schur (by
          rw [show r + (n - r) = n by omega]
          exact hpsd.perm (fun i hi => fwdPerm_lt H.le hi)) hp
      have hdg : ∀ j, r ≤ j → j < n → schur (pivM n P r f) r j j ≤ xs := by
        intro j hj1 hj2
        have hnn := hps.diag (i := i0 - r) (by omega)
        beta_reduce at hnn
        rw [show r + (i0 - r) = i0 by omega] at hnn
        have := h4 j hj1 hj2
        rw [abs_of_nonneg hnn] at this
        exact (le_abs_self _).trans (this.trans h3)
      have := hps.off (fun i j => schur_symm hs' _ _ _) (i := i - r) (j := j - r) (by omega) (by omega) (B := xs)
        (by rw [show r + (i - r) = i by omega]; exact hdg i (by omega) hi)
        (by rw [show r + (j - r) = j by omega]; exact hdg j (by omega) hj)
      rwa [show r + (i - r) = i by omega, show r + (j - r) = j by omega] at this

/-- C100: `armas_cholfactor_pv` with the unblocked code: the result is 0 for full rank and the rank otherwise, the
selected triangle holds the pivoted factor, only that triangle and the first elements of the pivot vector change.
Missing: the blocked functions (`C100_blocked_partial`); `0 < rank`: rank 0 gives the same result as full rank
(`C100_rank_false`); the number of pivots is not set to the rank. -/
theorem C100_factor_partial {upper : Bool} {env : Env}
    (hrec : env.recursive = false ∨ env.naive = true ∨ env.blas2min ≠ 1) {fuel : Nat}
    (blk : Mem ℝ → ℝ → Res (Nat × Piv × Mem ℝ)) {m : Mem ℝ} {A : View} {a : Nat → Nat → ℝ} {wsize lb : Nat} {P : Piv}
    {stop smult eps : ℝ} (heps : 0 ≤ eps) (hw : A.WF) (hsq : A.cols = A.rows) (h0 : 0 < A.rows) (hP : P.n = A.rows)
    (hf : A.rows + 1 < fuel) (hlb : lb = 0 ∨ wsize < A.cols ∨ A.rows ≤ lb)
    (hA : HoldsOn m A (InTri upper false) a) :
    Runs (cholfactorPv Real.sqrt env fuel blk m A wsize P lb stop smult eps upper) (fun x => ∃ r xs v,
      r ≤ A.rows ∧ x.1 = (if r = A.rows then 0 else (r : Int)) ∧
      StopLevel A.rows (symm upper a) stop smult eps xs ∧
      IsPivChol upper A.rows (symm upper a) v x.2.1 xs r ∧ HoldsOn x.2.2 A (InTri upper false) v ∧
      x.2.1.n = P.n ∧ (∀ p, r ≤ p → x.2.1.ix p = P.ix p) ∧
      Frame (A.footOn (InTri upper false)) m x.2.2) := by
  unfold cholfactorPv
  rw [if_neg (by omega), if_neg (by omega)]
  dsimp only
  have hs : ∀ i j, symm upper a i j = symm upper a j i := symm_comm upper a
  have hD : HoldsV m (diagRow A) (fun i => symm upper a i i) := by
    intro i hi
    have hi' : i < A.rows := by simpa [View.size, diagRow, hsq] using hi
    have := hA i i (by omega) (by omega) (by simp [InTri])
    beta_reduce
    rw [show symm upper a i i = a i i by unfold symm; simp, ← this]
    congr 1
    simp [View.vat, diagRow, View.inc, View.at']
    ring
  have hsz : (diagRow A).size = A.rows := by simp [View.size, diagRow, hsq]
  refine Runs.bind (P := fun xs => 0 ≤ xs ∧ StopLevel A.rows (symm upper a) stop smult eps xs) ?_ ?_
  · unfold cholpvStop
    split
    · rename_i hst
      exact Runs.pure ⟨hst.le, fun _ => rfl, fun h => absurd hst h⟩
    · rename_i hst
      refine Runs.bind (C08_amax (Or.inl rfl) (by rw [hsz]; exact h0) hD) ?_
      rintro d ⟨h1, h2⟩
      rw [hsz] at h1 h2
      have hd0 : 0 ≤ d := (abs_nonneg _).trans (h1 0 h0)
      split
      · rename_i hsm
        exact Runs.pure ⟨mul_nonneg hd0 hsm.le, fun h => absurd h hst, fun _ => ⟨d, h1, h2, by rw [if_pos hsm]⟩⟩
      · rename_i hsm
        exact Runs.pure ⟨mul_nonneg hd0 (mul_nonneg (Nat.cast_nonneg _) heps), fun h => absurd h hst,
          fun _ => ⟨d, h1, h2, by rw [if_neg hsm]⟩⟩
  · rintro xs ⟨hx0, hx⟩
    have hcond : lb = 0 ∨ (if wsize < A.cols then 0 else wsize) = 0 ∨ A.rows ≤ lb := by
      rcases hlb with h | h | h
      · exact Or.inl h
      · exact Or.inr (Or.inl (if_pos h))
      · exact Or.inr (Or.inr h)
    rw [if_pos hcond]
    unfold unblkCholpv
    rw [hsq, min_self]
    refine (cholpvLoop_spec hrec hs hw hsq hf hx0 (k := 0) (P := P) (by omega)
      ⟨hP, by simp, by simp, by simp⟩ (hA.congr (fun i j _ _ ht => ?_))).bind ?_
    · simp [InTri] at ht
      cases upper
      · simp at ht
        simp [tv, cholV, schur, pivM, permM, fwdPerm, symm, ht]
      · simp at ht
        simp only [tv, if_true, cholV, schur, pivM, permM, fwdPerm, symm, Equiv.Perm.one_apply, not_lt_zero, if_false]
        split
        · have : i = j := by omega
          rw [this]
        · rfl
    · rintro ⟨r, P', m'⟩ ⟨-, h1, h2, h3, h4⟩
      dsimp only at h1 h2 h3 h4 ⊢
      exact Runs.pure ⟨r, xs, _, h1.le, rfl, hx, isPivChol hs hx0 h1, h3, h1.inv.size.trans hP.symm,
        fun p hp => h2 p (Or.inr hp), h4⟩

/-- A positive semidefinite matrix of rank one for the examples: all elements equal to 1. -/
theorem posSemi_ones (n : Nat) : PosSemi n (fun _ _ => 1) := by
  intro x
  have : ∑ i ∈ range n, ∑ j ∈ range n, x i * 1 * x j = (∑ i ∈ range n, x i) * ∑ j ∈ range n, x j := by
    rw [Finset.sum_mul_sum]; simp
  rw [this]; exact mul_self_nonneg _

example (up : Bool) := C100_factor_partial (upper := up) (env := ⟨8, 2, false, true⟩) (Or.inr (Or.inr (by decide)))
  (fuel := 20) (fun m _ => .ok (0, ⟨0, fun _ => 0⟩, m)) (m := tot (fun p => if p % 9 = 0 then (4 : ℝ) else 1))
  (A := ⟨0, 8, 3, 3⟩) (wsize := 0) (lb := 4) (P := ⟨3, fun _ => 0⟩) (stop := 0) (smult := 0) (eps := 1 / 1024)
  (by norm_num) (Or.inl (by decide)) rfl (by decide) rfl (by decide) (Or.inr (Or.inl (by decide)))
  (HoldsOn.of_holds (holds_tot _ _))

/-- The 3x3 matrix of ones: the bound on the rest applies. -/
example (up : Bool) : Runs (cholfactorPv Real.sqrt ⟨8, 2, false, true⟩ 20 (fun m _ => .ok (0, ⟨0, fun _ => 0⟩, m))
    (tot (fun _ => (1 : ℝ))) ⟨0, 8, 3, 3⟩ 0 ⟨3, fun _ => 0⟩ 4 0 0 (1 / 1024) up) (fun x => ∃ (r : Nat) (xs : ℝ) (v : Nat → Nat → ℝ),
      x.1 = (if r = 3 then 0 else (r : Int)) ∧ StopLevel 3 (fun _ _ => 1) 0 0 (1 / 1024) xs ∧
      HoldsOn x.2.2 ⟨0, 8, 3, 3⟩ (InTri up false) v ∧ ∀ i j, i < 3 → j < 3 → |1 - cholProd up 3 v i j| ≤ xs) := by
  have e : symm up (fun i j => if (0 + i + j * 8) = 0 then (1 : ℝ) else 1) = fun _ _ => 1 := by
    funext i j; simp [symm]
  refine (C100_factor_partial (upper := up) (env := ⟨8, 2, false, true⟩) (Or.inr (Or.inr (by decide)))
    (fuel := 20) (fun m _ => .ok (0, ⟨0, fun _ => 0⟩, m)) (m := tot (fun _ => (1 : ℝ)))
    (A := ⟨0, 8, 3, 3⟩) (a := fun i j => if (0 + i + j * 8) = 0 then (1 : ℝ) else 1) (wsize := 0) (lb := 4)
    (P := ⟨3, fun _ => 0⟩) (stop := 0) (smult := 0) (eps := 1 / 1024)
    (by norm_num) (Or.inl (by decide)) rfl (by decide) rfl (by decide) (Or.inr (Or.inl (by decide)))
    (fun i j _ _ _ => by simp [tot])).mono ?_
  rintro x ⟨r, xs, v, -, h2, h3, h4, h5, -⟩
  rw [e] at h3 h4
  exact ⟨r, xs, v, h2, h3, h5, h4.rest (posSemi_ones 3)⟩

/-- C100: a matrix that is not square, or a pivot vector of another size, is rejected and nothing changes. -/
theorem C100_errors (env : Env) (fuel : Nat) (blk : Mem ℝ → ℝ → Res (Nat × Piv × Mem ℝ)) (m : Mem ℝ) (A : View)
    (wsize : Nat) (P : Piv) (lb : Nat) (stop smult eps : ℝ) (upper : Bool) (h : A.rows ≠ A.cols ∨ A.rows ≠ P.n) :
    cholfactorPv Real.sqrt env fuel blk m A wsize P lb stop smult eps upper = .ok (-ESIZE, P, m) := by
  unfold cholfactorPv
  by_cases h1 : A.rows ≠ A.cols
  · rw [if_pos h1]
  · rw [if_neg h1, if_pos (by tauto)]

example := C100_errors ⟨8, 2, false, true⟩ 9 (fun m _ => .ok (0, ⟨0, fun _ => 0⟩, m)) (tot (fun _ => (1 : ℝ)))
  ⟨0, 8, 3, 3⟩ 0 ⟨2, fun _ => 0⟩ 4 0 0 0 true (Or.inr (by decide))

/-- C100 is false for rank 0: `retval 0` is documented as "ok; rank not changed", but every 1x1 matrix `c ≤ 0` -
the zero matrix as well as the negative ones, which have no such factorization - is overwritten with zero and
gives 0. -/
theorem C100_rank_false (upper : Bool) (blk : Mem ℝ → ℝ → Res (Nat × Piv × Mem ℝ)) {c : ℝ} (hc : c ≤ 0) :
    ∃ P m', cholfactorPv Real.sqrt ⟨8, 2, false, true⟩ 9 blk (tot (fun _ => c)) ⟨0, 1, 1, 1⟩ 0 ⟨1, fun _ => 0⟩ 0 0 0 0 upper =
      .ok (0, P, m') ∧ m' 0 = some 0 := by
  obtain ⟨⟨e, P, m'⟩, h1, r, xs, v, hr, he, hx, hv, hh, -⟩ := C100_factor_partial (upper := upper)
    (env := ⟨8, 2, false, true⟩) (Or.inr (Or.inr (by decide))) (fuel := 9) blk (m := tot (fun _ => c))
    (A := ⟨0, 1, 1, 1⟩) (a := fun _ _ => c) (wsize := 0) (lb := 0) (P := ⟨1, fun _ => 0⟩) (stop := 0) (smult := 0)
    (eps := 0) (le_refl _) (Or.inl (by decide)) rfl (by decide) rfl (by decide) (Or.inl rfl)
    (fun i j _ _ _ => by simp [tot])
  dsimp only at hr he hh
  have hr0 : r = 0 := by
    by_contra hne
    have : r = 1 := by omega
    subst this
    have h2 := hv.exact 0 0 (by decide) (by decide) (by decide)
    have h3 := hv.diag 0 (by decide)
    have h4 : cholProd upper 1 v 0 0 = v 0 0 * v 0 0 := by
      unfold cholProd; cases upper <;> simp [trm]
    have h5 : symm upper (fun _ _ => c) (fwdPerm 1 P.ix 1 0) (fwdPerm 1 P.ix 1 0) = c := by simp [symm]
    change symm upper (fun _ _ => c) (fwdPerm 1 P.ix 1 0) (fwdPerm 1 P.ix 1 0) = cholProd upper 1 v 0 0 at h2
    rw [h4, h5] at h2
    have := mul_pos h3.1 h3.1
    linarith
  subst hr0
  refine ⟨P, m', ?_, ?_⟩
  · rw [h1, he]; simp
  · have := hh 0 0 (by decide) (by decide) (by cases upper <;> simp [InTri])
    rw [hv.zero 0 0 (by decide)] at this
    simpa [View.at'] using this

example := C100_rank_false true (fun m _ => .ok (0, ⟨0, fun _ => 0⟩, m)) (c := -1) (by norm_num)

/-- C101: `armas_cholsolve_pv` with a factor of full rank: if the stored triangle `v` (nonzero diagonal) is a factor
of the matrix `f` permuted by the pivots, `B` is replaced by the solution of `f X = B`.
Missing: rank below the order of the matrix (false, `C101_rank_false`). -/
theorem C101_solve_partial (ab : ℝ → ℝ) {env : Env} {c : Cache} (hc : Conf3 env c) {m : Mem ℝ} {B A : View} {P : Piv}
    {f v b : Nat → Nat → ℝ} {upper : Bool} (hw : B.WF) (hsq : A.rows = A.cols) (hsz : A.cols = B.rows)
    (h0 : ¬ (B.size = 0 ∨ A.size = 0)) (hP : P.n = A.rows)
    (hR : c.Ready m) (hB : Holds m B b) (hA : HoldsOn m A (InTri upper false) v)
    (dAB : Disjoint (A.footOn (InTri upper false)) B.foot)
    (dAc : Disjoint (A.footOn (InTri upper false)) c.foot) (dBc : Disjoint B.foot c.foot)
    (hnz : ∀ i, i < A.cols → v i i ≠ 0)
    (hfac : ∀ i j, i < A.rows → j < A.rows →
      f (fwdPerm A.rows P.ix A.rows i) (fwdPerm A.rows P.ix A.rows j) = cholProd upper A.rows v i j)
    {fuel : Nat} (hf : A.cols + B.rows + B.cols < fuel) :
    Runs (cholsolvePv ab env fuel m B A P upper (some c)) (fun r => r.1 = 0 ∧
      (∃ X, Holds r.2 B X ∧ ∀ i j, i < B.rows → j < B.cols → ∑ k ∈ range A.rows, f i k * X k j = b i j) ∧
      Frame (B.foot ∪ c.foot) m r.2) := by
  unfold cholsolvePv
  rw [if_neg h0, if_neg (by omega)]
  have hPl : P.n ≤ nLines false B := by simp [nLines]; omega
  have e1 := pivot_lines (m := m) (A := B) (P := P) (col := false) (fwd := true) hPl
  simp only [Bool.false_eq_true, if_false] at e1
  rw [e1]
  refine Runs.bind (P := fun x => Holds x.2 B (permLines false (fwdPerm B.rows P.ix P.n) b) ∧ Frame B.foot m x.2)
    ((applyPivots_fwd (col := false) hw hB hPl).bind (fun m' hm' => Runs.pure hm')) ?_
  rintro ⟨e, m1⟩ ⟨h1, f1⟩
  dsimp only at h1 f1 ⊢
  simp only [show ¬ P.n < A.cols by omega, if_false]
  have sA : A.sub 0 0 A.rows A.rows = A := by
    cases A; simp [View.sub] at hsq ⊢; exact hsq
  have sB : B.sub 0 0 A.rows B.cols = B := by
    cases B; simp [View.sub] at hsz ⊢; omega
  have hA1 := hA.frame f1 dAB
  have hR1 := hR.frame f1 dBc.symm
  have hsolve : ∀ (K : Mem ℝ → Res (Int × Mem ℝ)) (Q : Int × Mem ℝ → Prop), (∀ m2,
      (∃ Y, Holds m2 B Y ∧ ∀ i j, i < B.rows → j < B.cols →
        ∑ k ∈ range A.cols, cholProd upper A.cols v i k * Y k j = b (fwdPerm B.rows P.ix P.n i) j) ∧
        Frame (B.foot ∪ c.foot) m1 m2 → Runs (K m2) Q) → Runs (do
      let (_, m) ← solveTrm ab env fuel m1 B 1 A
        { left := true, upper := upper, lower := !upper, transA := upper } (some c)
      let (_, m) ← solveTrm ab env fuel m B 1 A
        { left := true, upper := upper, lower := !upper, transA := !upper } (some c)
      K m) Q := by
    intro K Q hK
    revert hA1 dAB dAc hK
    clear hA hfac sA sB
    cases upper <;> intro dAB dAc hA1 hK
    all_goals
      refine Runs.bind (C19_solve_trm_partial ab hc.min2 1 (a := v)
        (f := permLines false (fwdPerm B.rows P.ix P.n) b)
        ⟨by simp, rfl, rfl, hw, hsq, by simpa using hsz, hR1, hc.rb, h1, hA1, dAB, dAc, dBc⟩ rfl rfl (Or.inr hnz)
        (Or.inl rfl) hf) ?_
      rintro ⟨e1, m2⟩ ⟨-, ⟨Y, h2, h3⟩, f2, hR2⟩
      dsimp only
      have hA2 := hA1.frame f2 (Set.disjoint_union_right.mpr ⟨dAB, dAc⟩)
      refine Runs.bind (C19_solve_trm_partial ab hc.min2 1 (a := v) (f := Y)
        ⟨by simp, rfl, rfl, hw, hsq, by simpa using hsz, hR2, hc.rb, h2, hA2, dAB, dAc, dBc⟩ rfl rfl (Or.inr hnz)
        (Or.inl rfl) hf) ?_
      rintro ⟨e2, m3⟩ ⟨-, ⟨X, h5, h6⟩, f3, -⟩
      refine hK m3 ⟨⟨X, h5, fun i j hi hj => ?_⟩, f2.trans f3⟩
      have e := h3 i j hi hj
      rw [one_mul] at e
      simp only [permLines, Bool.false_eq_true, if_false] at e
      rw [← e]
      unfold triProd cholProd
      simp only [Bool.false_eq_true, Bool.not_false, Bool.not_true, if_true, if_false]
      simp only [Finset.sum_mul]
      rw [Finset.sum_comm]
      refine Finset.sum_congr rfl (fun p hp => ?_)
      have e' := h6 p j (by have := Finset.mem_range.mp hp; omega) hj
      rw [one_mul] at e'
      rw [← e']
      unfold triProd
      simp only [Bool.false_eq_true, Bool.not_false, Bool.not_true, if_true, if_false]
      rw [Finset.mul_sum]
      exact Finset.sum_congr rfl (fun q _ => by ring)
  rw [sA, sB]
  refine hsolve (fun m => do
    let (_, m) ← pivot m B P .rows false
    pure (0, m)) _ ?_
  rintro m2 ⟨⟨Y, hY, hYe⟩, f2⟩
  have e2 := pivot_lines (m := m2) (A := B) (P := P) (col := false) (fwd := false) hPl
  simp only [Bool.false_eq_true, if_false] at e2
  rw [e2]
  refine Runs.bind (P := fun x => Holds x.2 B (permLines false (bwdPerm B.rows P.ix 0 B.rows) Y) ∧
    Frame B.foot m2 x.2) ((applyPivots_bwd (col := false) hw hY hPl).bind (fun m' hm' => Runs.pure ?_)) ?_
  · have : P.n = B.rows := by omega
    simpa [nLines, this] using hm'
  rintro ⟨e, m3⟩ ⟨h3, f3⟩
  refine Runs.pure ⟨rfl, ⟨_, h3, fun i j hi hj => ?_⟩,
    (f1.mono Set.subset_union_left).trans (f2.trans (f3.mono Set.subset_union_left))⟩
  have hn : A.rows = B.rows := by omega
  have hPB : P.n = B.rows := by omega
  have hσ : ∀ i, i < B.rows → fwdPerm B.rows P.ix B.rows i < B.rows := fun i hi => fwdPerm_lt (le_refl _) hi
  have hinv : ∀ i, bwdPerm B.rows P.ix 0 B.rows (fwdPerm B.rows P.ix B.rows i) = i := by
    intro i
    have h := fwd_bwd B.rows P.ix B.rows
    have h' : bwdPerm B.rows P.ix 0 B.rows * fwdPerm B.rows P.ix B.rows = 1 := mul_eq_one_comm.mp h
    have := congrArg (fun e : Equiv.Perm Nat => e i) h'
    simpa using this
  have hinv' : ∀ i, fwdPerm B.rows P.ix B.rows (bwdPerm B.rows P.ix 0 B.rows i) = i := by
    intro i
    have := congrArg (fun e : Equiv.Perm Nat => e i) (fwd_bwd B.rows P.ix B.rows)
    simpa using this
  have hi' : bwdPerm B.rows P.ix 0 B.rows i < B.rows := bwdPerm_lt (by omega) hi
  have := hYe (bwdPerm B.rows P.ix 0 B.rows i) j hi' hj
  rw [hPB, hinv'] at this
  rw [← this, hn, ← sum_perm hσ, show A.cols = B.rows by omega]
  refine Finset.sum_congr rfl (fun k hk => ?_)
  have hk' := Finset.mem_range.mp hk
  rw [hn] at hfac
  rw [← hfac _ _ hi' hk', hinv']
  simp [permLines, hinv]

example (up : Bool) := C101_solve_partial id (env := ⟨8, 2, false, true⟩) (c := ⟨500, 600, 4, 4, 3, 3, 1⟩)
    ⟨Or.inl (by decide), by decide⟩ (m := tot (fun p => (p : ℝ) + 1)) (B := ⟨100, 9, 3, 5⟩) (A := ⟨0, 8, 3, 3⟩)
    (P := ⟨3, fun k => if k = 0 then 3 else 2⟩) (upper := up)
    (f := fun i j => cholProd up 3 (fun i j => ((0 + i + j * 8 : ℕ) : ℝ) + 1)
      ((fwdPerm 3 (fun k => if k = 0 then 3 else 2) 3).symm i) ((fwdPerm 3 (fun k => if k = 0 then 3 else 2) 3).symm j))
    (Or.inl (by decide)) rfl rfl (by decide) rfl
    ⟨by decide, by decide, by decide, by decide, by decide, ⟨_, holds_tot _ _⟩, ⟨_, holds_tot _ _⟩,
      View.disj_below (by decide)⟩ (holds_tot _ _) (HoldsOn.of_holds (holds_tot _ _))
    ((View.disj_below (by decide)).mono_left (View.footOn_sub_foot _ _))
    ((Set.disjoint_union_right.mpr ⟨View.disj_below (by decide), View.disj_below (by decide)⟩).mono_left
      (View.footOn_sub_foot _ _))
    (Set.disjoint_union_right.mpr ⟨View.disj_below (by decide), View.disj_below (by decide)⟩)
    (fun i _ => by positivity) (fun i j _ _ => by simp [View.at']) (fuel := 100) (by decide)

/-- C101: factor and solve: whenever `armas_cholfactor_pv` (unblocked code) finds full rank, `armas_cholsolve_pv` with
its factor and its pivot vector gives the solution of `A X = B` for the matrix that was factored. -/
theorem C101_factor_solve_partial (ab : ℝ → ℝ) {env : Env} {c : Cache} (hc : Conf3 env c) {upper : Bool} {fuel : Nat}
    (blk : Mem ℝ → ℝ → Res (Nat × Piv × Mem ℝ)) {m : Mem ℝ} {B A : View} {a b : Nat → Nat → ℝ} {wsize lb : Nat} {P : Piv}
    {stop smult eps : ℝ} (heps : 0 ≤ eps) (hwA : A.WF) (hw : B.WF) (hsq : A.rows = A.cols) (hsz : A.cols = B.rows)
    (h0 : ¬ (B.size = 0 ∨ A.size = 0)) (hP : P.n = A.rows) (hR : c.Ready m) (hB : Holds m B b)
    (hlb : lb = 0 ∨ wsize < A.cols ∨ A.rows ≤ lb) (hA : HoldsOn m A (InTri upper false) a)
    (dAB : Disjoint (A.footOn (InTri upper false)) B.foot)
    (dAc : Disjoint (A.footOn (InTri upper false)) c.foot) (dBc : Disjoint B.foot c.foot)
    (hf : A.cols + B.rows + B.cols < fuel) :
    Runs (cholfactorPv Real.sqrt env fuel blk m A wsize P lb stop smult eps upper) (fun x => ∃ r : Nat, r ≤ A.rows ∧
      x.1 = (if r = A.rows then 0 else (r : Int)) ∧ (r = A.rows →
        Runs (cholsolvePv ab env fuel x.2.2 B A x.2.1 upper (some c)) (fun y => y.1 = 0 ∧
          (∃ X, Holds y.2 B X ∧ ∀ i j, i < B.rows → j < B.cols →
            ∑ k ∈ range A.rows, symm upper a i k * X k j = b i j) ∧
          Frame (A.footOn (InTri upper false) ∪ (B.foot ∪ c.foot)) m y.2))) := by
  have hpos : 0 < A.rows ∧ 0 < B.cols := by
    simp only [View.size, not_or, Nat.mul_eq_zero] at h0; omega
  refine (C100_factor_partial hc.hrec blk heps hwA hsq.symm hpos.1 hP (by omega) hlb hA).mono ?_
  rintro ⟨e, P', m'⟩ ⟨r, xs, v, h1, h2, -, h4, h5, h6, -, h8⟩
  dsimp only at h2 h4 h5 h6 h8 ⊢
  refine ⟨r, h1, h2, fun hr => ?_⟩
  subst hr
  refine (C101_solve_partial ab hc (f := symm upper a) (v := v) (b := b) hw hsq hsz h0 (h6.trans hP)
    (hR.frame h8 dAc.symm) (hB.frame h8 dAB.symm) h5 dAB dAc dBc (fun i hi => (h4.diag i (by omega)).1.ne')
    (fun i j hi hj => h4.exact i j hi hj (by omega)) hf).mono ?_
  rintro y ⟨y1, y2, y3⟩
  exact ⟨y1, y2, (h8.mono Set.subset_union_left).trans (y3.mono Set.subset_union_right)⟩

example (up : Bool) := C101_factor_solve_partial id (env := ⟨8, 2, false, true⟩) (c := ⟨500, 600, 4, 4, 3, 3, 1⟩)
    ⟨Or.inl (by decide), by decide⟩ (upper := up) (fuel := 100) (fun m _ => .ok (0, ⟨0, fun _ => 0⟩, m))
    (m := tot (fun p => if p % 9 = 0 then (4 : ℝ) else 1)) (B := ⟨100, 9, 3, 5⟩) (A := ⟨0, 8, 3, 3⟩) (wsize := 0)
    (lb := 0) (P := ⟨3, fun _ => 0⟩) (stop := 0) (smult := 0) (eps := 1 / 1024) (by norm_num)
    (Or.inl (by decide)) (Or.inl (by decide)) rfl rfl (by decide) rfl
    ⟨by decide, by decide, by decide, by decide, by decide, ⟨_, holds_tot _ _⟩, ⟨_, holds_tot _ _⟩,
      View.disj_below (by decide)⟩ (holds_tot _ _) (Or.inl rfl) (HoldsOn.of_holds (holds_tot _ _))
    ((View.disj_below (by decide)).mono_left (View.footOn_sub_foot _ _))
    ((Set.disjoint_union_right.mpr ⟨View.disj_below (by decide), View.disj_below (by decide)⟩).mono_left
      (View.footOn_sub_foot _ _))
    (Set.disjoint_union_right.mpr ⟨View.disj_below (by decide), View.disj_below (by decide)⟩) (by decide)

/-- C101: an empty operand is left alone with result 0; a matrix that is not square or does not fit `B` is rejected;
nothing changes. -/
theorem C101_errors {α : Type} [Field α] [LinearOrder α] (ab : α → α) (env : Env) (fuel : Nat) (m : Mem α) (B A : View)
    (P : Piv) (upper : Bool) (cb : Option Cache) :
    (B.size = 0 ∨ A.size = 0 → cholsolvePv ab env fuel m B A P upper cb = .ok (0, m)) ∧
    (¬ (B.size = 0 ∨ A.size = 0) → A.rows ≠ A.cols ∨ A.cols ≠ B.rows →
      cholsolvePv ab env fuel m B A P upper cb = .ok (-ESIZE, m)) := by
  unfold cholsolvePv
  refine ⟨fun h => by rw [if_pos h], fun h h' => by rw [if_neg h, if_pos h']⟩

example := (C101_errors (α := ℚ) id ⟨8, 2, false, true⟩ 9 (tot (fun _ => 1)) ⟨100, 9, 4, 5⟩ ⟨0, 8, 3, 3⟩
  ⟨3, fun _ => 0⟩ true none).2 (by decide) (Or.inr (by decide))

/-- Memory for the next theorem: the 3x3 factor `diag(1,0,0)` at 0 and the column `B` at 9. -/
def pvDemo (p : Nat) : Option ℚ := if p = 0 then some 1 else if p = 11 then some 5 else some 0

/-- C101 is false for a rank below the order, the case the code has a branch for: `A = e3 e3^T` of order 3 has the
factor `L = e1` with the single pivot 3 (rows 1 and 3 exchanged).  With the number of pivots set to the rank 1 the
backward pivoting starts at the last row instead of row `rank` (see C23), and for `B = (0,0,5)` the
result is `(5,0,0)`; the solution is `(0,0,5)`. -/
theorem C101_rank_false : ∃ m', cholsolvePv (fun x => x) ⟨8, 2, false, true⟩ 30 pvDemo ⟨9, 3, 3, 1⟩ ⟨0, 3, 3, 3⟩
      ⟨1, fun _ => 3⟩ false (some ⟨500, 600, 4, 4, 3, 3, 1⟩) = .ok (0, m') ∧
    m' 9 = some 5 ∧ m' 10 = some 0 ∧ m' 11 = some 0 := by
  have h : (match cholsolvePv (fun x => x) ⟨8, 2, false, true⟩ 30 pvDemo ⟨9, 3, 3, 1⟩ ⟨0, 3, 3, 3⟩
      ⟨1, fun _ => 3⟩ false (some ⟨500, 600, 4, 4, 3, 3, 1⟩) with
    | .ok (0, m') => decide (m' 9 = some 5 ∧ m' 10 = some 0 ∧ m' 11 = some 0)
    | _ => false) = true := by decide +kernel
  revert h
  split
  · rename_i m' hm; intro h; exact ⟨m', hm, of_decide_eq_true h⟩
  · intro h; cases h

end Armas.Props
