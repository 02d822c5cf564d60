import Verif.CholUpdLemmas
import Verif.Demo

/-!
# C54: rank-one update of a Cholesky factor
-/

namespace Armas.Props

open Armas Classical

/-- Element `(i,j)` of `T Tᵀ`, `T` the lower triangle of `a`; of `Tᵀ T`, `T` the upper triangle of `a`, if `upper`. -/
noncomputable def cholGram (upper : Bool) (n : Nat) (a : Nat → Nat → ℝ) (i j : Nat) : ℝ :=
  if upper then ∑ k ∈ Finset.range n, (if k ≤ i then a k i else 0) * (if k ≤ j then a k j else 0)
  else ∑ k ∈ Finset.range n, (if k ≤ i then a i k else 0) * (if k ≤ j then a j k else 0)

private theorem gramK_cholGram (upper : Bool) (n : Nat) (l : Nat → Nat → ℝ) (x : Nat → ℝ) (i j : Nat) :
    gramK n 0 l x i j = cholGram upper n (fun i j => if upper then l j i else l i j) i j + x i * x j := by
  unfold gramK cholGram
  cases upper <;> simp

private theorem gramK_end (upper : Bool) {n : Nat} (l : Nat → Nat → ℝ) (x : Nat → ℝ) {i j : Nat} (hi : i < n) :
    gramK n n l x i j = cholGram upper n (fun i j => if upper then l j i else l i j) i j := by
  unfold gramK cholGram
  have : ¬ n ≤ i := by omega
  cases upper <;> simp [this]

/-- C54: for a square matrix `A` holding a factor in the triangle selected by the flags (`T Tᵀ` lower, `Tᵀ T` upper) and a
vector `X` of the same order (row or column), `armas_cholupdate` returns 0 and leaves in the same triangle a factor of the product plus
`x xᵀ`.  Diagonal elements that were positive stay positive.  Nothing but the triangle and `X` changes.  No condition on the factor
(it may be singular or have negative diagonal elements) or on `x`. -/
theorem C54_update {m : Mem ℝ} {A X : View} {a : Nat → Nat → ℝ} {x : Nat → ℝ} (fl : Flags)
    (hw : A.WF) (sq : A.rows = A.cols) (hXv : X.isVec) (wX : X.WF) (hsz : X.size = A.rows)
    (d : Disjoint (A.footOn (fun i j => InTri fl.upper false i j)) X.foot)
    (hA : HoldsOn m A (fun i j => InTri fl.upper false i j) a) (hX : HoldsV m X x) :
    Runs (cholupdate m A X fl) (fun r => r.1 = 0 ∧
      Frame (A.footOn (fun i j => InTri fl.upper false i j) ∪ X.foot) m r.2 ∧
      ∃ a' : Nat → Nat → ℝ, HoldsOn r.2 A (fun i j => InTri fl.upper false i j) a' ∧
        (∀ i j, i < A.rows → j < A.rows →
          cholGram fl.upper A.rows a' i j = cholGram fl.upper A.rows a i j + x i * x j) ∧
        ∀ i, i < A.rows → 0 < a i i → 0 < a' i i) := by
  unfold cholupdate
  by_cases h0 : A.size = 0 ∨ X.size = 0
  · rw [if_pos h0]
    have hr0 : A.rows = 0 := by
      rcases h0 with h | h
      · rw [View.size, ← sq] at h; simpa using h
      · omega
    refine Runs.ok ⟨rfl, Frame.refl _ _, a, hA, ?_, ?_⟩
    · intro i j hi; omega
    · intro i hi; omega
  rw [if_neg h0]
  push Not at h0
  -- the row vector
  generalize hR : (if X.cols = 1 then colAsRow X else X) = R
  have hRall : R.rows = 1 ∧ R.cols = A.rows ∧ R.WF ∧ R.foot = X.foot ∧ HoldsV m R x := by
    by_cases hc : X.cols = 1
    · rw [if_pos hc] at hR
      subst hR
      have hv : ∀ k, k < X.size → (colAsRow X).vat k = X.vat k := by
        intro k hk
        by_cases h1 : X.rows = 1
        · have : k = 0 := by rw [View.size, h1, hc] at hk; omega
          subst this; simp [colAsRow, View.vat]
        · simp [colAsRow, View.vat, View.inc, h1]
      refine ⟨rfl, hsz, Or.inl (le_refl 1), ?_, ?_⟩
      · rw [View.foot_vec hXv, View.foot_vec (Or.inl rfl)]
        have hs' : (colAsRow X).size = X.size := by simp [colAsRow, View.size]
        ext p
        constructor
        · rintro ⟨k, hk, rfl⟩; exact ⟨k, hs' ▸ hk, hv k (hs' ▸ hk)⟩
        · rintro ⟨k, hk, rfl⟩; exact ⟨k, hs'.symm ▸ hk, (hv k hk).symm⟩
      · intro k hk
        have hs' : (colAsRow X).size = X.size := by simp [colAsRow, View.size]
        rw [hv k (hs' ▸ hk)]
        exact hX k (hs' ▸ hk)
    · rw [if_neg hc] at hR
      subst hR
      have hr1 : X.rows = 1 := hXv.resolve_right hc
      exact ⟨hr1, by rw [← hsz, View.size, hr1, one_mul], wX, rfl, hX⟩
  obtain ⟨rr, rc, wR, fR, hRx⟩ := hRall
  have e0 : (if fl.upper then fun i j => if fl.upper then a i j else a j i else fun i j => if fl.upper then a j i else a i j) = a := by
    cases fl.upper <;> rfl
  have hT : THolds fl.upper m A (fun i j => if fl.upper then a j i else a i j) := by
    rw [tholds_iff sq]
    refine hA.congr fun i j _ _ _ => ?_
    cases fl.upper <;> rfl
  have hmin : min A.rows A.cols = A.rows := by omega
  refine Runs.bind (P := fun m' => ∃ l xk, THolds fl.upper m' A l ∧ HoldsV m' R xk ∧
    Frame (A.footOn (fun i j => InTri fl.upper false i j) ∪ X.foot) m m' ∧
    (∀ i j, gramK A.rows A.rows l xk i j = gramK A.rows 0 (fun i j => if fl.upper then a j i else a i j) x i j) ∧
    ∀ i, i < A.rows → 0 < a i i → 0 < l i i) ?_ ?_
  · unfold cholUpd
    rw [hmin]
    refine Runs.bind (P := fun r : Nat × Mem ℝ => ∃ l xk, THolds fl.upper r.2 A l ∧ HoldsV r.2 R xk ∧
      Frame (A.footOn (fun i j => InTri fl.upper false i j) ∪ X.foot) m r.2 ∧
      (∀ i j, gramK A.rows A.rows l xk i j = gramK A.rows 0 (fun i j => if fl.upper then a j i else a i j) x i j) ∧
      ∀ i, i < A.rows → 0 < a i i → 0 < l i i) ?_ (fun r hr => Runs.pure hr)
    refine Runs.forUp1 (I := fun k m' => ∃ l xk, THolds fl.upper m' A l ∧ HoldsV m' R xk ∧
      Frame (A.footOn (fun i j => InTri fl.upper false i j) ∪ X.foot) m m' ∧
      (∀ i j, gramK A.rows k l xk i j = gramK A.rows 0 (fun i j => if fl.upper then a j i else a i j) x i j) ∧
      ∀ i, i < A.rows → 0 < a i i → 0 < l i i) (Nat.zero_le _) ?_ ?_ (fun st h => h)
    · refine ⟨_, x, hT, hRx, Frame.refl _ _, fun _ _ => rfl, fun i _ h => ?_⟩
      simpa using h
    · rintro k m' - hk ⟨l, xk, hl, hxk, hF, hG, hpos⟩
      refine (cholUpdStep_spec hw sq hk rr rc wR (fR ▸ d) hl hxk).mono ?_
      rintro m'' ⟨h1, h2, h3⟩
      obtain ⟨g1, g2, g3, g4, -⟩ := gvrotg_spec (l k k) (xk k)
      refine ⟨_, _, h1, h2, hF.trans (fR ▸ h3), ?_, ?_⟩
      · intro i j
        rw [gramK_step hk l xk g1 g3, hG]
      · intro i hi ha
        by_cases hik : i = k
        · subst hik
          simp only [if_true]
          rw [g2]
          exact g4 (hpos i hi ha)
        · simp only [if_neg hik]
          exact hpos i hi ha
  · rintro m' ⟨l, xk, hl, -, hF, hG, hpos⟩
    refine Runs.pure ⟨rfl, hF, _, (tholds_iff sq).mp hl, ?_, ?_⟩
    · intro i j hi hj
      rw [← gramK_end fl.upper l xk hi, hG, gramK_cholGram fl.upper]
      congr 2
      cases fl.upper <;> rfl
    · intro i hi ha
      simpa using hpos i hi ha

-- lower factor of order 4 with a column update vector; upper factor with a row
example := C54_update (m := tot (fun p => (p : ℝ))) (A := ⟨0, 5, 4, 4⟩) (X := ⟨50, 4, 4, 1⟩) { lower := true }
  (Or.inl (by decide)) rfl (Or.inr rfl) (Or.inl (by decide)) rfl
  ((View.disj_below (by decide)).mono_left (View.footOn_sub_foot _ _)) (HoldsOn.of_holds (holds_tot _ _)) (holdsV_tot _ _)

example := C54_update (m := tot (fun p => (p : ℝ))) (A := ⟨0, 5, 4, 4⟩) (X := ⟨50, 3, 1, 4⟩) { upper := true }
  (Or.inl (by decide)) rfl (Or.inl rfl) (Or.inl (by decide)) rfl
  ((View.disj_below (by decide)).mono_left (View.footOn_sub_foot _ _)) (HoldsOn.of_holds (holds_tot _ _)) (holdsV_tot _ _)

/-- C54, the rotation: `armas_gvcompute` returns `c`, `s` and `r` with `c² + s² = 1` and `(c s; -s c)(a; b) = (r; 0)`, and the
AVX version computes the same three numbers as the plain one. -/
theorem C54_gvcompute (a b : ℝ) :
    ∃ c s r, gvrotg a b = (c, s, r) ∧ gvrotgAvx a b = (c, s, r) ∧ c ^ 2 + s ^ 2 = 1 ∧
      gvrotate c s a b = (r, 0) ∧ r ^ 2 = a ^ 2 + b ^ 2 := by
  obtain ⟨h1, h2, h3, -, -⟩ := gvrotg_spec a b
  refine ⟨(gvrotg a b).1, (gvrotg a b).2.1, (gvrotg a b).2.2, rfl, gvrotgAvx_eq a b, h1, ?_, ?_⟩
  · rw [gvrotate, h2, h3]
  · rw [← h2]
    linear_combination (a ^ 2 + b ^ 2) * h1 - ((gvrotg a b).1 * b - (gvrotg a b).2.1 * a) * h3

/-- The sizes are not checked: with a vector of length 1 and a factor of order 2, `armas_cholupdate` reads past the vector. -/
theorem C54_size_false : cholupdate (fun p => if p < 4 ∨ p = 10 then some 1 else none) ⟨0, 2, 2, 2⟩ ⟨10, 1, 1, 1⟩ { lower := true } = .ub := by
  have h : cholUpdStep false ⟨0, 2, 2, 2⟩ ⟨10, 1, 1, 1⟩ 0 (fun p => if p < 4 ∨ p = 10 then some 1 else none) = .ub := by
    unfold cholUpdStep gvrotVec
    simp only [View.size, View.at', View.sub, View.vat, View.inc]
    rw [show rd (fun p => if p < 4 ∨ p = 10 then some (1 : ℝ) else none) (0 + 0 + 0 * 2) = .ok 1 from rfl,
      show rd (fun p => if p < 4 ∨ p = 10 then some (1 : ℝ) else none) (10 + 0 * 1 + 0 + 0 + 0 * 1) = .ok 1 from rfl,
      Res.ok_bind, Res.ok_bind]
    rw [show wr (fun p => if p < 4 ∨ p = 10 then some (1 : ℝ) else none) (0 + 0 + 0 * 2) (gvrotg 1 1).2.2 =
      .ok (Mem.set (fun p => if p < 4 ∨ p = 10 then some (1 : ℝ) else none) 0 (gvrotg 1 1).2.2) from rfl, Res.ok_bind]
    rw [forUp_eq]
    simp [rd, Mem.set]
  unfold cholupdate cholUpd
  simp only [View.size, colAsRow]
  rw [if_neg (by decide), if_pos trivial, Nat.mul_one, show min 2 2 = 2 from rfl, forUp_eq, if_pos (by decide)]
  simp [h]

end Armas.Props
