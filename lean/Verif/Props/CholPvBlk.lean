import Verif.CholPvBlkLemmas
import Verif.Props.CholPv

/-!
# C100: pivoted Cholesky factorization with the blocked code
-/

namespace Armas.Props

open Classical Finset

theorem cholpvStop_spec {m : Mem ℝ} {upper : Bool} {A : View} {a : Nat → Nat → ℝ} {stop smult eps : ℝ} (heps : 0 ≤ eps)
    (hsq : A.cols = A.rows) (h0 : 0 < A.rows) (hA : HoldsOn m A (InTri upper false) a) :
    Runs (cholpvStop m A stop smult eps) (fun xs => 0 ≤ xs ∧ StopLevel A.rows (symm upper a) stop smult eps xs) := by
  have hD : HoldsV m (diagRow A) (fun i => symm upper a i i) := by
    intro i hi
    have hi' : i < A.rows := by simpa [View.size, diagRow, hsq] using hi
    have := hA i i (by omega) (by omega) (by simp [InTri])
    beta_reduce
    rw [show symm upper a i i = a i i by unfold symm; simp, ← this]
    congr 1
    simp [View.vat, diagRow, View.inc, View.at']
    ring
  have hsz : (diagRow A).size = A.rows := by simp [View.size, diagRow, hsq]
  unfold cholpvStop
  split
  · rename_i hst
    exact Runs.pure ⟨hst.le, fun _ => rfl, fun h => absurd hst h⟩
  · rename_i hst
    refine Runs.bind (C08_amax (Or.inl rfl) (by rw [hsz]; exact h0) hD) ?_
    rintro d ⟨h1, h2⟩
    rw [hsz] at h1 h2
    have hd0 : 0 ≤ d := (abs_nonneg _).trans (h1 0 h0)
    split
    · rename_i hsm
      exact Runs.pure ⟨mul_nonneg hd0 hsm.le, fun h => absurd h hst, fun _ => ⟨d, h1, h2, by rw [if_pos hsm]⟩⟩
    · rename_i hsm
      exact Runs.pure ⟨mul_nonneg hd0 (mul_nonneg (Nat.cast_nonneg _) heps), fun h => absurd h hst,
        fun _ => ⟨d, h1, h2, by rw [if_neg hsm]⟩⟩

/-- C100: `armas_cholfactor_pv` with the blocked code (block size `lb` less than the order, workspace of at least
`n` elements at `wb`): the same result as the unblocked code, provided the pivot vector held no positive elements
before or the rank is full.
Missing: other contents of the pivot vector (`C100_stale_false`); the conditions `hev` on the recursion of the
symmetric update; `0 < rank` as before. -/
theorem C100_blocked_partial (ab : ℝ → ℝ) {upper : Bool} {env : Env} {c : Cache} (hc : Conf3 env c) {fuel : Nat}
    {m : Mem ℝ} {A : View} {a : Nat → Nat → ℝ} {wb wsize lb : Nat} {P : Piv}
    {stop smult eps : ℝ} (heps : 0 ≤ eps) (hw : A.WF) (hsq : A.cols = A.rows) (hP : P.n = A.rows)
    (hf : 4 * A.rows + 1 < fuel) (hlb0 : 0 < lb) (hlb : lb < A.rows) (hws : A.cols ≤ wsize)
    (hev : upper = true → ∀ q, EvenSplits env c (A.rows - q * lb) { upper := true, transA := true })
    (dW : Disjoint (A.footOn (InTri upper false)) (ival wb A.rows))
    (dAc : Disjoint (A.footOn (InTri upper false)) c.foot) (dWc : Disjoint (ival wb A.rows) c.foot)
    (hA : HoldsOn m A (InTri upper false) a) (hW : ∀ i, i < A.rows → ∃ x, m (wb + i) = some x) (R : c.Ready m) :
    Runs (cholfactorPv Real.sqrt env fuel
        (fun m xs => blkCholpv Real.sqrt ab upper env fuel m A wb P xs lb (some c)) m A wsize P lb stop smult eps upper)
      (fun x => ∃ r xs, r ≤ A.rows ∧ x.1 = (if r = A.rows then 0 else (r : Int)) ∧
        StopLevel A.rows (symm upper a) stop smult eps xs ∧
        ((∀ p, p < A.rows → P.ix p ≤ 0) ∨ r = A.rows → ∃ v,
          IsPivChol upper A.rows (symm upper a) v x.2.1 xs r ∧ HoldsOn x.2.2 A (InTri upper false) v) ∧
        x.2.1.n = P.n ∧ (∀ p, r ≤ p → x.2.1.ix p = P.ix p) ∧
        Frame (A.footOn (InTri upper false) ∪ (ival wb A.rows ∪ c.foot)) m x.2.2) := by
  unfold cholfactorPv
  rw [if_neg (by omega), if_neg (by omega)]
  dsimp only
  have hs : ∀ i j, symm upper a i j = symm upper a j i := symm_comm upper a
  refine Runs.bind (cholpvStop_spec heps hsq (by omega) hA) ?_
  rintro xs ⟨hx0, hx⟩
  rw [if_neg (by rw [if_neg (by omega)]; omega)]
  unfold blkCholpv
  refine (blkCholpvLoop_spec ab hc hs hw hsq hf hx0 hlb0 dW dAc dWc hev (P0 := P) (q := 0) (P := P) (by omega)
    (by omega) (by omega) ⟨hP, by simp, by simp, by simp⟩ (fun _ _ => rfl) (hA.congr (fun i j _ _ ht => ?_)) hW R).bind ?_
  · simp [InTri] at ht
    cases upper
    · simp at ht
      simp [tv, cholV, schur, pivM, permM, fwdPerm, symm, ht]
    · simp at ht
      simp only [tv, if_true, cholV, schur, pivM, permM, fwdPerm, symm, Equiv.Perm.one_apply, not_lt_zero, if_false]
      split
      · have : i = j := by omega
        rw [this]
      · rfl
  · rintro ⟨r, P', m'⟩ ⟨h1, h2, h3, h4, h5⟩
    dsimp only at h1 h2 h3 h4 h5 ⊢
    rw [hsq]
    exact Runs.pure ⟨r, xs, h1, rfl, hx, fun h => ⟨_, isPivChol hs hx0 (h4 h).1, (h4 h).2⟩, h2.trans hP.symm, h3, h5⟩

example (up : Bool) : Runs (cholfactorPv Real.sqrt ⟨8, 8, false, true⟩ 40
    (fun m xs => blkCholpv Real.sqrt id up ⟨8, 8, false, true⟩ 40 m ⟨0, 8, 3, 3⟩ 100 ⟨3, fun _ => 0⟩ xs 2
      (some ⟨500, 600, 4, 4, 3, 3, 1⟩)) (tot (fun p => if p % 9 = 0 then (4 : ℝ) else 1)) ⟨0, 8, 3, 3⟩ 3
      ⟨3, fun _ => 0⟩ 2 0 0 (1 / 1024) up) (fun x => ∃ (r : Nat) (xs : ℝ) (v : Nat → Nat → ℝ),
      IsPivChol up 3 (symm up (fun i j => if (0 + i + j * 8) % 9 = 0 then (4 : ℝ) else 1)) v x.2.1 xs r) := by
  refine (C100_blocked_partial id (upper := up) (env := ⟨8, 8, false, true⟩) (c := ⟨500, 600, 4, 4, 3, 3, 1⟩)
    ⟨Or.inl (by decide), by decide⟩ (a := fun i j => if (0 + i + j * 8) % 9 = 0 then (4 : ℝ) else 1)
    (by norm_num) (Or.inl (by decide)) rfl rfl (by decide) (by decide) (by decide) (by decide)
    (fun _ q => Or.inr (Or.inr (by
      simp only [if_true]
      intro k hk
      have : (3 - q * 2) / 2 ^ k ≤ 3 - q * 2 := Nat.div_le_self _ _
      omega)))
    ?_ ((Set.disjoint_union_right.mpr ⟨View.disj_below (by decide), View.disj_below (by decide)⟩).mono_left
      (View.footOn_sub_foot _ _)) ?_ (HoldsOn.of_holds (holds_tot _ _)) (fun i _ => ⟨_, rfl⟩)
    ⟨by decide, by decide, by decide, by decide, by decide, ⟨_, holds_tot _ _⟩, ⟨_, holds_tot _ _⟩,
      View.disj_below (by decide)⟩).mono ?_
  · refine Set.disjoint_left.mpr ?_
    rintro p ⟨i, j, hi, hj, -, rfl⟩ ⟨h1, -⟩
    simp [View.at'] at hi hj h1
    omega
  · refine Set.disjoint_left.mpr ?_
    rintro p ⟨-, h1⟩ h2
    simp [Cache.foot, View.foot, Cache.A, Cache.B, View.at'] at h1 h2
    omega
  · rintro x ⟨r, xs, -, -, -, h, -⟩
    obtain ⟨v, hv, -⟩ := h (Or.inl (fun _ _ => le_refl _))
    exact ⟨r, xs, v, hv⟩

/-- The data of `C100_stale_false`: `v vᵀ` for `v = (3, 2, 1)`, stored with leading dimension 3; workspace at 20. -/
def staleMem : Mem ℚ := fun p =>
  if p < 9 then some (((3 - p % 3 : Nat) : ℚ) * ((3 - p / 3 : Nat) : ℚ)) else if p < 1000 then some 0 else none

/-- The square root of the only pivot that appears. -/
def staleSqrt (x : ℚ) : ℚ := if x = 9 then 3 else 0

/-- The result of `armas_cholfactor_pv` with block size 1 and the pivot vector `(p1, p2, p3)` before the call: the
value and the first column of the factor. -/
def staleRun (p1 p2 p3 : Int) : Res (Int × List Int × List (Option ℚ)) := do
  let P : Piv := ⟨3, fun i => if i = 0 then p1 else if i = 1 then p2 else p3⟩
  let (e, P', m) ← cholfactorPv staleSqrt ⟨8, 2, false, true⟩ 40
    (fun m xs => blkCholpv staleSqrt (fun x => |x|) false ⟨8, 2, false, true⟩ 40 m ⟨0, 3, 3, 3⟩ 20 P xs 1
      (some ⟨500, 600, 4, 4, 3, 3, 1⟩)) staleMem ⟨0, 3, 3, 3⟩ 3 P 1 1 0 0 false
  pure (e, [P'.ix 0], [m 0, m 1, m 2])

/-- C100 is false when the pivot vector of a factorization is used again for a matrix of lower rank: the positive
elements behind the rank are applied to the finished columns.  For `v vᵀ` with `v = (3, 2, 1)` the factor is
`(3, 2, 1)` with a cleared pivot vector and `(3, 1, 2)` with the vector `(1, 2, 3)` (the result of any earlier
factorization without exchanges); both give rank 1 and the pivot 1, that is no exchange. -/
theorem C100_stale_false : staleRun 0 0 0 = .ok (1, [1], [some 3, some 2, some 1]) ∧
    staleRun 1 2 3 = .ok (1, [1], [some 3, some 1, some 2]) := by
  decide +kernel

end Armas.Props
