import Verif.LqSolve
import Verif.Props.QrSolve
import Verif.Props.LqMult

/-!
# C96: least squares and minimum norm solutions from an LQ factorization (`src/lapack/lqsolve.c`)

As in C91-C95 the statements are about the transposed matrix: `f i j` is the element `(j, i)` in memory, `aᵀ = Qᵀ Lᵀ` is
`qrProd A.rows A.cols t f (upperPart f)`.
-/

namespace Armas.Props

open Finset

section field

variable {α : Type} [Field α] [DecidableEq α]

/-- The system solved with the triangle `L` in the top of `B`. -/
theorem lqs_solve (ab : α → α) {env : Env} {c : Cache} {m0 m : Mem α} {B A tau : View} {f : Nat → Nat → α} {t : Nat → α} {w ws : Nat}
    (H : LqMultArgs env c m0 false B A tau f t w ws) (hA : Holds m A fun i j => f j i) (hR : c.Ready m) (hd : ∀ k, k < A.rows → f k k ≠ 0) {g : Nat → Nat → α} (hB : Holds m B g) (tr : Bool) {fuel : Nat}
    (hf : A.rows + A.rows + B.cols < fuel) :
    Runs (solveTrm ab env fuel m (B.sub 0 0 A.rows B.cols) 1 (A.sub 0 0 A.rows A.rows) { left := true, lower := true, transA := tr } (some c))
      (fun r => r.1 = 0 ∧ (∃ X, Holds r.2 B (put 0 0 A.rows B.cols X g) ∧ ∀ i j, i < A.rows → j < B.cols →
        ∑ l ∈ range A.rows, (if tr then upperPart f i l else upperPart f l i) * X l j = g i j) ∧
        Frame ((B.sub 0 0 A.rows B.cols).foot ∪ c.foot) m r.2 ∧ c.Ready r.2) := by
  have sz : B.rows = A.cols := by simpa using H.size
  have sB : (B.sub 0 0 A.rows B.cols).foot ⊆ B.foot := View.sub_foot (by have := H.sh; omega) (by omega)
  have sA : ∀ U, (A.sub 0 0 A.rows A.rows).footOn U ⊆ A.foot := fun U =>
    (View.footOn_sub_foot _ _).trans (View.sub_foot (by omega) (by have := H.sh; omega))
  have wB : (B.sub 0 0 A.rows B.cols).WF := by
    have := H.wf; have := H.sh
    unfold View.WF at *
    simp only [View.sub]
    omega
  have T : TrArgs c m (B.sub 0 0 A.rows B.cols) (A.sub 0 0 A.rows A.rows) g (fun i j => f j i) { left := true, lower := true, transA := tr } := by
    refine ⟨by simp, rfl, rfl, wB, rfl, rfl, hR, H.conf.rb, ?_, ?_, ?_, ?_, ?_⟩
    · simpa using hB.part (r := 0) (c := 0) (nr := A.rows) (nc := B.cols) (by have := H.sh; omega) (by omega)
    · refine HoldsOn.of_holds ?_
      simpa using hA.part (r := 0) (c := 0) (nr := A.rows) (nc := A.rows) (by omega) (by have := H.sh; omega)
    · exact (H.dC.symm.mono_left fun p hp => Or.inl (Or.inl (Or.inl (sA _ hp)))).mono_right sB
    · exact (H.dA.mono_left fun p hp => Or.inl (sA _ hp)).mono_right fun p hp => Or.inr hp
    · exact (H.dC.mono_left sB).mono_right fun p hp => Or.inr hp
  refine (C19_solve_trm_partial ab H.conf.min2 1 T rfl rfl (Or.inr hd) (Or.inl rfl) (fuel := fuel) hf).mono ?_
  rintro ⟨e, m'⟩ ⟨he, ⟨X, hX, hs⟩, F, R⟩
  refine ⟨he, ⟨X, ?_, fun i j hi hj => ?_⟩, F, R⟩
  · exact hB.put H.wf (H.dC.mono_right fun p hp => Or.inr hp) (by have := H.sh; omega) (by omega) hX F
  · have := hs i j hi hj
    rw [one_mul] at this
    rw [← this]
    unfold triProd
    refine sum_congr rfl fun l _ => ?_
    cases tr
    · simp only [Bool.false_eq_true, if_false, trm, upperPart]
      rcases Nat.lt_trichotomy i l with c | c | c
      · rw [if_pos c, if_neg (by omega), if_neg (by omega)]
      · rw [if_neg (by omega), if_pos c, c]
      · rw [if_neg (by omega), if_neg (by omega), if_pos c]
    · simp only [Bool.false_eq_true, if_false, if_true, trm, upperPart]
      rcases Nat.lt_trichotomy i l with c | c | c
      · rw [if_neg (by omega), if_neg (by omega), if_pos c]
      · rw [if_neg (by omega), if_pos c.symm, c]
      · rw [if_pos c, if_neg (by omega), if_neg (by omega)]

/-- The arguments stay as they are while only `B` and the work spaces change. -/
theorem LqMultArgs.frame {env : Env} {c : Cache} {m m' : Mem α} {B A tau : View} {f : Nat → Nat → α} {t : Nat → α} {w ws : Nat}
    (H : LqMultArgs env c m false B A tau f t w ws) (F : Frame (B.foot ∪ c.foot) m m') (R : c.Ready m') :
    LqMultArgs env c m' false B A tau f t w ws := by
  obtain ⟨conf, min2, wf, size, sh, col, work, ready, hA, ht, last, hW, dC, dA, dW⟩ := H
  refine ⟨conf, min2, wf, size, sh, col, work, R, hA.frame F ?_, fun k hk => ?_, last, hW.frame F ?_, dC, dA, dW⟩
  · exact Set.disjoint_union_right.mpr ⟨(dC.mono_right fun p hp => Or.inl (Or.inl (Or.inl hp))).symm,
      (dA.mono_left fun p hp => Or.inl hp).mono_right fun p hp => Or.inr hp⟩
  · rw [F _ ?_, ht k hk]
    rintro (h | h)
    · exact Set.disjoint_left.mp dC h (Or.inl (Or.inl (Or.inr ⟨k, hk, rfl⟩)))
    · exact Set.disjoint_left.mp dA (Or.inr ⟨k, hk, rfl⟩) (Or.inr h)
  · exact Set.disjoint_union_right.mpr ⟨(dC.mono_right fun p hp => Or.inl (Or.inr hp)).symm, dW⟩

/-- The checks of `armas_lqsolve_w`: `B` with another number of rows than `A` has columns, and a work space with fewer than `B.rows` elements; nothing is
written. -/
theorem C96_errors (ab : α → α) (env : Env) (elb fuel : Nat) (m : Mem α) (B A tau : View) (trans : Bool) (w ws : Nat) (cbuf : Option Cache) :
    (B.rows ≠ A.cols → lqsolveW ab env elb fuel m B A tau trans w ws cbuf = .ok (-1, m)) ∧
    (B.rows = A.cols → ws < B.rows → lqsolveW ab env elb fuel m B A tau trans w ws cbuf = .ok (-5, m)) := by
  refine ⟨fun h => ?_, fun h h2 => ?_⟩
  · unfold lqsolveW
    rw [if_pos h]; rfl
  · unfold lqsolveW
    rw [if_neg (by simpa using h), if_pos h2]; rfl

example := (C96_errors (α := ℚ) id ⟨8, 8, false, true⟩ 64 10 (tot fun _ => 1) ⟨0, 8, 7, 6⟩ ⟨100, 8, 3, 7⟩ ⟨160, 3, 3, 1⟩ true 200 5 none).2 rfl
  (by decide)

end field

/-- Unit vectors with scalars `2`, and a lower triangle of ones. -/
theorem lqSolveArgs_demo : LqMultArgs (α := ℝ) ⟨8, 8, false, true⟩ ⟨5000, 6000, 4, 4, 3, 3, 1⟩
    (tot fun p => if 160 ≤ p ∧ p < 163 then 2 else if (p - 100) / 8 ≤ (p - 100) % 8 then 1 else 0) false
    ⟨0, 8, 7, 6⟩ ⟨100, 8, 3, 7⟩ ⟨160, 3, 3, 1⟩ (fun i j => if i ≤ j then 1 else 0) (fun _ => 2) 200 40 where
  conf := ⟨Or.inl (by decide), by decide⟩
  min2 := Or.inl (by decide)
  wf := Or.inl (by decide)
  size := rfl
  sh := by decide
  col := ⟨rfl, rfl⟩
  work := by decide
  ready := ⟨by decide, by decide, by decide, by decide, by decide, ⟨_, holds_tot _ _⟩, ⟨_, holds_tot _ _⟩, View.disj_below (by decide)⟩
  hA := fun i j hi hj => by
    simp only at hi hj
    refine congrArg some ((if_neg (by simp only [View.at']; omega)).trans ?_)
    have e : (View.at' ⟨100, 8, 3, 7⟩ i j - 100) % 8 = i ∧ (View.at' ⟨100, 8, 3, 7⟩ i j - 100) / 8 = j := by
      simp only [View.at']; omega
    rw [e.1, e.2]
  ht := fun k hk => by
    simp only at hk
    exact congrArg some (if_pos (by simp only [View.at']; omega))
  last := fun k h1 h2 => by simp only at h1 h2; omega
  hW := fun _ _ => ⟨_, rfl⟩
  dC := Set.disjoint_left.mpr (by
    rintro p ⟨i, j, hi, hj, rfl⟩ (((⟨i', j', hi', hj', h⟩ | ⟨k, hk, h⟩) | ⟨h1, h2⟩) | ⟨i', j', hi', hj', h⟩ | ⟨i', j', hi', hj', h⟩) <;>
      simp [View.at', Cache.A, Cache.B] at * <;> omega)
  dA := Set.disjoint_left.mpr (by
    rintro p (⟨i, j, hi, hj, rfl⟩ | ⟨k, hk, rfl⟩) (⟨h1, h2⟩ | ⟨i', j', hi', hj', h⟩ | ⟨i', j', hi', hj', h⟩) <;>
      simp [View.at', Cache.A, Cache.B] at * <;> omega)
  dW := Set.disjoint_left.mpr (by
    rintro p ⟨h1, h2⟩ (⟨i', j', hi', hj', h⟩ | ⟨i', j', hi', hj', h⟩) <;>
      simp [View.at', Cache.A, Cache.B] at * <;> omega)

theorem lqSolve_orth_demo : QrOrth (α := ℝ) 7 3 (fun _ => 2) (fun i j => if i ≤ j then 1 else 0) := by
  refine qrOrth_of fun k hk => Or.inr ?_
  rw [sum_eq_single k]
  · simp [qrw]
  · intro i _ h
    rcases Nat.lt_or_gt_of_ne h with h | h
    · simp [qrw, h]
    · simp [qrw, h, h.not_gt, h.ne', show ¬ i ≤ k by omega]
  · intro h; exact absurd (mem_range.mpr (by omega)) h

/-- C96, `armas_lqsolve_w` with `ARMAS_TRANS`: for a factorization `a = L Q` with an orthogonal `Q` and no zero on the diagonal of `L`, the first
`M` rows of `B` become a matrix `X` whose columns solve the least squares problems: `‖b_j - aᵀ x_j‖ ≤ ‖b_j - aᵀ y‖` for every `y`, and
`a (aᵀ x_j - b_j) = 0`.  Only `B` and the work spaces are written.  The work space has to have as many elements as `B` has rows, and as many as it has
columns (`C96_work_false`). -/
theorem C96_lsq_partial (ab : ℝ → ℝ) {env : Env} {c : Cache} {m : Mem ℝ} {B A tau : View} {f b : Nat → Nat → ℝ} {t : Nat → ℝ} {w ws : Nat}
    (H : LqMultArgs env c m false B A tau f t w ws) (ho : QrOrth A.cols A.rows t f) (hd : ∀ k, k < A.rows → f k k ≠ 0) (hB : Holds m B b) (elb : Nat)
    (i1 : (B.cols + elb) * elb ≤ INT_MAX) (i2 : B.cols * B.cols ≤ INT_MAX) {fuel : Nat}
    (hw : B.rows ≤ ws) (hf : A.cols < fuel) (hf' : 3 * B.cols < fuel) (hf2 : A.rows + A.rows + B.cols < fuel) :
    Runs (lqsolveW ab env elb fuel m B A tau true w ws (some c)) (fun r => r.1 = 0 ∧ Frame (B.foot ∪ wcells w ws ∪ c.foot) m r.2 ∧
      ∃ X, Holds r.2 (B.sub 0 0 A.rows B.cols) X ∧ ∀ j, j < B.cols →
        (∀ y : Nat → ℝ, ∑ i ∈ range A.cols, (b i j - ∑ l ∈ range A.rows, qrProd A.cols A.rows t f (upperPart f) i l * X l j) ^ 2 ≤
          ∑ i ∈ range A.cols, (b i j - ∑ l ∈ range A.rows, qrProd A.cols A.rows t f (upperPart f) i l * y l) ^ 2) ∧
        ∀ p, p < A.rows → ∑ i ∈ range A.cols, qrProd A.cols A.rows t f (upperPart f) i p *
          ((∑ l ∈ range A.rows, qrProd A.cols A.rows t f (upperPart f) i l * X l j) - b i j) = 0) := by
  have sz : B.rows = A.cols := by simpa using H.size
  have hsh := H.sh
  unfold lqsolveW
  rw [if_neg (by simpa using sz), if_neg (by omega)]
  simp only [Bool.false_eq_true, if_false]
  refine (C94_lqmult_partial ab H hB false elb (by simpa using i1) (by simpa using i2) (fuel := fuel) hf (by simpa using hf')).bind ?_
  rintro ⟨e1, m1⟩ ⟨-, F1, hB1, R1⟩
  simp only [Bool.false_eq_true, if_false, if_true] at F1 hB1 R1 ⊢
  have hA1 : Holds m1 A fun i j => f j i := H.hA.frame F1 (Set.disjoint_union_right.mpr ⟨Set.disjoint_union_right.mpr
    ⟨(H.dC.mono_right fun p hp => Or.inl (Or.inl (Or.inl hp))).symm, (H.dA.mono_left fun p hp => Or.inl hp).mono_right fun p hp => Or.inl hp⟩,
      (H.dA.mono_left fun p hp => Or.inl hp).mono_right fun p hp => Or.inr hp⟩)
  refine (lqs_solve ab H hA1 R1 hd hB1 true hf2).bind ?_
  rintro ⟨e2, m2⟩ ⟨-, ⟨X, hX, hs⟩, F2, -⟩
  have sB : (B.sub 0 0 A.rows B.cols).foot ⊆ B.foot := View.sub_foot (by omega) (by omega)
  refine Runs.pure ⟨rfl, ?_, X, ?_, fun j hj => ?_⟩
  · refine F1.trans (F2.mono ?_)
    rintro p (hp | hp)
    exacts [Or.inl (Or.inl (sB hp)), Or.inr hp]
  · refine (hX.part (r := 0) (c := 0) (nr := A.rows) (nc := B.cols) (by omega) (by omega)).congr fun i j hi hj => ?_
    simp only [View.sub_rows, View.sub_cols] at hi hj
    unfold put
    rw [if_pos (by omega)]
    simp
  · have N := lsq_normal hsh ho (b := b) (X := X) (j := j) fun i hi => by simpa using hs i j hi hj
    exact ⟨lsq_min (b := fun i => b i j) (X := fun l => X l j) N, N⟩

example := C96_lsq_partial id lqSolveArgs_demo lqSolve_orth_demo (fun k _ => by simp) (holds_tot _ _) 3 (by decide) (by decide) (fuel := 30) (by decide) (by decide)
  (by decide) (by decide)

/-- C96, `armas_lqsolve_w` without `ARMAS_TRANS`: for a factorization `a = L Q` with an orthogonal `Q` and no zero on the diagonal of `L`, `B` becomes
a matrix `X` with `a X = B` (the first `M` rows of `B`), and no other solution has a column with a smaller norm.  Only `B` and the work spaces are
written.  The work space has to have as many elements as `B` has rows, and as many as it has columns (`C96_work_false`). -/
theorem C96_minnorm_partial (ab : ℝ → ℝ) {env : Env} {c : Cache} {m : Mem ℝ} {B A tau : View} {f b : Nat → Nat → ℝ} {t : Nat → ℝ} {w ws : Nat}
    (H : LqMultArgs env c m false B A tau f t w ws) (ho : QrOrth A.cols A.rows t f) (hd : ∀ k, k < A.rows → f k k ≠ 0) (hB : Holds m B b) (elb : Nat)
    (i1 : (B.cols + elb) * elb ≤ INT_MAX) (i2 : B.cols * B.cols ≤ INT_MAX) {fuel : Nat}
    (hw : B.rows ≤ ws) (hf : A.cols < fuel) (hf' : 3 * B.cols < fuel) (hf2 : A.rows + A.rows + B.cols < fuel) :
    Runs (lqsolveW ab env elb fuel m B A tau false w ws (some c)) (fun r => r.1 = 0 ∧ Frame (B.foot ∪ wcells w ws ∪ c.foot) m r.2 ∧
      ∃ X, Holds r.2 B X ∧ ∀ j, j < B.cols →
        (∀ p, p < A.rows → ∑ i ∈ range A.cols, qrProd A.cols A.rows t f (upperPart f) i p * X i j = b p j) ∧
        ∀ z : Nat → ℝ, (∀ p, p < A.rows → ∑ i ∈ range A.cols, qrProd A.cols A.rows t f (upperPart f) i p * z i = b p j) →
          ∑ i ∈ range A.cols, X i j ^ 2 ≤ ∑ i ∈ range A.cols, z i ^ 2) := by
  have sz : B.rows = A.cols := by simpa using H.size
  have hsh := H.sh
  unfold lqsolveW
  rw [if_neg (by simpa using sz), if_neg (by omega)]
  simp only [if_true]
  have sB : (B.sub 0 0 A.rows B.cols).foot ⊆ B.foot := View.sub_foot (by omega) (by omega)
  have sB' : (B.sub A.rows 0 (B.rows - A.rows) B.cols).foot ⊆ B.foot := View.sub_foot (by omega) (by omega)
  refine (lqs_solve ab H H.hA H.ready hd hB false hf2).bind ?_
  rintro ⟨e1, m1⟩ ⟨-, ⟨Y, hY, hs⟩, F1, R1⟩
  dsimp only at hY F1 R1 ⊢
  have F1' : Frame (B.foot ∪ c.foot) m m1 := F1.mono (Set.union_subset_union_left _ sB)
  have H1 := H.frame F1' R1
  have wB : (B.sub A.rows 0 (B.rows - A.rows) B.cols).WF := by
    have := H.wf
    unfold View.WF at *
    simp only [View.sub]
    omega
  refine ((C51_mscale_all (alpha := (0 : ℝ)) (unit := false) wB
    (hY.part (r := A.rows) (c := 0) (nr := B.rows - A.rows) (nc := B.cols) (by omega) (by omega))).1).bind ?_
  rintro ⟨e2, m2⟩ ⟨-, hZ, F2⟩
  dsimp only at hZ F2 ⊢
  have F2' : Frame (B.foot ∪ c.foot) m1 m2 := F2.mono fun p hp => Or.inl (sB' hp)
  have R2 : c.Ready m2 := R1.frame F2 (Disjoint.mono_right sB' (H.dC.mono_right fun p hp => Or.inr hp).symm)
  have H2 := H1.frame F2' R2
  have hB2 := hY.put H.wf (F := ∅) (Set.disjoint_empty _) (r := A.rows) (c := 0) (nr := B.rows - A.rows) (nc := B.cols) (by omega) (by omega) hZ
    (F2.mono fun p hp => Or.inl hp)
  refine (C94_lqmult_partial ab H2 hB2 true elb (by simpa using i1) (by simpa using i2) (fuel := fuel) hf (by simpa using hf')).bind ?_
  rintro ⟨e3, m3⟩ ⟨-, F3, hB3, -⟩
  simp only [Bool.false_eq_true, if_false] at hB3 F3
  refine Runs.pure ⟨rfl, ?_, _, hB3.congr (b := qrProd A.cols A.rows t f (fun p q => if p < A.rows then Y p q else 0)) fun i j hi hj => ?_, fun j hj => ?_⟩
  · have s : B.foot ∪ c.foot ⊆ B.foot ∪ wcells w ws ∪ c.foot := by
      rintro p (hp | hp)
      exacts [Or.inl (Or.inl hp), Or.inr hp]
    exact ((F1'.mono s).trans (F2'.mono s)).trans F3
  · refine qrProd_congr (N := B.cols) (fun _ _ => rfl) (fun _ _ _ _ => rfl) (fun i j hi hj => ?_) i j (by omega) hj
    unfold put
    by_cases c : i < A.rows
    · rw [if_neg (by omega), if_pos (by omega), if_pos c]; simp
    · rw [if_pos (by omega), if_neg c]; exact zero_mul _
  · have hY' : ∀ p, p < A.rows → ∑ l ∈ range A.rows, upperPart f l p * Y l j = b p j := fun p hp => by simpa using hs p j hp hj
    exact ⟨fun p hp => mn_solves hsh ho hY' p hp, fun z hz => norm_min (mn_inner hsh ho hd hY' z hz)⟩

example := C96_minnorm_partial id lqSolveArgs_demo lqSolve_orth_demo (fun k _ => by simp) (holds_tot _ _) 3 (by decide) (by decide) (fuel := 30) (by decide) (by decide)
  (by decide) (by decide)

/-- C96 after C93: factor a matrix with linearly independent rows (`a` is its transpose), then solve.  With `ARMAS_TRANS` the first rows of `B` become
the least squares solutions of `a X = B`, without it `B` becomes the solution of `aᵀ X = B` of minimum norm. -/
theorem C96_driver_partial {safmin : ℝ} (nonneg : Bool) (h0 : 0 < safmin) (h1 : safmin < 1) (ab : ℝ → ℝ) {env : Env} {c : Cache}
    {m : Mem ℝ} {A B tau : View} {a b : Nat → Nat → ℝ} {w ws : Nat} (H : LqArgs env c m A tau a w ws) (elb : Nat) {fuel : Nat}
    (hf : A.cols + A.rows + A.rows < fuel) (hf' : 3 * B.cols < fuel) (hf2 : A.rows + A.rows + B.cols < fuel) (htau : tau.rows = A.rows)
    (wB : B.WF) (sB : B.rows = A.cols) (hws : B.cols ≤ ws) (hw : B.rows ≤ ws) (hB : Holds m B b)
    (dB : Disjoint B.foot (A.foot ∪ tcells tau A.rows ∪ wcells w ws ∪ c.foot)) (i1 : (B.cols + elb) * elb ≤ INT_MAX) (i2 : B.cols * B.cols ≤ INT_MAX)
    (hi : ∀ y : Nat → ℝ, (∀ i, i < A.cols → ∑ l ∈ range A.rows, a i l * y l = 0) → ∀ l, l < A.rows → y l = 0) (trans : Bool) :
    Runs (do
      let (e, m) ← lqfactorW safmin nonneg ab env elb fuel m A tau w ws (some c)
      let (e', m) ← lqsolveW ab env elb fuel m B A tau trans w ws (some c)
      pure (e, e', m)) (fun r => r.1 = 0 ∧ r.2.1 = 0 ∧
        (trans = true → ∃ X, Holds r.2.2 (B.sub 0 0 A.rows B.cols) X ∧ ∀ j, j < B.cols → ∀ y : Nat → ℝ,
          ∑ i ∈ range A.cols, (b i j - ∑ l ∈ range A.rows, a i l * X l j) ^ 2 ≤ ∑ i ∈ range A.cols, (b i j - ∑ l ∈ range A.rows, a i l * y l) ^ 2) ∧
        (trans = false → ∃ X, Holds r.2.2 B X ∧ ∀ j, j < B.cols →
          (∀ p, p < A.rows → ∑ i ∈ range A.cols, a i p * X i j = b p j) ∧
          ∀ z : Nat → ℝ, (∀ p, p < A.rows → ∑ i ∈ range A.cols, a i p * z i = b p j) → ∑ i ∈ range A.cols, X i j ^ 2 ≤ ∑ i ∈ range A.cols, z i ^ 2)) := by
  have hsh := H.sh
  refine (C93_lqfactor_partial nonneg h0 h1 ab H elb hf).bind ?_
  rintro ⟨e, m1⟩ ⟨he, f, t, hA1, ht1, F1, hp, -, hl, hq1, hq2, R1, hW1, -⟩
  dsimp only at he hA1 ht1 F1 R1 hW1 ⊢
  have Q : LqMultArgs env c m1 false B A tau f t w ws := by
    refine ⟨H.conf, H.min2, wB, by simpa using sB, H.sh, ⟨H.col.1, htau⟩, by simpa using hws, R1, hA1, ht1, hl, hW1, dB, ?_, H.dW⟩
    rw [Set.disjoint_union_left]
    exact ⟨H.dA.mono_right (by rintro p (hp | hp); exacts [Or.inl (Or.inr hp), Or.inr hp]), H.dt⟩
  have hB1 : Holds m1 B b := hB.frame F1 dB
  have ho : QrOrth A.cols A.rows t f := ⟨hq1, hq2⟩
  have row : ∀ (y : Nat → ℝ) i, i < A.cols →
      ∑ l ∈ range A.rows, qrProd A.cols A.rows t f (upperPart f) i l * y l = ∑ l ∈ range A.rows, a i l * y l :=
    fun y i hi => sum_congr rfl fun l hl => by rw [hp i l hi (mem_range.mp hl)]
  have col : ∀ (y : Nat → ℝ) p, p < A.rows →
      ∑ i ∈ range A.cols, qrProd A.cols A.rows t f (upperPart f) i p * y i = ∑ i ∈ range A.cols, a i p * y i :=
    fun y p hp' => sum_congr rfl fun i hi => by rw [hp i p (mem_range.mp hi) hp']
  have res : ∀ (y : Nat → ℝ) j, ∑ i ∈ range A.cols, (b i j - ∑ l ∈ range A.rows, qrProd A.cols A.rows t f (upperPart f) i l * y l) ^ 2 =
      ∑ i ∈ range A.cols, (b i j - ∑ l ∈ range A.rows, a i l * y l) ^ 2 :=
    fun y j => sum_congr rfl fun i hi => by rw [row y i (mem_range.mp hi)]
  have hd : ∀ k, k < A.rows → f k k ≠ 0 := diag_of_indep (t := t) H.sh fun y hy => hi y fun i hi' => by rw [← row y i hi']; exact hy i hi'
  cases trans
  · refine (C96_minnorm_partial ab Q ho hd hB1 elb i1 i2 (fuel := fuel) hw (by omega) hf' hf2).bind ?_
    rintro ⟨e', m2⟩ ⟨he', -, X, hX, hs⟩
    refine Runs.pure ⟨he, he', by simp, fun _ => ⟨X, hX, fun j hj => ⟨fun p hp' => ?_, fun z hz => ?_⟩⟩⟩
    · rw [← col (fun i => X i j) p hp']; exact (hs j hj).1 p hp'
    · exact (hs j hj).2 z fun p hp' => by rw [col z p hp']; exact hz p hp'
  · refine (C96_lsq_partial ab Q ho hd hB1 elb i1 i2 (fuel := fuel) hw (by omega) hf' hf2).bind ?_
    rintro ⟨e', m2⟩ ⟨he', -, X, hX, hs⟩
    refine Runs.pure ⟨he, he', fun _ => ⟨X, hX, fun j hj y => ?_⟩, by simp⟩
    have := (hs j hj).1 y
    rwa [res y j, res (fun l => X l j) j] at this

example (trans : Bool) := C96_driver_partial (safmin := 1 / 2) true (by norm_num) (by norm_num) (fun x => |x|)
  (lqArgs_demo fun p => if p % 8 = p / 8 then 1 else if p < 100 then 0 else p) (B := ⟨8000, 8, 7, 5⟩) 3 (fuel := 30) (by decide) (by decide) (by decide) rfl
  (Or.inl (by decide)) rfl (by decide) (by decide) (holds_tot _ _)
  (Set.disjoint_left.mpr (by
    rintro p ⟨i, j, hi, hj, rfl⟩ (((⟨i', j', hi', hj', h⟩ | ⟨k, hk, h⟩) | ⟨h1, h2⟩) | ⟨i', j', hi', hj', h⟩ | ⟨i', j', hi', hj', h⟩) <;>
      simp [View.at', Cache.A, Cache.B] at * <;> omega))
  (by decide) (by decide)
  (fun y hy l hl => by
    simp only at hl hy
    have := hy l (by omega)
    rw [sum_eq_single l] at this
    · rwa [if_pos (by omega), one_mul] at this
    · intro k hk hn
      have := mem_range.mp hk
      rw [if_neg (by omega), if_pos (by omega), zero_mul]
    · intro h; exact absurd (mem_range.mpr hl) h)
  trans

/-- C96 is false of the allocating `armas_lqsolve`: with fewer right hand sides than rows of `B`, and no more than the block size, the query asks
`armas_lqmult_w` and returns as many elements as `B` has columns, and the call that follows wants as many as it has rows (`:140`): every such call
fails with `-EWORK`, in particular every call with one right hand side and more than one column of `A`.  -/
theorem C96_wrapper_false {α : Type} [Field α] [DecidableEq α] (ab : α → α) (env : Env) (elb fuel : Nat) (m : Mem α) (B A tau : View) (trans : Bool)
    (w : Nat) (cbuf : Option Cache) (hs : B.rows = A.cols) (hc : B.cols < B.rows) (hb : elb = 0 ∨ B.cols ≤ elb) :
    lqsolve ab env elb fuel m B A tau trans w cbuf = .ok (-5, m) := by
  unfold lqsolve lqsolveQuery
  rw [if_neg (by omega)]
  exact (C96_errors ab env elb fuel m B A tau trans w B.cols cbuf).2 hs hc

example := C96_wrapper_false (α := ℝ) id ⟨8, 8, false, true⟩ 64 30 (tot fun _ => 1) ⟨0, 8, 7, 1⟩ ⟨100, 8, 3, 7⟩ ⟨160, 3, 3, 1⟩ false 200 none rfl
  (by decide) (by decide)

/-- The matrix `(3 4)` after LQ factorization, three right hand sides and the scalar `8/5`. -/
def lqsMem : Mem ℚ := tot fun p => if p = 0 then 3 else if p = 10 then -5 else if p = 11 then 1 / 2 else if p = 20 then 8 / 5 else 0

/-- C96 is false for a work space with at least as many elements as `B` has rows and fewer than it has columns: `armas_lqmult_w` fails, which
`armas_lqsolve_w` ignores (`src/lapack/lqsolve.c:148-168`), and `0` is returned with a matrix that is no solution.  Here `a = (3 4)` and the first of
three right hand sides is 3: the result is `(-3/5, 0)`, and `3 * (-3/5) + 4 * 0` is not 3. -/
theorem C96_work_false : ∃ (m : Mem ℚ) (B A tau : View) (f : Nat → Nat → ℚ) (t : Nat → ℚ), A.rows = 1 ∧ A.cols = 2 ∧ B.rows = 2 ∧ B.cols = 3 ∧
    tau.cols = 1 ∧ tau.rows = 1 ∧ (Holds m A fun i j => f j i) ∧ m (B.at' 0 0) = some 3 ∧ m (tau.at' 0 0) = some (t 0) ∧
    t 0 * ∑ i ∈ range 2, qrw f 0 i ^ 2 = 2 ∧ f 0 0 ≠ 0 ∧
    ∃ m' x y, lqsolveW id ⟨8, 8, false, true⟩ 0 12 m B A tau false 30 2 (some ⟨1000, 1100, 4, 4, 3, 3, 1⟩) = .ok (0, m') ∧ m' (B.at' 0 0) = some x ∧
      m' (B.at' 1 0) = some y ∧ qrProd 2 1 t f (upperPart f) 0 0 * x + qrProd 2 1 t f (upperPart f) 1 0 * y ≠ 3 := by
  obtain ⟨m', hm, hp⟩ := okay_ok (r := lqsolveW (α := ℚ) id ⟨8, 8, false, true⟩ 0 12 lqsMem
    ⟨0, 2, 2, 3⟩ ⟨10, 1, 1, 2⟩ ⟨20, 1, 1, 1⟩ false 30 2 (some ⟨1000, 1100, 4, 4, 3, 3, 1⟩)) (by decide +kernel)
  obtain ⟨-, -, -, q4, q5, q6⟩ := qrsMem_facts
  refine ⟨_, ⟨0, 2, 2, 3⟩, ⟨10, 1, 1, 2⟩, ⟨20, 1, 1, 1⟩, fun i _ => if i = 0 then -5 else 1 / 2, fun _ => 8 / 5, rfl, rfl, rfl, rfl, rfl, rfl,
    fun i j hi hj => ?_, by decide +kernel, by decide +kernel, q4, by norm_num, m', -3 / 5, 0, hm, ?_, ?_, ?_⟩
  · have : i = 0 := by simp only at hi; omega
    have : j = 0 ∨ j = 1 := by simp only at hj; omega
    subst i
    rcases this with rfl | rfl <;> decide +kernel
  · rw [hp]; decide +kernel
  · rw [hp]; decide +kernel
  · rw [q5, q6]
    norm_num

end Armas.Props
