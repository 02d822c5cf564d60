import Verif.LapackLemmas
import Verif.Chol

/-!
# Specifications of the Cholesky factorization
-/

namespace Armas

open Classical Finset Props

/-- The Cholesky factor of the symmetric matrix `f`, from its Schur complements. -/
noncomputable def cholF (f : Nat → Nat → ℝ) (i j : Nat) : ℝ := schur f j i j / Real.sqrt (schur f j j j)

/-- What the lower triangle holds after `k` steps. -/
noncomputable def cholV (f : Nat → Nat → ℝ) (k i j : Nat) : ℝ := if j < k then cholF f i j else schur f k i j

section pure
variable {f : Nat → Nat → ℝ}

theorem cholF_diag (f : Nat → Nat → ℝ) (k : Nat) : cholF f k k = Real.sqrt (schur f k k k) := Real.div_sqrt

theorem cholF_mul (hs : ∀ i j, f i j = f j i) {p : Nat} (hp : 0 < schur f p p p) (i j : Nat) :
    cholF f i p * cholF f j p = schur f p i p * schur f p p j / schur f p p p := by
  unfold cholF
  rw [div_mul_div_comm, Real.mul_self_sqrt hp.le, schur_symm hs p j p]

theorem cholF_shift (f : Nat → Nat → ℝ) (k i j : Nat) :
    cholF (fun i j => schur f k (k + i) (k + j)) i j = cholF f (k + i) (k + j) := by
  unfold cholF; rw [schur_shift, schur_shift]

theorem cholV_step (hs : ∀ i j, f i j = f j i) {k : Nat} (hk : 0 < schur f k k k) (i j : Nat) :
    1 * schur f k i j + -1 * (cholF f i k * cholF f j k) = schur f (k + 1) i j := by
  rw [cholF_mul hs hk, schur_succ]; ring

/-- Steps `a ≤ p < b`. -/
theorem cholF_sum (hs : ∀ i j, f i j = f j i) {a b : Nat} (hab : a ≤ b) (hp : ∀ p, p < b → 0 < schur f p p p)
    (i j : Nat) : schur f a i j = ∑ p ∈ Ico a b, cholF f i p * cholF f j p + schur f b i j := by
  rw [schur_sum f hab]
  congr 1
  refine Finset.sum_congr rfl (fun p hp' => ?_)
  rw [cholF_mul hs (hp p (Finset.mem_Ico.mp hp').2)]

theorem cholF_full (hs : ∀ i j, f i j = f j i) {a b : Nat} (hab : a ≤ b) (hp : ∀ p, p < b → 0 < schur f p p p)
    {i j : Nat} (hij : i < b ∨ j < b) : schur f a i j = ∑ p ∈ Ico a b, cholF f i p * cholF f j p := by
  rw [cholF_sum hs hab hp, schur_zero (fun p h => (hp p h).ne') hij, add_zero]

theorem cholF_zero (hp : ∀ p, p ≤ i → schur f p p p ≠ 0) {j : Nat} (hij : i < j)
    (hj : ∀ p, p < j → schur f p p p ≠ 0) : cholF f i j = 0 := by
  unfold cholF
  rw [schur_zero hj (Or.inl hij), zero_div]

end pure

theorem unblkCholLowerStep_spec {env : Env}
    (hrec : env.recursive = false ∨ env.naive = true ∨ env.blas2min ≠ 1)
    {fuel : Nat} {m1 : Mem ℝ} {A : View} {f : Nat → Nat → ℝ} (hs : ∀ i j, f i j = f j i) (hw : A.WF)
    (hsq : A.cols = A.rows) (hf : A.rows + 1 < fuel) {k : Nat} (hk : k < A.rows)
    (h1 : HoldsOn m1 A (InTri false false) (cholV f k)) (hd : 0 < schur f k k k) (err : Int) :
    Runs (unblkCholLowerStep env fuel A k (err, m1)) (fun r => r.1 = err ∧
      HoldsOn r.2 A (InTri false false) (cholV f (k + 1)) ∧
      Frame (A.footOn (InTri false false)) m1 r.2) := by
  unfold unblkCholLowerStep
  rw [hsq]
  dsimp only
  have u0 := UpdX.init h1 (cholV f (k + 1)) ∅
  have dF : Disjoint (A.footOn (InTri false false)) (∅ : Set Nat) := Set.disjoint_empty _
  have ht : InTri false false k k := by simp [InTri]
  have e0 := u0.at_old hk (by omega) ht (by omega)
  rw [show cholV f k k k = schur f k k k by unfold cholV; rw [if_neg (by omega)]] at e0
  refine Runs.rd_bind e0 ?_
  rw [if_pos hd.le]
  refine Runs.wr_bind e0 ?_
  have u1 := u0.cell hw hk (by omega : k < A.cols) ht (x := Real.sqrt (schur f k k k)) (by
    unfold cholV; rw [if_pos (by omega), cholF_diag])
  have s1 := scale_line (X := A.sub (k + 1) k (A.rows - k - 1) 1) (1 / Real.sqrt (schur f k k k)) (Or.inr rfl)
    (hw.sub (by omega) (by omega)) (u1.block_old (r := k + 1) (c := k) (nr := A.rows - k - 1) (nc := 1)
      (by omega) (by omega) (by simp [InTri]; omega))
  refine s1.bind ?_
  rintro ⟨e2, m2⟩ ⟨h2, f2⟩
  dsimp only at h2 f2 ⊢
  have u2 := u1.block hw dF (r := k + 1) (c := k) (nr := A.rows - k - 1) (nc := 1) (by omega) (by omega)
    (by simp [InTri]; omega) (m' := m2) (h2.congr (fun i j hi hj => by
      have : j = 0 := by rw [View.sub_cols] at hj; omega
      subst this
      unfold cholV cholF
      rw [if_neg (by omega), if_pos (by omega)]
      simp [div_eq_inv_mul])) (HoldsOn.weaken_frame f2)
  have s2 := C15_mvupdate_sym_partial (env := env) (1 : ℝ) (-1) (fl := { lower := true }) rfl (fuel := fuel)
    (m := m2) (A := A.sub (k + 1) (k + 1) (A.rows - k - 1) (A.rows - k - 1))
    (X := A.sub (k + 1) k (A.rows - k - 1) 1) hrec rfl (by rw [View.sub_rows]; omega)
    (hw.sub (by omega) (by omega)) (Or.inr rfl) (by simp)
    (u2.part_old (by omega) (by omega) (by simp [InTri]; omega))
    (u2.block_new (by omega) (by omega) (by simp [InTri]; omega)).toV_col
    ((View.sub_disj hw (by omega) (by omega) (by omega) (by omega) (by omega)).mono_right
      (View.footOn_sub_foot _ _))
  refine s2.bind ?_
  rintro ⟨e3, m3⟩ ⟨-, h3, f3⟩
  dsimp only at h3 f3 ⊢
  have u3 := u2.sub hw dF (r := k + 1) (c := k + 1) (nr := A.rows - k - 1) (nc := A.rows - k - 1)
    (by omega) (by omega) (by simp [InTri]) (m' := m3) (h3.congr (fun i j hi hj _ => by
      simp only [cholV, show ¬ (k + 1 + j < k) by omega, show ¬ (k + 1 + j < k + 1) by omega,
        show k + 0 < k + 1 by omega, if_true, if_false]
      exact cholV_step hs hd _ _)) (HoldsOn.weaken_frame f3)
  refine Runs.pure ⟨rfl, u3.fin (fun i j hi hj ht hS => ?_), by simpa using u3.frame⟩
  simp [InTri] at ht hS
  unfold cholV
  rw [if_pos (by omega), if_pos (by omega)]

theorem unblkCholLower_spec {env : Env} (hrec : env.recursive = false ∨ env.naive = true ∨ env.blas2min ≠ 1)
    {fuel : Nat} {m : Mem ℝ} {A : View} {f : Nat → Nat → ℝ} (hs : ∀ i j, f i j = f j i) (hw : A.WF)
    (hsq : A.cols = A.rows) (hf : A.rows + 1 < fuel) (hA : HoldsOn m A (InTri false false) f)
    (hp : ∀ p, p < A.rows → 0 < schur f p p p) :
    Runs (unblkCholLower env fuel m A) (fun r => r.1 = 0 ∧ HoldsOn r.2 A (InTri false false) (cholF f) ∧
      Frame (A.footOn (InTri false false)) m r.2) := by
  unfold unblkCholLower
  rw [hsq, min_self]
  refine Runs.bind (P := fun x => x.2.1 = 0 ∧ HoldsOn x.2.2 A (InTri false false) (cholV f A.rows) ∧
      Frame (A.footOn (InTri false false)) m x.2.2)
    (Runs.forUp1 (fun k (st : Int × Mem ℝ) => st.1 = 0 ∧
      HoldsOn st.2 A (InTri false false) (cholV f k) ∧ Frame (A.footOn (InTri false false)) m st.2)
      (Nat.zero_le _) ⟨rfl, hA, Frame.refl _ _⟩ ?_ (fun st hst => hst))
    (fun x hx => Runs.pure ⟨hx.1, hx.2.1.congr (fun i j hi hj _ => by
      unfold cholV; rw [if_pos (by omega)]), hx.2.2⟩)
  rintro k ⟨err, m1⟩ - hk ⟨he, h1, f1⟩
  refine (unblkCholLowerStep_spec hrec hs hw hsq hf hk h1 (hp k hk) err).mono ?_
  rintro ⟨e, m2⟩ ⟨h2, h3, h4⟩
  exact ⟨h2.trans he, h3, f1.trans h4⟩

theorem unblkCholUpperStep_spec {env : Env}
    (hrec : env.recursive = false ∨ env.naive = true ∨ env.blas2min ≠ 1)
    {fuel : Nat} {m1 : Mem ℝ} {A : View} {f : Nat → Nat → ℝ} (hs : ∀ i j, f i j = f j i) (hw : A.WF)
    (hsq : A.cols = A.rows) (hf : A.rows + 1 < fuel) {k : Nat} (hk : k < A.rows)
    (h1 : HoldsOn m1 A (InTri true false) (fun i j => cholV f k j i)) (hd : 0 < schur f k k k) (err : Int) :
    Runs (unblkCholUpperStep env fuel A k (err, m1)) (fun r => r.1 = err ∧
      HoldsOn r.2 A (InTri true false) (fun i j => cholV f (k + 1) j i) ∧
      Frame (A.footOn (InTri true false)) m1 r.2) := by
  unfold unblkCholUpperStep
  rw [hsq]
  dsimp only
  have u0 := UpdX.init h1 (fun i j => cholV f (k + 1) j i) ∅
  have dF : Disjoint (A.footOn (InTri true false)) (∅ : Set Nat) := Set.disjoint_empty _
  have ht : InTri true false k k := by simp [InTri]
  have e0 := u0.at_old hk (by omega) ht (by omega)
  rw [show cholV f k k k = schur f k k k by unfold cholV; rw [if_neg (by omega)]] at e0
  refine Runs.rd_bind e0 ?_
  rw [if_pos hd]
  refine Runs.wr_bind e0 ?_
  have u1 := u0.cell hw hk (by omega : k < A.cols) ht (x := Real.sqrt (schur f k k k)) (by
    unfold cholV; rw [if_pos (by omega), cholF_diag])
  have s1 := scale_line (X := A.sub k (k + 1) 1 (A.rows - k - 1)) (1 / Real.sqrt (schur f k k k)) (Or.inl rfl)
    (hw.sub (by omega) (by omega)) (u1.block_old (r := k) (c := k + 1) (nr := 1) (nc := A.rows - k - 1)
      (by omega) (by omega) (by simp [InTri]; omega))
  refine s1.bind ?_
  rintro ⟨e2, m2⟩ ⟨h2, f2⟩
  dsimp only at h2 f2 ⊢
  have u2 := u1.block hw dF (r := k) (c := k + 1) (nr := 1) (nc := A.rows - k - 1) (by omega) (by omega)
    (by simp [InTri]; omega) (m' := m2) (h2.congr (fun i j hi hj => by
      have : i = 0 := by rw [View.sub_rows] at hi; omega
      subst this
      unfold cholV cholF
      rw [if_neg (by omega), if_pos (by omega)]
      simp [div_eq_inv_mul])) (HoldsOn.weaken_frame f2)
  have s2 := C15_mvupdate_sym_partial (env := env) (1 : ℝ) (-1) (fl := { upper := true }) rfl (fuel := fuel)
    (m := m2) (A := A.sub (k + 1) (k + 1) (A.rows - k - 1) (A.rows - k - 1))
    (X := A.sub k (k + 1) 1 (A.rows - k - 1)) hrec rfl (by rw [View.sub_rows]; omega)
    (hw.sub (by omega) (by omega)) (Or.inl rfl) (by simp)
    (u2.part_old (by omega) (by omega) (by simp [InTri]; omega))
    (u2.block_new (by omega) (by omega) (by simp [InTri]; omega)).toV_row
    ((View.sub_disj hw (by omega) (by omega) (by omega) (by omega) (by omega)).mono_right
      (View.footOn_sub_foot _ _))
  refine s2.bind ?_
  rintro ⟨e3, m3⟩ ⟨-, h3, f3⟩
  dsimp only at h3 f3 ⊢
  have u3 := u2.sub hw dF (r := k + 1) (c := k + 1) (nr := A.rows - k - 1) (nc := A.rows - k - 1)
    (by omega) (by omega) (by simp [InTri]) (m' := m3) (h3.congr (fun i j hi hj _ => by
      simp only [cholV, show ¬ (k + 1 + i < k) by omega, show ¬ (k + 1 + i < k + 1) by omega,
        show k + 0 < k + 1 by omega, if_true, if_false]
      rw [← cholV_step hs hd, mul_comm (cholF f (k + 1 + j) k)]; rfl)) (HoldsOn.weaken_frame f3)
  refine Runs.pure ⟨rfl, u3.fin (fun i j hi hj ht hS => ?_), by simpa using u3.frame⟩
  simp [InTri] at ht hS
  unfold cholV
  rw [if_pos (by omega), if_pos (by omega)]


theorem unblkCholUpper_spec {env : Env} (hrec : env.recursive = false ∨ env.naive = true ∨ env.blas2min ≠ 1)
    {fuel : Nat} {m : Mem ℝ} {A : View} {f : Nat → Nat → ℝ} (hs : ∀ i j, f i j = f j i) (hw : A.WF)
    (hsq : A.cols = A.rows) (hf : A.rows + 1 < fuel) (hA : HoldsOn m A (InTri true false) f)
    (hp : ∀ p, p < A.rows → 0 < schur f p p p) :
    Runs (unblkCholUpper env fuel m A) (fun r => r.1 = 0 ∧ HoldsOn r.2 A (InTri true false) (fun i j => cholF f j i) ∧
      Frame (A.footOn (InTri true false)) m r.2) := by
  unfold unblkCholUpper
  rw [hsq, min_self]
  refine Runs.bind (P := fun x => x.2.1 = 0 ∧ HoldsOn x.2.2 A (InTri true false) (fun i j => cholV f A.rows j i) ∧
      Frame (A.footOn (InTri true false)) m x.2.2)
    (Runs.forUp1 (fun k (st : Int × Mem ℝ) => st.1 = 0 ∧
      HoldsOn st.2 A (InTri true false) (fun i j => cholV f k j i) ∧ Frame (A.footOn (InTri true false)) m st.2)
      (Nat.zero_le _) ⟨rfl, hA.congr (fun i j _ _ _ => hs i j), Frame.refl _ _⟩ ?_ (fun st hst => hst))
    (fun x hx => Runs.pure ⟨hx.1, hx.2.1.congr (fun i j hi hj _ => by
      simp only [cholV]; rw [if_pos (by omega)]), hx.2.2⟩)
  rintro k ⟨err, m1⟩ - hk ⟨he, h1, f1⟩
  refine (unblkCholUpperStep_spec hrec hs hw hsq hf hk h1 (hp k hk) err).mono ?_
  rintro ⟨e, m2⟩ ⟨h2, h3, h4⟩
  exact ⟨h2.trans he, h3, f1.trans h4⟩

/-! ## Blocked algorithms -/

/-- The off-diagonal block is the solution of the triangular system. -/
theorem cholF_block {f : Nat → Nat → ℝ} (hs : ∀ i j, f i j = f j i) {k lb n : Nat} (hn : k + lb ≤ n)
    (hp : ∀ p, p < n → 0 < schur f p p p) (i : Nat) {j : Nat} (hj : j < lb) :
    ∑ p ∈ range lb, cholF f i (k + p) * (if p ≤ j then cholF f (k + j) (k + p) else 0) = schur f k i (k + j) := by
  rw [cholF_full hs (Nat.le_add_right k lb) (fun p h => hp p (by omega)) (Or.inr (by omega)),
    Finset.sum_Ico_eq_sum_range, Nat.add_sub_cancel_left]
  refine Finset.sum_congr rfl (fun p h => ?_)
  rw [Finset.mem_range] at h
  split
  · rfl
  · rw [cholF_zero (i := k + j) (j := k + p) (fun p h => (hp p (by omega)).ne') (by omega)
      (fun p h => (hp p (by omega)).ne')]

theorem blkCholLowerStep_spec (ab : ℝ → ℝ) {env : Env} {c : Cache} (hc : Conf3 env c) {fuel : Nat}
    {m1 : Mem ℝ} {A : View} {f : Nat → Nat → ℝ} (hs : ∀ i j, f i j = f j i) (hw : A.WF)
    (hsq : A.cols = A.rows) (hf : 4 * A.rows + 1 < fuel) {lb k : Nat} (hlb : 0 < lb) (hk : k < A.rows - lb)
    (hp : ∀ p, p < k + lb → 0 < schur f p p p) (R1 : c.Ready m1)
    (dAc : Disjoint (A.footOn (InTri false false)) c.foot)
    (h1 : HoldsOn m1 A (InTri false false) (cholV f k)) (err : Int) :
    Runs (blkCholLowerStep ab env fuel A lb (some c) k (err, m1)) (fun r => r.1 = err ∧
      HoldsOn r.2 A (InTri false false) (cholV f (k + lb)) ∧
      Frame (A.footOn (InTri false false) ∪ c.foot) m1 r.2 ∧ c.Ready r.2) := by
  unfold blkCholLowerStep
  rw [hsq]
  dsimp only
  have u0 := UpdX.init h1 (cholV f (k + lb)) c.foot
  have dsub : ∀ {r cc nr nc : Nat} {U : Nat → Nat → Prop}, r + nr ≤ A.rows → cc + nc ≤ A.cols →
      (∀ i j, i < nr → j < nc → U i j → InTri false false (r + i) (cc + j)) →
      Disjoint ((A.sub r cc nr nc).footOn U) c.foot := fun hr hc hU =>
    dAc.mono_left (View.footOn_sub hr hc hU)
  have dblk : ∀ {r cc nr nc : Nat}, r + nr ≤ A.rows → cc + nc ≤ A.cols →
      (∀ i j, i < nr → j < nc → InTri false false (r + i) (cc + j)) →
      Disjoint (A.sub r cc nr nc).foot c.foot := fun hr hc hU =>
    dAc.mono_left (View.foot_sub_footOn hr hc hU)
  -- diagonal block
  have s1 := unblkCholLower_spec (env := env) hc.hrec (fuel := fuel) (m := m1) (A := A.sub k k lb lb)
    (f := fun i j => schur f k (k + i) (k + j)) (fun i j => schur_symm hs _ _ _)
    (hw.sub (by omega) (by omega)) rfl (by rw [View.sub_rows]; omega)
    ((u0.part_old (U := InTri false false) (by omega) (by omega) (by simp [InTri])).congr (fun i j _ _ _ => by
      unfold cholV; rw [if_neg (by omega)]))
    (fun p h => by rw [View.sub_rows] at h; rw [schur_shift]; exact hp _ (by omega))
  refine s1.bind ?_
  rintro ⟨e2, m2⟩ ⟨he2, h2, f2⟩
  dsimp only at he2 h2 f2 ⊢
  have u1 := u0.sub hw dAc (r := k) (c := k) (nr := lb) (nc := lb) (by omega) (by omega) (by simp [InTri])
    (m' := m2) (h2.congr (fun i j hi hj _ => by
      rw [View.sub_cols] at hj
      rw [cholF_shift]; unfold cholV; rw [if_pos (by omega)])) (HoldsOn.weaken_frame f2)
  have R2 : c.Ready m2 := R1.frame f2 (dsub (by omega) (by omega) (by simp [InTri])).symm
  -- block below
  have s2 := solveTrm_eq ab hc.min2 (c := c) (m := m2) (B := A.sub (k + lb) k (A.rows - k - lb) lb)
    (A := A.sub k k lb lb) (fl := { right := true, lower := true, transA := true }) (fuel := fuel)
    (f := fun i j => cholV f k (k + lb + i) (k + j))
    (a := fun i j => cholV f (k + lb) (k + i) (k + j))
    (Z := fun i j => cholV f (k + lb) (k + lb + i) (k + j))
    ⟨fun _ => rfl, rfl, rfl, hw.sub (by omega) (by omega), rfl, rfl, R2, hc.rb,
      u1.block_old (by omega) (by omega) (by simp [InTri]; omega),
      u1.part_new (U := InTri false false) (by omega) (by omega) (by simp [InTri]; omega),
      (View.sub_disj hw (by omega) (by omega) (by omega) (by omega) (by omega)).mono_left
        (View.footOn_sub_foot _ _),
      dsub (by omega) (by omega) (by simp [InTri]), dblk (by omega) (by omega) (by simp [InTri]; omega)⟩
    rfl rfl (Or.inr (fun i hi => by
      rw [View.sub_cols] at hi
      simp only [cholV, show k + i < k + lb by omega, if_true]
      rw [cholF_diag]; exact (Real.sqrt_pos.mpr (hp _ (by omega))).ne'))
    (by simp only [View.sub_rows, View.sub_cols]; omega)
    (fun i j hi hj => by
      rw [View.sub_cols] at hj
      rw [View.sub_cols]
      simp only [triProd, trm, if_true, Bool.false_eq_true, if_false, cholV, show ¬ (k + j < k) by omega]
      rw [← cholF_block hs (n := k + lb) (lb := lb) (by omega) hp (k + lb + i) hj]
      refine Finset.sum_congr rfl (fun p hp' => ?_)
      rw [Finset.mem_range] at hp'
      rw [if_pos (show k + p < k + lb by omega), if_pos (show k + p < k + lb by omega),
        if_pos (show k + j < k + lb by omega)]
      rcases Nat.lt_trichotomy p j with h | h | h
      · rw [if_neg (by omega), if_pos h, if_pos h.le]
      · rw [if_pos h.symm, if_pos h.le, h]
      · rw [if_neg (by omega), if_neg (by omega), if_neg (by omega)])
  refine s2.bind ?_
  rintro ⟨e3, m3⟩ ⟨-, h3, f3, R3⟩
  dsimp only at h3 f3 R3 ⊢
  have u2 := u1.block hw dAc (r := k + lb) (c := k) (nr := A.rows - k - lb) (nc := lb) (by omega) (by omega)
    (by simp [InTri]; omega) (m' := m3) h3 f3
  -- remaining matrix
  have s3 := C21_update_sym_partial ab hc.min2 (c := c) (m := m3)
    (C := A.sub (k + lb) (k + lb) (A.rows - k - lb) (A.rows - k - lb))
    (A := A.sub (k + lb) k (A.rows - k - lb) lb) (1 : ℝ) (-1) (fl := { lower := true }) (fuel := fuel)
    (hw.sub (by omega) (by omega)) rfl rfl hlb R3
    (u2.block_new (by omega) (by omega) (by simp [InTri]; omega))
    (u2.part_old (by omega) (by omega) (by simp [InTri]))
    (dblk (by omega) (by omega) (by simp [InTri]; omega))
    (dsub (by omega) (by omega) (by simp [InTri]))
    ((View.sub_disj hw (by omega) (by omega) (by omega) (by omega) (by omega)).mono_right
      (View.footOn_sub_foot _ _)) (Or.inl rfl) (by rw [View.sub_rows]; omega)
  refine s3.bind ?_
  rintro ⟨e4, m4⟩ ⟨-, h4, f4, R4⟩
  dsimp only at h4 f4 R4 ⊢
  have u3 := u2.sub hw dAc (r := k + lb) (c := k + lb) (nr := A.rows - k - lb) (nc := A.rows - k - lb)
    (by omega) (by omega) (by simp [InTri]) (m' := m4) (h4.congr (fun i j hi hj _ => by
      simp only [cholV, show ¬ (k + lb + j < k) by omega, show ¬ (k + lb + j < k + lb) by omega,
        if_false, Bool.false_eq_true, View.sub_cols]
      rw [Finset.sum_congr (g := fun p => cholF f (k + lb + i) (k + p) * cholF f (k + lb + j) (k + p)) rfl
          (fun p hp' => by
            have := Finset.mem_range.mp hp'
            rw [if_pos (show k + p < k + lb by omega), if_pos (show k + p < k + lb by omega)]),
        cholF_sum hs (Nat.le_add_right k lb) (fun p h => hp p (by omega)),
        Finset.sum_Ico_eq_sum_range, Nat.add_sub_cancel_left]
      ring)) f4
  refine Runs.pure ⟨by simp [he2], u3.fin (fun i j hi hj ht hS => ?_), u3.frame, R4⟩
  simp [InTri] at ht hS
  unfold cholV
  rw [if_pos (by omega), if_pos (by omega)]

theorem blkCholLower_spec (ab : ℝ → ℝ) {env : Env} {c : Cache} (hc : Conf3 env c) {fuel : Nat} {m : Mem ℝ}
    {A : View} {f : Nat → Nat → ℝ} (hs : ∀ i j, f i j = f j i) (hw : A.WF)
    (hsq : A.cols = A.rows) (hf : 4 * A.rows + 1 < fuel) (hA : HoldsOn m A (InTri false false) f)
    (hp : ∀ p, p < A.rows → 0 < schur f p p p) {lb : Nat} (hlb : 0 < lb) (hR : c.Ready m)
    (dAc : Disjoint (A.footOn (InTri false false)) c.foot) :
    Runs (blkCholLower ab env fuel m A lb (some c)) (fun r => r.1 = 0 ∧
      HoldsOn r.2 A (InTri false false) (cholF f) ∧
      Frame (A.footOn (InTri false false) ∪ c.foot) m r.2 ∧ c.Ready r.2) := by
  unfold blkCholLower
  rw [hsq, min_self]
  refine Runs.bind (P := fun x => x.1 ≤ A.rows ∧ x.2.1 = 0 ∧
      HoldsOn x.2.2 A (InTri false false) (cholV f x.1) ∧
      Frame (A.footOn (InTri false false) ∪ c.foot) m x.2.2 ∧ c.Ready x.2.2)
    (Runs.forUp (fun k (st : Int × Mem ℝ) => k ≤ A.rows ∧ st.1 = 0 ∧
      HoldsOn st.2 A (InTri false false) (cholV f k) ∧
      Frame (A.footOn (InTri false false) ∪ c.foot) m st.2 ∧ c.Ready st.2)
      hlb ⟨Nat.zero_le _, rfl, hA, Frame.refl _ _, hR⟩ ?_ (fun k st _ _ hst => hst)) ?_
  · rintro k ⟨err, m1⟩ - hk ⟨-, he, h1, f1, R1⟩
    refine (blkCholLowerStep_spec ab hc hs hw hsq hf hlb hk (fun p h => hp p (by omega)) R1 dAc h1 err).mono ?_
    rintro ⟨e, m2⟩ ⟨h2, h3, h4, h5⟩
    exact ⟨by omega, h2.trans he, h3, f1.trans h4, h5⟩
  · rintro ⟨k, err, m1⟩ ⟨hk, he, h1, f1, R1⟩
    dsimp only at hk he h1 f1 R1 ⊢
    have u0 := UpdX.init h1 (cholF f) c.foot
    split
    · have s1 := unblkCholLower_spec (env := env) hc.hrec (fuel := fuel) (m := m1)
        (A := A.sub k k (A.rows - k) (A.rows - k))
        (f := fun i j => schur f k (k + i) (k + j)) (fun i j => schur_symm hs _ _ _)
        (hw.sub (by omega) (by omega)) rfl (by rw [View.sub_rows]; omega)
        ((u0.part_old (U := InTri false false) (by omega) (by omega) (by simp [InTri])).congr
          (fun i j _ _ _ => by unfold cholV; rw [if_neg (by omega)]))
        (fun p h => by rw [View.sub_rows] at h; rw [schur_shift]; exact hp _ (by omega))
      refine s1.bind ?_
      rintro ⟨e2, m2⟩ ⟨he2, h2, f2⟩
      dsimp only at he2 h2 f2 ⊢
      have u1 := u0.sub hw dAc (r := k) (c := k) (nr := A.rows - k) (nc := A.rows - k) (by omega) (by omega)
        (by simp [InTri]) (m' := m2) (h2.congr (fun i j hi hj _ => by rw [cholF_shift]))
        (HoldsOn.weaken_frame f2)
      refine Runs.pure ⟨by simp [he, he2], u1.fin (fun i j hi hj ht hS => ?_), f1.trans u1.frame,
        R1.frame f2 (dAc.mono_left (View.footOn_sub (by omega) (by omega) (by simp [InTri]))).symm⟩
      simp [InTri] at ht hS
      unfold cholV
      rw [if_pos (by omega)]
    · refine Runs.pure ⟨he, h1.congr (fun i j hi hj _ => ?_), f1, R1⟩
      unfold cholV
      rw [if_pos (by omega)]

theorem blkCholUpperStep_spec (ab : ℝ → ℝ) {env : Env} {c : Cache} (hc : Conf3 env c) {fuel : Nat}
    {m1 : Mem ℝ} {A : View} {f : Nat → Nat → ℝ} (hs : ∀ i j, f i j = f j i) (hw : A.WF)
    (hsq : A.cols = A.rows) (hf : 4 * A.rows + 1 < fuel) {lb k : Nat} (hlb : 0 < lb) (hk : k < A.rows - lb)
    (hp : ∀ p, p < k + lb → 0 < schur f p p p) (R1 : c.Ready m1)
    (dAc : Disjoint (A.footOn (InTri true false)) c.foot)
    (hev : ∀ q, EvenSplits env c (A.rows - q * lb) { upper := true, transA := true })
    {q : Nat} (hq : k = q * lb)
    (h1 : HoldsOn m1 A (InTri true false) (fun i j => cholV f k j i)) (err : Int) :
    Runs (blkCholUpperStep ab env fuel A lb (some c) k (err, m1)) (fun r => r.1 = err ∧
      HoldsOn r.2 A (InTri true false) (fun i j => cholV f (k + lb) j i) ∧
      Frame (A.footOn (InTri true false) ∪ c.foot) m1 r.2 ∧ c.Ready r.2) := by
  unfold blkCholUpperStep
  rw [hsq]
  dsimp only
  have u0 := UpdX.init h1 (fun i j => cholV f (k + lb) j i) c.foot
  have dsub : ∀ {r cc nr nc : Nat} {U : Nat → Nat → Prop}, r + nr ≤ A.rows → cc + nc ≤ A.cols →
      (∀ i j, i < nr → j < nc → U i j → InTri true false (r + i) (cc + j)) →
      Disjoint ((A.sub r cc nr nc).footOn U) c.foot := fun hr hc hU =>
    dAc.mono_left (View.footOn_sub hr hc hU)
  have dblk : ∀ {r cc nr nc : Nat}, r + nr ≤ A.rows → cc + nc ≤ A.cols →
      (∀ i j, i < nr → j < nc → InTri true false (r + i) (cc + j)) →
      Disjoint (A.sub r cc nr nc).foot c.foot := fun hr hc hU =>
    dAc.mono_left (View.foot_sub_footOn hr hc hU)
  -- diagonal block
  have s1 := unblkCholUpper_spec (env := env) hc.hrec (fuel := fuel) (m := m1) (A := A.sub k k lb lb)
    (f := fun i j => schur f k (k + i) (k + j)) (fun i j => schur_symm hs _ _ _)
    (hw.sub (by omega) (by omega)) rfl (by rw [View.sub_rows]; omega)
    ((u0.part_old (U := InTri true false) (by omega) (by omega) (by simp [InTri])).congr (fun i j _ _ _ => by
      unfold cholV; rw [if_neg (by omega)]; exact schur_symm hs _ _ _))
    (fun p h => by rw [View.sub_rows] at h; rw [schur_shift]; exact hp _ (by omega))
  refine s1.bind ?_
  rintro ⟨e2, m2⟩ ⟨he2, h2, f2⟩
  dsimp only at he2 h2 f2 ⊢
  have u1 := u0.sub hw dAc (r := k) (c := k) (nr := lb) (nc := lb) (by omega) (by omega) (by simp [InTri])
    (m' := m2) (h2.congr (fun i j hi hj _ => by
      rw [View.sub_rows] at hi
      rw [cholF_shift]; unfold cholV; rw [if_pos (by omega)])) (HoldsOn.weaken_frame f2)
  have R2 : c.Ready m2 := R1.frame f2 (dsub (by omega) (by omega) (by simp [InTri])).symm
  -- block below
  have s2 := solveTrm_eq ab hc.min2 (c := c) (m := m2) (B := A.sub k (k + lb) lb (A.rows - k - lb))
    (A := A.sub k k lb lb) (fl := { left := true, upper := true, transA := true }) (fuel := fuel)
    (f := fun i j => cholV f k (k + lb + j) (k + i))
    (a := fun i j => cholV f (k + lb) (k + j) (k + i))
    (Z := fun i j => cholV f (k + lb) (k + lb + j) (k + i))
    ⟨fun h => (by cases h), rfl, rfl, hw.sub (by omega) (by omega), rfl, rfl, R2, hc.rb,
      u1.block_old (by omega) (by omega) (by simp [InTri]; omega),
      u1.part_new (U := InTri true false) (by omega) (by omega) (by simp [InTri]; omega),
      (View.sub_disj hw (by omega) (by omega) (by omega) (by omega) (by omega)).mono_left
        (View.footOn_sub_foot _ _),
      dsub (by omega) (by omega) (by simp [InTri]), dblk (by omega) (by omega) (by simp [InTri]; omega)⟩
    rfl rfl (Or.inr (fun i hi => by
      rw [View.sub_cols] at hi
      simp only [cholV, show k + i < k + lb by omega, if_true]
      rw [cholF_diag]; exact (Real.sqrt_pos.mpr (hp _ (by omega))).ne'))
    (by simp only [View.sub_rows, View.sub_cols]; omega)
    (fun i j hi hj => by
      rw [View.sub_rows] at hi
      rw [View.sub_cols]
      simp only [triProd, trm, if_true, Bool.false_eq_true, if_false, cholV, show ¬ (k + i < k) by omega]
      rw [← cholF_block hs (n := k + lb) (lb := lb) (by omega) hp (k + lb + j) hi]
      refine Finset.sum_congr rfl (fun p hp' => ?_)
      rw [Finset.mem_range] at hp'
      simp only [show k + p < k + lb by omega, if_true]
      rw [mul_comm]
      rcases Nat.lt_trichotomy p i with h | h | h
      · rw [if_neg (by omega), if_pos h, if_pos h.le]
      · rw [if_pos h, if_pos h.le, h]
      · rw [if_neg (by omega), if_neg (by omega), if_neg (by omega)])
  refine s2.bind ?_
  rintro ⟨e3, m3⟩ ⟨-, h3, f3, R3⟩
  dsimp only at h3 f3 R3 ⊢
  have u2 := u1.block hw dAc (r := k) (c := k + lb) (nr := lb) (nc := A.rows - k - lb) (by omega) (by omega)
    (by simp [InTri]; omega) (m' := m3) h3 f3
  -- remaining matrix
  have s3 := C21_update_sym_partial ab hc.min2 (c := c) (m := m3)
    (C := A.sub (k + lb) (k + lb) (A.rows - k - lb) (A.rows - k - lb))
    (A := A.sub k (k + lb) lb (A.rows - k - lb)) (1 : ℝ) (-1) (fl := { upper := true, transA := true }) (fuel := fuel)
    (hw.sub (by omega) (by omega)) rfl rfl hlb R3
    (u2.block_new (by omega) (by omega) (by simp [InTri]; omega))
    (u2.part_old (by omega) (by omega) (by simp [InTri]))
    (dblk (by omega) (by omega) (by simp [InTri]; omega))
    (dsub (by omega) (by omega) (by simp [InTri]))
    ((View.sub_disj hw (by omega) (by omega) (by omega) (by omega) (by omega)).mono_right
      (View.footOn_sub_foot _ _)) (by
        have := hev (q + 1)
        rwa [Nat.add_mul, one_mul, ← hq, ← Nat.sub_sub] at this) (by rw [View.sub_rows]; omega)
  refine s3.bind ?_
  rintro ⟨e4, m4⟩ ⟨-, h4, f4, R4⟩
  dsimp only at h4 f4 R4 ⊢
  have u3 := u2.sub hw dAc (r := k + lb) (c := k + lb) (nr := A.rows - k - lb) (nc := A.rows - k - lb)
    (by omega) (by omega) (by simp [InTri]) (m' := m4) (h4.congr (fun i j hi hj _ => by
      simp only [cholV, show ¬ (k + lb + i < k) by omega, show ¬ (k + lb + i < k + lb) by omega,
        if_false, if_true, View.sub_rows]
      rw [Finset.sum_congr (g := fun p => cholF f (k + lb + i) (k + p) * cholF f (k + lb + j) (k + p)) rfl
          (fun p hp' => by
            have := Finset.mem_range.mp hp'
            rw [if_pos (show k + p < k + lb by omega), if_pos (show k + p < k + lb by omega)]),
        schur_symm hs k, schur_symm hs (k + lb),
        cholF_sum hs (Nat.le_add_right k lb) (fun p h => hp p (by omega)),
        Finset.sum_Ico_eq_sum_range, Nat.add_sub_cancel_left]
      ring)) f4
  refine Runs.pure ⟨by simp [he2], u3.fin (fun i j hi hj ht hS => ?_), u3.frame, R4⟩
  simp [InTri] at ht hS
  unfold cholV
  rw [if_pos (by omega), if_pos (by omega)]

theorem blkCholUpper_spec (ab : ℝ → ℝ) {env : Env} {c : Cache} (hc : Conf3 env c) {fuel : Nat} {m : Mem ℝ}
    {A : View} {f : Nat → Nat → ℝ} (hs : ∀ i j, f i j = f j i) (hw : A.WF)
    (hsq : A.cols = A.rows) (hf : 4 * A.rows + 1 < fuel) (hA : HoldsOn m A (InTri true false) f)
    (hp : ∀ p, p < A.rows → 0 < schur f p p p) {lb : Nat} (hlb : 0 < lb) (hR : c.Ready m)
    (dAc : Disjoint (A.footOn (InTri true false)) c.foot)
    (hev : ∀ q, EvenSplits env c (A.rows - q * lb) { upper := true, transA := true }) :
    Runs (blkCholUpper ab env fuel m A lb (some c)) (fun r => r.1 = 0 ∧
      HoldsOn r.2 A (InTri true false) (fun i j => cholF f j i) ∧
      Frame (A.footOn (InTri true false) ∪ c.foot) m r.2 ∧ c.Ready r.2) := by
  unfold blkCholUpper
  rw [hsq, min_self]
  refine Runs.bind (P := fun x => x.1 ≤ A.rows ∧ x.2.1 = 0 ∧
      HoldsOn x.2.2 A (InTri true false) (fun i j => cholV f x.1 j i) ∧
      Frame (A.footOn (InTri true false) ∪ c.foot) m x.2.2 ∧ c.Ready x.2.2)
    (Runs.forUp (fun k (st : Int × Mem ℝ) => (k ≤ A.rows ∧ ∃ q, k = q * lb) ∧ st.1 = 0 ∧
      HoldsOn st.2 A (InTri true false) (fun i j => cholV f k j i) ∧
      Frame (A.footOn (InTri true false) ∪ c.foot) m st.2 ∧ c.Ready st.2)
      hlb ⟨⟨Nat.zero_le _, 0, by simp⟩, rfl, hA.congr (fun i j _ _ _ => hs i j), Frame.refl _ _, hR⟩ ?_ (fun k st _ _ hst => ⟨hst.1.1, hst.2⟩)) ?_
  · rintro k ⟨err, m1⟩ - hk ⟨⟨-, q, hq⟩, he, h1, f1, R1⟩
    refine (blkCholUpperStep_spec ab hc hs hw hsq hf hlb hk (fun p h => hp p (by omega)) R1 dAc hev hq h1 err).mono ?_
    rintro ⟨e, m2⟩ ⟨h2, h3, h4, h5⟩
    exact ⟨⟨by omega, q + 1, by rw [Nat.add_mul, one_mul, hq]⟩, h2.trans he, h3, f1.trans h4, h5⟩
  · rintro ⟨k, err, m1⟩ ⟨hk, he, h1, f1, R1⟩
    dsimp only at hk he h1 f1 R1 ⊢
    have u0 := UpdX.init h1 (fun i j => cholF f j i) c.foot
    split
    · have s1 := unblkCholUpper_spec (env := env) hc.hrec (fuel := fuel) (m := m1)
        (A := A.sub k k (A.rows - k) (A.rows - k))
        (f := fun i j => schur f k (k + i) (k + j)) (fun i j => schur_symm hs _ _ _)
        (hw.sub (by omega) (by omega)) rfl (by rw [View.sub_rows]; omega)
        ((u0.part_old (U := InTri true false) (by omega) (by omega) (by simp [InTri])).congr
          (fun i j _ _ _ => by unfold cholV; rw [if_neg (by omega)]; exact schur_symm hs _ _ _))
        (fun p h => by rw [View.sub_rows] at h; rw [schur_shift]; exact hp _ (by omega))
      refine s1.bind ?_
      rintro ⟨e2, m2⟩ ⟨he2, h2, f2⟩
      dsimp only at he2 h2 f2 ⊢
      have u1 := u0.sub hw dAc (r := k) (c := k) (nr := A.rows - k) (nc := A.rows - k) (by omega) (by omega)
        (by simp [InTri]) (m' := m2) (h2.congr (fun i j hi hj _ => by rw [cholF_shift]))
        (HoldsOn.weaken_frame f2)
      refine Runs.pure ⟨by simp [he, he2], u1.fin (fun i j hi hj ht hS => ?_), f1.trans u1.frame,
        R1.frame f2 (dAc.mono_left (View.footOn_sub (by omega) (by omega) (by simp [InTri]))).symm⟩
      simp [InTri] at ht hS
      unfold cholV
      rw [if_pos (by omega)]
    · refine Runs.pure ⟨he, h1.congr (fun i j hi hj _ => ?_), f1, R1⟩
      unfold cholV
      rw [if_pos (by omega)]


/-! ## Matrices that are not positive definite

A nonpositive (lower: negative) pivot sets the error code, which later steps do not reset. -/

theorem unblkCholLowerStep_sticky {env : Env} {fuel : Nat} {A : View} {k : Nat} {st r : Int × Mem ℝ}
    (h : unblkCholLowerStep env fuel A k st = .ok r) (he : st.1 ≠ 0) : r.1 ≠ 0 := by
  obtain ⟨err, m⟩ := st
  unfold unblkCholLowerStep at h
  obtain ⟨x, -, h⟩ := Res.bind_ok h
  split at h
  · obtain ⟨_, -, h⟩ := Res.bind_ok h
    obtain ⟨_, -, h⟩ := Res.bind_ok h
    obtain ⟨_, -, h⟩ := Res.bind_ok h
    cases h; exact he
  · cases h; simpa [he] using he

theorem unblkCholLower_bad {env : Env} (hrec : env.recursive = false ∨ env.naive = true ∨ env.blas2min ≠ 1)
    {fuel : Nat} {m : Mem ℝ} {A : View} {f : Nat → Nat → ℝ} (hs : ∀ i j, f i j = f j i) (hw : A.WF)
    (hsq : A.cols = A.rows) (hf : A.rows + 1 < fuel) (hA : HoldsOn m A (InTri false false) f) {k0 : Nat}
    (hk0 : k0 < A.rows) (hp : ∀ p, p < k0 → 0 < schur f p p p) (hb : schur f k0 k0 k0 < 0)
    {r : Int × Mem ℝ} (h : unblkCholLower env fuel m A = .ok r) : r.1 ≠ 0 := by
  unfold unblkCholLower at h
  rw [hsq, min_self] at h
  obtain ⟨⟨n, st⟩, h1, h2⟩ := Res.bind_ok h
  cases h2
  have key := forUp_post (fun k (st : Int × Mem ℝ) =>
    (k ≤ k0 → HoldsOn st.2 A (InTri false false) (cholV f k)) ∧ (k0 < k → st.1 ≠ 0)) (by omega)
    ⟨fun _ => hA.congr (fun i j _ _ _ => rfl), by omega⟩ ?_ h1
  · exact key.1.2 (by have := key.2; dsimp only at this ⊢; omega)
  · rintro k ⟨err, m1⟩ st' - hk ⟨i1, i2⟩ e
    dsimp only at i1 i2
    refine ⟨fun h => ?_, fun h => ?_⟩
    · exact ((unblkCholLowerStep_spec hrec hs hw hsq hf hk (i1 (by omega)) (hp k (by omega)) err).of_ok e).2.1
    · by_cases hkk : k = k0
      · subst hkk
        have e0 := i1 (le_refl _) k k hk (by omega) (by simp [InTri])
        unfold unblkCholLowerStep at e
        dsimp only at e
        rw [rd_ok e0, Res.ok_bind, if_neg (by simp only [cholV, lt_irrefl, if_false]; exact not_le.mpr hb)] at e
        cases e
        dsimp only
        split <;> simp_all
      · exact unblkCholLowerStep_sticky e (i2 (by omega))

theorem blkCholLowerStep_sticky {ab : ℝ → ℝ} {env : Env} {fuel lb : Nat} {A : View} {cb : Option Cache} {k : Nat}
    {st r : Int × Mem ℝ} (h : blkCholLowerStep ab env fuel A lb cb k st = .ok r)
    (he : st.1 ≠ 0 ∨ ∀ r', unblkCholLower env fuel st.2 (A.sub k k lb lb) = .ok r' → r'.1 ≠ 0) : r.1 ≠ 0 := by
  obtain ⟨err, m⟩ := st
  unfold blkCholLowerStep at h
  obtain ⟨⟨e, m1⟩, h1, h⟩ := Res.bind_ok h
  obtain ⟨_, -, h⟩ := Res.bind_ok h
  obtain ⟨_, -, h⟩ := Res.bind_ok h
  cases h
  dsimp only at he ⊢
  rcases he with he | he
  · split <;> simp_all
  · have := he _ h1
    dsimp only at this
    rw [if_pos this]
    split <;> simp_all

theorem blkCholLower_bad (ab : ℝ → ℝ) {env : Env} {c : Cache} (hc : Conf3 env c) {fuel : Nat} {m : Mem ℝ}
    {A : View} {f : Nat → Nat → ℝ} (hs : ∀ i j, f i j = f j i) (hw : A.WF)
    (hsq : A.cols = A.rows) (hf : 4 * A.rows + 1 < fuel) (hA : HoldsOn m A (InTri false false) f)
    {lb : Nat} (hlb : 0 < lb) (hR : c.Ready m)
    (dAc : Disjoint (A.footOn (InTri false false)) c.foot) {k0 : Nat}
    (hk0 : k0 < A.rows) (hp : ∀ p, p < k0 → 0 < schur f p p p) (hb : schur f k0 k0 k0 < 0)
    {r : Int × Mem ℝ} (h : blkCholLower ab env fuel m A lb (some c) = .ok r) : r.1 ≠ 0 := by
  have bad : ∀ (k nb : Nat) (m1 : Mem ℝ), k ≤ k0 → k0 < k + nb → k + nb ≤ A.rows →
      HoldsOn m1 A (InTri false false) (cholV f k) →
      ∀ r', unblkCholLower env fuel m1 (A.sub k k nb nb) = .ok r' → r'.1 ≠ 0 := by
    intro k nb m1 h1 h2 h3 h4 r' e
    refine unblkCholLower_bad hc.hrec (f := fun i j => schur f k (k + i) (k + j)) (k0 := k0 - k)
      (fun i j => schur_symm hs _ _ _)
      (hw.sub (by omega) (by omega)) rfl (by rw [View.sub_rows]; omega)
      ((h4.sub (by omega) (by omega) (by simp [InTri])).congr (fun i j _ _ _ => by
        unfold cholV; rw [if_neg (by omega)])) (by rw [View.sub_rows]; omega)
      (fun p hp' => by rw [schur_shift]; exact hp _ (by omega)) ?_ e
    rw [schur_shift, show k + (k0 - k) = k0 by omega]
    exact hb
  unfold blkCholLower at h
  rw [hsq, min_self] at h
  obtain ⟨⟨n, err, m1⟩, h1, h2⟩ := Res.bind_ok h
  have key := forUp_post (fun k (st : Int × Mem ℝ) => (k ≤ A.rows ∧ ∃ q, k = q * lb) ∧
    (k ≤ k0 → HoldsOn st.2 A (InTri false false) (cholV f k) ∧ c.Ready st.2) ∧ (k0 < k → st.1 ≠ 0)) hlb
    ⟨⟨Nat.zero_le _, 0, by simp⟩, fun _ => ⟨hA.congr (fun i j _ _ _ => rfl), hR⟩, by omega⟩ ?_ h1
  · obtain ⟨⟨⟨g0, -⟩, g1, g2⟩, g3⟩ := key
    dsimp only at g0 g1 g2 g3 h2
    split at h2
    · obtain ⟨⟨e, m2⟩, h3, h4⟩ := Res.bind_ok h2
      cases h4
      dsimp only
      by_cases hk : n ≤ k0
      · have := bad n (A.rows - n) m1 hk (by omega) (by omega) (g1 hk).1 _ h3
        dsimp only at this
        rw [if_pos this]
        split <;> simp_all
      · have := g2 (by omega)
        split <;> simp_all
    · cases h2
      exact g2 (by omega)
  · rintro k ⟨err, m1⟩ st' - hk ⟨⟨hkr, q, hq⟩, i1, i2⟩ e
    dsimp only at i1 i2
    refine ⟨⟨by omega, q + 1, by rw [Nat.add_mul, one_mul, hq]⟩, fun h => ?_, fun h => ?_⟩
    · obtain ⟨j1, j2⟩ := i1 (by omega)
      have := (blkCholLowerStep_spec ab hc hs hw hsq hf hlb hk (fun p h => hp p (by omega)) j2 dAc  j1
        err).of_ok e
      exact ⟨this.2.1, this.2.2.2⟩
    · refine blkCholLowerStep_sticky e ?_
      by_cases hkk : k ≤ k0
      · exact Or.inr (bad k lb m1 hkk h (by omega) (i1 hkk).1)
      · exact Or.inl (i2 (by omega))

theorem unblkCholUpperStep_sticky {env : Env} {fuel : Nat} {A : View} {k : Nat} {st r : Int × Mem ℝ}
    (h : unblkCholUpperStep env fuel A k st = .ok r) (he : st.1 ≠ 0) : r.1 ≠ 0 := by
  obtain ⟨err, m⟩ := st
  unfold unblkCholUpperStep at h
  obtain ⟨x, -, h⟩ := Res.bind_ok h
  split at h
  · obtain ⟨_, -, h⟩ := Res.bind_ok h
    obtain ⟨_, -, h⟩ := Res.bind_ok h
    obtain ⟨_, -, h⟩ := Res.bind_ok h
    cases h; exact he
  · cases h; simpa [he] using he

theorem unblkCholUpper_bad {env : Env} (hrec : env.recursive = false ∨ env.naive = true ∨ env.blas2min ≠ 1)
    {fuel : Nat} {m : Mem ℝ} {A : View} {f : Nat → Nat → ℝ} (hs : ∀ i j, f i j = f j i) (hw : A.WF)
    (hsq : A.cols = A.rows) (hf : A.rows + 1 < fuel) (hA : HoldsOn m A (InTri true false) f) {k0 : Nat}
    (hk0 : k0 < A.rows) (hp : ∀ p, p < k0 → 0 < schur f p p p) (hb : schur f k0 k0 k0 ≤ 0)
    {r : Int × Mem ℝ} (h : unblkCholUpper env fuel m A = .ok r) : r.1 ≠ 0 := by
  unfold unblkCholUpper at h
  rw [hsq, min_self] at h
  obtain ⟨⟨n, st⟩, h1, h2⟩ := Res.bind_ok h
  cases h2
  have key := forUp_post (fun k (st : Int × Mem ℝ) =>
    (k ≤ k0 → HoldsOn st.2 A (InTri true false) (fun i j => cholV f k j i)) ∧ (k0 < k → st.1 ≠ 0)) (by omega)
    ⟨fun _ => hA.congr (fun i j _ _ _ => hs i j), by omega⟩ ?_ h1
  · exact key.1.2 (by have := key.2; dsimp only at this ⊢; omega)
  · rintro k ⟨err, m1⟩ st' - hk ⟨i1, i2⟩ e
    dsimp only at i1 i2
    refine ⟨fun h => ?_, fun h => ?_⟩
    · exact ((unblkCholUpperStep_spec hrec hs hw hsq hf hk (i1 (by omega)) (hp k (by omega)) err).of_ok e).2.1
    · by_cases hkk : k = k0
      · subst hkk
        have e0 := i1 (le_refl _) k k hk (by omega) (by simp [InTri])
        unfold unblkCholUpperStep at e
        dsimp only at e
        rw [rd_ok e0, Res.ok_bind, if_neg (by simp only [cholV, lt_irrefl, if_false]; exact not_lt.mpr hb)] at e
        cases e
        dsimp only
        split <;> simp_all
      · exact unblkCholUpperStep_sticky e (i2 (by omega))

theorem blkCholUpperStep_sticky {ab : ℝ → ℝ} {env : Env} {fuel lb : Nat} {A : View} {cb : Option Cache} {k : Nat}
    {st r : Int × Mem ℝ} (h : blkCholUpperStep ab env fuel A lb cb k st = .ok r)
    (he : st.1 ≠ 0 ∨ ∀ r', unblkCholUpper env fuel st.2 (A.sub k k lb lb) = .ok r' → r'.1 ≠ 0) : r.1 ≠ 0 := by
  obtain ⟨err, m⟩ := st
  unfold blkCholUpperStep at h
  obtain ⟨⟨e, m1⟩, h1, h⟩ := Res.bind_ok h
  obtain ⟨_, -, h⟩ := Res.bind_ok h
  obtain ⟨_, -, h⟩ := Res.bind_ok h
  cases h
  dsimp only at he ⊢
  rcases he with he | he
  · split <;> simp_all
  · have := he _ h1
    dsimp only at this
    rw [if_pos this]
    split <;> simp_all

theorem blkCholUpper_bad (ab : ℝ → ℝ) {env : Env} {c : Cache} (hc : Conf3 env c) {fuel : Nat} {m : Mem ℝ}
    {A : View} {f : Nat → Nat → ℝ} (hs : ∀ i j, f i j = f j i) (hw : A.WF)
    (hsq : A.cols = A.rows) (hf : 4 * A.rows + 1 < fuel) (hA : HoldsOn m A (InTri true false) f)
    {lb : Nat} (hlb : 0 < lb) (hR : c.Ready m)
    (dAc : Disjoint (A.footOn (InTri true false)) c.foot)
    (hev : ∀ q, EvenSplits env c (A.rows - q * lb) { upper := true, transA := true }) {k0 : Nat}
    (hk0 : k0 < A.rows) (hp : ∀ p, p < k0 → 0 < schur f p p p) (hb : schur f k0 k0 k0 ≤ 0)
    {r : Int × Mem ℝ} (h : blkCholUpper ab env fuel m A lb (some c) = .ok r) : r.1 ≠ 0 := by
  have bad : ∀ (k nb : Nat) (m1 : Mem ℝ), k ≤ k0 → k0 < k + nb → k + nb ≤ A.rows →
      HoldsOn m1 A (InTri true false) (fun i j => cholV f k j i) →
      ∀ r', unblkCholUpper env fuel m1 (A.sub k k nb nb) = .ok r' → r'.1 ≠ 0 := by
    intro k nb m1 h1 h2 h3 h4 r' e
    refine unblkCholUpper_bad hc.hrec (f := fun i j => schur f k (k + i) (k + j)) (k0 := k0 - k)
      (fun i j => schur_symm hs _ _ _)
      (hw.sub (by omega) (by omega)) rfl (by rw [View.sub_rows]; omega)
      ((h4.sub (by omega) (by omega) (by simp [InTri])).congr (fun i j _ _ _ => by
        unfold cholV; rw [if_neg (by omega)]; exact schur_symm hs _ _ _)) (by rw [View.sub_rows]; omega)
      (fun p hp' => by rw [schur_shift]; exact hp _ (by omega)) ?_ e
    rw [schur_shift, show k + (k0 - k) = k0 by omega]
    exact hb
  unfold blkCholUpper at h
  rw [hsq, min_self] at h
  obtain ⟨⟨n, err, m1⟩, h1, h2⟩ := Res.bind_ok h
  have key := forUp_post (fun k (st : Int × Mem ℝ) => (k ≤ A.rows ∧ ∃ q, k = q * lb) ∧
    (k ≤ k0 → HoldsOn st.2 A (InTri true false) (fun i j => cholV f k j i) ∧ c.Ready st.2) ∧ (k0 < k → st.1 ≠ 0)) hlb
    ⟨⟨Nat.zero_le _, 0, by simp⟩, fun _ => ⟨hA.congr (fun i j _ _ _ => hs i j), hR⟩, by omega⟩ ?_ h1
  · obtain ⟨⟨⟨g0, -⟩, g1, g2⟩, g3⟩ := key
    dsimp only at g0 g1 g2 g3 h2
    split at h2
    · obtain ⟨⟨e, m2⟩, h3, h4⟩ := Res.bind_ok h2
      cases h4
      dsimp only
      by_cases hk : n ≤ k0
      · have := bad n (A.rows - n) m1 hk (by omega) (by omega) (g1 hk).1 _ h3
        dsimp only at this
        rw [if_pos this]
        split <;> simp_all
      · have := g2 (by omega)
        split <;> simp_all
    · cases h2
      exact g2 (by omega)
  · rintro k ⟨err, m1⟩ st' - hk ⟨⟨hkr, q, hq⟩, i1, i2⟩ e
    dsimp only at i1 i2
    refine ⟨⟨by omega, q + 1, by rw [Nat.add_mul, one_mul, hq]⟩, fun h => ?_, fun h => ?_⟩
    · obtain ⟨j1, j2⟩ := i1 (by omega)
      have := (blkCholUpperStep_spec ab hc hs hw hsq hf hlb hk (fun p h => hp p (by omega)) j2 dAc hev hq j1
        err).of_ok e
      exact ⟨this.2.1, this.2.2.2⟩
    · refine blkCholUpperStep_sticky e ?_
      by_cases hkk : k ≤ k0
      · exact Or.inr (bad k lb m1 hkk h (by omega) (i1 hkk).1)
      · exact Or.inl (i2 (by omega))

end Armas
