import Verif.LuLemmas
import Verif.PosDef

/-!
# LU factorization without pivoting: lemmas for `Verif.Lu`
-/

namespace Armas

open Finset Armas.Props

variable {α : Type} [Field α]

/-- What the factorization of `f` stores: the multipliers below the diagonal, the pivot rows elsewhere. -/
def luF (f : Nat → Nat → α) (i j : Nat) : α :=
  if j < i then schur f j i j / schur f j j j else schur f i i j

/-- Contents after `k` columns. -/
def luV (f : Nat → Nat → α) (k i j : Nat) : α := if min i j < k then luF f i j else schur f k i j

theorem luF_shift (f : Nat → Nat → α) (k i j : Nat) :
    luF (fun i j => schur f k (k + i) (k + j)) i j = luF f (k + i) (k + j) := by
  unfold luF
  rw [schur_shift, schur_shift, schur_shift]
  simp only [Nat.add_lt_add_iff_left]

theorem luV_shift (f : Nat → Nat → α) (k n i j : Nat) :
    luV (fun i j => schur f k (k + i) (k + j)) n i j = luV f (k + n) (k + i) (k + j) := by
  unfold luV
  rw [luF_shift, schur_shift]
  simp only [show (min (k + i) (k + j) < k + n) ↔ min i j < n by omega]

theorem lu_term {f v : Nat → Nat → α} {r : Nat} (hnz : ∀ p, p < r → schur f p p p ≠ 0) {i j p : Nat} (hp : p < r)
    (hL : p < i → v i p = luF f i p) (hU : p ≤ j → v p j = luF f p j) :
    trm false true v i p * trm true false v p j = schur f p i p * schur f p p j / schur f p p p := by
  have h0 := hnz p hp
  rcases Nat.lt_or_ge j p with h | h
  · rw [trmU_gt h, schur_zero (k := p) (i := p) (j := j) (fun q hq => hnz q (by omega)) (Or.inr h)]; simp
  rw [trmU_le h, hU h]
  have eU : luF f p j = schur f p p j := by unfold luF; rw [if_neg (by omega)]
  rw [eU]
  rcases Nat.lt_trichotomy i p with c | c | c
  · rw [trmL_gt c, schur_zero (k := p) (i := i) (j := p) (fun q hq => hnz q (by omega)) (Or.inl c)]; simp
  · subst c; rw [trmL_eq]; field_simp
  · rw [trmL_lt c, hL c]
    unfold luF
    rw [if_pos c]
    ring

/-- The stored factors give the matrix back. -/
theorem luF_prod {f v : Nat → Nat → α} {r N M : Nat} (hr : r = min N M) (hnz : ∀ p, p < r → schur f p p p ≠ 0)
    (hv : ∀ i j, i < N → j < M → v i j = luF f i j) {i j : Nat} (hi : i < N) (hj : j < M) :
    luProd r v i j = f i j := by
  have := schur_full (f := f) (a := 0) (k := r) hnz (i := i) (j := j) (by omega) (by omega)
  rw [show schur f 0 i j = f i j from rfl] at this
  rw [this, ← Finset.range_eq_Ico]
  refine Finset.sum_congr rfl (fun p hp => ?_)
  have hp' := Finset.mem_range.mp hp
  exact lu_term hnz hp' (fun _ => hv _ _ hi (by omega)) (fun _ => hv _ _ (by omega) hj)

section code
variable [DecidableEq α]

theorem unblkLuNopivStep_spec {env : Env} (hmin : 2 ≤ env.blas2min ∨ (env.naive = true ∧ env.recursive = false))
    {fuel : Nat} {m : Mem α} {A : View} {f : Nat → Nat → α} {k : Nat} (hw : A.WF) (hkr : k < A.rows)
    (hkc : k < A.cols) (hf : A.rows < fuel) (h : Holds m A (luV f k)) :
    Runs (unblkLuNopivStep env fuel A k m) (fun m' => Holds m' A (luV f (k + 1)) ∧ Frame A.foot m m') := by
  unfold unblkLuNopivStep
  have emp : Disjoint A.foot (∅ : Set Nat) := Set.disjoint_empty _
  refine Runs.rd_bind (h k k hkr hkc) ?_
  refine (scale_line (X := A.sub (k + 1) k (A.rows - k - 1) 1) _ (Or.inr rfl) (hw.sub (by omega) (by omega))
    (h.part (by omega) (by omega))).bind ?_
  rintro ⟨e1, m1⟩ ⟨h1, f1⟩
  dsimp only at h1 f1 ⊢
  have H1 := h.paste (S := ∅) hw (by omega) (by omega) h1 (by simpa using f1) emp
  obtain ⟨v1, hv1⟩ : ∃ v1, v1 = paste (luV f k) (k + 1) k (A.rows - k - 1) 1
    (fun i j => 1 / luV f k k k * luV f k (k + 1 + i) (k + j)) := ⟨_, rfl⟩
  rw [← hv1] at H1
  refine (C11_mvupdate_partial hmin (A := A.sub (k + 1) (k + 1) (A.rows - k - 1) (A.cols - k - 1))
    (X := A.sub (k + 1) k (A.rows - k - 1) 1) (Y := A.sub k (k + 1) 1 (A.cols - k - 1)) 1 (-1)
    (by rw [View.sub_rows]; omega) (hw.sub (by omega) (by omega)) (Or.inr rfl) (Or.inl rfl) (by simp [View.size])
    (by simp [View.size]) (H1.part (by omega) (by omega)) (H1.part (by omega) (by omega)).toV_col
    (H1.part (by omega) (by omega)).toV_row
    (View.sub_disj hw (by omega) (by omega) (by omega) (by omega) (by omega))
    (View.sub_disj hw (by omega) (by omega) (by omega) (by omega) (by omega))).bind ?_
  rintro ⟨e2, m2⟩ ⟨-, h2, f2⟩
  dsimp only at h2 f2 ⊢
  have H2 := H1.paste (S := ∅) hw (by omega) (by omega) h2 (by simpa using f2) emp
  refine Runs.pure ⟨H2.congr (fun i j hi hj => ?_), ?_⟩
  · by_cases c : k < i ∧ k < j
    · rw [paste_in (by omega), show k + 1 + (i - (k + 1)) = i by omega, show k + 1 + (j - (k + 1)) = j by omega,
        show k + 0 = k by omega, hv1, paste_out (by omega), paste_in (by omega), paste_out (by omega),
        show k + 1 + (i - (k + 1)) = i by omega, show k + (k - k) = k by omega]
      unfold luV
      rw [if_neg (by omega), if_neg (by omega), if_neg (by omega), if_neg (by omega), if_neg (by omega), schur_succ]
      ring
    · rw [paste_out (by omega), hv1]
      by_cases c1 : j = k ∧ k < i
      · obtain ⟨rfl, c1⟩ := c1
        rw [paste_in (by omega), show j + 1 + (i - (j + 1)) = i by omega, show j + (j - j) = j by omega]
        unfold luV luF
        rw [if_neg (by omega), if_neg (by omega), if_pos (by omega), if_pos c1]
        ring
      · rw [paste_out (by omega)]
        unfold luV
        by_cases c2 : min i j < k
        · rw [if_pos c2, if_pos (by omega)]
        · have hik : i = k := by omega
          subst hik
          rw [if_neg c2, if_pos (by omega)]
          unfold luF
          rw [if_neg (by omega)]
  · exact (f1.mono (View.sub_foot (by omega) (by omega))).trans (f2.mono (View.sub_foot (by omega) (by omega)))

theorem unblkLuNopiv_spec {env : Env} (hmin : 2 ≤ env.blas2min ∨ (env.naive = true ∧ env.recursive = false))
    {fuel : Nat} {m : Mem α} {A : View} {f : Nat → Nat → α} (hw : A.WF) (hf : A.rows < fuel) (h : Holds m A f) :
    Runs (unblkLuNopiv env fuel m A) (fun r => r.1 = 0 ∧ Holds r.2 A (luF f) ∧ Frame A.foot m r.2) := by
  unfold unblkLuNopiv
  refine Runs.bind (P := fun r : Nat × Mem α => Holds r.2 A (luV f (min A.rows A.cols)) ∧ Frame A.foot m r.2) ?_ ?_
  · refine Runs.forUp1 (fun k m' => Holds m' A (luV f k) ∧ Frame A.foot m m') (Nat.zero_le _)
      ⟨h.congr (fun i j _ _ => by simp [luV, schur]), Frame.refl _ _⟩ ?_ (fun _ h => h)
    rintro k m1 - hk ⟨h1, f1⟩
    refine (unblkLuNopivStep_spec hmin hw (by omega) (by omega) hf h1).mono ?_
    rintro m2 ⟨h2, f2⟩
    exact ⟨h2, f1.trans f2⟩
  · rintro ⟨_, m1⟩ ⟨h1, f1⟩
    refine Runs.pure ⟨rfl, h1.congr (fun i j hi hj => ?_), f1⟩
    unfold luV
    rw [if_pos (by omega)]

theorem blkLuNopivStep_spec (ab : α → α) {env : Env} {c : Cache} (hc : Conf3 env c)
    (hmin : 2 ≤ env.blas2min ∨ (env.naive = true ∧ env.recursive = false))
    {fuel : Nat} {m : Mem α} {A : View} {f : Nat → Nat → α} {k lb : Nat} (hw : A.WF) (hkr : k + lb ≤ A.rows)
    (hkc : k + lb ≤ A.cols) (hf : 2 * A.rows + A.cols < fuel) (R : c.Ready m) (dA : Disjoint A.foot c.foot)
    (hnz : ∀ p, p < min A.rows A.cols → schur f p p p ≠ 0) (h : Holds m A (luV f k)) :
    Runs (blkLuNopivStep ab env fuel A lb (some c) k m) (fun m' => Holds m' A (luV f (k + lb)) ∧
      Frame (A.foot ∪ c.foot) m m' ∧ c.Ready m') := by
  unfold blkLuNopivStep
  have emp : Disjoint A.foot (∅ : Set Nat) := Set.disjoint_empty _
  have dsub : ∀ {r cc nr nc : Nat}, r + nr ≤ A.rows → cc + nc ≤ A.cols → Disjoint (A.sub r cc nr nc).foot c.foot :=
    fun h1 h2 => dA.mono_left (View.sub_foot h1 h2)
  have fr : ∀ {m m' : Mem α} {r cc nr nc : Nat}, r + nr ≤ A.rows → cc + nc ≤ A.cols →
      Frame ((A.sub r cc nr nc).foot ∪ c.foot) m m' → Frame (A.foot ∪ c.foot) m m' :=
    fun h1 h2 h => h.mono (Set.union_subset_union_left _ (View.sub_foot h1 h2))
  have oldV : ∀ i j, luV f k (k + i) (k + j) = schur f k (k + i) (k + j) :=
    fun i j => by unfold luV; rw [if_neg (by omega)]
  -- diagonal block
  refine (unblkLuNopiv_spec hmin (A := A.sub k k lb lb) (f := fun i j => schur f k (k + i) (k + j))
    (hw.sub (by omega) (by omega)) (by rw [View.sub_rows]; omega)
    ((h.part (by omega) (by omega)).congr (fun i j _ _ => oldV i j))).bind ?_
  rintro ⟨e1, m1⟩ ⟨-, h1, f1⟩
  dsimp only at h1 f1 ⊢
  have H1 := h.paste (S := ∅) hw (by omega) (by omega) h1 (by simpa using f1) emp
  obtain ⟨v1, hv1⟩ : ∃ v1, v1 = paste (luV f k) k k lb lb (luF fun i j => schur f k (k + i) (k + j)) := ⟨_, rfl⟩
  rw [← hv1] at H1
  have c1 : ∀ i j, i < lb → j < lb → v1 (k + i) (k + j) = luF f (k + i) (k + j) := by
    intro i j hi hj
    rw [hv1, paste_in (by omega), show k + i - k = i by omega, show k + j - k = j by omega, luF_shift]
  have o1 : ∀ i j, ¬ (k ≤ i ∧ i < k + lb ∧ k ≤ j ∧ j < k + lb) → v1 i j = luV f k i j :=
    fun i j hj => by rw [hv1, paste_out hj]
  have F1 : Frame (A.foot ∪ c.foot) m m1 := f1.mono ((View.sub_foot (by omega) (by omega)).trans Set.subset_union_left)
  have R1 : c.Ready m1 := R.frame f1 (dsub (by omega) (by omega)).symm
  clear hv1 h1 f1
  -- right of it
  have d2 : Disjoint (A.sub k k lb lb).foot (A.sub k (k + lb) lb (A.cols - k - lb)).foot :=
    View.sub_disj hw (by omega) (by omega) (by omega) (by omega) (by omega)
  refine (solveTrm_eq ab hc.min2 (c := c) (m := m1) (B := A.sub k (k + lb) lb (A.cols - k - lb))
    (A := A.sub k k lb lb) (fl := { left := true, lower := true, unit := true }) (fuel := fuel)
    (Z := fun i j => luF f (k + i) (k + lb + j))
    ⟨by simp, rfl, rfl, hw.sub (by omega) (by omega), rfl, rfl, R1, hc.rb, H1.part (by omega) (by omega),
      HoldsOn.of_holds (H1.part (by omega) (by omega)),
      d2.mono_left (View.footOn_sub_foot _ _),
      (dsub (by omega) (by omega)).mono_left (View.footOn_sub_foot _ _),
      dsub (by omega) (by omega)⟩ rfl rfl (Or.inl rfl)
    (by simp only [View.sub_rows, View.sub_cols]; omega) ?_).bind ?_
  · intro i j hi hj
    rw [View.sub_rows] at hi
    rw [View.sub_cols] at hj
    rw [o1 _ _ (by omega), show k + lb + j = k + (lb + j) by omega, oldV]
    simp only [triProd, View.sub_cols, Bool.false_eq_true, if_false]
    rw [schur_full (f := f) (a := k) (k := k + lb) (fun p hp => hnz p (by omega)) (Or.inl (by omega)) (by omega),
      Finset.sum_Ico_eq_sum_range, show k + lb - k = lb by omega]
    refine Finset.sum_congr rfl (fun p hp => ?_)
    have hp' := Finset.mem_range.mp hp
    rw [← lu_term (f := f) (v := luF f) (r := k + lb) (fun p hp => hnz p (by omega)) (i := k + i) (j := k + (lb + j))
      (p := k + p) (by omega) (fun _ => rfl) (fun _ => rfl), trmU_le (by omega), trm_shift,
      show k + lb + j = k + (lb + j) by omega]
    congr 1
    exact trmL_congr (fun _ => c1 i p hi hp')
  rintro ⟨e2, m2⟩ ⟨-, h2, f2, R2⟩
  dsimp only at h2 f2 R2 ⊢
  have H2 := H1.paste hw (by omega) (by omega) h2 f2 dA
  obtain ⟨v2, hv2⟩ : ∃ v2, v2 = paste v1 k (k + lb) lb (A.cols - k - lb) (fun i j => luF f (k + i) (k + lb + j)) :=
    ⟨_, rfl⟩
  rw [← hv2] at H2
  have c2 : ∀ i j, i < lb → j < A.cols - k → v2 (k + i) (k + j) = luF f (k + i) (k + j) := by
    intro i j hi hj
    by_cases hj' : j < lb
    · rw [hv2, paste_out (by omega), c1 i j hi hj']
    · rw [hv2, paste_in (by omega), show k + i - k = i by omega, show k + lb + (k + j - (k + lb)) = k + j by omega]
  have o2 : ∀ i j, i < A.rows → j < A.cols → ¬ (k ≤ i ∧ i < k + lb ∧ k ≤ j) → v2 i j = luV f k i j :=
    fun i j hi hj hij => by rw [hv2, paste_out (by omega), o1 i j (by omega)]
  have F2 := F1.trans (fr (by omega) (by omega) f2)
  clear hv2 h2 f2 o1 c1 H1
  -- below it
  have d3 : Disjoint (A.sub k k lb lb).foot (A.sub (k + lb) k (A.rows - k - lb) lb).foot :=
    View.sub_disj hw (by omega) (by omega) (by omega) (by omega) (by omega)
  refine (solveTrm_eq ab hc.min2 (c := c) (m := m2) (B := A.sub (k + lb) k (A.rows - k - lb) lb)
    (A := A.sub k k lb lb) (fl := { right := true, upper := true }) (fuel := fuel)
    (Z := fun i j => luF f (k + lb + i) (k + j))
    ⟨by simp, rfl, rfl, hw.sub (by omega) (by omega), rfl, rfl, R2, hc.rb, H2.part (by omega) (by omega),
      HoldsOn.of_holds (H2.part (by omega) (by omega)),
      d3.mono_left (View.footOn_sub_foot _ _),
      (dsub (by omega) (by omega)).mono_left (View.footOn_sub_foot _ _),
      dsub (by omega) (by omega)⟩ rfl rfl (Or.inr ?_)
    (by simp only [View.sub_rows, View.sub_cols]; omega) ?_).bind ?_
  · intro i hi
    rw [View.sub_cols] at hi
    rw [c2 i i hi (by omega)]
    unfold luF
    rw [if_neg (by omega)]
    exact hnz _ (by omega)
  · intro i j hi hj
    rw [View.sub_rows] at hi
    rw [View.sub_cols] at hj
    rw [o2 _ _ (by omega) (by omega) (by omega), show k + lb + i = k + (lb + i) by omega, oldV]
    simp only [triProd, View.sub_cols, Bool.false_eq_true, if_false, if_true]
    rw [schur_full (f := f) (a := k) (k := k + lb) (fun p hp => hnz p (by omega)) (Or.inr (by omega)) (by omega),
      Finset.sum_Ico_eq_sum_range, show k + lb - k = lb by omega]
    refine Finset.sum_congr rfl (fun p hp => ?_)
    have hp' := Finset.mem_range.mp hp
    rw [← lu_term (f := f) (v := luF f) (r := k + lb) (fun p hp => hnz p (by omega)) (i := k + (lb + i)) (j := k + j)
      (p := k + p) (by omega) (fun _ => rfl) (fun _ => rfl), trmL_lt (by omega), trm_shift,
      show k + lb + i = k + (lb + i) by omega]
    congr 1
    rcases Nat.lt_or_ge j p with hh | hh
    · rw [trmU_gt (by omega), trmU_gt (by omega)]
    · rw [trmU_le (by omega), trmU_le (by omega), c2 p j hp' (by omega)]
  rintro ⟨e3, m3⟩ ⟨-, h3, f3, R3⟩
  dsimp only at h3 f3 R3 ⊢
  have H3 := H2.paste hw (by omega) (by omega) h3 f3 dA
  obtain ⟨v3, hv3⟩ : ∃ v3, v3 = paste v2 (k + lb) k (A.rows - k - lb) lb (fun i j => luF f (k + lb + i) (k + j)) :=
    ⟨_, rfl⟩
  rw [← hv3] at H3
  have c3 : ∀ i j, i < A.rows → j < A.cols → k ≤ i → k ≤ j → min i j < k + lb → v3 i j = luF f i j := by
    intro i j hi hj hi' hj' hij
    by_cases h' : i < k + lb
    · have := c2 (i - k) (j - k) (by omega) (by omega)
      rw [show k + (i - k) = i by omega, show k + (j - k) = j by omega] at this
      rw [hv3, paste_out (by omega), this]
    · rw [hv3, paste_in (by omega), show k + lb + (i - (k + lb)) = i by omega, show k + (j - k) = j by omega]
  have o3 : ∀ i j, i < A.rows → j < A.cols → (min i j < k ∨ k + lb ≤ min i j) → v3 i j = luV f k i j :=
    fun i j hi hj hij => by rw [hv3, paste_out (by omega), o2 i j hi hj (by omega)]
  have F3 := F2.trans (fr (by omega) (by omega) f3)
  clear hv3 h3 f3 o2 c2 H2
  -- the rest
  refine (mult_sub ab (C := A.sub (k + lb) (k + lb) (A.rows - k - lb) (A.cols - k - lb))
    (A := A.sub (k + lb) k (A.rows - k - lb) lb) (B := A.sub k (k + lb) lb (A.cols - k - lb))
    (hw.sub (by omega) (by omega))
    R3 (H3.part (by omega) (by omega)) (H3.part (by omega) (by omega)) (H3.part (by omega) (by omega))
    (dsub (by omega) (by omega)) (dsub (by omega) (by omega)) (dsub (by omega) (by omega))
    (View.sub_disj hw (by omega) (by omega) (by omega) (by omega) (by omega))
    (View.sub_disj hw (by omega) (by omega) (by omega) (by omega) (by omega)) rfl rfl rfl).bind ?_
  rintro ⟨e4, m4⟩ ⟨-, h4, f4, R4⟩
  dsimp only at h4 f4 R4 ⊢
  have H4 := H3.paste hw (by omega) (by omega) h4 f4 dA
  refine Runs.pure ⟨H4.congr (fun i j hi hj => ?_), F3.trans (fr (by omega) (by omega) f4), R4⟩
  by_cases c : k + lb ≤ i ∧ k + lb ≤ j
  · rw [paste_in (by omega), show k + lb + (i - (k + lb)) = i by omega, show k + lb + (j - (k + lb)) = j by omega,
      o3 i j hi hj (by omega), View.sub_cols]
    unfold luV
    rw [if_neg (by omega), if_neg (by omega), schur_sum f (show k ≤ k + lb by omega) i j,
      Finset.sum_Ico_eq_sum_range, show k + lb - k = lb by omega]
    rw [sub_eq_iff_eq_add, add_comm]
    congr 1
    refine Finset.sum_congr rfl (fun p hp => ?_)
    have hp' := Finset.mem_range.mp hp
    rw [c3 _ _ hi (by omega) (by omega) (by omega) (by omega), c3 _ _ (by omega) hj (by omega) (by omega) (by omega)]
    unfold luF
    rw [if_pos (by omega), if_neg (by omega)]
    ring
  · rw [paste_out (by omega)]
    unfold luV
    by_cases c' : min i j < k
    · rw [o3 i j hi hj (by omega), if_pos (by omega)]
      unfold luV
      rw [if_pos c']
    · rw [c3 i j hi hj (by omega) (by omega) (by omega), if_pos (by omega)]

theorem blkLuNopiv_spec (ab : α → α) {env : Env} {c : Cache} (hc : Conf3 env c)
    (hmin : 2 ≤ env.blas2min ∨ (env.naive = true ∧ env.recursive = false))
    {fuel : Nat} {m : Mem α} {A : View} {f : Nat → Nat → α} {lb : Nat} (hw : A.WF) (hlb : 0 < lb)
    (hf : 2 * A.rows + A.cols < fuel) (R : c.Ready m) (dA : Disjoint A.foot c.foot)
    (hnz : ∀ p, p < min A.rows A.cols → schur f p p p ≠ 0) (h : Holds m A f) :
    Runs (blkLuNopiv ab env fuel m A lb (some c)) (fun r => r.1 = 0 ∧ Holds r.2 A (luF f) ∧
      Frame (A.foot ∪ c.foot) m r.2 ∧ c.Ready r.2) := by
  unfold blkLuNopiv
  have emp : Disjoint A.foot (∅ : Set Nat) := Set.disjoint_empty _
  refine Runs.bind (P := fun r : Nat × Mem α => r.1 ≤ min A.rows A.cols ∧ Holds r.2 A (luV f r.1) ∧
    Frame (A.foot ∪ c.foot) m r.2 ∧ c.Ready r.2) ?_ ?_
  · refine Runs.forUp (fun k m' => k ≤ min A.rows A.cols ∧ Holds m' A (luV f k) ∧ Frame (A.foot ∪ c.foot) m m' ∧
      c.Ready m') hlb
      ⟨Nat.zero_le _, h.congr (fun i j _ _ => by simp [luV, schur]), Frame.refl _ _, R⟩ ?_ (fun _ _ _ _ h => h)
    rintro k m1 - hk ⟨h0, h1, f1, R1⟩
    refine (blkLuNopivStep_spec ab hc hmin hw (by omega) (by omega) hf R1 dA hnz h1).mono ?_
    rintro m2 ⟨h2, f2, R2⟩
    exact ⟨by omega, h2, f1.trans f2, R2⟩
  · rintro ⟨k, m1⟩ ⟨hk, h1, f1, R1⟩
    dsimp only at hk h1 f1 R1 ⊢
    split
    · rename_i hc'
      refine (unblkLuNopiv_spec hmin (A := A.sub k k (A.rows - k) (A.cols - k))
        (f := fun i j => schur f k (k + i) (k + j))
        (hw.sub (by omega) (by omega)) (by rw [View.sub_rows]; omega)
        ((h1.part (by omega) (by omega)).congr (fun i j _ _ => by unfold luV; rw [if_neg (by omega)]))).bind ?_
      rintro ⟨e2, m2⟩ ⟨-, h2, f2⟩
      dsimp only at h2 f2 ⊢
      have H2 := h1.paste (S := ∅) hw (by omega) (by omega) h2 (by simpa using f2) emp
      refine Runs.pure ⟨rfl, H2.congr (fun i j hi hj => ?_),
        f1.trans (f2.mono ((View.sub_foot (by omega) (by omega)).trans Set.subset_union_left)),
        R1.frame f2 (dA.mono_left (View.sub_foot (by omega) (by omega))).symm⟩
      by_cases c' : k ≤ i ∧ k ≤ j
      · rw [paste_in (by omega), luF_shift, show k + (i - k) = i by omega, show k + (j - k) = j by omega]
      · rw [paste_out (by omega)]
        unfold luV
        rw [if_pos (by omega)]
    · refine Runs.pure ⟨rfl, h1.congr (fun i j hi hj => ?_), f1, R1⟩
      unfold luV
      rw [if_pos (by omega)]

end code

end Armas
