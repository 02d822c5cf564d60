import Verif.TriInv
import Verif.Inv

/-!
# Specification of `armas_inverse_trm`
-/

namespace Armas

open Finset Props

variable {α : Type} [Field α] [DecidableEq α]

theorem TriInv.trm_eq {up : Bool} {n : Nat} {t g : Nat → Nat → α} (h : TriInv up n t g) {i j : Nat}
    (hi : i < n) (hj : j < n) : trm up false g i j = g i j := by
  by_cases e : i = j
  · subst e; simp [trm]
  · by_cases c : if up then i < j else j < i
    · unfold trm; rw [if_neg e, if_pos c]
    · unfold trm
      rw [if_neg e, if_neg c, h.zero i j hi hj (by cases up <;> simp at c ⊢ <;> omega)]

/-- Column `k` of the inverse of an upper triangular matrix from the inverse of the block above. -/
theorem TriInv.col_upper {n : Nat} {a g : Nat → Nat → α} (h : TriInv true n (trm true false a) g) {k i : Nat}
    (hk : k < n) (hi : i < k) (hd : a k k ≠ 0) :
    -(1 / a k k) * ∑ j ∈ range k, trm true false g i j * a j k = g i k := by
  have e := h.left i k (by omega) hk
  rw [if_neg (by omega)] at e
  have e2 : ∑ p ∈ range n, g i p * trm true false a p k = ∑ p ∈ range (k + 1), g i p * trm true false a p k := by
    symm
    refine Finset.sum_subset (fun p hp => ?_) (fun p hp hn => ?_)
    · rw [Finset.mem_range] at *; omega
    · rw [Finset.mem_range] at *
      rw [trm_tri true false a (by simp; omega), mul_zero]
  rw [e2, Finset.sum_range_succ] at e
  have e3 : ∑ p ∈ range k, g i p * trm true false a p k = ∑ j ∈ range k, trm true false g i j * a j k := by
    refine Finset.sum_congr rfl (fun p hp => ?_)
    rw [Finset.mem_range] at hp
    have h1 : trm true false a p k = a p k := by
      unfold trm; rw [if_neg (by omega)]; simp; omega
    have h2 := h.trm_eq (i := i) (j := p) (by omega) (by omega)
    rw [h1, h2]
  rw [e3] at e
  have h1 : trm true false a k k = a k k := by simp [trm]
  rw [h1] at e
  have : ∑ j ∈ range k, trm true false g i j * a j k = -(g i k * a k k) := by linear_combination e
  rw [this]
  field_simp

theorem TriInv.diag_trm {up : Bool} {n : Nat} {a g : Nat → Nat → α} (h : TriInv up n (trm up false a) g) {k : Nat}
    (hk : k < n) : g k k = 1 / a k k := by
  have e := h.diag (fun i j _ _ hc => trm_tri up false a hc) hk
  have h1 : trm up false a k k = a k k := by simp [trm]
  rw [h1] at e
  exact eq_one_div_of_mul_eq_one_left e

theorem unblkInvUpperStep_spec (ab : α → α) {env : Env} (hmin : env.blas2min ≠ 1 ∨ env.naive = true) {fuel : Nat}
    {m m1 : Mem α} {A : View} {a g : Nat → Nat → α} {unit : Bool} (hw : A.WF) (hsq : A.cols = A.rows)
    (hf : A.rows + 1 < fuel) {k : Nat} (hk : k < A.rows) (hd : a k k ≠ 0) (hu : unit = true → a k k = 1)
    (hg : TriInv true A.rows (trm true false a) g)
    (h1 : UpdX m A (InTri true false) ∅ a g (fun _ j => j < k) m1) (err : Int) :
    Runs (unblkInvUpperStep ab env fuel A unit k (err, m1)) (fun r => r.1 = err ∧
      UpdX m A (InTri true false) ∅ a g (fun _ j => j < k + 1) r.2) := by
  have main : ∀ m2, UpdX m A (InTri true false) ∅ a g (fun i j => j < k ∨ (i = k ∧ j = k)) m2 →
      Runs (mvmultTrm ab env fuel m2 (A.sub 0 k k 1) (-(1 / a k k)) (A.sub 0 0 k k) { upper := true }) (fun r =>
        UpdX m A (InTri true false) ∅ a g (fun _ j => j < k + 1) r.2) := by
    intro m2 h2
    have sz : (A.sub 0 k k 1).size = k := by simp [View.size]
    have hx : HoldsV m2 (A.sub 0 k k 1) (fun i => a i k) := by
      have := (h2.block_old (r := 0) (c := k) (nr := k) (nc := 1) (by omega) (by omega)
        (by simp [InTri]; omega)).toV_col
      refine this.congr (fun i hi => ?_)
      simp
    have s := C12_mvmult_trm_partial ab hmin (-(1 / a k k)) (fl := { upper := true }) rfl (fuel := fuel) (m := m2)
      (X := A.sub 0 k k 1) (A := A.sub 0 0 k k) (x := fun i => a i k) (a := g) (Or.inr rfl)
      (hw.sub (by omega) (by omega)) (hw.sub (by omega) (by omega)) (by rw [sz]; rfl) (by rw [sz]; rfl)
      (by rw [sz]; omega) hx
      ((h2.part_new (U := InTri true false) (r := 0) (c := 0) (by omega) (by omega)
        (by simp [InTri]; omega)).congr (by intros; simp))
      ((View.sub_disj hw (by omega) (by omega) (by omega) (by omega) (by omega)).mono_left
        (View.footOn_sub_foot _ _))
    refine s.mono ?_
    rintro ⟨e, m3⟩ ⟨-, h3, f3⟩
    rw [sz] at h3
    have h3' : Holds m3 (A.sub 0 k k 1) (fun i j => g (0 + i) (k + j)) := by
      rw [holdsV_iff (Or.inr rfl)] at h3
      refine h3.congr (fun i j hi hj => ?_)
      rw [View.sub_rows] at hi
      rw [View.sub_cols] at hj
      obtain rfl : j = 0 := by omega
      rw [Nat.zero_add, Nat.add_zero]
      have hik : (if (A.sub 0 k k 1).rows = 1 then 0 else i) = i := by
        rw [View.sub_rows]; split <;> omega
      have := hg.col_upper hk hi hd
      simpa [View.sub_rows, hik] using this
    have u := h2.block hw (by simp) (r := 0) (c := k) (nr := k) (nc := 1) (by omega) (by omega)
      (by simp [InTri]; omega) h3' (f3.mono Set.subset_union_left)
    exact u.congr (fun i j hi hj ht => by simp [InTri] at ht; omega)
  unfold unblkInvUpperStep
  dsimp only
  cases unit
  · rw [if_neg (by simp)]
    refine Runs.rd_bind (h1.at_old hk (by omega) (by simp [InTri]) (by omega)) ?_
    rw [if_neg hd]
    refine Runs.wr_bind (h1.at_old hk (by omega) (by simp [InTri]) (by omega)) ?_
    refine (main _ (h1.cell hw hk (by omega) (by simp [InTri]) (hg.diag_trm hk).symm)).bind ?_
    rintro ⟨e, m3⟩ h3
    exact Runs.pure ⟨rfl, h3⟩
  · rw [if_pos rfl]
    have hd1 := hu rfl
    have h2 : UpdX m A (InTri true false) ∅ a g (fun i j => j < k ∨ (i = k ∧ j = k)) m1 := by
      refine ⟨h1.hold.congr (fun i j _ _ _ => ?_), h1.frame⟩
      by_cases c : j < k
      · simp [c]
      · by_cases c2 : i = k ∧ j = k
        · obtain ⟨rfl, rfl⟩ := c2
          simp [hg.diag_trm hk, hd1]
        · simp [c, c2]
    have := main _ h2
    rw [hd1, div_one] at this
    refine this.bind ?_
    rintro ⟨e, m3⟩ h3
    exact Runs.pure ⟨rfl, h3⟩

theorem unblkInvUpper_spec (ab : α → α) {env : Env} (hmin : env.blas2min ≠ 1 ∨ env.naive = true) {fuel : Nat}
    {m : Mem α} {A : View} {a g : Nat → Nat → α} {unit : Bool} (hw : A.WF) (hsq : A.cols = A.rows)
    (hf : A.rows + 1 < fuel) (hA : HoldsOn m A (InTri true false) a) (hd : ∀ i, i < A.rows → a i i ≠ 0)
    (hu : unit = true → ∀ i, i < A.rows → a i i = 1) (hg : TriInv true A.rows (trm true false a) g) :
    Runs (unblkInvUpper ab env fuel m A unit) (fun r => r.1 = 0 ∧ HoldsOn r.2 A (InTri true false) g ∧
      Frame (A.footOn (InTri true false)) m r.2) := by
  unfold unblkInvUpper
  rw [hsq, min_self]
  refine Runs.bind (P := fun x => x.2.1 = 0 ∧ UpdX m A (InTri true false) ∅ a g (fun _ j => j < A.rows) x.2.2)
    (Runs.forUp1 (fun k (st : Int × Mem α) => st.1 = 0 ∧
      UpdX m A (InTri true false) ∅ a g (fun _ j => j < k) st.2) (Nat.zero_le _)
      ⟨rfl, (UpdX.init hA g ∅).congr (by intros; omega)⟩ ?_ (fun st hst => hst)) ?_
  · rintro k ⟨err, m1⟩ - hk ⟨he, h1⟩
    refine (unblkInvUpperStep_spec ab hmin hw hsq hf hk (hd k hk) (fun e => hu e k hk) hg h1 err).mono ?_
    rintro r ⟨h2, h3⟩
    exact ⟨h2.trans he, h3⟩
  · rintro ⟨k, err, m1⟩ ⟨he, h1⟩
    exact Runs.pure ⟨he, h1.fin (fun i j hi hj _ hS => by omega), by simpa using h1.frame⟩

/-! ## Blocks -/

theorem trm_unit {up unit : Bool} {n : Nat} {a : Nat → Nat → α} (hu : unit = true → ∀ i, i < n → a i i = 1)
    {i j : Nat} (hi : i < n) : trm up unit a i j = trm up false a i j := by
  unfold trm
  split
  · cases unit
    · rfl
    · simp [hu rfl i hi]
  · rfl

omit [DecidableEq α] in
theorem TriInv.rows_upper {n : Nat} {a g : Nat → Nat → α} (h : TriInv true n (trm true false a) g) {k nb i j : Nat}
    (hk : k + nb ≤ n) (hi : i < k) (hj : j < nb) :
    ∑ q ∈ range nb, g i (k + q) * trm true false a (k + q) (k + j) = -∑ p ∈ range k, g i p * a p (k + j) := by
  have e := h.left i (k + j) (by omega) (by omega)
  rw [if_neg (by omega)] at e
  have e2 : ∑ p ∈ range n, g i p * trm true false a p (k + j) =
      ∑ p ∈ range (k + nb), g i p * trm true false a p (k + j) := by
    symm
    refine Finset.sum_subset (fun p hp => ?_) (fun p hp hn => ?_)
    · rw [Finset.mem_range] at *; omega
    · rw [Finset.mem_range] at *
      rw [trm_tri true false a (by simp; omega), mul_zero]
  rw [e2, Finset.sum_range_add] at e
  have e3 : ∑ p ∈ range k, g i p * trm true false a p (k + j) = ∑ p ∈ range k, g i p * a p (k + j) := by
    refine Finset.sum_congr rfl (fun p hp => ?_)
    rw [Finset.mem_range] at hp
    unfold trm; rw [if_neg (by omega), if_pos (by simp; omega)]
  rw [e3] at e
  linear_combination e

omit [DecidableEq α] in
theorem TriInv.rows_lower {n : Nat} {a g : Nat → Nat → α} (h : TriInv false n (trm false false a) g)
    {k nb s i j : Nat} (hk : n = k + nb + s) (hi : i < s) (hj : j < nb) :
    ∑ q ∈ range nb, g (k + nb + i) (k + q) * trm false false a (k + q) (k + j) =
      -∑ p ∈ range s, g (k + nb + i) (k + nb + p) * a (k + nb + p) (k + j) := by
  have e := h.left (k + nb + i) (k + j) (by omega) (by omega)
  rw [if_neg (by omega), hk, Finset.sum_range_add, Finset.sum_range_add] at e
  have e1 : ∑ p ∈ range k, g (k + nb + i) p * trm false false a p (k + j) = 0 := by
    refine Finset.sum_eq_zero (fun p hp => ?_)
    rw [Finset.mem_range] at hp
    rw [trm_tri false false a (by simp; omega), mul_zero]
  have e3 : ∑ p ∈ range s, g (k + nb + i) (k + nb + p) * trm false false a (k + nb + p) (k + j) =
      ∑ p ∈ range s, g (k + nb + i) (k + nb + p) * a (k + nb + p) (k + j) := by
    refine Finset.sum_congr rfl (fun p hp => ?_)
    rw [Finset.mem_range] at hp
    unfold trm; rw [if_neg (by omega), if_pos (by simp; omega)]
  rw [e1, e3, zero_add] at e
  linear_combination e

/-- The recursion of `armas_solve_trm` is not entered with the factor -1 (see C19). -/
def NoRec (env : Env) (c : Cache) (n : Nat) : Prop :=
  env.naive = true ∨ n < env.blas2min ∨ (env.recursive = false ∧ c.NB < env.blas2min)

theorem inTri_weaken {up unit : Bool} {i j : Nat} (h : InTri up unit i j) : InTri up false i j := by
  revert h; cases up <;> cases unit <;> simp [InTri] <;> omega

theorem blkInvUpperStep_spec (ab : α → α) {env : Env} {c : Cache} (hc : Conf3 env c) {fuel : Nat}
    {m m1 : Mem α} {A : View} {a g : Nat → Nat → α} {unit : Bool} (hw : A.WF) (hsq : A.cols = A.rows)
    (hf : 3 * A.rows + 1 < fuel) {lb k : Nat} (hk : k < A.rows) (hlb : NoRec env c lb)
    (hd : ∀ i, i < A.rows → a i i ≠ 0) (hu : unit = true → ∀ i, i < A.rows → a i i = 1)
    (hg : TriInv true A.rows (trm true false a) g) (R1 : c.Ready m1)
    (dAc : Disjoint (A.footOn (InTri true false)) c.foot)
    (h1 : UpdX m A (InTri true false) c.foot a g (fun _ j => j < k) m1) (err : Int) :
    Runs (blkInvUpperStep ab env fuel A unit lb (some c) k (err, m1)) (fun r => r.1 = err ∧
      UpdX m A (InTri true false) c.foot a g (fun _ j => j < k + lb) r.2 ∧ c.Ready r.2) := by
  have hz : ∀ i j, i < A.rows → j < A.rows → (if true then j < i else i < j) → trm true false a i j = 0 :=
    fun i j _ _ hc => trm_tri true false a hc
  unfold blkInvUpperStep
  rw [hsq, min_self]
  dsimp only
  obtain ⟨nb, hnb⟩ : ∃ nb, nb = min lb (A.rows - k) := ⟨_, rfl⟩
  rw [← hnb]
  have dblk : ∀ {r cc nr nc : Nat}, r + nr ≤ A.rows → cc + nc ≤ A.cols →
      (∀ i j, i < nr → j < nc → InTri true false (r + i) (cc + j)) →
      Disjoint (A.sub r cc nr nc).foot c.foot := fun hr hc hU =>
    dAc.mono_left (View.foot_sub_footOn hr hc hU)
  have dtri : ∀ {r nr : Nat}, r + nr ≤ A.rows →
      Disjoint ((A.sub r r nr nr).footOn (InTri true unit)) c.foot := fun hr =>
    dAc.mono_left (View.footOn_sub hr (by omega) (fun i j _ _ h => (inTri_shift _ _ _ _ _).mpr (inTri_weaken h)))
  have gu : unit = true → ∀ i, i < A.rows → g i i = 1 := by
    intro e i hi
    rw [hg.diag_trm hi, hu e i hi, div_one]
  -- A01 := G00 * A01
  have s1 := multTrm_ready ab hc.min2 (c := c) (m := m1) (B := A.sub 0 k k nb) (A := A.sub 0 0 k k)
    (f := fun i j => a i (k + j)) (a := g) (1 : α) (fl := { left := true, upper := true, unit := unit })
    (fuel := fuel)
    ⟨fun h => by simp at h, rfl, rfl, hw.sub (by omega) (by omega), rfl, rfl, R1, hc.rb,
      (h1.block_old (by omega) (by omega) (by simp [InTri]; omega)).congr (by intros; simp),
      (h1.part_new (U := InTri true unit) (r := 0) (c := 0) (by omega) (by omega)
        (fun i j _ hj h => ⟨by simpa using inTri_weaken h, by omega⟩)).congr (by intros; simp),
      (View.sub_disj hw (by omega) (by omega) (by omega) (by omega) (by omega)).mono_left
        (View.footOn_sub_foot _ _), dtri (by omega), dblk (by omega) (by omega) (by simp [InTri]; omega)⟩
    (by simp only [View.sub_rows, View.sub_cols]; omega)
  refine s1.bind ?_
  rintro ⟨e2, m2⟩ ⟨-, h2, f2, R2⟩
  dsimp only at h2 f2 R2 ⊢
  have dsub : Disjoint ((A.sub k k nb nb).footOn (InTri true false)) ((A.sub 0 k k nb).foot ∪ c.foot) :=
    Set.disjoint_union_right.mpr ⟨(View.sub_disj hw (by omega) (by omega) (by omega) (by omega)
      (by omega)).mono_left (View.footOn_sub_foot _ _),
      dAc.mono_left (View.footOn_sub (by omega) (by omega) (by simp [InTri]))⟩
  have hA11 : HoldsOn m2 (A.sub k k nb nb) (InTri true false) (fun i j => a (k + i) (k + j)) :=
    (h1.part_old (U := InTri true false) (by omega) (by omega) (by simp [InTri])).frame f2 dsub
  -- A01 := -A01 * inv(A11)
  have s2 := solveTrm_eq_alpha ab hc.min2 (c := c) (m := m2) (B := A.sub 0 k k nb) (A := A.sub k k nb nb)
    (f := fun i j => 1 * triProd { left := true, upper := true, unit := unit } (A.sub 0 0 k k).cols g
      (fun i j => a i (k + j)) i j)
    (a := fun i j => a (k + i) (k + j)) (Z := fun i j => g (0 + i) (k + j)) (-1)
    (fl := { right := true, upper := true, unit := unit }) (fuel := fuel)
    ⟨fun _ => rfl, rfl, rfl, hw.sub (by omega) (by omega), rfl, rfl, R2, hc.rb, h2,
      fun i j hi hj h => hA11 i j hi hj (inTri_weaken h),
      (View.sub_disj hw (by omega) (by omega) (by omega) (by omega) (by omega)).mono_left
        (View.footOn_sub_foot _ _), dtri (by omega), dblk (by omega) (by omega) (by simp [InTri]; omega)⟩
    rfl rfl (Or.inr (fun i hi => hd _ (by rw [View.sub_cols] at hi; omega)))
    (by
      rw [View.sub_cols]
      rcases hlb with h | h | h
      · exact Or.inr (Or.inl h)
      · exact Or.inr (Or.inr (Or.inl (by omega)))
      · exact Or.inr (Or.inr (Or.inr h)))
    (by simp only [View.sub_rows, View.sub_cols]; omega)
    (fun i j hi hj => by
      rw [View.sub_rows] at hi
      rw [View.sub_cols] at hj
      simp only [triProd, View.sub_cols, if_true, Bool.false_eq_true, if_false, one_mul, neg_mul, Nat.zero_add]
      have := hg.rows_upper (k := k) (nb := nb) (by omega) hi hj
      rw [show ∑ q ∈ range nb, g i (k + q) * trm true unit (fun i j => a (k + i) (k + j)) q j =
        ∑ q ∈ range nb, g i (k + q) * trm true false a (k + q) (k + j) from
        Finset.sum_congr rfl (fun q hq => by
          rw [Finset.mem_range] at hq
          rw [trm_shift, trm_unit hu (by omega)]), this]
      congr 1
      refine Finset.sum_congr rfl (fun p hp => ?_)
      rw [Finset.mem_range] at hp
      rw [trm_unit gu (by omega), hg.trm_eq (by omega) (by omega)])
  refine s2.bind ?_
  rintro ⟨e3, m3⟩ ⟨-, h3, f3, R3⟩
  dsimp only at h3 f3 R3 ⊢
  have u3 := h1.block hw dAc (r := 0) (c := k) (nr := k) (nc := nb) (by omega) (by omega)
    (by simp [InTri]; omega) h3 (f2.trans f3)
  have hA11' := hA11.frame f3 dsub
  -- inverse of the diagonal block
  have s3 := unblkInvUpper_spec ab (env := env) (by rcases hc.min2 with h | h; · left; omega
                                                    · exact Or.inr h.1)
    (fuel := fuel) (m := m3) (A := A.sub k k nb nb) (a := fun i j => a (k + i) (k + j))
    (g := fun i j => g (k + i) (k + j)) (unit := unit) (hw.sub (by omega) (by omega)) rfl
    (by rw [View.sub_rows]; omega) hA11' (fun i hi => hd _ (by rw [View.sub_rows] at hi; omega))
    (fun e i hi => hu e _ (by rw [View.sub_rows] at hi; omega))
    (by
      rw [View.sub_rows]
      have := hg.block hz (k := k) (nb := nb) (by omega)
      rwa [show trm true false (fun i j => a (k + i) (k + j)) = fun i j => trm true false a (k + i) (k + j) from
        funext fun i => funext fun j => trm_shift _ _ _ _ _ _])
  refine s3.bind ?_
  rintro ⟨e4, m4⟩ ⟨he4, h4, f4⟩
  dsimp only at he4 h4 f4 ⊢
  have u4 := u3.sub hw dAc (U := InTri true false) (r := k) (c := k) (nr := nb) (nc := nb) (by omega) (by omega)
    (by simp [InTri]) h4 (f4.mono Set.subset_union_left)
  refine Runs.pure ⟨by simp [he4], u4.congr (fun i j hi hj ht => ?_),
    R3.frame f4 (dAc.mono_left (View.footOn_sub (by omega) (by omega) (by simp [InTri]))).symm⟩
  simp [InTri] at ht ⊢
  omega

theorem blkInvUpper_spec (ab : α → α) {env : Env} {c : Cache} (hc : Conf3 env c) {fuel : Nat}
    {m : Mem α} {A : View} {a g : Nat → Nat → α} {unit : Bool} (hw : A.WF) (hsq : A.cols = A.rows)
    (hf : 3 * A.rows + 1 < fuel) {lb : Nat} (h0 : 0 < lb) (hlb : NoRec env c lb)
    (hd : ∀ i, i < A.rows → a i i ≠ 0) (hu : unit = true → ∀ i, i < A.rows → a i i = 1)
    (hg : TriInv true A.rows (trm true false a) g) (R : c.Ready m)
    (dAc : Disjoint (A.footOn (InTri true false)) c.foot) (hA : HoldsOn m A (InTri true false) a) :
    Runs (blkInvUpper ab env fuel m A unit lb (some c)) (fun r => r.1 = 0 ∧
      HoldsOn r.2 A (InTri true false) g ∧ Frame (A.footOn (InTri true false) ∪ c.foot) m r.2 ∧
      c.Ready r.2) := by
  unfold blkInvUpper
  rw [hsq, min_self]
  refine Runs.bind (P := fun x => A.rows ≤ x.1 ∧ x.2.1 = 0 ∧
      UpdX m A (InTri true false) c.foot a g (fun _ j => j < x.1) x.2.2 ∧ c.Ready x.2.2)
    (Runs.forUp (fun k (st : Int × Mem α) => st.1 = 0 ∧
      UpdX m A (InTri true false) c.foot a g (fun _ j => j < k) st.2 ∧ c.Ready st.2) h0
      ⟨rfl, (UpdX.init hA g _).congr (by intros; omega), R⟩ ?_ (fun k st hk _ hst => ⟨hk, hst⟩)) ?_
  · rintro k ⟨err, m1⟩ - hk ⟨he, h1, R1⟩
    refine (blkInvUpperStep_spec ab hc hw hsq hf hk hlb hd hu hg R1 dAc h1 err).mono ?_
    rintro r ⟨h2, h3, h4⟩
    exact ⟨h2.trans he, h3, h4⟩
  · rintro ⟨k, err, m1⟩ ⟨hk, he, h1, R1⟩
    exact Runs.pure ⟨he, h1.fin (fun i j hi hj _ hS => by dsimp only at *; omega), h1.frame, R1⟩

/-! ## Lower triangles -/

theorem unblkInvLowerStep_spec (ab : α → α) {env : Env} (hmin : env.blas2min ≠ 1 ∨ env.naive = true) {fuel : Nat}
    {m m1 : Mem α} {A : View} {a g : Nat → Nat → α} {unit : Bool} (hw : A.WF) (hsq : A.cols = A.rows)
    (hf : A.rows + 1 < fuel) {k : Nat} (hk : k < A.rows) (hd : a k k ≠ 0) (hu : unit = true → a k k = 1)
    (hg : TriInv false A.rows (trm false false a) g)
    (h1 : UpdX m A (InTri false false) ∅ a g (fun _ j => k + 1 ≤ j) m1) (err : Int) :
    Runs (unblkInvLowerStep ab env fuel A unit k (err, m1)) (fun r => r.1 = err ∧
      UpdX m A (InTri false false) ∅ a g (fun _ j => k ≤ j) r.2) := by
  obtain ⟨n, hn⟩ : ∃ n, n = A.rows - k - 1 := ⟨_, rfl⟩
  have main : ∀ m2, UpdX m A (InTri false false) ∅ a g (fun i j => k + 1 ≤ j ∨ (i = k ∧ j = k)) m2 →
      Runs (mvmultTrm ab env fuel m2 (A.sub (k + 1) k n 1) (-(1 / a k k)) (A.sub (k + 1) (k + 1) n n)
        { lower := true }) (fun r => UpdX m A (InTri false false) ∅ a g (fun _ j => k ≤ j) r.2) := by
    intro m2 h2
    have sz : (A.sub (k + 1) k n 1).size = n := by simp [View.size]
    have hx : HoldsV m2 (A.sub (k + 1) k n 1) (fun i => a (k + 1 + i) k) := by
      have := (h2.block_old (r := k + 1) (c := k) (nr := n) (nc := 1) (by omega) (by omega)
        (by simp [InTri]; omega)).toV_col
      exact this
    have s := C12_mvmult_trm_partial ab hmin (-(1 / a k k)) (fl := { lower := true }) rfl (fuel := fuel) (m := m2)
      (X := A.sub (k + 1) k n 1) (A := A.sub (k + 1) (k + 1) n n) (x := fun i => a (k + 1 + i) k)
      (a := fun i j => g (k + 1 + i) (k + 1 + j)) (Or.inr rfl)
      (hw.sub (by omega) (by omega)) (hw.sub (by omega) (by omega)) (by rw [sz]; rfl) (by rw [sz]; rfl)
      (by rw [sz]; omega) hx
      (h2.part_new (U := InTri false false) (by omega) (by omega) (by simp [InTri]))
      ((View.sub_disj hw (by omega) (by omega) (by omega) (by omega) (by omega)).mono_left
        (View.footOn_sub_foot _ _))
    refine s.mono ?_
    rintro ⟨e, m3⟩ ⟨-, h3, f3⟩
    rw [sz] at h3
    have h3' : Holds m3 (A.sub (k + 1) k n 1) (fun i j => g (k + 1 + i) (k + j)) := by
      rw [holdsV_iff (Or.inr rfl)] at h3
      refine h3.congr (fun i j hi hj => ?_)
      rw [View.sub_rows] at hi
      rw [View.sub_cols] at hj
      obtain rfl : j = 0 := by omega
      have hik : (if (A.sub (k + 1) k n 1).rows = 1 then 0 else i) = i := by
        rw [View.sub_rows]; split <;> omega
      have h4 := hg.rows_lower (k := k) (nb := 1) (s := n) (i := i) (j := 0) (by omega) hi (by omega)
      simp only [Finset.sum_range_one, Nat.add_zero] at h4
      have h5 : trm false false a k k = a k k := by simp [trm]
      have h6 : ∑ j ∈ range n, trm false false (fun i j => g (k + 1 + i) (k + 1 + j)) i j * a (k + 1 + j) k =
          ∑ p ∈ range n, g (k + 1 + i) (k + 1 + p) * a (k + 1 + p) k :=
        Finset.sum_congr rfl (fun q hq => by
          rw [Finset.mem_range] at hq
          rw [trm_shift, hg.trm_eq (by omega) (by omega)])
      rw [h5] at h4
      have h7 : -(1 / a k k) * ∑ j ∈ range n, trm false false (fun i j => g (k + 1 + i) (k + 1 + j)) i j *
          a (k + 1 + j) k = g (k + 1 + i) k := by
        rw [h6, ← neg_eq_iff_eq_neg.mpr h4]
        field_simp
      simpa [View.sub_rows, hik] using h7
    have u := h2.block hw (by simp) (r := k + 1) (c := k) (nr := n) (nc := 1) (by omega) (by omega)
      (by simp [InTri]; omega) h3' (f3.mono Set.subset_union_left)
    exact u.congr (fun i j hi hj ht => by simp [InTri] at ht; omega)
  unfold unblkInvLowerStep
  dsimp only
  rw [← hn]
  cases unit
  · rw [if_neg (by simp)]
    refine Runs.rd_bind (h1.at_old hk (by omega) (by simp [InTri]) (by omega)) ?_
    rw [if_neg hd]
    refine Runs.wr_bind (h1.at_old hk (by omega) (by simp [InTri]) (by omega)) ?_
    refine (main _ (h1.cell hw hk (by omega) (by simp [InTri]) (hg.diag_trm hk).symm)).bind ?_
    rintro ⟨e, m3⟩ h3
    exact Runs.pure ⟨rfl, h3⟩
  · rw [if_pos rfl]
    have hd1 := hu rfl
    have h2 : UpdX m A (InTri false false) ∅ a g (fun i j => k + 1 ≤ j ∨ (i = k ∧ j = k)) m1 := by
      refine ⟨h1.hold.congr (fun i j _ _ _ => ?_), h1.frame⟩
      by_cases c : k + 1 ≤ j
      · simp [c]
      · by_cases c2 : i = k ∧ j = k
        · obtain ⟨rfl, rfl⟩ := c2
          simp [hg.diag_trm hk, hd1]
        · simp [c, c2]
    have := main _ h2
    rw [hd1, div_one] at this
    refine this.bind ?_
    rintro ⟨e, m3⟩ h3
    exact Runs.pure ⟨rfl, h3⟩

theorem unblkInvLower_spec (ab : α → α) {env : Env} (hmin : env.blas2min ≠ 1 ∨ env.naive = true) {fuel : Nat}
    {m : Mem α} {A : View} {a g : Nat → Nat → α} {unit : Bool} (hw : A.WF) (hsq : A.cols = A.rows)
    (hf : A.rows + 1 < fuel) (hA : HoldsOn m A (InTri false false) a) (hd : ∀ i, i < A.rows → a i i ≠ 0)
    (hu : unit = true → ∀ i, i < A.rows → a i i = 1) (hg : TriInv false A.rows (trm false false a) g) :
    Runs (unblkInvLower ab env fuel m A unit) (fun r => r.1 = 0 ∧ HoldsOn r.2 A (InTri false false) g ∧
      Frame (A.footOn (InTri false false)) m r.2) := by
  unfold unblkInvLower
  refine Runs.forDown (fun k (st : Int × Mem α) => st.1 = 0 ∧
      UpdX m A (InTri false false) ∅ a g (fun _ j => k ≤ j) st.2)
      ⟨rfl, (UpdX.init hA g ∅).congr (by intros; omega)⟩ ?_ ?_
  · rintro k ⟨err, m1⟩ hk ⟨he, h1⟩
    refine (unblkInvLowerStep_spec ab hmin hw hsq hf hk (hd k hk) (fun e => hu e k hk) hg h1 err).mono ?_
    rintro r ⟨h2, h3⟩
    exact ⟨h2.trans he, h3⟩
  · rintro ⟨err, m1⟩ ⟨he, h1⟩
    exact ⟨he, h1.fin (fun i j hi hj _ hS => by omega), by simpa using h1.frame⟩

theorem blkInvLowerStep_spec (ab : α → α) {env : Env} {c : Cache} (hc : Conf3 env c) {fuel : Nat}
    {m m1 : Mem α} {A : View} {a g : Nat → Nat → α} {unit : Bool} (hw : A.WF) (hsq : A.cols = A.rows)
    (hf : 3 * A.rows + 1 < fuel) {lb s : Nat} (hk : s < A.rows) (hlb : NoRec env c lb)
    (hd : ∀ i, i < A.rows → a i i ≠ 0) (hu : unit = true → ∀ i, i < A.rows → a i i = 1)
    (hg : TriInv false A.rows (trm false false a) g) (R1 : c.Ready m1)
    (dAc : Disjoint (A.footOn (InTri false false)) c.foot)
    (h1 : UpdX m A (InTri false false) c.foot a g (fun _ j => A.rows ≤ j + s) m1) (err : Int) :
    Runs (blkInvLowerStep ab env fuel A unit lb (some c) s (err, m1)) (fun r => r.1 = err ∧
      UpdX m A (InTri false false) c.foot a g (fun _ j => A.rows ≤ j + (s + lb)) r.2 ∧ c.Ready r.2) := by
  have hz : ∀ i j, i < A.rows → j < A.rows → (if false then j < i else i < j) → trm false false a i j = 0 :=
    fun i j _ _ hc => trm_tri false false a hc
  unfold blkInvLowerStep
  dsimp only
  obtain ⟨nb, hnb⟩ : ∃ nb, nb = min lb (A.rows - s) := ⟨_, rfl⟩
  rw [← hnb]
  obtain ⟨k, hkk⟩ : ∃ k, k = A.rows - s - nb := ⟨_, rfl⟩
  rw [← hkk]
  have dblk : ∀ {r cc nr nc : Nat}, r + nr ≤ A.rows → cc + nc ≤ A.cols →
      (∀ i j, i < nr → j < nc → InTri false false (r + i) (cc + j)) →
      Disjoint (A.sub r cc nr nc).foot c.foot := fun hr hc hU =>
    dAc.mono_left (View.foot_sub_footOn hr hc hU)
  have dtri : ∀ {r nr : Nat}, r + nr ≤ A.rows →
      Disjoint ((A.sub r r nr nr).footOn (InTri false unit)) c.foot := fun hr =>
    dAc.mono_left (View.footOn_sub hr (by omega) (fun i j _ _ h => (inTri_shift _ _ _ _ _).mpr (inTri_weaken h)))
  have gu : unit = true → ∀ i, i < A.rows → g i i = 1 := by
    intro e i hi
    rw [hg.diag_trm hi, hu e i hi, div_one]
  have s1 := multTrm_ready ab hc.min2 (c := c) (m := m1) (B := A.sub (k + nb) k s nb)
    (A := A.sub (k + nb) (k + nb) s s)
    (f := fun i j => a (k + nb + i) (k + j)) (a := fun i j => g (k + nb + i) (k + nb + j)) (1 : α)
    (fl := { left := true, lower := true, unit := unit }) (fuel := fuel)
    ⟨fun h => by simp at h, rfl, rfl, hw.sub (by omega) (by omega), rfl, rfl, R1, hc.rb,
      h1.block_old (by omega) (by omega) (by simp [InTri]; omega),
      h1.part_new (U := InTri false unit) (by omega) (by omega)
        (fun i j _ hj h => ⟨(inTri_shift _ _ _ _ _).mpr (inTri_weaken h), by omega⟩),
      (View.sub_disj hw (by omega) (by omega) (by omega) (by omega) (by omega)).mono_left
        (View.footOn_sub_foot _ _), dtri (by omega), dblk (by omega) (by omega) (by simp [InTri]; omega)⟩
    (by simp only [View.sub_rows, View.sub_cols]; omega)
  refine s1.bind ?_
  rintro ⟨e2, m2⟩ ⟨-, h2, f2, R2⟩
  dsimp only at h2 f2 R2 ⊢
  have dsub : Disjoint ((A.sub k k nb nb).footOn (InTri false false)) ((A.sub (k + nb) k s nb).foot ∪ c.foot) :=
    Set.disjoint_union_right.mpr ⟨(View.sub_disj hw (by omega) (by omega) (by omega) (by omega)
      (by omega)).mono_left (View.footOn_sub_foot _ _),
      dAc.mono_left (View.footOn_sub (by omega) (by omega) (by simp [InTri]))⟩
  have hA11 : HoldsOn m2 (A.sub k k nb nb) (InTri false false) (fun i j => a (k + i) (k + j)) :=
    (h1.part_old (U := InTri false false) (by omega) (by omega) (by simp [InTri]; omega)).frame f2 dsub
  have s2 := solveTrm_eq_alpha ab hc.min2 (c := c) (m := m2) (B := A.sub (k + nb) k s nb) (A := A.sub k k nb nb)
    (f := fun i j => 1 * triProd { left := true, lower := true, unit := unit }
      (A.sub (k + nb) (k + nb) s s).cols (fun i j => g (k + nb + i) (k + nb + j))
      (fun i j => a (k + nb + i) (k + j)) i j)
    (a := fun i j => a (k + i) (k + j)) (Z := fun i j => g (k + nb + i) (k + j)) (-1)
    (fl := { right := true, lower := true, unit := unit }) (fuel := fuel)
    ⟨fun _ => rfl, rfl, rfl, hw.sub (by omega) (by omega), rfl, rfl, R2, hc.rb, h2,
      fun i j hi hj h => hA11 i j hi hj (inTri_weaken h),
      (View.sub_disj hw (by omega) (by omega) (by omega) (by omega) (by omega)).mono_left
        (View.footOn_sub_foot _ _), dtri (by omega), dblk (by omega) (by omega) (by simp [InTri]; omega)⟩
    rfl rfl (Or.inr (fun i hi => hd _ (by rw [View.sub_cols] at hi; omega)))
    (by
      rw [View.sub_cols]
      rcases hlb with h | h | h
      · exact Or.inr (Or.inl h)
      · exact Or.inr (Or.inr (Or.inl (by omega)))
      · exact Or.inr (Or.inr (Or.inr h)))
    (by simp only [View.sub_rows, View.sub_cols]; omega)
    (fun i j hi hj => by
      rw [View.sub_rows] at hi
      rw [View.sub_cols] at hj
      simp only [triProd, View.sub_cols, if_true, Bool.false_eq_true, if_false, one_mul, neg_mul]
      have := hg.rows_lower (k := k) (nb := nb) (s := s) (by omega) hi hj
      rw [show ∑ q ∈ range nb, g (k + nb + i) (k + q) * trm false unit (fun i j => a (k + i) (k + j)) q j =
        ∑ q ∈ range nb, g (k + nb + i) (k + q) * trm false false a (k + q) (k + j) from
        Finset.sum_congr rfl (fun q hq => by
          rw [Finset.mem_range] at hq
          rw [trm_shift, trm_unit hu (by omega)]), this]
      congr 1
      refine Finset.sum_congr rfl (fun p hp => ?_)
      rw [Finset.mem_range] at hp
      rw [trm_shift, trm_unit gu (by omega), hg.trm_eq (by omega) (by omega)])
  refine s2.bind ?_
  rintro ⟨e3, m3⟩ ⟨-, h3, f3, R3⟩
  dsimp only at h3 f3 R3 ⊢
  have u3 := h1.block hw dAc (r := k + nb) (c := k) (nr := s) (nc := nb) (by omega) (by omega)
    (by simp [InTri]; omega) h3 (f2.trans f3)
  have hA11' := hA11.frame f3 dsub
  have s3 := unblkInvLower_spec ab (env := env) (by rcases hc.min2 with h | h; · left; omega
                                                    · exact Or.inr h.1)
    (fuel := fuel) (m := m3) (A := A.sub k k nb nb) (a := fun i j => a (k + i) (k + j))
    (g := fun i j => g (k + i) (k + j)) (unit := unit) (hw.sub (by omega) (by omega)) rfl
    (by rw [View.sub_rows]; omega) hA11' (fun i hi => hd _ (by rw [View.sub_rows] at hi; omega))
    (fun e i hi => hu e _ (by rw [View.sub_rows] at hi; omega))
    (by
      rw [View.sub_rows]
      have := hg.block hz (k := k) (nb := nb) (by omega)
      rwa [show trm false false (fun i j => a (k + i) (k + j)) = fun i j => trm false false a (k + i) (k + j) from
        funext fun i => funext fun j => trm_shift _ _ _ _ _ _])
  refine s3.bind ?_
  rintro ⟨e4, m4⟩ ⟨he4, h4, f4⟩
  dsimp only at he4 h4 f4 ⊢
  have u4 := u3.sub hw dAc (U := InTri false false) (r := k) (c := k) (nr := nb) (nc := nb) (by omega) (by omega)
    (by simp [InTri]) h4 (f4.mono Set.subset_union_left)
  refine Runs.pure ⟨by simp [he4], u4.congr (fun i j hi hj ht => ?_),
    R3.frame f4 (dAc.mono_left (View.footOn_sub (by omega) (by omega) (by simp [InTri]))).symm⟩
  simp [InTri] at ht ⊢
  omega

theorem blkInvLower_spec (ab : α → α) {env : Env} {c : Cache} (hc : Conf3 env c) {fuel : Nat}
    {m : Mem α} {A : View} {a g : Nat → Nat → α} {unit : Bool} (hw : A.WF) (hsq : A.cols = A.rows)
    (hf : 3 * A.rows + 1 < fuel) {lb : Nat} (h0 : 0 < lb) (hlb : NoRec env c lb)
    (hd : ∀ i, i < A.rows → a i i ≠ 0) (hu : unit = true → ∀ i, i < A.rows → a i i = 1)
    (hg : TriInv false A.rows (trm false false a) g) (R : c.Ready m)
    (dAc : Disjoint (A.footOn (InTri false false)) c.foot) (hA : HoldsOn m A (InTri false false) a) :
    Runs (blkInvLower ab env fuel m A unit lb (some c)) (fun r => r.1 = 0 ∧
      HoldsOn r.2 A (InTri false false) g ∧ Frame (A.footOn (InTri false false) ∪ c.foot) m r.2 ∧
      c.Ready r.2) := by
  unfold blkInvLower
  refine Runs.bind (P := fun x => A.rows ≤ x.1 ∧ x.2.1 = 0 ∧
      UpdX m A (InTri false false) c.foot a g (fun _ j => A.rows ≤ j + x.1) x.2.2 ∧ c.Ready x.2.2)
    (Runs.forUp (fun k (st : Int × Mem α) => st.1 = 0 ∧
      UpdX m A (InTri false false) c.foot a g (fun _ j => A.rows ≤ j + k) st.2 ∧ c.Ready st.2) h0
      ⟨rfl, (UpdX.init hA g _).congr (by intros; omega), R⟩ ?_ (fun k st hk _ hst => ⟨hk, hst⟩)) ?_
  · rintro k ⟨err, m1⟩ - hk ⟨he, h1, R1⟩
    refine (blkInvLowerStep_spec ab hc hw hsq hf hk hlb hd hu hg R1 dAc h1 err).mono ?_
    rintro r ⟨h2, h3, h4⟩
    exact ⟨h2.trans he, h3, h4⟩
  · rintro ⟨k, err, m1⟩ ⟨hk, he, h1, R1⟩
    exact Runs.pure ⟨he, h1.fin (fun i j hi hj _ hS => by dsimp only at *; omega), h1.frame, R1⟩

end Armas
