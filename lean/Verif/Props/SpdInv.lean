import Verif.SpdInvLemmas
import Verif.Props.LuInv
import Verif.Props.Chol

/-!
# C61: inverse of a symmetric positive definite matrix from its Cholesky factorization
-/

namespace Armas.Props

open Finset Armas

variable {α : Type} [Field α]

/-- `U^T U` (`up`) or `L L^T` of the triangle stored in `v`. -/
def factProd (up : Bool) (n : Nat) (v : Nat → Nat → α) (i j : Nat) : α :=
  ∑ p ∈ range n, if up then trm true false v p i * trm true false v p j
    else trm false false v i p * trm false false v j p

theorem factProd_low (up : Bool) (n : Nat) (v : Nat → Nat → α) (i j : Nat) :
    factProd up n v i j = ∑ p ∈ range n, lowOf up v i p * lowOf up v j p := by
  cases up <;> simp [factProd, lowOf]

theorem spdX_inverse {n : Nat} {up : Bool} {v x g : Nat → Nat → α} (h : SpdX n (lowOf up v) x g) :
    IsInverse n (factProd up n v) (symm up g) := by
  refine isInverse_of_left (fun i j hi hj => ?_)
  rw [Finset.sum_congr rfl (fun p hp => by
    rw [h.symm_eq up hi (Finset.mem_range.mp hp), factProd_low, Finset.mul_sum]), Finset.sum_comm]
  rw [Finset.sum_congr rfl (g := fun q => lowOf up v j q * x q i) (fun q hq => by
    rw [Finset.sum_congr rfl (fun p _ => (mul_assoc _ _ _).symm), ← Finset.sum_mul, h.eqn hi (Finset.mem_range.mp hq),
      mul_comm])]
  rw [h.tri.right j i hj hi]
  simp [eq_comm]

/-- What `armas_cholinverse_w` is called with: the triangle selected by `ARMAS_LOWER` (upper if it is not given) holds
a triangular factor with nonzero diagonal; only this triangle is assumed to be allocated. -/
structure SpdArgs (env : Env) (c : Cache) (m : Mem α) (A : View) (up : Bool) (v : Nat → Nat → α) (w ws : Nat) : Prop where
  conf : Conf3 env c
  min2 : 2 ≤ env.blas2min
  wf : A.WF
  sq : A.rows = A.cols
  ready : c.Ready m
  hA : HoldsOn m A (InTri up false) v
  dA : Disjoint (A.footOn (InTri up false)) (c.foot ∪ wkset w ws)
  dcw : Disjoint c.foot (wkset w ws)
  nz : ∀ i, i < A.rows → v i i ≠ 0
  work : A.rows ≤ ws
  alloc : Alloc (wkset w ws) m

/-- What the blocked version needs of the configuration: the copy buffers fit the blocks of `armas_mult_sym` (C20), and
the recursion of `armas_update_trm` meets no odd split of an upper triangle (C21). -/
def SpdBlocks (env : Env) (c : Cache) (n elb : Nat) (up : Bool) : Prop :=
  elb = 0 ∨ n ≤ elb ∨ (∀ s nb, s < n → nb ≤ elb → BlocksFit c s nb { upper := up, lower := !up, right := up }) ∧
    ∀ nb, nb ≤ elb → EvenSplits env c nb { upper := up }

/-- C61: from a Cholesky factor in the lower or upper triangle `armas_cholinverse_w` computes the inverse of the
factored matrix and stores the same triangle of it, for every block size and every work space not smaller than `rows`
elements; it returns 0 and touches nothing but this triangle, the work space and the copy buffers.
Partial: in the blocked version the blocks have to fit the copy buffers and splits of upper triangles have to be even
(`C61_odd_split_false`). -/
theorem C61_cholinverse_partial [DecidableEq α] (ab : α → α) {env : Env} {c : Cache} {m : Mem α} {A : View} {fl : Flags}
    {v : Nat → Nat → α} {w ws : Nat} (H : SpdArgs env c m A (!fl.lower) v w ws) {elb : Nat}
    (hb : SpdBlocks env c A.rows elb (!fl.lower)) {fuel : Nat} (hf : 4 * A.rows + 1 < fuel) :
    Runs (cholinverseW ab env elb fuel m A fl w ws (some c)) (fun r => r.1 = 0 ∧
      (∃ g, HoldsOn r.2 A (InTri (!fl.lower) false) g ∧
        IsInverse A.rows (factProd (!fl.lower) A.rows v) (symm (!fl.lower) g)) ∧
      Frame (A.footOn (InTri (!fl.lower) false) ∪ (c.foot ∪ wkset w ws)) m r.2) := by
  obtain ⟨k1, k2, k3, k4, k5, k6, k7, k8, k9, k10, k11⟩ := H
  obtain ⟨x, g, hg⟩ := spdX_exists (n := A.rows) (up := !fl.lower) k9
  suffices h : Runs (cholinverseW ab env elb fuel m A fl w ws (some c)) (fun r => r.1 = 0 ∧
      HoldsOn r.2 A (InTri (!fl.lower) false) g ∧
      Frame (A.footOn (InTri (!fl.lower) false) ∪ (c.foot ∪ wkset w ws)) m r.2) from
    h.mono (fun r hr => ⟨hr.1, ⟨g, hr.2.1, spdX_inverse hg⟩, hr.2.2⟩)
  unfold cholinverseW
  rw [if_neg (not_not.mpr k4), if_neg (by omega)]
  dsimp only
  split
  · refine (unblkSpd_spec ab k2 k3 k4.symm (by omega) (by omega) (k7.mono_right Set.subset_union_right) k9 hg k11 k6).mono ?_
    rintro r ⟨h1, h2, h3, -⟩
    exact ⟨h1, h2, h3.mono (Set.union_subset_union_right _ Set.subset_union_right)⟩
  · rename_i hn
    rw [not_or] at hn
    obtain ⟨b1, b2⟩ := invBlock_le hn.1
    have hb' : (∀ s nb, s < A.rows → nb ≤ invBlock elb A.rows ws →
        BlocksFit c s nb { upper := !fl.lower, lower := !(!fl.lower), right := !fl.lower }) ∧
        ∀ nb, nb ≤ invBlock elb A.rows ws → EvenSplits env c nb { upper := !fl.lower } := by
      rcases hb with h | h | h
      · omega
      · exfalso
        unfold invBlock at hn
        rw [if_neg (by omega)] at hn
        omega
      · exact ⟨fun s nb h1 h2 => h.1 s nb h1 (by omega), fun nb h2 => h.2 nb (by omega)⟩
    have HB : SpdBlk env c A (!fl.lower) v x g w ws (invBlock elb A.rows ws) fuel :=
      ⟨k1, k2, k3, k4.symm, hf, b2 (by omega), hb'.1, hb'.2, k7, k8, k9, hg⟩
    revert HB k6
    cases fl.lower
    · intro k6 HB
      rw [if_neg (by simp)]
      exact blkSpdUpper_spec ab HB (by omega) k6 k11 k5
    · intro k6 HB
      rw [if_pos rfl]
      exact blkSpdLower_spec ab HB (by omega) k6 k11 k5

/-- A 4x4 matrix of ones as factor, both triangles, with room for block size 2. -/
theorem spdDemo_args (up : Bool) : SpdArgs (α := ℚ) ⟨8, 8, false, true⟩ ⟨500, 600, 4, 4, 3, 3, 1⟩ (tot (fun _ => 1))
    ⟨0, 5, 4, 4⟩ up (fun _ _ => 1) 50 12 :=
  ⟨⟨Or.inl (by decide), by decide⟩, by decide, Or.inl (by decide), rfl,
    ⟨by decide, by decide, by decide, by decide, by decide, ⟨_, holds_tot _ _⟩, ⟨_, holds_tot _ _⟩,
      View.disj_below (by decide)⟩, HoldsOn.of_holds (holds_tot _ _),
    (Set.disjoint_union_right.mpr ⟨Set.disjoint_union_right.mpr ⟨View.disj_below (by decide),
      View.disj_below (by decide)⟩, Set.disjoint_left.mpr (by
        rintro p ⟨i, j, hi, hj, rfl⟩ ⟨h1, h2⟩
        simp [View.at'] at hi hj h1 h2; omega)⟩).mono_left (View.footOn_sub_foot _ _),
    Set.disjoint_left.mpr (by
      rintro p (⟨i, j, hi, hj, rfl⟩ | ⟨i, j, hi, hj, rfl⟩) ⟨h1, h2⟩ <;> simp [View.at', Cache.A, Cache.B] at h1 h2 <;> omega),
    fun _ _ => one_ne_zero, by decide, fun _ _ => ⟨_, rfl⟩⟩

theorem spdDemo_blocks (up : Bool) : SpdBlocks ⟨8, 8, false, true⟩ ⟨500, 600, 4, 4, 3, 3, 1⟩ 4 2 up := by
  refine Or.inr (Or.inr ⟨fun s nb hs hnb => ?_, fun nb hnb => Or.inr (Or.inr ?_)⟩)
  · cases up <;> simp [BlocksFit] <;> omega
  · simp only [if_true]
    intro k hk
    have : nb / 2 ^ k ≤ nb := Nat.div_le_self _ _
    omega

example := C61_cholinverse_partial (α := ℚ) id (fl := { lower := true }) (spdDemo_args false) (elb := 2)
  (spdDemo_blocks false) (fuel := 20) (by decide)

example := C61_cholinverse_partial (α := ℚ) id (fl := { upper := true }) (spdDemo_args true) (elb := 2)
  (spdDemo_blocks true) (fuel := 20) (by decide)

/-- With the default block size 64 and threshold 256 the condition on the splits holds for every order, and the one on
the buffers for the default dimensions (`mb = nb = 64`, `kb = 160`). -/
theorem C61_default_blocks {env : Env} {c : Cache} (n : Nat) (up : Bool) (hm : env.blas2min = 256)
    (hr : env.recursive = true) (h1 : c.NB ≤ c.KB) (h2 : c.MB ≤ c.KB) (h3 : c.NB = c.MB) :
    SpdBlocks env c n 64 up := by
  refine Or.inr (Or.inr ⟨fun s nb _ _ => ?_, fun nb hnb => Or.inr (Or.inr ?_)⟩)
  · cases up <;> simp [BlocksFit] <;> omega
  · rw [if_pos hr]
    intro k hk
    have : nb / 2 ^ k ≤ nb := Nat.div_le_self _ _
    omega

example := C61_default_blocks (env := ⟨8, 256, false, true⟩) (c := ⟨0, 100000, 160, 160, 64, 64, 32⟩) 1000 true rfl rfl
  (by decide) (by decide) rfl

/-- A zero on the diagonal of the factor is reported where the unblocked version runs. -/
theorem C61_singular_partial [DecidableEq α] (ab : α → α) {env : Env} (hmin : 2 ≤ env.blas2min) {c : Option Cache}
    {m : Mem α} {A : View} {fl : Flags} {v : Nat → Nat → α} {w ws : Nat} (hw : A.WF) (hq : A.rows = A.cols)
    (hA : HoldsOn m A (InTri (!fl.lower) false) v) (dA : Disjoint (A.footOn (InTri (!fl.lower) false)) (wkset w ws))
    (h0 : ∃ i, i < A.rows ∧ v i i = 0) (hws : A.rows ≤ ws) (hal : Alloc (wkset w ws) m) {elb : Nat}
    (hb : elb = 0 ∨ A.rows ≤ elb ∨ ws < 32 * A.rows ∧ ws < elb * A.rows) {fuel : Nat} (hf : A.rows + 1 < fuel) :
    Runs (cholinverseW ab env elb fuel m A fl w ws c) (fun r => r.1 = -ESINGULAR ∧
      Frame (A.footOn (InTri (!fl.lower) false) ∪ wkset w ws) m r.2) := by
  unfold cholinverseW
  rw [if_neg (not_not.mpr hq), if_neg (by omega)]
  dsimp only
  rw [if_pos ?_]
  · exact unblkSpd_singular ab hmin hw hq.symm (by omega) (by omega) dA h0 hal hA
  · unfold invBlock
    rcases hb with h | h | h
    · subst h
      left
      rw [if_neg (by omega)]
    · right
      rw [if_neg (by omega)]
      exact h
    · by_cases h1 : elb < A.rows
      · left
        rw [if_pos ⟨h1, h.2⟩, if_pos]
        have : ws / A.rows < 32 := Nat.div_lt_of_lt_mul (by rw [Nat.mul_comm]; exact h.1)
        omega
      · right
        rw [if_neg (by omega)]
        omega

/-- The 3x3 matrix with a zero at (1,1), block size 64. -/
example := C61_singular_partial (α := ℚ) id (env := ⟨8, 8, false, true⟩) (by decide) (c := none)
  (m := tot (fun p => if p = 6 then 0 else 1)) (A := ⟨0, 5, 3, 3⟩) (fl := { lower := true })
  (v := fun i j => if i + j * 5 = 6 then 0 else 1) (w := 50) (ws := 3) (Or.inl (by decide)) rfl
  (HoldsOn.of_holds ((holds_tot _ _).congr (fun i j _ _ => by simp [View.at'])))
  (Disjoint.mono_left (View.footOn_sub_foot _ _) (Set.disjoint_left.mpr (by
    rintro p ⟨i, j, hi, hj, rfl⟩ ⟨h1, h2⟩
    simp [View.at'] at hi hj h1 h2; omega)))
  ⟨1, by decide, rfl⟩ (by decide) (fun _ _ => ⟨_, rfl⟩) (elb := 64) (Or.inr (Or.inl (by decide))) (fuel := 10) (by decide)

/-- The size check. -/
theorem C61_size_error [DecidableEq α] (ab : α → α) (env : Env) (elb fuel : Nat) (m : Mem α) (A : View) (fl : Flags)
    (w ws : Nat) (cbuf : Option Cache) (h : A.rows ≠ A.cols) :
    cholinverseW ab env elb fuel m A fl w ws cbuf = .ok (-1, m) := by
  unfold cholinverseW
  rw [if_pos h]; rfl

example := C61_size_error (α := ℚ) id ⟨8, 8, false, true⟩ 64 10 (tot (fun _ => 1)) ⟨0, 5, 4, 3⟩ {} 50 12 none (by decide)

/-- Fewer than `rows` elements of work space are refused and nothing is written. -/
theorem C61_work_error [DecidableEq α] (ab : α → α) (env : Env) (elb fuel : Nat) (m : Mem α) (A : View) (fl : Flags)
    (w ws : Nat) (cbuf : Option Cache) (hs : A.rows = A.cols) (h : ws < A.rows) :
    cholinverseW ab env elb fuel m A fl w ws cbuf = .ok (-5, m) := by
  unfold cholinverseW
  rw [if_neg (not_not.mpr hs), if_pos h]; rfl

example := C61_work_error (α := ℚ) id ⟨8, 8, false, true⟩ 64 10 (tot (fun _ => 1)) ⟨0, 5, 4, 4⟩ {} 50 3 none rfl (by decide)

/-- C61 is false when a block of an upper triangle is split at an odd order (see `C21_odd_upper_false`): block size 3 and
threshold 2, a factor with ones on the diagonal and at (1,3); the inverse has 2 at (1,1), the code stores 3 and
reports success. -/
theorem C61_odd_split_false : ∃ (m : Mem ℚ) (A : View) (v : Nat → Nat → ℚ) (env : Env) (c : Cache) (w ws : Nat),
    SpdArgs env c m A true v w ws ∧ A.rows = 6 ∧ (∀ s nb, s < 6 → nb ≤ 3 → BlocksFit c s nb { upper := true, right := true }) ∧
    ∃ m', cholinverseW id env 3 40 m A { upper := true } w ws (some c) = .ok (0, m') ∧
      ∀ g, HoldsOn m' A (InTri true false) g → ¬ IsInverse 6 (factProd true 6 v) (symm true g) := by
  obtain ⟨m', hm, hp⟩ := okay_ok (r := cholinverseW id ⟨8, 2, false, true⟩ 3 40
    (tot fun p => if p % 7 = 0 ∨ p = 19 then (1 : ℚ) else 0) ⟨0, 6, 6, 6⟩ { upper := true } 50 18
    (some ⟨100, 200, 4, 4, 3, 3, 1⟩)) (by decide +kernel)
  refine ⟨tot (fun p => if p % 7 = 0 ∨ p = 19 then (1 : ℚ) else 0), ⟨0, 6, 6, 6⟩, _, ⟨8, 2, false, true⟩,
    ⟨100, 200, 4, 4, 3, 3, 1⟩, 50, 18,
    ⟨⟨Or.inl (by decide), by decide⟩, by decide, Or.inl (by decide), rfl,
    ⟨by decide, by decide, by decide, by decide, by decide, ⟨_, holds_tot _ _⟩, ⟨_, holds_tot _ _⟩,
      View.disj_below (by decide)⟩, HoldsOn.of_holds (holds_tot _ _),
    (Set.disjoint_union_right.mpr ⟨Set.disjoint_union_right.mpr ⟨View.disj_below (by decide),
      View.disj_below (by decide)⟩, Set.disjoint_left.mpr (by
        rintro p ⟨i, j, hi, hj, rfl⟩ ⟨h1, h2⟩
        simp [View.at'] at hi hj h1 h2; omega)⟩).mono_left (View.footOn_sub_foot _ _),
    Set.disjoint_left.mpr (by
      rintro p (⟨i, j, hi, hj, rfl⟩ | ⟨i, j, hi, hj, rfl⟩) ⟨h1, h2⟩ <;> simp [View.at', Cache.A, Cache.B] at h1 h2 <;> omega),
    fun i hi => by
      have hi : i < 6 := hi
      interval_cases i <;> simp [View.at'], by decide, fun _ _ => ⟨_, rfl⟩⟩, rfl,
    fun s nb hs hnb => by simp [BlocksFit], m', hm, fun g hg h => ?_⟩
  have e := hg 1 1 (by decide) (by decide) (by simp [InTri])
  have f := hg 1 3 (by decide) (by decide) (by simp [InTri])
  rw [hp] at e f
  have e3 : g 1 1 = 3 := Option.some.inj (e.symm.trans (by decide +kernel))
  have f3 : g 1 3 = -1 := Option.some.inj (f.symm.trans (by decide +kernel))
  have e2 := (h 1 1 (by decide) (by decide)).1
  simp [Finset.sum_range_succ, factProd, trm, symm, View.at', e3, f3] at e2
  norm_num at e2

/-- C61 from end to end: `armas_cholfactor` followed by `armas_cholinverse_w` turns a triangle of a positive definite
matrix into the same triangle of its inverse, and both calls return 0. -/
theorem C61_driver_partial (ab : ℝ → ℝ) {env : Env} {c : Cache} {lb : Nat} {m : Mem ℝ} {A : View}
    {a : Nat → Nat → ℝ} {fl : Flags} (H : CholArgs env c lb m A a fl) (hmin : 2 ≤ env.blas2min)
    (hpd : PosDefn A.rows (symm (!fl.lower) a)) {elb : Nat} (hb : SpdBlocks env c A.rows elb (!fl.lower))
    {w ws : Nat} (hws : A.rows ≤ ws) (hal : Alloc (wkset w ws) m)
    (dAw : Disjoint (A.footOn (InTri (!fl.lower) false)) (wkset w ws)) (dcw : Disjoint c.foot (wkset w ws))
    {fuel : Nat} (hf : 4 * A.rows + 1 < fuel) :
    Runs (do
      let (e1, m) ← cholfactor ab env lb fuel m A fl (some c)
      let (e2, m) ← cholinverseW ab env elb fuel m A fl w ws (some c)
      pure (e1, e2, m)) (fun r => r.1 = 0 ∧ r.2.1 = 0 ∧
      (∃ g, HoldsOn r.2.2 A (InTri (!fl.lower) false) g ∧
        IsInverse A.rows (symm (!fl.lower) a) (symm (!fl.lower) g)) ∧
      Frame (A.footOn (InTri (!fl.lower) false) ∪ (c.foot ∪ wkset w ws)) m r.2.2) := by
  have hp := hpd.pivots
  refine (cholfactor_spec ab H hf hp).bind ?_
  rintro ⟨e1, m1⟩ ⟨he1, h1, f1, R1⟩
  dsimp only at he1 h1 f1 R1 ⊢
  have hnz : ∀ i, i < A.rows → (if (!fl.lower) = true then fun i j => cholF (symm (!fl.lower) a) j i
      else cholF (symm (!fl.lower) a)) i i ≠ 0 := fun i hi => by
    have : 0 < cholF (symm (!fl.lower) a) i i := by rw [cholF_diag]; exact Real.sqrt_pos.mpr (hp i hi)
    split <;> exact this.ne'
  refine (C61_cholinverse_partial ab (m := m1) (A := A) (fl := fl) (w := w) (ws := ws)
    ⟨H.conf, hmin, H.wf, H.square.symm, R1, h1, Set.disjoint_union_right.mpr ⟨H.dAc, dAw⟩, dcw, hnz, hws,
      hal.frame f1 (Set.disjoint_union_left.mpr ⟨dAw, dcw⟩)⟩ hb hf).bind ?_
  rintro ⟨e2, m2⟩ ⟨h2, ⟨g, h3, h4⟩, f2⟩
  dsimp only at h2 h3 f2 ⊢
  refine Runs.pure ⟨he1, h2, ⟨g, h3, fun i j hi hj => ?_⟩, (f1.mono ?_).trans f2⟩
  · have e : ∀ p q, p < A.rows → q < A.rows → symm (!fl.lower) a p q = factProd (!fl.lower) A.rows
        (if (!fl.lower) = true then fun i j => cholF (symm (!fl.lower) a) j i else cholF (symm (!fl.lower) a)) p q :=
      fun p q h h' => (cholProd_factor (symm_comm' _ _) hp _ h h').symm
    have := h4 i j hi hj
    exact ⟨this.1 ▸ Finset.sum_congr rfl (fun p hp => by rw [e i p hi (Finset.mem_range.mp hp)]),
      this.2 ▸ Finset.sum_congr rfl (fun p hp => by rw [e p j (Finset.mem_range.mp hp) hj])⟩
  · exact Set.union_subset_union_right _ Set.subset_union_left

example (up : Bool) := C61_driver_partial id (cholDemo_args 4 up) (by decide) (by simpa using cholDemo_posdef up)
  (elb := 64) (Or.inr (Or.inl (by decide))) (w := 50) (ws := 3) (by decide) (fun _ _ => ⟨_, rfl⟩)
  (Disjoint.mono_left (View.footOn_sub_foot _ _) (Set.disjoint_left.mpr (by
    rintro p ⟨i, j, hi, hj, rfl⟩ ⟨h1, h2⟩
    simp [View.at'] at hi hj h1 h2; omega)))
  (Set.disjoint_left.mpr (by
    rintro p (⟨i, j, hi, hj, rfl⟩ | ⟨i, j, hi, hj, rfl⟩) ⟨h1, h2⟩ <;> simp [View.at', Cache.A, Cache.B] at h1 h2 <;> omega))
  (fuel := 20) (by decide)

end Armas.Props
