import Verif.CholLemmas
import Verif.CholPv
import Verif.LuLemmas
import Verif.PivotLemmas
import Verif.PosDef
import Verif.Props.Mset

/-!
# Specifications of the pivoted Cholesky factorization
-/

namespace Armas

open Classical Finset Props

/-- The symmetric matrix `g` of order `n` is positive semidefinite. -/
def PosSemi (n : Nat) (g : Nat → Nat → ℝ) : Prop :=
  ∀ x : Nat → ℝ, 0 ≤ ∑ i ∈ range n, ∑ j ∈ range n, x i * g i j * x j

/-- Rows and columns of `f` permuted. -/
def permM (σ : Equiv.Perm Nat) (f : Nat → Nat → ℝ) (i j : Nat) : ℝ := f (σ i) (σ j)

section pure
variable {f : Nat → Nat → ℝ}

theorem PosSemi.step {n : Nat} (h : PosSemi (n + 1) f) (h0 : 0 < f 0 0) :
    PosSemi n (fun i j => schur f 1 (1 + i) (1 + j)) := by
  intro y
  have := h (liftVec f n y)
  simp only [mul_assoc, ← Finset.mul_sum] at this ⊢
  rw [Finset.sum_range_succ', lift_zero h0.ne', mul_zero, add_zero] at this
  simp only [lift_succ h0.ne'] at this
  exact this

theorem PosSemi.schur {r n : Nat} (h : PosSemi (r + n) f) (hp : ∀ p, p < r → 0 < schur f p p p) :
    PosSemi n (fun i j => Armas.schur f r (r + i) (r + j)) := by
  induction r generalizing f with
  | zero => simpa [Armas.schur] using h
  | succ r ih =>
    have h1 := PosSemi.step (f := f) (n := r + n) (by rwa [show r + n + 1 = r + 1 + n by omega])
      (hp 0 (by omega))
    have h2 := ih h1 (fun p hp' => by
      rw [schur_shift]; have := hp (p + 1) (by omega); rwa [add_comm 1 p])
    intro x
    have := h2 x
    refine this.trans (le_of_eq ?_)
    refine Finset.sum_congr rfl (fun i _ => Finset.sum_congr rfl (fun j _ => ?_))
    beta_reduce
    rw [schur_shift, show 1 + (r + i) = r + 1 + i by omega, show 1 + (r + j) = r + 1 + j by omega, add_comm 1 r]

theorem PosSemi.diag {n : Nat} (h : PosSemi n f) {i : Nat} (hi : i < n) : 0 ≤ f i i := by
  have := h (fun p => if p = i then 1 else 0)
  simpa [Finset.sum_ite_eq', hi] using this

theorem PosSemi.off {n : Nat} (h : PosSemi n f) (hs : ∀ i j, f i j = f j i) {i j : Nat} (hi : i < n) (hj : j < n)
    {B : ℝ} (h1 : f i i ≤ B) (h2 : f j j ≤ B) : |f i j| ≤ B := by
  by_cases hij : i = j
  · subst hij; rw [abs_of_nonneg (h.diag hi)]; exact h1
  have key : ∀ s : ℝ, 0 ≤ f i i + s * f i j + (s * f j i + s * s * f j j) := by
    intro s
    have := h (fun p => (if p = i then 1 else 0) + s * (if p = j then 1 else 0))
    simp only [add_mul, mul_add, Finset.sum_add_distrib] at this
    simp only [mul_ite, ite_mul, mul_one, one_mul, mul_zero, zero_mul, Finset.sum_ite_eq', Finset.mem_range, hi, hj,
      if_true, Finset.sum_const_zero, mul_assoc] at this
    nlinarith [this]
  have k1 := key 1
  have k2 := key (-1)
  rw [hs j i] at k1 k2
  rw [abs_le]
  constructor <;> nlinarith

theorem sum_perm {n : Nat} {σ : Equiv.Perm Nat} (hσ : ∀ i, i < n → σ i < n) (g : Nat → ℝ) :
    ∑ i ∈ range n, g (σ i) = ∑ i ∈ range n, g i := by
  have him : (range n).image σ = range n := by
    apply Finset.eq_of_subset_of_card_le
    · intro y hy
      obtain ⟨i, hi, rfl⟩ := Finset.mem_image.mp hy
      exact Finset.mem_range.mpr (hσ i (Finset.mem_range.mp hi))
    · rw [Finset.card_image_of_injective _ σ.injective]
  conv_rhs => rw [← him]
  rw [Finset.sum_image (fun a _ b _ e => σ.injective e)]

theorem PosSemi.perm {n : Nat} (h : PosSemi n f) {σ : Equiv.Perm Nat} (hσ : ∀ i, i < n → σ i < n) :
    PosSemi n (permM σ f) := by
  intro x
  have := h (fun i => x (σ.symm i))
  rw [← sum_perm hσ] at this
  refine this.trans (le_of_eq (Finset.sum_congr rfl (fun i _ => ?_)))
  rw [← sum_perm hσ]
  refine Finset.sum_congr rfl (fun j _ => ?_)
  simp [permM]

theorem schur_perm {τ : Equiv.Perm Nat} {k : Nat} (h : ∀ p, p < k → τ p = p) (i j : Nat) :
    schur (permM τ f) k i j = schur f k (τ i) (τ j) := by
  induction k generalizing i j with
  | zero => rfl
  | succ k ih =>
    have ih' := ih (fun p hp => h p (by omega))
    rw [schur_succ, schur_succ, ih', ih', ih', ih', h k (by omega)]

theorem cholF_perm {τ : Equiv.Perm Nat} {j : Nat} (h : ∀ p, p ≤ j → τ p = p) (i : Nat) :
    cholF (permM τ f) i j = cholF f (τ i) j := by
  unfold cholF
  rw [schur_perm (fun p hp => h p (by omega)), schur_perm (fun p hp => h p (by omega)), h j (le_refl _)]

theorem permM_symm (hs : ∀ i j, f i j = f j i) (σ : Equiv.Perm Nat) (i j : Nat) : permM σ f i j = permM σ f j i :=
  hs _ _

theorem permM_mul (σ τ : Equiv.Perm Nat) : permM τ (permM σ f) = permM (σ * τ) f := rfl

end pure

/-! ## Exchange -/

theorem bkPivotLower_spec {m : Mem ℝ} {A : View} {a : Nat → Nat → ℝ} {q : Nat} (hw : A.WF)
    (hs : A.rows = A.cols) (h : HoldsOn m A (InTri false false) a) (hpq : 0 < q) (hq : q < A.rows) :
    Runs (bkPivotLower m A 0 q) (fun m' =>
      HoldsOn m' A (InTri false false) (permSym false (Equiv.swap 0 q) a) ∧
      Frame (A.footOn (InTri false false)) m m') := by
  have := pivotLower_spec hw hs h hpq hq
  unfold pivotLower at this
  rw [if_neg (by omega)] at this
  exact this

theorem bkPivotUpperTop_spec {m : Mem ℝ} {A : View} {a : Nat → Nat → ℝ} {q : Nat} (hw : A.WF)
    (hs : A.rows = A.cols) (h : HoldsOn m A (InTri true false) a) (hpq : 0 < q) (hq : q < A.rows) :
    Runs (bkPivotUpperTop m A 0 q) (fun m' =>
      HoldsOn m' A (InTri true false) (permSym true (Equiv.swap 0 q) a) ∧
      Frame (A.footOn (InTri true false)) m m') := by
  unfold bkPivotUpperTop
  have hu := UpdOn.init h (permSym true (Equiv.swap 0 q) a)
  have tri : ∀ i j, InTri true false i j ↔ i ≤ j := by intro i j; simp [InTri]
  have sp : Equiv.swap 0 q 0 = q := Equiv.swap_apply_left _ _
  have sq : Equiv.swap 0 q q = 0 := Equiv.swap_apply_right _ _
  have so : ∀ {x}, x ≠ 0 → x ≠ q → Equiv.swap 0 q x = x :=
    fun h1 h2 => Equiv.swap_apply_of_ne_of_ne h1 h2
  refine (swap_on hw hu (IsLine.row hw (r := 0) (c := 0 + 1) (n := q - 0 - 1) (by omega) (by omega))
    (IsLine.col hw (r := 0 + 1) (c := q) (n := q - 0 - 1) (by omega) (by omega)) ?_ (by simp) ?_ ?_).bind
      (fun r2 ⟨_, hu2⟩ => ?_)
  · intro k hk; simp only [tri]; omega
  · intro k l _ _ e; have := (Prod.ext_iff.mp e).1; simp only at this; omega
  · intro k hk
    simp only [permSym, sp, sq, so (x := 0 + 1 + k) (by omega) (by omega), symm, if_true]
    rw [if_neg (by omega), if_neg (by omega)]; exact ⟨rfl, rfl⟩
  refine (swap_on hw hu2 (IsLine.row hw (r := 0) (c := q + 1) (n := A.cols - q - 1) (by omega) (by omega))
    (IsLine.row hw (r := q) (c := q + 1) (n := A.cols - q - 1) (by omega) (by omega)) ?_ ?_ ?_ ?_).bind
      (fun r1 ⟨_, hu1⟩ => ?_)
  · intro k hk; simp only [tri]; omega
  · intro k hk
    constructor
    · rintro (h | ⟨l, hl, h⟩) <;> omega
    · rintro (h | ⟨l, hl, h⟩) <;> omega
  · intro k l _ _ e; have := (Prod.ext_iff.mp e).1; simp only at this; omega
  · intro k hk
    simp only [permSym, sp, sq, so (x := q + 1 + k) (by omega) (by omega), symm, if_true]
    rw [if_pos (by omega), if_pos (by omega)]; exact ⟨rfl, rfl⟩
  refine (swapDiag_on hw hu1 (by omega) (by omega) (by omega) (by omega) (by omega)
    ⟨(tri _ _).mpr (le_refl _), (tri _ _).mpr (le_refl _)⟩ ?_ ?_).mono (fun m4 hu4 => ⟨?_, hu4.frame⟩)
  · constructor
    · rintro ((h | ⟨l, hl, h⟩) | ⟨l, hl, h⟩) <;> omega
    · rintro ((h | ⟨l, hl, h⟩) | ⟨l, hl, h⟩) <;> omega
  · simp [permSym, symm]
  · refine hu4.hold.congr (fun i j hi hj ht => ?_)
    rw [tri] at ht
    beta_reduce
    split
    · rfl
    · rename_i hn
      have n0 : ¬ ((i = 0 ∨ i = q) ∧ q < j) := fun c => hn (Or.inl (Or.inr
        ⟨j - (q + 1), by omega, by simp only; omega⟩))
      have n1 : ¬ (j = q ∧ 0 < i ∧ i < q) := fun c => hn (Or.inl (Or.inl (Or.inr
        ⟨i - (0 + 1), by omega, by simp only; omega⟩)))
      have n2 : ¬ (i = 0 ∧ 0 < j ∧ j < q) := fun c => hn (Or.inl (Or.inl (Or.inr
        ⟨j - (0 + 1), by omega, by simp only; omega⟩)))
      have n5 : ¬ (i = j ∧ (i = 0 ∨ i = q)) := fun c => hn (Or.inr c)
      by_cases hqp : i = 0 ∧ j = q
      · rw [hqp.1, hqp.2]
        simp only [permSym, sp, sq, symm, if_true]
        rw [if_neg (by omega)]
      · simp only [permSym, so (x := i) (by omega) (by omega), so (x := j) (by omega) (by omega), symm,
          if_true]
        rw [if_pos ht]

/-- The value at `(i,j)` of the triangle that holds the lower triangular `h` or its transpose. -/
def tv (upper : Bool) (h : Nat → Nat → ℝ) (i j : Nat) : ℝ := if upper then h j i else h i j

theorem swap_shift (k q i : Nat) : Equiv.swap k (k + q) (k + i) = k + Equiv.swap 0 q i := by
  simp only [Equiv.swap_apply_def]
  split_ifs <;> omega

theorem cholpvSwap_spec {upper : Bool} {m : Mem ℝ} {A : View} {f : Nat → Nat → ℝ} (hs : ∀ i j, f i j = f j i) (hw : A.WF)
    (hsq : A.cols = A.rows) {k q : Nat} (hq : k + q < A.rows)
    (h : HoldsOn m A (InTri upper false) (tv upper (cholV f k))) :
    Runs (cholpvSwap upper m A k q) (fun m' =>
      HoldsOn m' A (InTri upper false) (tv upper (cholV (permM (Equiv.swap k (k + q)) f) k)) ∧
      Frame (A.footOn (InTri upper false)) m m') := by
  unfold cholpvSwap
  by_cases h0 : q = 0
  · subst h0
    rw [if_neg (by omega)]
    refine Runs.pure ⟨?_, Frame.refl _ _⟩
    rw [Nat.add_zero, Equiv.swap_self]
    exact h
  rw [if_pos h0, hsq]
  have hfix : ∀ p, p < k → Equiv.swap k (k + q) p = p := fun p hp =>
    Equiv.swap_apply_of_ne_of_ne (by omega) (by omega)
  have u0 := UpdX.init h (tv upper (cholV (permM (Equiv.swap k (k + q)) f) k)) ∅
  have dF : Disjoint (A.footOn (InTri upper false)) (∅ : Set Nat) := Set.disjoint_empty _
  have es : ∀ i j, cholV (permM (Equiv.swap k (k + q)) f) k (k + i) (k + j) =
      schur f k (k + Equiv.swap 0 q i) (k + Equiv.swap 0 q j) := by
    intro i j
    rw [cholV, if_neg (by omega), schur_perm hfix, swap_shift, swap_shift]
  have ev : ∀ i j, cholV f k (k + i) (k + j) = schur f k (k + i) (k + j) := by
    intro i j; rw [cholV, if_neg (by omega)]
  have el : ∀ i j, j < k → cholV (permM (Equiv.swap k (k + q)) f) k (k + i) j =
      cholV f k (k + Equiv.swap 0 q i) j := by
    intro i j hj
    rw [cholV, if_pos hj, cholV, if_pos hj, cholF_perm (fun p hp => hfix p (by omega)), swap_shift]
  cases upper
  · simp only [Bool.false_eq_true, if_false]
    refine (bkPivotLower_spec (hw.sub (by omega) (by omega)) (by simp) (u0.part_old (r := k) (c := k)
      (nr := A.rows - k) (nc := A.rows - k) (U := InTri false false) (by omega) (by omega)
      (by simp [InTri])) (by omega) (by rw [View.sub_rows]; omega)).bind ?_
    rintro m1 ⟨h1, f1⟩
    have u1 := u0.sub hw dF (r := k) (c := k) (nr := A.rows - k) (nc := A.rows - k) (U := InTri false false)
      (by omega) (by omega) (by simp [InTri]) (m' := m1) (h1.congr (fun i j hi hj _ => by
        simp only [permSym, symm, tv, Bool.false_eq_true, if_false, ev, es]
        split
        · rfl
        · exact schur_symm hs _ _ _)) (HoldsOn.weaken_frame f1)
    refine (swapLines_spec (col := false) (hw.sub (by omega) (by omega)) (u1.block_old (r := k) (c := 0)
      (nr := A.rows - k) (nc := k) (by omega) (by omega) (by simp [InTri]; omega)) (by simp [nLines]; omega)
      (by simp [nLines]; omega)).mono ?_
    rintro m2 ⟨h2, f2⟩
    have u2 := u1.block hw dF (r := k) (c := 0) (nr := A.rows - k) (nc := k) (by omega) (by omega)
      (by simp [InTri]; omega) (m' := m2) (h2.congr (fun i j hi hj => by
        have hj' : j < k := by simpa using hj
        simp only [permLines, tv, Bool.false_eq_true, if_false, Nat.zero_add, el i j hj']
        rw [Equiv.swap_comm])) (HoldsOn.weaken_frame f2)
    refine ⟨u2.fin (fun i j hi hj ht hS => ?_), by simpa using u2.frame⟩
    simp [InTri] at ht hS
    simp only [tv, Bool.false_eq_true, if_false, cholV]
    rw [if_pos (by omega), if_pos (by omega), cholF_perm (fun p hp => hfix p (by omega)), hfix i (by omega)]
  · simp only [if_true]
    refine (bkPivotUpperTop_spec (hw.sub (by omega) (by omega)) (by simp) (u0.part_old (r := k) (c := k)
      (nr := A.rows - k) (nc := A.rows - k) (U := InTri true false) (by omega) (by omega)
      (by simp [InTri])) (by omega) (by rw [View.sub_rows]; omega)).bind ?_
    rintro m1 ⟨h1, f1⟩
    have u1 := u0.sub hw dF (r := k) (c := k) (nr := A.rows - k) (nc := A.rows - k) (U := InTri true false)
      (by omega) (by omega) (by simp [InTri]) (m' := m1) (h1.congr (fun i j hi hj _ => by
        simp only [permSym, symm, tv, if_true, ev, es]
        split
        · rfl
        · exact schur_symm hs _ _ _)) (HoldsOn.weaken_frame f1)
    refine (swapLines_spec (col := true) (hw.sub (by omega) (by omega)) (u1.block_old (r := 0) (c := k)
      (nr := k) (nc := A.rows - k) (by omega) (by omega) (by simp [InTri]; omega)) (by simp [nLines]; omega)
      (by simp [nLines]; omega)).mono ?_
    rintro m2 ⟨h2, f2⟩
    have u2 := u1.block hw dF (r := 0) (c := k) (nr := k) (nc := A.rows - k) (by omega) (by omega)
      (by simp [InTri]; omega) (m' := m2) (h2.congr (fun i j hi hj => by
        have hi' : i < k := by simpa using hi
        simp only [permLines, tv, if_true, Nat.zero_add, el j i hi']
        rw [Equiv.swap_comm])) (HoldsOn.weaken_frame f2)
    refine ⟨u2.fin (fun i j hi hj ht hS => ?_), by simpa using u2.frame⟩
    simp [InTri] at ht hS
    simp only [tv, if_true, cholV]
    rw [if_pos (by omega), if_pos (by omega), cholF_perm (fun p hp => hfix p (by omega)), hfix j (by omega)]

/-! ## Elimination -/

theorem cholpvElimLower_spec {env : Env}
    (hrec : env.recursive = false ∨ env.naive = true ∨ env.blas2min ≠ 1)
    {fuel : Nat} {m1 : Mem ℝ} {A : View} {f : Nat → Nat → ℝ} (hs : ∀ i j, f i j = f j i) (hw : A.WF)
    (hsq : A.cols = A.rows) (hf : A.rows + 1 < fuel) {k : Nat} (hk : k < A.rows)
    (h1 : HoldsOn m1 A (InTri false false) (cholV f k)) (hd : 0 < schur f k k k) :
    Runs (cholpvElim Real.sqrt false env fuel m1 A k) (fun m' =>
      HoldsOn m' A (InTri false false) (cholV f (k + 1)) ∧
      Frame (A.footOn (InTri false false)) m1 m') := by
  unfold cholpvElim
  rw [hsq]
  dsimp only
  have u0 := UpdX.init h1 (cholV f (k + 1)) ∅
  have dF : Disjoint (A.footOn (InTri false false)) (∅ : Set Nat) := Set.disjoint_empty _
  have ht : InTri false false k k := by simp [InTri]
  have e0 := u0.at_old hk (by omega) ht (by omega)
  rw [show cholV f k k k = schur f k k k by unfold cholV; rw [if_neg (by omega)]] at e0
  refine Runs.rd_bind e0 ?_
  simp only [Bool.false_eq_true, if_true, if_false]
  refine Runs.wr_bind e0 ?_
  have u1 := u0.cell hw hk (by omega : k < A.cols) ht (x := Real.sqrt (schur f k k k)) (by
    unfold cholV; rw [if_pos (by omega), cholF_diag])
  have s1 := scale_line (X := A.sub (k + 1) k (A.rows - k - 1) 1) (1 / Real.sqrt (schur f k k k)) (Or.inr rfl)
    (hw.sub (by omega) (by omega)) (u1.block_old (r := k + 1) (c := k) (nr := A.rows - k - 1) (nc := 1)
      (by omega) (by omega) (by simp [InTri]; omega))
  refine s1.bind ?_
  rintro ⟨e2, m2⟩ ⟨h2, f2⟩
  dsimp only at h2 f2 ⊢
  have u2 := u1.block hw dF (r := k + 1) (c := k) (nr := A.rows - k - 1) (nc := 1) (by omega) (by omega)
    (by simp [InTri]; omega) (m' := m2) (h2.congr (fun i j hi hj => by
      have : j = 0 := by rw [View.sub_cols] at hj; omega
      subst this
      unfold cholV cholF
      rw [if_neg (by omega), if_pos (by omega)]
      simp [div_eq_inv_mul])) (HoldsOn.weaken_frame f2)
  have s2 := C15_mvupdate_sym_partial (env := env) (1 : ℝ) (-1) (fl := { lower := true }) rfl (fuel := fuel)
    (m := m2) (A := A.sub (k + 1) (k + 1) (A.rows - k - 1) (A.rows - k - 1))
    (X := A.sub (k + 1) k (A.rows - k - 1) 1) hrec rfl (by rw [View.sub_rows]; omega)
    (hw.sub (by omega) (by omega)) (Or.inr rfl) (by simp)
    (u2.part_old (by omega) (by omega) (by simp [InTri]; omega))
    (u2.block_new (by omega) (by omega) (by simp [InTri]; omega)).toV_col
    ((View.sub_disj hw (by omega) (by omega) (by omega) (by omega) (by omega)).mono_right
      (View.footOn_sub_foot _ _))
  refine s2.bind ?_
  rintro ⟨e3, m3⟩ ⟨-, h3, f3⟩
  dsimp only at h3 f3 ⊢
  have u3 := u2.sub hw dF (r := k + 1) (c := k + 1) (nr := A.rows - k - 1) (nc := A.rows - k - 1)
    (by omega) (by omega) (by simp [InTri]) (m' := m3) (h3.congr (fun i j hi hj _ => by
      simp only [cholV, show ¬ (k + 1 + j < k) by omega, show ¬ (k + 1 + j < k + 1) by omega,
        show k + 0 < k + 1 by omega, if_true, if_false]
      exact cholV_step hs hd _ _)) (HoldsOn.weaken_frame f3)
  refine Runs.pure ⟨u3.fin (fun i j hi hj ht hS => ?_), by simpa using u3.frame⟩
  simp [InTri] at ht hS
  unfold cholV
  rw [if_pos (by omega), if_pos (by omega)]

theorem cholpvElimUpper_spec {env : Env}
    (hrec : env.recursive = false ∨ env.naive = true ∨ env.blas2min ≠ 1)
    {fuel : Nat} {m1 : Mem ℝ} {A : View} {f : Nat → Nat → ℝ} (hs : ∀ i j, f i j = f j i) (hw : A.WF)
    (hsq : A.cols = A.rows) (hf : A.rows + 1 < fuel) {k : Nat} (hk : k < A.rows)
    (h1 : HoldsOn m1 A (InTri true false) (fun i j => cholV f k j i)) (hd : 0 < schur f k k k) :
    Runs (cholpvElim Real.sqrt true env fuel m1 A k) (fun m' =>
      HoldsOn m' A (InTri true false) (fun i j => cholV f (k + 1) j i) ∧
      Frame (A.footOn (InTri true false)) m1 m') := by
  unfold cholpvElim
  rw [hsq]
  dsimp only
  have u0 := UpdX.init h1 (fun i j => cholV f (k + 1) j i) ∅
  have dF : Disjoint (A.footOn (InTri true false)) (∅ : Set Nat) := Set.disjoint_empty _
  have ht : InTri true false k k := by simp [InTri]
  have e0 := u0.at_old hk (by omega) ht (by omega)
  rw [show cholV f k k k = schur f k k k by unfold cholV; rw [if_neg (by omega)]] at e0
  refine Runs.rd_bind e0 ?_
  simp only [Bool.false_eq_true, if_true, if_false]
  refine Runs.wr_bind e0 ?_
  have u1 := u0.cell hw hk (by omega : k < A.cols) ht (x := Real.sqrt (schur f k k k)) (by
    unfold cholV; rw [if_pos (by omega), cholF_diag])
  have s1 := scale_line (X := A.sub k (k + 1) 1 (A.rows - k - 1)) (1 / Real.sqrt (schur f k k k)) (Or.inl rfl)
    (hw.sub (by omega) (by omega)) (u1.block_old (r := k) (c := k + 1) (nr := 1) (nc := A.rows - k - 1)
      (by omega) (by omega) (by simp [InTri]; omega))
  refine s1.bind ?_
  rintro ⟨e2, m2⟩ ⟨h2, f2⟩
  dsimp only at h2 f2 ⊢
  have u2 := u1.block hw dF (r := k) (c := k + 1) (nr := 1) (nc := A.rows - k - 1) (by omega) (by omega)
    (by simp [InTri]; omega) (m' := m2) (h2.congr (fun i j hi hj => by
      have : i = 0 := by rw [View.sub_rows] at hi; omega
      subst this
      unfold cholV cholF
      rw [if_neg (by omega), if_pos (by omega)]
      simp [div_eq_inv_mul])) (HoldsOn.weaken_frame f2)
  have s2 := C15_mvupdate_sym_partial (env := env) (1 : ℝ) (-1) (fl := { upper := true }) rfl (fuel := fuel)
    (m := m2) (A := A.sub (k + 1) (k + 1) (A.rows - k - 1) (A.rows - k - 1))
    (X := A.sub k (k + 1) 1 (A.rows - k - 1)) hrec rfl (by rw [View.sub_rows]; omega)
    (hw.sub (by omega) (by omega)) (Or.inl rfl) (by simp)
    (u2.part_old (by omega) (by omega) (by simp [InTri]; omega))
    (u2.block_new (by omega) (by omega) (by simp [InTri]; omega)).toV_row
    ((View.sub_disj hw (by omega) (by omega) (by omega) (by omega) (by omega)).mono_right
      (View.footOn_sub_foot _ _))
  refine s2.bind ?_
  rintro ⟨e3, m3⟩ ⟨-, h3, f3⟩
  dsimp only at h3 f3 ⊢
  have u3 := u2.sub hw dF (r := k + 1) (c := k + 1) (nr := A.rows - k - 1) (nc := A.rows - k - 1)
    (by omega) (by omega) (by simp [InTri]) (m' := m3) (h3.congr (fun i j hi hj _ => by
      simp only [cholV, show ¬ (k + 1 + i < k) by omega, show ¬ (k + 1 + i < k + 1) by omega,
        show k + 0 < k + 1 by omega, if_true, if_false]
      rw [← cholV_step hs hd, mul_comm (cholF f (k + 1 + j) k)]; rfl)) (HoldsOn.weaken_frame f3)
  refine Runs.pure ⟨u3.fin (fun i j hi hj ht hS => ?_), by simpa using u3.frame⟩
  simp [InTri] at ht hS
  unfold cholV
  rw [if_pos (by omega), if_pos (by omega)]

theorem cholpvElim_spec {upper : Bool} {env : Env}
    (hrec : env.recursive = false ∨ env.naive = true ∨ env.blas2min ≠ 1)
    {fuel : Nat} {m1 : Mem ℝ} {A : View} {f : Nat → Nat → ℝ} (hs : ∀ i j, f i j = f j i) (hw : A.WF)
    (hsq : A.cols = A.rows) (hf : A.rows + 1 < fuel) {k : Nat} (hk : k < A.rows)
    (h1 : HoldsOn m1 A (InTri upper false) (tv upper (cholV f k))) (hd : 0 < schur f k k k) :
    Runs (cholpvElim Real.sqrt upper env fuel m1 A k) (fun m' =>
      HoldsOn m' A (InTri upper false) (tv upper (cholV f (k + 1))) ∧
      Frame (A.footOn (InTri upper false)) m1 m') := by
  cases upper
  · exact cholpvElimLower_spec hrec hs hw hsq hf hk h1 hd
  · exact cholpvElimUpper_spec hrec hs hw hsq hf hk h1 hd

/-! ## The loop -/

/-- What the triangle holds when the loop stopped at rank `r`. -/
noncomputable def cholR (f : Nat → Nat → ℝ) (r i j : Nat) : ℝ := if j < r then cholF f i j else 0

/-- The matrix permuted by the first `k` pivots. -/
def pivM (n : Nat) (P : Piv) (k : Nat) (f : Nat → Nat → ℝ) : Nat → Nat → ℝ := permM (fwdPerm n P.ix k) f

theorem set_zero_spec {upper : Bool} {m : Mem ℝ} {A : View} {f : Nat → Nat → ℝ} (hw : A.WF) (hsq : A.cols = A.rows) {k : Nat}
    (hk : k ≤ A.rows) (h : HoldsOn m A (InTri upper false) (tv upper (cholV f k))) :
    Runs (setElems (fun _ _ _ => 0) m (A.sub k k (A.rows - k) (A.cols - k)) (if upper then .upper else .lower) false)
      (fun r => HoldsOn r.2.1 A (InTri upper false) (tv upper (cholR f k)) ∧
        Frame (A.footOn (InTri upper false)) m r.2.1) := by
  rw [hsq]
  have u0 := UpdX.init h (tv upper (cholR f k)) ∅
  have dF : Disjoint (A.footOn (InTri upper false)) (∅ : Set Nat) := Set.disjoint_empty _
  refine (C58_set_triangle (gen := fun _ _ _ => (0 : ℝ)) (unit := false) (hw.sub (by omega) (by omega))
    (u0.part_old (r := k) (c := k) (nr := A.rows - k) (nc := A.rows - k) (U := InTri upper false) (by omega)
    (by omega) (by cases upper <;> simp [InTri]))).mono ?_
  rintro ⟨e, m1, c⟩ ⟨-, num, -, h1, f1⟩
  dsimp only at h1 f1 ⊢
  have u1 := u0.sub hw dF (r := k) (c := k) (nr := A.rows - k) (nc := A.rows - k) (U := InTri upper false)
      (by omega) (by omega) (by cases upper <;> simp [InTri]) (m' := m1) (h1.congr (fun i j hi hj _ => by
        cases upper <;> simp [tv, cholR])) (HoldsOn.weaken_frame f1)
  refine ⟨u1.fin (fun i j hi hj ht hS => ?_), by simpa using u1.frame⟩
  cases upper
  · simp [InTri] at ht hS
    simp only [tv, Bool.false_eq_true, if_false, cholV, cholR]
    rw [if_pos (by omega), if_pos (by omega)]
  · simp [InTri] at ht hS
    simp only [tv, if_true, cholV, cholR]
    rw [if_pos (by omega), if_pos (by omega)]

/-- What the loop has established for `r` steps: pivots in range, pivot elements above the stopping level and the
largest of their remaining diagonal. -/
structure PivInv (n : Nat) (f : Nat → Nat → ℝ) (xstop : ℝ) (P : Piv) (r : Nat) : Prop where
  size : P.n = n
  range : ∀ p, p < r → (p : Int) + 1 ≤ P.ix p ∧ P.ix p ≤ n
  above : ∀ p, p < r → xstop < schur (pivM n P r f) p p p
  dom : ∀ p i, p < r → p ≤ i → i < n → |schur (pivM n P r f) p i i| ≤ schur (pivM n P r f) p p p

theorem PivInv.step {n : Nat} {f : Nat → Nat → ℝ} {xstop : ℝ} {P : Piv} {k q : Nat} (h : PivInv n f xstop P k)
    (h0 : 0 ≤ xstop) (hq : k + q < n) (hx : xstop < schur (pivM n P k f) k (k + q) (k + q))
    (hm : ∀ i, i < n - k → |schur (pivM n P k f) k (k + i) (k + i)| ≤ |schur (pivM n P k f) k (k + q) (k + q)|) :
    PivInv n f xstop (P.set k ((q : Int) + k + 1)) (k + 1) ∧
    pivM n (P.set k ((q : Int) + k + 1)) (k + 1) f = permM (Equiv.swap k (k + q)) (pivM n P k f) ∧
    0 < schur (pivM n (P.set k ((q : Int) + k + 1)) (k + 1) f) k k k := by
  have hn : k < P.n := by rw [h.size]; omega
  have eix : (P.set k ((q : Int) + k + 1)).ix = fun l => if l = k then (q : Int) + k + 1 else P.ix l := by
    unfold Piv.set; rw [if_pos hn]
  have e : pivM n (P.set k ((q : Int) + k + 1)) (k + 1) f = permM (Equiv.swap k (k + q)) (pivM n P k f) := by
    unfold pivM
    rw [fwdPerm, permM_mul, fwdPerm_congr (g := P.ix) (fun l hl => by rw [eix]; simp only; rw [if_neg (by omega)])]
    congr 2
    unfold pivTau
    rw [eix]
    simp only [if_true]
    rw [if_pos (by omega)]
    congr 1; omega
  have hfix : ∀ p, p < k → Equiv.swap k (k + q) p = p := fun p hp =>
    Equiv.swap_apply_of_ne_of_ne (by omega) (by omega)
  have hk : schur (pivM n (P.set k ((q : Int) + k + 1)) (k + 1) f) k k k =
      schur (pivM n P k f) k (k + q) (k + q) := by
    rw [e, schur_perm hfix, Equiv.swap_apply_left]
  have sl : ∀ i, i < n → k ≤ i → k ≤ Equiv.swap k (k + q) i ∧ Equiv.swap k (k + q) i < n := by
    intro i hi hki
    rw [Equiv.swap_apply_def]; split_ifs <;> omega
  refine ⟨⟨?_, ?_, ?_, ?_⟩, e, by rw [hk]; linarith⟩
  · unfold Piv.set; rw [if_pos hn]; exact h.size
  · intro p hp
    rw [eix]
    simp only
    split
    · omega
    · exact h.range p (by omega)
  · intro p hp
    by_cases hpk : p = k
    · subst hpk; rw [hk]; exact hx
    · rw [e, schur_perm (fun l hl => hfix l (by omega)), hfix p (by omega)]
      exact h.above p (by omega)
  · intro p i hp hpi hi
    by_cases hpk : p = k
    · subst hpk
      rw [hk, e, schur_perm hfix]
      obtain ⟨s1, s2⟩ := sl i hi hpi
      have := hm (Equiv.swap p (p + q) i - p) (by omega)
      rw [show p + (Equiv.swap p (p + q) i - p) = Equiv.swap p (p + q) i by omega] at this
      rwa [abs_of_pos (a := schur (pivM n P p f) p (p + q) (p + q)) (by linarith)] at this
    · rw [e, schur_perm (fun l hl => hfix l (by omega)), schur_perm (fun l hl => hfix l (by omega)),
        hfix p (by omega)]
      by_cases hik : i < k
      · rw [hfix i hik]; exact h.dom p i (by omega) hpi hi
      · obtain ⟨s1, s2⟩ := sl i hi (by omega)
        exact h.dom p _ (by omega) (by omega) s2

/-- What holds when the loop stops with rank `r`. -/
structure PivEnd (n : Nat) (f : Nat → Nat → ℝ) (xstop : ℝ) (P : Piv) (r : Nat) : Prop where
  le : r ≤ n
  inv : PivInv n f xstop P r
  stop : r < n → ∃ i, r ≤ i ∧ i < n ∧ schur (pivM n P r f) r i i ≤ xstop ∧
    ∀ j, r ≤ j → j < n → |schur (pivM n P r f) r j j| ≤ |schur (pivM n P r f) r i i|

theorem cholpvLoop_spec {upper : Bool} {env : Env}
    (hrec : env.recursive = false ∨ env.naive = true ∨ env.blas2min ≠ 1)
    {fuel : Nat} {A : View} {f : Nat → Nat → ℝ} (hs : ∀ i j, f i j = f j i) (hw : A.WF)
    (hsq : A.cols = A.rows) (hf : A.rows + 1 < fuel) {xstop : ℝ} (h0 : 0 ≤ xstop) :
    ∀ {t k : Nat} {P : Piv} {m : Mem ℝ}, k + t = A.rows → PivInv A.rows f xstop P k →
    HoldsOn m A (InTri upper false) (tv upper (cholV (pivM A.rows P k f) k)) →
    Runs (cholpvLoop Real.sqrt upper env fuel A xstop t k P m) (fun x => k ≤ x.1 ∧ PivEnd A.rows f xstop x.2.1 x.1 ∧
      (∀ p, p < k ∨ x.1 ≤ p → x.2.1.ix p = P.ix p) ∧
      HoldsOn x.2.2 A (InTri upper false) (tv upper (cholR (pivM A.rows x.2.1 x.1 f) x.1)) ∧
      Frame (A.footOn (InTri upper false)) m x.2.2) := by
  intro t
  induction t with
  | zero =>
    intro k P m hk hP h
    refine Runs.pure ⟨le_refl _, ⟨by dsimp only; omega, hP, by dsimp only; omega⟩, fun _ _ => rfl,
      h.congr (fun i j hi hj _ => ?_), Frame.refl _ _⟩
    cases upper
    · simp only [tv, Bool.false_eq_true, if_false, cholV, cholR]; rw [if_pos (by omega), if_pos (by omega)]
    · simp only [tv, if_true, cholV, cholR]; rw [if_pos (by omega), if_pos (by omega)]
  | succ t ih =>
    intro k P m hk hP h
    unfold cholpvLoop
    dsimp only
    have hD : HoldsV m (diagRow (A.sub k k (A.rows - k) (A.cols - k)))
        (fun i => schur (pivM A.rows P k f) k (k + i) (k + i)) := by
      intro i hi
      have hi' : i < A.rows - k := by
        simpa [View.size, diagRow, hsq] using hi
      have := h (k + i) (k + i) (by omega) (by omega) (by simp [InTri])
      rw [show tv upper (cholV (pivM A.rows P k f) k) (k + i) (k + i) =
        schur (pivM A.rows P k f) k (k + i) (k + i) by
          have e1 : cholV (pivM A.rows P k f) k (k + i) (k + i) = schur (pivM A.rows P k f) k (k + i) (k + i) := by
            rw [cholV, if_neg (by omega)]
          cases upper <;> exact e1] at this
      rw [← this]
      congr 1
      simp [View.vat, diagRow, View.inc, View.at', View.sub]
      ring
    have hsz : (diagRow (A.sub k k (A.rows - k) (A.cols - k))).size = A.rows - k := by
      simp [View.size, diagRow, hsq]
    refine Runs.bind (C08_iamax (Or.inl rfl) (by rw [hsz]; omega) hD) ?_
    rintro im ⟨q, rfl, hq, hmax, -⟩
    rw [hsz] at hq hmax
    simp only [Int.toNat_natCast]
    refine Runs.rd_bind (hD q (by rw [hsz]; exact hq)) ?_
    by_cases hx : schur (pivM A.rows P k f) k (k + q) (k + q) ≤ xstop
    · rw [if_pos hx]
      refine (set_zero_spec hw hsq (by omega) h).bind ?_
      rintro ⟨e, m1, c⟩ ⟨h1, f1⟩
      refine Runs.pure ⟨le_refl _, ⟨by dsimp only; omega, hP, fun _ => ⟨k + q, by dsimp only; omega, by omega, hx,
        fun j hj1 hj2 => ?_⟩⟩, fun _ _ => rfl, h1, f1⟩
      dsimp only at hj1 ⊢
      have := hmax (j - k) (by omega)
      rwa [show k + (j - k) = j by omega] at this
    · rw [if_neg hx]
      obtain ⟨hP1, eP, hpos⟩ := hP.step h0 (by omega) (lt_of_not_ge hx) hmax
      refine (cholpvSwap_spec (f := pivM A.rows P k f) (permM_symm hs _) hw hsq (k := k) (q := q) (by omega) h).bind ?_
      rintro m1 ⟨h1, f1⟩
      rw [← eP] at h1
      refine (cholpvElim_spec hrec (permM_symm hs _) hw hsq hf (by omega) h1 hpos).bind ?_
      rintro m2 ⟨h2, f2⟩
      refine (ih (by omega) hP1 h2).mono ?_
      rintro ⟨r, P2, m3⟩ ⟨a1, a2, a3, a4, a5⟩
      dsimp only at a1 a2 a3 a4 a5 ⊢
      refine ⟨by omega, a2, fun p hp => ?_, a4, f1.trans (f2.trans a5)⟩
      rw [a3 p (by omega)]
      unfold Piv.set
      split
      · simp only; rw [if_neg (by omega)]
      · rfl

end Armas
