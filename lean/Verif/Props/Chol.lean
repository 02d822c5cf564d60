import Verif.CholLemmas
import Verif.PosDef
import Verif.Demo

/-!
# C44: Cholesky factorization

`cholProd` and `PosDefn` (in `Verif.PosDef`) are the specification: the product of the stored factor with
its transpose, and positive definiteness as a quadratic form.
-/

namespace Armas.Props

open Armas Finset Classical

/-- `U^T U` (`up`) or `L L^T` of the triangle stored in `v`. -/
noncomputable def cholProd (up : Bool) (n : Nat) (v : Nat → Nat → ℝ) (i j : Nat) : ℝ :=
  ∑ p ∈ range n, if up then trm true false v p i * trm true false v p j
    else trm false false v i p * trm false false v j p

/-- What `armas_cholfactor_w` is called with: only the triangle selected by `ARMAS_LOWER` (upper if it is
not given) is assumed to be allocated. -/
structure CholArgs (env : Env) (c : Cache) (lb : Nat) (m : Mem ℝ) (A : View) (a : Nat → Nat → ℝ) (fl : Flags) :
    Prop where
  conf : Conf3 env c
  wf : A.WF
  square : A.cols = A.rows
  ready : c.Ready m
  hA : HoldsOn m A (InTri (!fl.lower) false) a
  dAc : Disjoint (A.footOn (InTri (!fl.lower) false)) c.foot
  /-- the blocked upper version calls `armas_update_sym`, which is wrong for odd splits (C21) -/
  even : fl.lower = true ∨ lb = 0 ∨ A.cols ≤ lb ∨
    ∀ q, EvenSplits env c (A.rows - q * lb) { upper := true, transA := true }

theorem symm_comm' {α : Type} (up : Bool) (a : Nat → Nat → α) (i j : Nat) : symm up a i j = symm up a j i := by
  unfold symm
  rcases Nat.lt_trichotomy i j with h | h | h
  · cases up <;> simp [h.le, not_le.mpr h]
  · subst h; rfl
  · cases up <;> simp [h.le, not_le.mpr h]

theorem HoldsOn.toSymm {α : Type} {m : Mem α} {V : View} {up : Bool} {a : Nat → Nat → α}
    (h : HoldsOn m V (InTri up false) a) : HoldsOn m V (InTri up false) (symm up a) :=
  h.congr (fun i j _ _ ht => by
    unfold symm
    cases up <;> simp [InTri] at ht <;> simp [ht])

theorem cholProd_factor {f : Nat → Nat → ℝ} (hs : ∀ i j, f i j = f j i) {n : Nat}
    (hp : ∀ p, p < n → 0 < schur f p p p) (up : Bool) {i j : Nat} (hi : i < n) (hj : j < n) :
    cholProd up n (if up then fun i j => cholF f j i else cholF f) i j = f i j := by
  rw [show f i j = schur f 0 i j from rfl, cholF_full hs (Nat.zero_le n) hp (Or.inl hi), ← Finset.range_eq_Ico]
  unfold cholProd
  refine Finset.sum_congr rfl (fun p hp' => ?_)
  have hp'' := Finset.mem_range.mp hp'
  have hz : ∀ i, i < n → (¬ p ≤ i → cholF f i p = 0) := fun i hi h =>
    cholF_zero (fun q hq => (hp q (by omega)).ne') (not_le.mp h) (fun q hq => (hp q (by omega)).ne')
  have t : ∀ i, i < n → trm false false (cholF f) i p = cholF f i p ∧
      trm true false (fun i j => cholF f j i) p i = cholF f i p := by
    intro i hi
    simp only [trm]
    rcases Nat.lt_trichotomy i p with h | h | h
    · rw [hz i hi (not_le.mpr h)]; simp [InTri, h.ne, h.ne', not_lt.mpr h.le]
    · subst h; simp
    · simp [InTri, h.ne, h.ne', h]
  cases up <;> simp only [Bool.false_eq_true, if_true, if_false]
  · rw [(t i hi).1, (t j hj).1]
  · rw [(t i hi).2, (t j hj).2]

theorem cholfactor_spec (ab : ℝ → ℝ) {env : Env} {c : Cache} {lb : Nat} {m : Mem ℝ} {A : View}
    {a : Nat → Nat → ℝ} {fl : Flags} (H : CholArgs env c lb m A a fl) {fuel : Nat} (hf : 4 * A.rows + 1 < fuel)
    (hp : ∀ p, p < A.rows → 0 < schur (symm (!fl.lower) a) p p p) :
    Runs (cholfactor ab env lb fuel m A fl (some c)) (fun r => r.1 = 0 ∧
      HoldsOn r.2 A (InTri (!fl.lower) false) (if (!fl.lower) = true then
        fun i j => cholF (symm (!fl.lower) a) j i else cholF (symm (!fl.lower) a)) ∧
      Frame (A.footOn (InTri (!fl.lower) false) ∪ c.foot) m r.2 ∧ c.Ready r.2) := by
  obtain ⟨h1, h2, h3, h4, h5, h6, h7⟩ := H
  have h5' := HoldsOn.toSymm h5
  unfold cholfactor
  rw [if_neg (by simp [h3])]
  revert h5 h5' h6 h7 hp
  cases hl : fl.lower <;> simp only [Bool.not_false, Bool.not_true, Bool.false_eq_true, if_true, if_false] <;>
    intro hp h5 h6 h7 h5' <;> split
  · exact (unblkCholUpper_spec h1.hrec (symm_comm' _ _) h2 h3 (by omega) h5' hp).mono
      (fun r hr => ⟨hr.1, hr.2.1, hr.2.2.mono Set.subset_union_left, h4.frame hr.2.2 h6.symm⟩)
  · rename_i hb
    push Not at hb
    exact blkCholUpper_spec ab h1 (symm_comm' _ _) h2 h3 hf h5' hp (by omega) h4 h6
      ((h7.resolve_left (by simp)).resolve_left hb.1 |>.resolve_left (by omega))
  · exact (unblkCholLower_spec h1.hrec (symm_comm' _ _) h2 h3 (by omega) h5' hp).mono
      (fun r hr => ⟨hr.1, hr.2.1, hr.2.2.mono Set.subset_union_left, h4.frame hr.2.2 h6.symm⟩)
  · rename_i hb
    push Not at hb
    exact blkCholLower_spec ab h1 (symm_comm' _ _) h2 h3 hf h5' hp (by omega) h4 h6

/-! ### Concrete arguments -/

/-- Memory holding the 3x3 matrix with `d` on the diagonal and 1 elsewhere at address 0, step 8. -/
noncomputable def cholDemo (d : ℝ) : Mem ℝ := tot (fun p => if p % 9 = 0 then d else 1)

theorem cholDemo_args (d : ℝ) (up : Bool) : CholArgs ⟨8, 8, false, true⟩ ⟨500, 600, 4, 4, 3, 3, 1⟩ 1 (cholDemo d)
    ⟨0, 8, 3, 3⟩ (fun i j => if (0 + i + j * 8) % 9 = 0 then d else 1) { lower := !up, upper := up } :=
  ⟨⟨Or.inl (by decide), by decide⟩, Or.inl (by decide), rfl,
    ⟨by decide, by decide, by decide, by decide, by decide, ⟨_, holds_tot _ _⟩, ⟨_, holds_tot _ _⟩,
      View.disj_below (by decide)⟩, HoldsOn.of_holds (holds_tot _ _),
    (Set.disjoint_union_right.mpr ⟨View.disj_below (by decide), View.disj_below (by decide)⟩).mono_left
      (View.footOn_sub_foot _ _), by
    cases up
    · exact Or.inl rfl
    · right; right; right
      intro q
      right; right
      simp only [if_true]
      intro k hk
      have : (3 - q * 1) / 2 ^ k ≤ 3 - q * 1 := Nat.div_le_self _ _
      omega⟩

theorem cholDemo_posdef (up : Bool) :
    PosDefn 3 (symm up (fun i j => if (0 + i + j * 8) % 9 = 0 then (4 : ℝ) else 1)) := by
  rintro x ⟨i, hi, hx⟩
  have e : ∑ i ∈ range 3, ∑ j ∈ range 3, x i * symm up (fun i j => if (0 + i + j * 8) % 9 = 0 then (4 : ℝ) else 1) i j * x j
      = 3 * (x 0 ^ 2 + x 1 ^ 2 + x 2 ^ 2) + (x 0 + x 1 + x 2) ^ 2 := by
    cases up <;> simp [Finset.sum_range_succ, symm] <;> ring
  rw [e]
  have : 0 < x i ^ 2 := by positivity
  have h : i = 0 ∨ i = 1 ∨ i = 2 := by omega
  rcases h with h | h | h <;> subst h <;>
    nlinarith [sq_nonneg (x 0), sq_nonneg (x 1), sq_nonneg (x 2), sq_nonneg (x 0 + x 1 + x 2)]

theorem cholDemo_not_posdef (up : Bool) :
    ¬ PosDefn 3 (symm up (fun i j => if (0 + i + j * 8) % 9 = 0 then (-3 : ℝ) else 1)) := by
  intro h
  have := h (fun i => if i = 0 then 1 else 0) ⟨0, by decide, by simp⟩
  cases up <;> norm_num [symm, Finset.sum_range_succ] at this

/-- A positive definite matrix given by one triangle is factored: status 0, the triangle holds the factor
with positive diagonal whose product with its transpose is the matrix, for every block size; nothing else
(in particular not the opposite triangle) is changed. -/
theorem C44_factor_partial (ab : ℝ → ℝ) {env : Env} {c : Cache} {lb : Nat} {m : Mem ℝ} {A : View}
    {a : Nat → Nat → ℝ} {fl : Flags} (H : CholArgs env c lb m A a fl) {fuel : Nat} (hf : 4 * A.rows + 1 < fuel)
    (hpd : PosDefn A.rows (symm (!fl.lower) a)) :
    Runs (cholfactor ab env lb fuel m A fl (some c)) (fun r => r.1 = 0 ∧
      (∃ v, HoldsOn r.2 A (InTri (!fl.lower) false) v ∧ (∀ i, i < A.rows → 0 < v i i) ∧
        ∀ i j, i < A.rows → j < A.rows → cholProd (!fl.lower) A.rows v i j = symm (!fl.lower) a i j) ∧
      Frame (A.footOn (InTri (!fl.lower) false) ∪ c.foot) m r.2) := by
  have hp := hpd.pivots
  refine (cholfactor_spec ab H hf hp).mono ?_
  rintro r ⟨h1, h2, h3, -⟩
  refine ⟨h1, ⟨_, h2, fun i hi => ?_, fun i j hi hj => cholProd_factor (symm_comm' _ _) hp _ hi hj⟩, h3⟩
  have : 0 < cholF (symm (!fl.lower) a) i i := by rw [cholF_diag]; exact Real.sqrt_pos.mpr (hp i hi)
  split <;> exact this

example (up : Bool) := C44_factor_partial id (cholDemo_args 4 up) (fuel := 20) (by decide)
  (by simpa using cholDemo_posdef up)

theorem cholfactor_pivots (ab : ℝ → ℝ) {env : Env} {c : Cache} {lb : Nat} {m m' : Mem ℝ} {A : View}
    {a : Nat → Nat → ℝ} {fl : Flags} (H : CholArgs env c lb m A a fl) {fuel : Nat} (hf : 4 * A.rows + 1 < fuel)
    (hreg : fl.lower = true → LeadingRegular A.rows (symm (!fl.lower) a))
    (hok : cholfactor ab env lb fuel m A fl (some c) = .ok (0, m')) :
    ∀ p, p < A.rows → 0 < schur (symm (!fl.lower) a) p p p := by
  by_contra hc
  push Not at hc
  have hk := Nat.find_spec hc
  have hmin : ∀ p, p < Nat.find hc → 0 < schur (symm (!fl.lower) a) p p p := by
    intro p hp
    have := Nat.find_min hc hp
    push Not at this
    exact this (by omega)
  have hreg' : fl.lower = true → schur (symm (!fl.lower) a) (Nat.find hc) (Nat.find hc) (Nat.find hc) < 0 :=
    fun h => lt_of_le_of_ne hk.2 ((hreg h).pivots _ hk.1)
  generalize Nat.find hc = k0 at *
  obtain ⟨hk0, hb⟩ := hk
  obtain ⟨h1, h2, h3, h4, h5, h6, h7⟩ := H
  have h5' := HoldsOn.toSymm h5
  unfold cholfactor at hok
  rw [if_neg (by simp [h3])] at hok
  clear hc hreg
  revert h5 h5' h6 h7 hmin hb hreg' hok
  cases hl : fl.lower <;> simp only [Bool.not_false, Bool.not_true, Bool.false_eq_true, if_true, if_false] <;>
    intro hok hmin hreg' hb h5 h6 h7 h5' <;> split at hok
  · exact unblkCholUpper_bad h1.hrec (symm_comm' _ _) h2 h3 (by omega) h5' hk0 hmin hb hok rfl
  · rename_i hn
    push Not at hn
    exact blkCholUpper_bad ab h1 (symm_comm' _ _) h2 h3 hf h5' (by omega) h4 h6
      ((h7.resolve_left (by simp)).resolve_left hn.1 |>.resolve_left (by omega)) hk0 hmin hb hok rfl
  · exact unblkCholLower_bad h1.hrec (symm_comm' _ _) h2 h3 (by omega) h5' hk0 hmin (hreg' trivial) hok rfl
  · rename_i hn
    push Not at hn
    exact blkCholLower_bad ab h1 (symm_comm' _ _) h2 h3 hf h5' (by omega) h4 h6 hk0 hmin (hreg' trivial) hok rfl

/-- Status 0 is returned only for positive definite matrices, with the factor in place.  Missing for the
lower version: matrices with a singular leading block, see `C44_zero_pivot_false`. -/
theorem C44_success_partial (ab : ℝ → ℝ) {env : Env} {c : Cache} {lb : Nat} {m m' : Mem ℝ} {A : View}
    {a : Nat → Nat → ℝ} {fl : Flags} (H : CholArgs env c lb m A a fl) {fuel : Nat} (hf : 4 * A.rows + 1 < fuel)
    (hreg : fl.lower = true → LeadingRegular A.rows (symm (!fl.lower) a))
    (hok : cholfactor ab env lb fuel m A fl (some c) = .ok (0, m')) :
    PosDefn A.rows (symm (!fl.lower) a) ∧
      (∃ v, HoldsOn m' A (InTri (!fl.lower) false) v ∧
        ∀ i j, i < A.rows → j < A.rows → cholProd (!fl.lower) A.rows v i j = symm (!fl.lower) a i j) ∧
      Frame (A.footOn (InTri (!fl.lower) false) ∪ c.foot) m m' := by
  have hp := cholfactor_pivots ab H hf hreg hok
  have hs := (cholfactor_spec ab H hf hp).of_ok hok
  have hc := symm_comm' (!fl.lower) a
  refine ⟨?_, ⟨_, hs.2.1, fun i j hi hj => cholProd_factor hc hp _ hi hj⟩, hs.2.2.1⟩
  refine posDefn_of_factor (G := cholF (symm (!fl.lower) a)) (fun i j hi hj => ?_) (fun i p hi hp' => ?_)
    (fun i hi => ?_)
  · rw [Finset.range_eq_Ico, ← cholF_full hc (Nat.zero_le _) hp (Or.inl hi)]; rfl
  · exact cholF_zero (fun q hq => (hp q (by omega)).ne') hi (fun q hq => (hp q (by omega)).ne')
  · rw [cholF_diag]; exact (Real.sqrt_pos.mpr (hp i hi)).ne'

example : ∃ m' : Mem ℝ, PosDefn 3 (symm true (fun i j => if (0 + i + j * 8) % 9 = 0 then (4 : ℝ) else 1)) ∧
    ∃ v, HoldsOn m' ⟨0, 8, 3, 3⟩ (InTri true false) v := by
  obtain ⟨⟨e, m'⟩, h1, rfl, -⟩ := C44_factor_partial id (cholDemo_args 4 true) (fuel := 20) (by decide)
    (by simpa using cholDemo_posdef true)
  have := C44_success_partial id (cholDemo_args 4 true) (fuel := 20) (by decide) (by simp) h1
  exact ⟨m', by simpa using this.1, by obtain ⟨v, hv, -⟩ := this.2.1; exact ⟨v, by simpa using hv⟩⟩

/-- A matrix that is not positive definite gives an error (the contrapositive, with the same restriction:
the call never ends with status 0). -/
theorem C44_not_posdef_partial (ab : ℝ → ℝ) {env : Env} {c : Cache} {lb : Nat} {m : Mem ℝ} {A : View}
    {a : Nat → Nat → ℝ} {fl : Flags} (H : CholArgs env c lb m A a fl) {fuel : Nat} (hf : 4 * A.rows + 1 < fuel)
    (hreg : fl.lower = true → LeadingRegular A.rows (symm (!fl.lower) a))
    (hpd : ¬ PosDefn A.rows (symm (!fl.lower) a)) (m' : Mem ℝ) :
    cholfactor ab env lb fuel m A fl (some c) ≠ .ok (0, m') :=
  fun h => hpd (C44_success_partial ab H hf hreg h).1

example := C44_not_posdef_partial id (cholDemo_args (-3) true) (fuel := 20) (by decide) (by simp)
  (by simpa using cholDemo_not_posdef true)

example := C44_not_posdef_partial id (cholDemo_args (-3) false) (fuel := 20) (by decide)
  (fun _ => leadingRegular_of_pivots (fun p hp => by
    have h : p = 0 ∨ p = 1 ∨ p = 2 := by
      have : p < 3 := hp
      omega
    rcases h with h | h | h <;> subst h <;> simp [schur, symm] <;> norm_num))
  (by simpa using cholDemo_not_posdef false)

/-- A non-square matrix is rejected untouched. -/
theorem C44_size (ab : ℝ → ℝ) (env : Env) (lb fuel : Nat) (m : Mem ℝ) (A : View) (fl : Flags)
    (cb : Option Cache) (h : A.rows ≠ A.cols) : cholfactor ab env lb fuel m A fl cb = .ok (-ESIZE, m) := by
  unfold cholfactor; rw [if_pos h]

example := C44_size id ⟨8, 2, false, true⟩ 4 20 (cholDemo 4) ⟨0, 8, 3, 2⟩ {} none (by decide)

/-- The claim "an error for every matrix that is not positive definite" is false for `ARMAS_LOWER`: the
1x1 zero matrix is accepted with status 0 (and the reciprocal of zero is computed), whatever the
configuration.  The upper version reports the error. -/
theorem C44_zero_pivot_false (ab : ℝ → ℝ) (env : Env) (fuel : Nat) (cb : Option Cache) :
    ¬ PosDefn 1 (symm false (fun _ _ => (0 : ℝ))) ∧
    (∃ m', cholfactor ab env 0 (fuel + 1) (tot (fun _ => (0 : ℝ))) ⟨0, 1, 1, 1⟩ { lower := true } cb = .ok (0, m')) ∧
    (∃ m', cholfactor ab env 0 (fuel + 1) (tot (fun _ => (0 : ℝ))) ⟨0, 1, 1, 1⟩ { upper := true } cb = .ok (-1, m')) := by
  refine ⟨fun h => ?_, ?_, ?_⟩
  · have := h (fun _ => 1) ⟨0, by decide, one_ne_zero⟩
    simp [symm] at this
  · simp [cholfactor, unblkCholLower, forUp_eq, unblkCholLowerStep, rd, wr, tot, scale, View.size, mvupdateSym,
      mvupdateTrm]
  · simp [cholfactor, unblkCholUpper, forUp_eq, unblkCholUpperStep, rd, tot]

/-- `armas_cholsolve` with a stored factor `v` (nonzero diagonal) solves `A X = B` for `A = L L^T` or
`U^T U`; only `B` and the cache buffer change. -/
theorem C44_solve_partial (ab : ℝ → ℝ) {env : Env} {c : Cache} (hc : Conf3 env c) {m : Mem ℝ} {B A : View}
    {f v : Nat → Nat → ℝ} {fl : Flags} (hw : B.WF) (hsq : A.rows = A.cols) (hsz : A.cols = B.rows)
    (hR : c.Ready m) (hB : Holds m B f) (hA : HoldsOn m A (InTri (!fl.lower) false) v)
    (dAB : Disjoint (A.footOn (InTri (!fl.lower) false)) B.foot)
    (dAc : Disjoint (A.footOn (InTri (!fl.lower) false)) c.foot) (dBc : Disjoint B.foot c.foot)
    (hnz : ∀ i, i < A.cols → v i i ≠ 0) {fuel : Nat} (hf : A.cols + B.rows + B.cols < fuel) :
    Runs (cholsolve ab env fuel m B A fl (some c)) (fun r => r.1 = 0 ∧
      (∃ X, Holds r.2 B X ∧ ∀ i j, i < B.rows → j < B.cols →
        ∑ k ∈ range A.cols, cholProd (!fl.lower) A.cols v i k * X k j = f i j) ∧
      Frame (B.foot ∪ c.foot) m r.2) := by
  unfold cholsolve
  rw [if_neg (by simp [hsz, hsq])]
  revert hA dAB dAc
  cases hl : fl.lower <;> simp only [Bool.not_false, Bool.not_true, Bool.false_eq_true, if_true, if_false] <;>
    intro hA dAB dAc
  all_goals
    refine Runs.bind (C19_solve_trm_partial ab hc.min2 1 (a := v) (f := f)
      ⟨by simp, rfl, rfl, hw, hsq, by simpa using hsz, hR, hc.rb, hB, hA, dAB, dAc, dBc⟩ rfl rfl (Or.inr hnz)
      (Or.inl rfl) hf) ?_
    rintro ⟨e1, m1⟩ ⟨-, ⟨Y, h1, h2⟩, h3, h4⟩
    dsimp only
    have hA1 := hA.frame h3 (Set.disjoint_union_right.mpr ⟨dAB, dAc⟩)
    refine Runs.bind (C19_solve_trm_partial ab hc.min2 1 (a := v) (f := Y)
      ⟨by simp, rfl, rfl, hw, hsq, by simpa using hsz, h4, hc.rb, h1, hA1, dAB, dAc, dBc⟩ rfl rfl (Or.inr hnz)
      (Or.inl rfl) hf) ?_
    rintro ⟨e2, m2⟩ ⟨-, ⟨X, h5, h6⟩, h7, h8⟩
    refine Runs.pure ⟨rfl, ⟨X, h5, fun i j hi hj => ?_⟩, h3.trans h7⟩
    have e := h2 i j hi hj
    rw [one_mul] at e
    rw [← e]
    unfold triProd cholProd
    simp only [Bool.false_eq_true, if_true, if_false]
    simp only [Finset.sum_mul]
    rw [Finset.sum_comm]
    refine Finset.sum_congr rfl (fun p hp => ?_)
    have e' := h6 p j (by have := Finset.mem_range.mp hp; omega) hj
    rw [one_mul] at e'
    rw [← e']
    unfold triProd
    simp only [Bool.false_eq_true, if_true, if_false]
    rw [Finset.mul_sum]
    exact Finset.sum_congr rfl (fun k _ => by ring)

example (up : Bool) := C44_solve_partial id (env := ⟨8, 2, false, true⟩) (c := ⟨500, 600, 4, 4, 3, 3, 1⟩)
    ⟨Or.inl (by decide), by decide⟩ (m := tot (fun p => (p : ℝ) + 1)) (B := ⟨100, 9, 3, 5⟩) (A := ⟨0, 8, 3, 3⟩)
    (fl := { lower := !up, upper := up }) (Or.inl (by decide)) rfl rfl
    ⟨by decide, by decide, by decide, by decide, by decide, ⟨_, holds_tot _ _⟩, ⟨_, holds_tot _ _⟩,
      View.disj_below (by decide)⟩ (holds_tot _ _) (HoldsOn.of_holds (holds_tot _ _))
    ((View.disj_below (by decide)).mono_left (View.footOn_sub_foot _ _))
    ((Set.disjoint_union_right.mpr ⟨View.disj_below (by decide), View.disj_below (by decide)⟩).mono_left
      (View.footOn_sub_foot _ _))
    (Set.disjoint_union_right.mpr ⟨View.disj_below (by decide), View.disj_below (by decide)⟩)
    (fun i _ => by positivity) (fuel := 100) (by decide)

end Armas.Props
