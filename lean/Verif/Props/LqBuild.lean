import Verif.LqBuildLemmas
import Verif.Props.QrBuild
import Verif.Props.LqMult

/-!
# C95: building the orthogonal matrix of an LQ factorization

As in C91-C94 the statements are about the transposed matrix: `F i j` is the element `(j, i)` in memory.
-/

namespace Armas.Props

open Armas Finset

section field

variable {α : Type} [Field α] [DecidableEq α]

/-- Arguments of `armas_lqbuild_w`: `tau` holds the scalars, the areas do not overlap, the cache buffers are usable. -/
structure LqBuildArgs (env : Env) (c : Cache) (m : Mem α) (A tau : View) (t : Nat → α) (w ws : Nat) : Prop where
  conf : Conf3 env c
  min2 : 2 ≤ env.blas2min ∨ (env.naive = true ∧ env.recursive = false)
  wf : A.WF
  sh : A.rows ≤ A.cols
  col : tau.cols = 1 ∧ tau.rows = A.rows
  work : A.rows ≤ ws
  ready : c.Ready m
  ht : ∀ k, k < A.rows → m (tau.at' k 0) = some (t k)
  hW : WAlloc m w ws
  dA : Disjoint A.foot (tcells tau A.rows ∪ wcells w ws ∪ c.foot)
  dt : Disjoint (tcells tau A.rows) (wcells w ws ∪ c.foot)
  dW : Disjoint (wcells w ws) c.foot

/-- C95, `armas_lqbuild_w`: for `K ≤ rows(A) ≤ cols(A)` reflectors in `A` and `tau`, every configured block size and every work space of at least
`rows` elements, `A` becomes the first `rows` rows of `Q = H_{K-1} ... H_1 H_0` (`A` is the transpose of the first `rows` columns of
`Qᵀ = H_0 H_1 ... H_{K-1}`); only `A` and the work spaces are written.  When the reflectors are orthogonal, the rows are orthonormal; and `Qᵀ b`
for a `b` with zeros below row `rows` is the product of the transpose of the computed matrix and `b`.

Not covered, because it fails (`C95_work_false`): `rows ≤ lb < cols`, where the blocked code runs in a work space for unblocked code.  When
`lb < rows`, the last scalar of a square matrix must be zero, which holds for the output of `armas_lqfactor_w` (C93). -/
theorem C95_lqbuild_partial (ab : α → α) {env : Env} {c : Cache} {m : Mem α} {A tau : View} {f : Nat → Nat → α} {t : Nat → α}
    {w ws K : Nat} (H : LqBuildArgs env c m A tau t w ws) (hA : Holds m A fun i j => f j i) (hK : K ≤ A.rows) (elb : Nat)
    (hz : elb = 0 ∨ A.cols ≤ elb ∨ (elb < A.rows ∧ ∀ k, k < A.rows → k + 1 = A.cols → t k = 0)) {fuel : Nat}
    (hf : A.rows + A.cols < fuel) :
    Runs (lqbuildW ab env elb fuel m A tau K w ws (some c)) (fun r => r.1 = 0 ∧ Frame (A.foot ∪ wcells w ws ∪ c.foot) m r.2 ∧
      c.Ready r.2 ∧ WAlloc r.2 w ws ∧ ∃ Q : Nat → Nat → α, (Holds r.2 A fun i j => Q j i) ∧
      (∀ i j, Q i j = qrProd A.cols K t f (fun p q => if p = q then 1 else 0) i j) ∧
      (∀ b i j, i < A.cols → (∀ l, A.rows ≤ l → b l j = 0) → qrProd A.cols K t f b i j = ∑ l ∈ range A.rows, Q i l * b l j) ∧
      ((∀ k, k < K → t k = 0 ∨ t k * ∑ i ∈ range A.cols, qrw f k i ^ 2 = 2) → ∀ p q, p < A.rows → q < A.rows →
        ∑ i ∈ range A.cols, Q i p * Q i q = if p = q then 1 else 0)) := by
  obtain ⟨conf, min2, wf, sh, col, work, ready, ht, hW, dA, dt, dW⟩ := H
  have dAt : Disjoint A.foot (tcells tau A.rows) := dA.mono_right fun p hp => Or.inl (Or.inl hp)
  have dAw : Disjoint A.foot (wcells w ws) := dA.mono_right fun p hp => Or.inl (Or.inr hp)
  have dAc : Disjoint A.foot c.foot := dA.mono_right fun p hp => Or.inr hp
  have dtw : Disjoint (tcells tau A.rows) (wcells w ws) := dt.mono_right fun p hp => Or.inl hp
  have Q : LbArgs m A tau w ws t := ⟨wf, sh, col.2, ht, hW, dA.mono_right fun p hp => Or.inl hp, dtw.symm⟩
  have Qc : LbCache c A tau w ws := ⟨dAc, dt.mono_right fun p hp => Or.inr hp, dW⟩
  unfold lqbuildW
  rw [if_neg (by omega)]
  dsimp only
  refine Runs.bind (P := fun m' => HoldsT m' A (qrProd A.cols K t f idm) ∧ WAlloc m' w ws ∧ c.Ready m' ∧ Frame (A.foot ∪ wcells w ws ∪ c.foot) m m') ?_ ?_
  · by_cases hb : invBlock elb A.rows ws = 0 ∨ A.cols ≤ invBlock elb A.rows ws
    · rw [if_pos hb]
      refine (unblkLqbuild_spec ab min2 Q hK (Or.inl rfl) (by omega) (by omega) (Holds.toT hA)).mono ?_
      rintro m' ⟨h1, h2, h3⟩
      exact ⟨h1, h2.hW, ready.frame h3 (Set.disjoint_union_right.mpr ⟨dAc.symm, dW.symm⟩), h3.mono fun p hp => Or.inl hp⟩
    · rw [if_neg hb]
      rw [not_or, not_le] at hb
      have hn : elb < A.rows ∧ ∀ k, k < A.rows → k + 1 = A.cols → t k = 0 := by
        rcases hz with h | h | h
        · exact absurd (by unfold invBlock; rw [h, if_neg (by omega)]) hb.1
        · refine absurd hb.2 (not_lt.mpr ?_)
          unfold invBlock; rw [if_neg (by omega)]; exact h
        · exact h
      obtain ⟨b1, b2⟩ := invBlock_le hb.1
      refine (blkLqbuild_spec ab conf min2 Q Qc ready hn.2 hK (b2 (by omega)) (by omega) ⟨by omega, by omega⟩ (Holds.toT hA)).mono ?_
      rintro m' ⟨h1, h2, h3, h4⟩
      exact ⟨h1, h2.hW, h3, h4⟩
  · rintro m' ⟨h1, h2, h3, h4⟩
    refine Runs.pure ⟨rfl, h4, h3, h2, _, h1.holds, fun i j => rfl, fun b i j hi hb => ?_, fun ho p q hp hq => ?_⟩
    · rw [qrProd_lin K t f b j i hi]
      symm
      refine sum_subset (fun l hl => mem_range.mpr (by have := mem_range.mp hl; omega)) fun l _ hl => ?_
      rw [hb l (by rw [mem_range] at hl; omega), mul_zero]
    · rw [sum_qrProd_mul, sum_congr rfl fun i hi => by rw [qrProdT_qrProd ho idm q i (mem_range.mp hi)],
        sum_eq_single p (fun r _ h => by rw [idm, if_neg h, zero_mul]) (fun h => absurd (mem_range.mpr (by omega)) h), idm, if_pos rfl, one_mul, idm]

/-- Concrete arguments. -/
theorem lqBuildArgs_demo : LqBuildArgs (α := ℚ) ⟨8, 8, false, true⟩ ⟨5000, 6000, 4, 4, 3, 3, 1⟩ (tot fun p => (p : ℚ))
    ⟨100, 6, 5, 7⟩ ⟨160, 5, 5, 1⟩ (fun k => (160 + k : ℕ)) 200 40 where
  conf := ⟨Or.inl (by decide), by decide⟩
  min2 := Or.inl (by decide)
  wf := Or.inl (by decide)
  sh := by decide
  col := ⟨rfl, rfl⟩
  work := by decide
  ready := ⟨by decide, by decide, by decide, by decide, by decide, ⟨_, holds_tot _ _⟩, ⟨_, holds_tot _ _⟩, View.disj_below (by decide)⟩
  ht := fun k _ => by simp [tot, View.at']
  hW := fun _ _ => ⟨_, rfl⟩
  dA := Set.disjoint_left.mpr (by
    rintro p ⟨i, j, hi, hj, rfl⟩ ((⟨k, hk, h⟩ | ⟨h1, h2⟩) | ⟨i', j', hi', hj', h⟩ | ⟨i', j', hi', hj', h⟩) <;>
      simp [View.at', Cache.A, Cache.B] at * <;> omega)
  dt := Set.disjoint_left.mpr (by
    rintro p ⟨k, hk, rfl⟩ (⟨h1, h2⟩ | ⟨i', j', hi', hj', h⟩ | ⟨i', j', hi', hj', h⟩) <;>
      simp [View.at', Cache.A, Cache.B] at * <;> omega)
  dW := Set.disjoint_left.mpr (by
    rintro p ⟨h1, h2⟩ (⟨i', j', hi', hj', h⟩ | ⟨i', j', hi', hj', h⟩) <;>
      simp [View.at', Cache.A, Cache.B] at * <;> omega)

example := C95_lqbuild_partial id lqBuildArgs_demo (f := fun i j => (((100 : ℕ) + j + i * 6 : ℕ) : ℚ)) ((holds_tot _ _).congr fun i j _ _ => rfl) (K := 4) (by decide) 2
  (Or.inr (Or.inr ⟨by decide, fun k h1 h2 => by simp only at h1 h2; omega⟩)) (fuel := 30) (by decide)

/-- The check of `armas_lqbuild_w`; nothing is written. -/
theorem C95_errors (ab : α → α) (env : Env) (elb fuel : Nat) (m : Mem α) (A tau : View) (K w ws : Nat) (cbuf : Option Cache) (h : ws < A.rows) :
    lqbuildW ab env elb fuel m A tau K w ws cbuf = .ok (-5, m) := by
  unfold lqbuildW
  rw [if_pos h]; rfl

example := C95_errors (α := ℚ) id ⟨8, 8, false, true⟩ 2 30 (tot fun _ => 1) ⟨100, 6, 5, 7⟩ ⟨160, 5, 5, 1⟩ 4 200 4 none (by decide)

end field

/-- C95 after C93: factor `A`, then build `Q` in place of the factorization: the result has orthonormal rows and `L Q` is the original matrix. -/
theorem C95_driver_partial {safmin : ℝ} (nonneg : Bool) (h0 : 0 < safmin) (h1 : safmin < 1) (ab : ℝ → ℝ) {env : Env} {c : Cache}
    {m : Mem ℝ} {A tau : View} {a : Nat → Nat → ℝ} {w ws : Nat} (H : LqArgs env c m A tau a w ws) (elb : Nat) {fuel : Nat}
    (hf : A.cols + A.rows + A.rows < fuel) (htau : tau.rows = A.rows) (hz : elb = 0 ∨ A.cols ≤ elb ∨ elb < A.rows) :
    Runs (lqfactorW safmin nonneg ab env elb fuel m A tau w ws (some c)) (fun r => r.1 = 0 ∧ ∃ f, (Holds r.2 A fun i j => f j i) ∧
      Runs (lqbuildW ab env elb fuel r.2 A tau A.rows w ws (some c)) (fun r' => r'.1 = 0 ∧ ∃ Q : Nat → Nat → ℝ, (Holds r'.2 A fun i j => Q j i) ∧
        (∀ i j, i < A.rows → j < A.cols → ∑ l ∈ range A.rows, upperPart f l i * Q j l = a j i) ∧
        ∀ p q, p < A.rows → q < A.rows → ∑ i ∈ range A.cols, Q i p * Q i q = if p = q then 1 else 0)) := by
  refine (C93_lqfactor_partial nonneg h0 h1 ab H elb hf).mono ?_
  rintro ⟨e, m1⟩ ⟨he, f, t, hA1, ht1, F1, hp, hor, hl, -, hq, R1, hW1, hu⟩
  dsimp only at he hA1 ht1 F1 R1 hW1 ⊢
  have Q : LqBuildArgs env c m1 A tau t w ws := ⟨H.conf, H.min2, H.wf, H.sh, ⟨H.col.1, htau⟩, H.work, R1, ht1, hW1, H.dA, H.dt, H.dW⟩
  refine ⟨he, f, hA1, (C95_lqbuild_partial ab Q hA1 (le_refl _) elb (hz.imp_right fun h => h.imp_right fun h => ⟨h, hl⟩) (by omega)).mono ?_⟩
  rintro ⟨e', m2⟩ ⟨he', -, -, -, Q, hQ, hQe, hQb, -⟩
  refine ⟨he', Q, hQ, fun i j hi hj => ?_, fun p q hp' hq' => ?_⟩
  · rw [← hp j i hj hi, hQb (upperPart f) j i hj fun l hl => by rw [upperPart, if_pos (by omega)]]
    exact sum_congr rfl fun l _ => mul_comm _ _
  · have := H.sh
    simp only [hQe]
    rw [sum_qrProd_mul, sum_congr rfl fun i hi => by rw [hq _ i q (mem_range.mp hi)],
      sum_eq_single p (fun r _ h => by rw [if_neg h, zero_mul]) (fun h => absurd (mem_range.mpr (by omega)) h), if_pos rfl, one_mul]

example := C95_driver_partial (safmin := 1 / 2) true (by norm_num) (by norm_num) (fun x => |x|) (lqArgs_demo fun p => (p : ℝ)) 3
  (fuel := 30) (by decide) rfl (Or.inr (Or.inr (by decide)))

/-- Is the outcome undefined behaviour? -/
def isUb {β : Type} : Res β → Bool
  | .ub => true
  | _ => false

theorem isUb_eq {β : Type} {r : Res β} (h : isUb r = true) : r = .ub := by
  cases r <;> simp_all [isUb]

/-- C95 is false between the two block size tests: the work space is checked (and its size computed, `:274-277`) for unblocked code when
`rows ≤ lb`, but unblocked code is chosen only when `cols ≤ lb` (`:305`).  A 2 by 3 matrix with `lb = 2` and the work space of two elements
the query returns: the blocked code writes the 2 by 2 block reflector beyond its end. -/
theorem C95_work_false : ∃ (m : Mem ℚ) (A tau : View) (t : Nat → ℚ), LqBuildArgs ⟨8, 8, false, true⟩ ⟨1000, 1100, 4, 4, 3, 3, 1⟩ m A tau t 30 A.rows ∧
    (∃ f, Holds m A f) ∧ A.rows ≤ 2 ∧ 2 < A.cols ∧
    lqbuildW id ⟨8, 8, false, true⟩ 2 12 m A tau A.rows 30 A.rows (some ⟨1000, 1100, 4, 4, 3, 3, 1⟩) = .ub := by
  have hm : ∀ p, p < 32 ∨ 1000 ≤ p → (fun p => if p < 32 ∨ 1000 ≤ p then some 1 else none : Mem ℚ) p = some 1 := fun p hp => if_pos hp
  refine ⟨fun p => if p < 32 ∨ 1000 ≤ p then some 1 else none, ⟨0, 2, 2, 3⟩, ⟨20, 2, 2, 1⟩, fun _ => 1, ?_, ⟨fun _ _ => 1, fun i j hi hj => ?_⟩,
    by decide, by decide, ?_⟩
  · exact {
      conf := ⟨Or.inl (by decide), by decide⟩
      min2 := Or.inl (by decide)
      wf := Or.inl (by decide)
      sh := by decide
      col := ⟨rfl, rfl⟩
      work := by decide
      ready := ⟨by decide, by decide, by decide, by decide, by decide,
        ⟨fun _ _ => 1, fun i j hi hj => hm _ (Or.inr (by simp only [View.at', Cache.A]; omega))⟩,
        ⟨fun _ _ => 1, fun i j hi hj => hm _ (Or.inr (by simp only [View.at', Cache.B]; omega))⟩, View.disj_below (by decide)⟩
      ht := fun k hk => hm _ (Or.inl (by simp only [View.at'] at hk ⊢; omega))
      hW := fun p hp => ⟨1, hm _ (Or.inl (by simp only at hp; omega))⟩
      dA := Set.disjoint_left.mpr (by
        rintro p ⟨i, j, hi, hj, rfl⟩ ((⟨k, hk, h⟩ | ⟨h1, h2⟩) | ⟨i', j', hi', hj', h⟩ | ⟨i', j', hi', hj', h⟩) <;>
          simp [View.at', Cache.A, Cache.B] at * <;> omega)
      dt := Set.disjoint_left.mpr (by
        rintro p ⟨k, hk, rfl⟩ (⟨h1, h2⟩ | ⟨i', j', hi', hj', h⟩ | ⟨i', j', hi', hj', h⟩) <;>
          simp [View.at', Cache.A, Cache.B] at * <;> omega)
      dW := Set.disjoint_left.mpr (by
        rintro p ⟨h1, h2⟩ (⟨i', j', hi', hj', h⟩ | ⟨i', j', hi', hj', h⟩) <;>
          simp [View.at', Cache.A, Cache.B] at * <;> omega) }
  · exact hm _ (Or.inl (by simp only [View.at'] at hi hj ⊢; omega))
  · exact isUb_eq (by decide +kernel)

/-- C95 is false for a `tau` longer than the number of rows, which `armas_lqfactor_w` accepts and fills from the front: `armas_lqbuild_w` reads
the last elements.  One row `e_0ᵀ` with scalar `2`, so that the row of `Q` is `-e_0ᵀ`; with `tau = (2, 0)` the result is `e_0ᵀ`. -/
theorem C95_long_tau_false : ∃ (m : Mem ℚ) (A tau : View) (f : Nat → Nat → ℚ) (t : Nat → ℚ), A.rows = 1 ∧ A.cols = 2 ∧ tau.cols = 1 ∧ tau.rows = 2 ∧
    (Holds m A fun i j => f j i) ∧ (∀ k, k < A.rows → m (tau.at' k 0) = some (t k)) ∧ (∀ k, k < A.rows → t k * ∑ i ∈ range A.cols, qrw f k i ^ 2 = 2) ∧
    ∃ m', lqbuildW id ⟨8, 8, false, true⟩ 0 12 m A tau 1 30 8 none = .ok (0, m') ∧
      ¬ Holds m' A fun i j => qrProd A.cols 1 t f (fun p q => if p = q then 1 else 0) j i := by
  obtain ⟨m', hm, hp⟩ := okay_ok (r := lqbuildW (α := ℚ) id ⟨8, 8, false, true⟩ 0 12 (tot fun p => if p = 20 then 2 else 0) ⟨0, 1, 1, 2⟩
    ⟨20, 2, 2, 1⟩ 1 30 8 none) (by decide +kernel)
  refine ⟨tot fun p => if p = 20 then 2 else 0, ⟨0, 1, 1, 2⟩, ⟨20, 2, 2, 1⟩, fun _ _ => 0, fun _ => 2, rfl, rfl, rfl, rfl,
    (holds_tot _ _).congr fun i j hi hj => ?_, fun k hk => ?_, fun k hk => ?_, m', hm, fun h => ?_⟩
  · simp only at hi hj
    exact if_neg (by simp only [View.at']; omega)
  · simp only at hk
    exact congrArg some (if_pos (by simp only [View.at']; omega))
  · simp only at hk
    have : k = 0 := by omega
    subst this
    simp [qrw, sum_range_succ]
  · have e := h 0 0 (by decide) (by decide)
    rw [hp, show peek _ _ = some (1 : ℚ) from by decide +kernel] at e
    have e := Option.some.inj e
    simp [qrProd, refl, qrw, sum_range_succ] at e
    norm_num at e

end Armas.Props
