import Verif.QrBuildLemmas
import Verif.Props.QrMult

/-!
# C66: building the orthogonal matrix of a QR factorization
-/

namespace Armas.Props

open Armas Finset

section field

variable {α : Type} [Field α] [DecidableEq α]

/-- Arguments of `armas_qrbuild_w`: `tau` holds the scalars, the areas do not overlap, the cache buffers are usable. -/
structure QrBuildArgs (env : Env) (c : Cache) (m : Mem α) (A tau : View) (t : Nat → α) (w ws : Nat) : Prop where
  conf : Conf3 env c
  min2 : 2 ≤ env.blas2min ∨ (env.naive = true ∧ env.recursive = false)
  wf : A.WF
  sh : A.cols ≤ A.rows
  col : tau.cols = 1 ∧ tau.rows = A.cols
  work : A.cols ≤ ws
  ready : c.Ready m
  ht : ∀ k, k < A.cols → m (tau.at' k 0) = some (t k)
  hW : WAlloc m w ws
  dA : Disjoint A.foot (tcells tau A.cols ∪ wcells w ws ∪ c.foot)
  dt : Disjoint (tcells tau A.cols) (wcells w ws ∪ c.foot)
  dW : Disjoint (wcells w ws) c.foot

omit [DecidableEq α] in
theorem sum_refl_mul (M : Nat) (t : α) (w : Nat → α) (b c : Nat → Nat → α) (p q : Nat) :
    ∑ i ∈ range M, refl M t w b i p * c i q = ∑ i ∈ range M, b i p * refl M t w c i q := by
  unfold refl
  rw [sum_congr rfl fun i _ => show (b i p - t * w i * ∑ l ∈ range M, w l * b l p) * c i q =
      b i p * c i q - t * (∑ l ∈ range M, w l * b l p) * (w i * c i q) by ring,
    sum_congr rfl fun i _ => show b i p * (c i q - t * w i * ∑ l ∈ range M, w l * c l q) =
      b i p * c i q - t * (∑ l ∈ range M, w l * c l q) * (w i * b i p) by ring,
    sum_sub_distrib, sum_sub_distrib, ← mul_sum, ← mul_sum]
  ring

omit [DecidableEq α] in
/-- `(Q b)ᵀ c = bᵀ (Qᵀ c)`. -/
theorem sum_qrProd_mul (M k : Nat) (t : Nat → α) (f b c : Nat → Nat → α) (p q : Nat) :
    ∑ i ∈ range M, qrProd M k t f b i p * c i q = ∑ i ∈ range M, b i p * qrProdT M k t f c i q := by
  induction k generalizing b with
  | zero => rfl
  | succ k ih =>
    unfold qrProd qrProdT
    rw [ih, sum_refl_mul]

omit [DecidableEq α] in
theorem refl_lin {M : Nat} (t : α) (w : Nat → α) (b : Nat → Nat → α) (j : Nat) : ∀ i, i < M →
    refl M t w b i j = ∑ l ∈ range M, refl M t w idm i l * b l j := by
  intro i hi
  have e : ∀ l, l ∈ range M → refl M t w idm i l * b l j = idm i l * b l j - t * w i * (w l * b l j) := by
    intro l hl
    unfold refl
    have : ∑ r ∈ range M, w r * idm r l = w l := by
      rw [sum_eq_single l (fun r _ h => by rw [idm, if_neg h, mul_zero]) (fun h => absurd hl h), idm, if_pos rfl, mul_one]
    rw [this]; ring
  rw [sum_congr rfl e, sum_sub_distrib, ← mul_sum,
    sum_eq_single i (fun r _ h => by rw [idm, if_neg (Ne.symm h), zero_mul]) (fun h => absurd (mem_range.mpr hi) h), idm, if_pos rfl, one_mul]
  rfl

omit [DecidableEq α] in
/-- `Q b` is the product of the matrix `Q I` and `b`. -/
theorem qrProd_lin {M : Nat} (k : Nat) (t : Nat → α) (f b : Nat → Nat → α) (j : Nat) : ∀ i, i < M →
    qrProd M k t f b i j = ∑ l ∈ range M, qrProd M k t f idm i l * b l j := by
  induction k generalizing b j with
  | zero =>
    intro i hi
    unfold qrProd
    rw [sum_eq_single i (fun r _ h => by rw [idm, if_neg (Ne.symm h), zero_mul]) (fun h => absurd (mem_range.mpr hi) h), idm, if_pos rfl, one_mul]
  | succ k ih =>
    intro i hi
    unfold qrProd
    rw [ih _ _ i hi, sum_congr rfl fun l hl => by rw [refl_lin _ _ b j l (mem_range.mp hl), mul_sum]]
    rw [sum_comm]
    refine sum_congr rfl fun l _ => ?_
    rw [ih _ l i hi, sum_mul]
    exact sum_congr rfl fun p _ => by ring

/-- C66, `armas_qrbuild_w`: for `K ≤ cols(A) ≤ rows(A)` reflectors in `A` and `tau`, every configured block size and every work space of at least
`cols` elements, `A` becomes the first `cols` columns of `Q = H_0 H_1 ... H_{K-1}`; only `A` and the work spaces are written.  When the reflectors
are orthogonal, the columns are orthonormal; and `Q b` for a `b` with zeros below row `cols` is the product of the computed matrix and `b`.

The blocked code wants two things that are neither checked nor documented: a zero scalar goes with a unit vector (`C66_stale_false`; the block
reflector is never cleared), and the last scalar of a square matrix is zero.  Both hold for the output of `armas_qrfactor_w` (C64). -/
theorem C66_qrbuild_partial (ab : α → α) {env : Env} {c : Cache} {m : Mem α} {A tau : View} {f : Nat → Nat → α} {t : Nat → α}
    {w ws K : Nat} (H : QrBuildArgs env c m A tau t w ws) (hA : Holds m A f) (hK : K ≤ A.cols) (elb : Nat)
    (hz : elb = 0 ∨ A.cols ≤ elb ∨
      ((∀ k, k < K → t k = 0 → ∀ i, k < i → i < A.rows → f i k = 0) ∧ ∀ k, k < A.cols → k + 1 = A.rows → t k = 0)) {fuel : Nat}
    (hf : A.cols + A.rows < fuel) :
    Runs (qrbuildW ab env elb fuel m A tau K w ws (some c)) (fun r => r.1 = 0 ∧ Frame (A.foot ∪ wcells w ws ∪ c.foot) m r.2 ∧
      c.Ready r.2 ∧ WAlloc r.2 w ws ∧ ∃ Q, Holds r.2 A Q ∧
      (∀ i j, Q i j = qrProd A.rows K t f (fun p q => if p = q then 1 else 0) i j) ∧
      (∀ b i j, i < A.rows → (∀ l, A.cols ≤ l → b l j = 0) → qrProd A.rows K t f b i j = ∑ l ∈ range A.cols, Q i l * b l j) ∧
      ((∀ k, k < K → t k = 0 ∨ t k * ∑ i ∈ range A.rows, qrw f k i ^ 2 = 2) → ∀ p q, p < A.cols → q < A.cols →
        ∑ i ∈ range A.rows, Q i p * Q i q = if p = q then 1 else 0)) := by
  obtain ⟨conf, min2, wf, sh, col, work, ready, ht, hW, dA, dt, dW⟩ := H
  have dAt : Disjoint A.foot (tcells tau A.cols) := dA.mono_right fun p hp => Or.inl (Or.inl hp)
  have dAw : Disjoint A.foot (wcells w ws) := dA.mono_right fun p hp => Or.inl (Or.inr hp)
  have dAc : Disjoint A.foot c.foot := dA.mono_right fun p hp => Or.inr hp
  have dtw : Disjoint (tcells tau A.cols) (wcells w ws) := dt.mono_right fun p hp => Or.inl hp
  have Q : QbArgs m A tau w ws t := ⟨wf, sh, col.2, ht, hW, dA.mono_right fun p hp => Or.inl hp, dtw.symm⟩
  have Qc : QbCache c A tau w ws := ⟨dAc, dt.mono_right fun p hp => Or.inr hp, dW⟩
  unfold qrbuildW
  rw [if_neg (by omega)]
  dsimp only
  refine Runs.bind (P := fun m' => Holds m' A (qrProd A.rows K t f idm) ∧ WAlloc m' w ws ∧ c.Ready m' ∧ Frame (A.foot ∪ wcells w ws ∪ c.foot) m m') ?_ ?_
  · by_cases hb : invBlock elb A.cols ws = 0 ∨ A.cols ≤ invBlock elb A.cols ws
    · rw [if_pos hb]
      refine (unblkQrbuild_spec ab min2 Q hK (Or.inl rfl) (by omega) (by omega) hA).mono ?_
      rintro m' ⟨h1, h2, h3⟩
      exact ⟨h1, h2.hW, ready.frame h3 (Set.disjoint_union_right.mpr ⟨dAc.symm, dW.symm⟩), h3.mono fun p hp => Or.inl hp⟩
    · rw [if_neg hb]
      rw [not_or, not_le] at hb
      have hle : A.cols * invBlock elb A.cols ws ≤ ws := (invBlock_le hb.1).2 hb.2
      have hn : ¬ elb = 0 ∧ ¬ A.cols ≤ elb := by
        have e : ∀ n, n = 0 ∨ A.cols ≤ n → invBlock n A.cols ws = 0 ∨ A.cols ≤ invBlock n A.cols ws := by
          intro n hn
          unfold invBlock
          rcases hn with rfl | hn
          · rw [if_neg (by omega)]; exact Or.inl rfl
          · rw [if_neg (by omega)]; exact Or.inr hn
        constructor
        · intro h; have := e elb (Or.inl h); omega
        · intro h; have := e elb (Or.inr h); omega
      rcases hz with h | h | ⟨h1, h2⟩
      · exact absurd h hn.1
      · exact absurd h hn.2
      refine (blkQrbuild_spec ab conf min2 Q Qc ready h2 hK h1 hle hf ⟨by omega, hb.2⟩ hA).mono ?_
      rintro m' ⟨h1, h2, h3, h4⟩
      exact ⟨h1, h2.hW, h3, h4⟩
  · rintro m' ⟨h1, h2, h3, h4⟩
    refine Runs.pure ⟨rfl, h4, h3, h2, _, h1, fun i j => rfl, fun b i j hi hb => ?_, fun ho p q hp hq => ?_⟩
    · rw [qrProd_lin K t f b j i hi]
      symm
      refine sum_subset (fun l hl => mem_range.mpr (by have := mem_range.mp hl; omega)) fun l _ hl => ?_
      rw [hb l (by rw [mem_range] at hl; omega), mul_zero]
    · rw [sum_qrProd_mul, sum_congr rfl fun i hi => by rw [qrProdT_qrProd ho idm q i (mem_range.mp hi)],
        sum_eq_single p (fun r _ h => by rw [idm, if_neg h, zero_mul]) (fun h => absurd (mem_range.mpr (by omega)) h), idm, if_pos rfl, one_mul, idm]

/-- Concrete arguments. -/
theorem qrBuildArgs_demo : QrBuildArgs (α := ℚ) ⟨8, 8, false, true⟩ ⟨5000, 6000, 4, 4, 3, 3, 1⟩ (tot fun p => (p : ℚ))
    ⟨100, 8, 7, 5⟩ ⟨160, 5, 5, 1⟩ (fun k => (160 + k : ℕ)) 200 40 where
  conf := ⟨Or.inl (by decide), by decide⟩
  min2 := Or.inl (by decide)
  wf := Or.inl (by decide)
  sh := by decide
  col := ⟨rfl, rfl⟩
  work := by decide
  ready := ⟨by decide, by decide, by decide, by decide, by decide, ⟨_, holds_tot _ _⟩, ⟨_, holds_tot _ _⟩, View.disj_below (by decide)⟩
  ht := fun k _ => by simp [tot, View.at']
  hW := fun _ _ => ⟨_, rfl⟩
  dA := Set.disjoint_left.mpr (by
    rintro p ⟨i, j, hi, hj, rfl⟩ ((⟨k, hk, h⟩ | ⟨h1, h2⟩) | ⟨i', j', hi', hj', h⟩ | ⟨i', j', hi', hj', h⟩) <;>
      simp [View.at', Cache.A, Cache.B] at * <;> omega)
  dt := Set.disjoint_left.mpr (by
    rintro p ⟨k, hk, rfl⟩ (⟨h1, h2⟩ | ⟨i', j', hi', hj', h⟩ | ⟨i', j', hi', hj', h⟩) <;>
      simp [View.at', Cache.A, Cache.B] at * <;> omega)
  dW := Set.disjoint_left.mpr (by
    rintro p ⟨h1, h2⟩ (⟨i', j', hi', hj', h⟩ | ⟨i', j', hi', hj', h⟩) <;>
      simp [View.at', Cache.A, Cache.B] at * <;> omega)

example := C66_qrbuild_partial id qrBuildArgs_demo (holds_tot _ _) (K := 4) (by decide) 2
  (Or.inr (Or.inr ⟨fun k _ h => by
      have : (0 : ℚ) < ((160 + k : ℕ) : ℚ) := by positivity
      exact absurd h this.ne', fun k h1 h2 => by simp only at h1 h2; omega⟩)) (fuel := 30) (by decide)

/-- The check of `armas_qrbuild_w`; nothing is written. -/
theorem C66_errors (ab : α → α) (env : Env) (elb fuel : Nat) (m : Mem α) (A tau : View) (K w ws : Nat) (cbuf : Option Cache) (h : ws < A.cols) :
    qrbuildW ab env elb fuel m A tau K w ws cbuf = .ok (-5, m) := by
  unfold qrbuildW
  rw [if_pos h]; rfl

example := C66_errors (α := ℚ) id ⟨8, 8, false, true⟩ 2 30 (tot fun _ => 1) ⟨100, 8, 7, 5⟩ ⟨160, 5, 5, 1⟩ 4 200 4 none (by decide)

end field

/-- C66 after C64: factor `A`, then build `Q` in place of the factorization: the result has orthonormal columns and `Q R` is the original matrix. -/
theorem C66_driver_partial {safmin : ℝ} (nonneg : Bool) (h0 : 0 < safmin) (h1 : safmin < 1) (ab : ℝ → ℝ) {env : Env} {c : Cache}
    {m : Mem ℝ} {A tau : View} {a : Nat → Nat → ℝ} {w ws : Nat} (H : QrArgs env c m A tau a w ws) (elb : Nat) {fuel : Nat}
    (hf : A.rows + A.cols + A.cols < fuel) (htau : tau.rows = A.cols) :
    Runs (qrfactorW safmin nonneg ab env elb fuel m A tau w ws (some c)) (fun r => r.1 = 0 ∧ ∃ f, Holds r.2 A f ∧
      Runs (qrbuildW ab env elb fuel r.2 A tau A.cols w ws (some c)) (fun r' => r'.1 = 0 ∧ ∃ Q, Holds r'.2 A Q ∧
        (∀ i j, i < A.rows → j < A.cols → ∑ l ∈ range A.cols, Q i l * upperPart f l j = a i j) ∧
        ∀ p q, p < A.cols → q < A.cols → ∑ i ∈ range A.rows, Q i p * Q i q = if p = q then 1 else 0)) := by
  refine (C64_qrfactor_partial nonneg h0 h1 ab H elb hf).mono ?_
  rintro ⟨e, m1⟩ ⟨he, f, t, hA1, ht1, F1, hp, hor, hl, -, hq, R1, hW1, hu⟩
  dsimp only at he hA1 ht1 F1 R1 hW1 ⊢
  have Q : QrBuildArgs env c m1 A tau t w ws := ⟨H.conf, H.min2, H.wf, H.sh, ⟨H.col.1, htau⟩, H.work, R1, ht1, hW1, H.dA, H.dt, H.dW⟩
  refine ⟨he, f, hA1, (C66_qrbuild_partial ab Q hA1 (le_refl _) elb (Or.inr (Or.inr ⟨hu, hl⟩)) (by omega)).mono ?_⟩
  rintro ⟨e', m2⟩ ⟨he', -, -, -, Q, hQ, hQe, hQb, -⟩
  refine ⟨he', Q, hQ, fun i j hi hj => ?_, fun p q hp' hq' => ?_⟩
  · rw [← hQb (upperPart f) i j hi fun l hl => by rw [upperPart, if_pos (by omega)]]
    exact hp i j hi hj
  · have := H.sh
    simp only [hQe]
    rw [sum_qrProd_mul, sum_congr rfl fun i hi => by rw [hq _ i q (mem_range.mp hi)],
      sum_eq_single p (fun r _ h => by rw [if_neg h, zero_mul]) (fun h => absurd (mem_range.mpr (by omega)) h), if_pos rfl, one_mul]

example := C66_driver_partial (safmin := 1 / 2) true (by norm_num) (by norm_num) (fun x => |x|) (qrArgs_demo fun p => (p : ℝ)) 3
  (fuel := 30) (by decide) rfl

/-- C66 is false for zero scalars with vectors that are not unit vectors: all scalars are zero, so that `Q = I`, the vectors and the work space are
ones; with blocks of two columns the result is not the identity, since the columns of the block reflector with a zero scalar keep the previous
contents of the work space.  Unblocked code gives the identity (`C66_qrbuild_partial`). -/
theorem C66_stale_false : ∃ (m : Mem ℚ) (A tau : View) (f : Nat → Nat → ℚ) (t : Nat → ℚ), QrBuildArgs ⟨8, 8, false, true⟩ ⟨1000, 1100, 4, 4, 3, 3, 1⟩ m A tau t 30 8 ∧
    Holds m A f ∧ A.cols = 4 ∧ A.cols < A.rows ∧ ∃ m', qrbuildW id ⟨8, 8, false, true⟩ 2 12 m A tau 4 30 8 (some ⟨1000, 1100, 4, 4, 3, 3, 1⟩) = .ok (0, m') ∧
      ¬ Holds m' A (qrProd A.rows 4 t f (fun p q => if p = q then 1 else 0)) := by
  obtain ⟨m', hm, hp⟩ := okay_ok (r := qrbuildW (α := ℚ) id ⟨8, 8, false, true⟩ 2 12 (tot fun p => if 20 ≤ p ∧ p < 24 then 0 else 1) ⟨0, 5, 5, 4⟩
    ⟨20, 4, 4, 1⟩ 4 30 8 (some ⟨1000, 1100, 4, 4, 3, 3, 1⟩)) (by decide +kernel)
  refine ⟨tot fun p => if 20 ≤ p ∧ p < 24 then 0 else 1, ⟨0, 5, 5, 4⟩, ⟨20, 4, 4, 1⟩, _, fun _ => 0, ?_, holds_tot _ _, rfl, by decide, m', hm, fun h => ?_⟩
  · exact {
      conf := ⟨Or.inl (by decide), by decide⟩
      min2 := Or.inl (by decide)
      wf := Or.inl (by decide)
      sh := by decide
      col := ⟨rfl, rfl⟩
      work := by decide
      ready := ⟨by decide, by decide, by decide, by decide, by decide, ⟨_, holds_tot _ _⟩, ⟨_, holds_tot _ _⟩, View.disj_below (by decide)⟩
      ht := fun k hk => by
        simp only at hk
        exact congrArg some (if_pos ⟨by simp only [View.at']; omega, by simp only [View.at']; omega⟩)
      hW := fun _ _ => ⟨_, rfl⟩
      dA := Set.disjoint_left.mpr (by
        rintro p ⟨i, j, hi, hj, rfl⟩ ((⟨k, hk, h⟩ | ⟨h1, h2⟩) | ⟨i', j', hi', hj', h⟩ | ⟨i', j', hi', hj', h⟩) <;>
          simp [View.at', Cache.A, Cache.B] at * <;> omega)
      dt := Set.disjoint_left.mpr (by
        rintro p ⟨k, hk, rfl⟩ (⟨h1, h2⟩ | ⟨i', j', hi', hj', h⟩ | ⟨i', j', hi', hj', h⟩) <;>
          simp [View.at', Cache.A, Cache.B] at * <;> omega)
      dW := Set.disjoint_left.mpr (by
        rintro p ⟨h1, h2⟩ (⟨i', j', hi', hj', h⟩ | ⟨i', j', hi', hj', h⟩) <;>
          simp [View.at', Cache.A, Cache.B] at * <;> omega) }
  · have e := h 0 2 (by decide) (by decide)
    rw [hp, show peek _ _ = some (-2 : ℚ) from by decide +kernel] at e
    have e := Option.some.inj e
    simp [qrProd, refl] at e

/-- C66 is false for a `tau` longer than the number of columns, which `armas_qrfactor_w` accepts and fills from the front: `armas_qrbuild_w` reads
the last elements.  One column `e_0` with scalar `2`, so that the column of `Q` is `-e_0`; with `tau = (2, 0)` the result is `e_0`. -/
theorem C66_long_tau_false : ∃ (m : Mem ℚ) (A tau : View) (f : Nat → Nat → ℚ) (t : Nat → ℚ), A.rows = 2 ∧ A.cols = 1 ∧ tau.cols = 1 ∧ tau.rows = 2 ∧
    Holds m A f ∧ (∀ k, k < A.cols → m (tau.at' k 0) = some (t k)) ∧ (∀ k, k < A.cols → t k * ∑ i ∈ range A.rows, qrw f k i ^ 2 = 2) ∧
    ∃ m', qrbuildW id ⟨8, 8, false, true⟩ 0 12 m A tau 1 30 8 none = .ok (0, m') ∧
      ¬ Holds m' A (qrProd A.rows 1 t f (fun p q => if p = q then 1 else 0)) := by
  obtain ⟨m', hm, hp⟩ := okay_ok (r := qrbuildW (α := ℚ) id ⟨8, 8, false, true⟩ 0 12 (tot fun p => if p = 20 then 2 else 0) ⟨0, 2, 2, 1⟩
    ⟨20, 2, 2, 1⟩ 1 30 8 none) (by decide +kernel)
  refine ⟨tot fun p => if p = 20 then 2 else 0, ⟨0, 2, 2, 1⟩, ⟨20, 2, 2, 1⟩, fun _ _ => 0, fun _ => 2, rfl, rfl, rfl, rfl,
    (holds_tot _ _).congr fun i j hi hj => ?_, fun k hk => ?_, fun k hk => ?_, m', hm, fun h => ?_⟩
  · simp only at hi hj
    exact if_neg (by simp only [View.at']; omega)
  · simp only at hk
    exact congrArg some (if_pos (by simp only [View.at']; omega))
  · simp only at hk
    have : k = 0 := by omega
    subst this
    simp [qrw, sum_range_succ]
  · have e := h 0 0 (by decide) (by decide)
    rw [hp, show peek _ _ = some (1 : ℚ) from by decide +kernel] at e
    have e := Option.some.inj e
    simp [qrProd, refl, qrw, sum_range_succ] at e
    norm_num at e

end Armas.Props
