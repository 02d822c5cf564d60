import Verif.RqBuildLemmas
import Verif.Props.Rq
import Verif.Props.QlBuild

/-!
# C122: building the orthogonal matrix of an RQ factorization

See `properties.jsonl`.
-/

namespace Armas.Props

open Armas Finset

section field

variable {α : Type} [Field α] [DecidableEq α]

/-- Arguments of `armas_rqbuild_w`: `tau` holds the scalars, the areas do not overlap. -/
structure RqBuildArgs (env : Env) (m : Mem α) (A tau : View) (t : Nat → α) (w ws : Nat) : Prop where
  min2 : 2 ≤ env.blas2min ∨ (env.naive = true ∧ env.recursive = false)
  wf : A.WF
  sh : A.rows ≤ A.cols
  col : tau.cols = 1
  len : tau.rows = A.rows
  work : A.rows ≤ ws
  ht : ∀ k, k < A.rows → m (tau.at' k 0) = some (t k)
  hW : WAlloc m w ws
  dA : Disjoint A.foot (tcells tau A.rows ∪ wcells w ws)
  dt : Disjoint (tcells tau A.rows) (wcells w ws)

/-- C122, `armas_rqbuild_w` with a block size that selects the unblocked algorithm, for `K ≤ rows(A) ≤ cols(A)`: `A` becomes the last `rows` rows of
`Q = H_{M-K} ... H_{M-1}` (its transpose the last columns of `Qᵀ = H_{M-1} ... H_{M-K}`); only `A` and the work space are written.  When the reflectors are
orthogonal, the rows are orthonormal; and `Qᵀ b` for a `b` with zeros in all but the last `rows` rows is the product of the transpose of the computed matrix and
these rows. -/
theorem C122_rqbuild_partial (ab : α → α) {env : Env} {m : Mem α} {A tau : View} {f : Nat → Nat → α} {t : Nat → α}
    {w ws K : Nat} (H : RqBuildArgs env m A tau t w ws) (hA : Holds m A fun i j => f j i) (hK : K ≤ A.rows) {elb : Nat}
    (hlb : rqbBlock elb A.rows A.cols ws = 0 ∨ A.cols ≤ rqbBlock elb A.rows A.cols ws) {fuel : Nat} (hf : A.cols < fuel) :
    Runs (rqbuildW ab env elb fuel m A tau K w ws) (fun r => r.1 = 0 ∧ Frame (A.foot ∪ wcells w ws) m r.2 ∧ ∃ Q : Nat → Nat → α, Holds r.2 A (fun i j => Q j i) ∧
      (∀ i j, Q i j = qlProd A.cols A.rows K t f (fun p q => if p = A.cols - A.rows + q then 1 else 0) i j) ∧
      (∀ b i j, i < A.cols → (∀ l, l < A.cols - A.rows → b l j = 0) →
        qlProd A.cols A.rows K t f b i j = ∑ l ∈ range A.rows, Q i l * b (A.cols - A.rows + l) j) ∧
      ((∀ k, A.rows - K ≤ k → k < A.rows → t k = 0 ∨ t k * ∑ i ∈ range A.cols, qlw A.cols A.rows f k i ^ 2 = 2) → ∀ p q, p < A.rows → q < A.rows →
        ∑ i ∈ range A.cols, Q i p * Q i q = if p = q then 1 else 0)) := by
  obtain ⟨min2, wf, sh, col, len, work, ht, hW, dA, dt⟩ := H
  unfold rqbuildW
  dsimp only
  rw [if_neg (by rw [View.size, col, len]; omega), if_neg (by omega), if_pos hlb]
  refine Runs.bind (unblkRqbuild_spec ab min2 ⟨wf, sh, len, ht, hW, dA, dt.symm⟩ hK work hf hA) ?_
  rintro m' ⟨h1, -, h3⟩
  refine Runs.pure ⟨rfl, h3, qlProd A.cols A.rows K t f (idq A.cols A.rows), h1, fun i j => rfl, fun b i j hi hb => ?_, fun ho p q hp hq => ?_⟩
  · refine qlProd_lin K (fun i hi => ?_) i hi
    by_cases c : i < A.cols - A.rows
    · rw [hb i c, sum_eq_zero fun l _ => by rw [idq, if_neg (by omega), zero_mul]]
    · rw [sum_eq_single (i - (A.cols - A.rows)) (fun r _ h => by rw [idq, if_neg (by omega), zero_mul]) (fun h => absurd (mem_range.mpr (by omega)) h), idq,
        if_pos (by omega), one_mul, show A.cols - A.rows + (i - (A.cols - A.rows)) = i by omega]
  · rw [sum_qlProd_mul, sum_congr rfl fun i hi => by rw [qlProdT_qlProd K hK ho _ q i (mem_range.mp hi)],
      sum_eq_single (A.cols - A.rows + p) (fun r _ h => by rw [idq, if_neg h, zero_mul]) (fun h => absurd (mem_range.mpr (by omega)) h), idq, if_pos rfl, one_mul, idq]
    by_cases c : p = q
    · rw [if_pos c, if_pos (by omega)]
    · rw [if_neg c, if_neg (by omega)]

/-- Concrete arguments. -/
theorem rqBuildArgs_demo : RqBuildArgs (α := ℚ) ⟨8, 8, false, true⟩ (tot fun p => (p : ℚ)) ⟨100, 5, 5, 7⟩ ⟨160, 5, 5, 1⟩ (fun k => (160 + k : ℕ)) 200 5 where
  min2 := Or.inl (by decide)
  wf := Or.inl (by decide)
  sh := by decide
  col := rfl
  len := rfl
  work := by decide
  ht := fun k _ => by simp [tot, View.at']
  hW := fun _ _ => ⟨_, rfl⟩
  dA := Set.disjoint_left.mpr (by
    rintro p ⟨i, j, hi, hj, rfl⟩ (⟨k, hk, h⟩ | ⟨h1, h2⟩) <;> simp [View.at'] at * <;> omega)
  dt := Set.disjoint_left.mpr (by
    rintro p ⟨k, hk, rfl⟩ ⟨h1, h2⟩; simp [View.at'] at *; omega)

example := C122_rqbuild_partial id rqBuildArgs_demo (f := fun i j => ((100 + j + i * 5 : ℕ) : ℚ)) (holds_tot _ _) (K := 4) (by decide) (elb := 64) (Or.inr (by decide)) (fuel := 30) (by decide)

/-- C122: a `tau` of another size and a short work space are refused without a change. -/
theorem C122_errors (ab : α → α) (env : Env) (elb fuel : Nat) (m : Mem α) (A tau : View) (K w ws : Nat) :
    (tau.rows * tau.cols ≠ A.rows → rqbuildW ab env elb fuel m A tau K w ws = .ok (-1, m)) ∧
    (tau.rows * tau.cols = A.rows → ws < A.rows → rqbuildW ab env elb fuel m A tau K w ws = .ok (-5, m)) := by
  unfold rqbuildW
  dsimp only
  refine ⟨fun h => ?_, fun h h' => ?_⟩
  · rw [if_pos (by exact h)]; rfl
  · rw [if_neg (by rw [not_not]; exact h), if_pos h']; rfl

example := (C122_errors (α := ℚ) id ⟨8, 8, false, true⟩ 2 30 (tot fun _ => 1) ⟨100, 5, 5, 7⟩ ⟨160, 5, 5, 1⟩ 4 200 4).2 rfl (by decide)

/-- That the work space the query asks for is enough is false between the two block size tests: the size is computed for unblocked code when `rows ≤ lb`
(`src/lapack/rqbld.c:254-259`, `:274`) but the unblocked code is chosen only when `cols ≤ lb` (`:293`).  A 2 by 4 matrix with `lb = 3` and the work space of two
elements: the intermediate result is written behind the block reflector, outside of it. -/
theorem C122_work_false : ∃ (m : Mem ℚ) (A tau : View) (t : Nat → ℚ), RqBuildArgs ⟨8, 8, false, true⟩ m A tau t 20 2 ∧ A.rows = 2 ∧ A.cols = 4 ∧
    (∃ f, Holds m A f) ∧ rqbuildW id ⟨8, 8, false, true⟩ 3 8 m A tau 2 20 2 = .ub := by
  refine ⟨fun p => if p < 8 ∨ p = 10 ∨ p = 11 ∨ p = 20 ∨ p = 21 then some 1 else none, ⟨0, 2, 2, 4⟩, ⟨10, 2, 2, 1⟩, fun _ => 1, ?_, rfl, rfl,
    ⟨fun _ _ => 1, fun i j hi hj => ?_⟩, isUb_eq (by decide +kernel)⟩
  · exact {
      min2 := Or.inl (by decide)
      wf := Or.inl (by decide)
      sh := by decide
      col := rfl
      len := rfl
      work := by decide
      ht := fun k hk => if_pos (by simp only [View.at'] at hk ⊢; omega)
      hW := fun p hp => ⟨1, if_pos (by omega)⟩
      dA := Set.disjoint_left.mpr (by
        rintro p ⟨i, j, hi, hj, rfl⟩ (⟨k, hk, h⟩ | ⟨h1, h2⟩) <;> simp [View.at'] at * <;> omega)
      dt := Set.disjoint_left.mpr (by
        rintro p ⟨k, hk, rfl⟩ ⟨h1, h2⟩; simp [View.at'] at *; omega) }
  · simp only at hi hj
    exact if_pos (Or.inl (by simp only [View.at']; omega))

end field

/-- C122 after C120: factor `A`, then build `Q` in place of the factorization: the result has orthonormal rows and `R Q` is the original matrix, where
`R i l` is element `i`, `cols - rows + l` of the factored matrix for `i ≤ l`, else zero. -/
theorem C122_driver_partial {safmin : ℝ} (nonneg : Bool) (h0 : 0 < safmin) (h1 : safmin < 1) (ab : ℝ → ℝ) {env : Env}
    {m : Mem ℝ} {A tau : View} {a : Nat → Nat → ℝ} {w ws : Nat} (H : RqArgs env m A tau a w ws) {elb : Nat}
    (hlb : rqBlock elb A.rows ws = 0 ∨ A.rows ≤ rqBlock elb A.rows ws)
    (hlb' : rqbBlock elb A.rows A.cols ws = 0 ∨ A.cols ≤ rqbBlock elb A.rows A.cols ws) {fuel : Nat} (hf : A.cols < fuel) :
    Runs (rqfactorW safmin nonneg ab env elb fuel m A tau w ws) (fun r => r.1 = 0 ∧ ∃ f, Holds r.2 A f ∧
      Runs (rqbuildW ab env elb fuel r.2 A tau A.rows w ws) (fun r' => r'.1 = 0 ∧ ∃ Q, Holds r'.2 A Q ∧
        (∀ i j, i < A.rows → j < A.cols → ∑ l ∈ range A.rows, (if l < i then 0 else f i (A.cols - A.rows + l)) * Q l j = a i j) ∧
        ∀ p q, p < A.rows → q < A.rows → ∑ j ∈ range A.cols, Q p j * Q q j = if p = q then 1 else 0)) := by
  obtain ⟨tc, tr⟩ := H.col
  have tt : tcells tau A.rows ⊆ tau.foot := by
    rintro p ⟨k, hk, rfl⟩
    exact View.at_mem_foot (by omega) (by omega)
  refine (C120_rq_partial nonneg h0 h1 ab H hlb hf).mono ?_
  rintro ⟨e, m1⟩ ⟨he, f, t, hA1, ht1, q, F1, hW1⟩
  dsimp only at he hA1 ht1 F1 hW1 ⊢
  have Q : RqBuildArgs env m1 A tau t w ws := by
    refine ⟨H.min2, H.wf, H.shape, tc, tr, H.work, ht1, hW1, H.dA.mono_right ?_, H.dt.mono_left tt⟩
    rintro p (h | h)
    exacts [Or.inl (tt h), Or.inr h]
  refine ⟨he, fun i j => f j i, hA1, (C122_rqbuild_partial ab Q hA1 (le_refl _) hlb' hf).mono ?_⟩
  rintro ⟨e', m2⟩ ⟨he', -, Q, hQ, hQe, hQb, hQo⟩
  refine ⟨he', fun i j => Q j i, hQ, fun i j hi hj => ?_, hQo fun k _ hk => q.norm k hk⟩
  have := hQb (qlLower A.cols A.rows f) j i hj fun l hl => by rw [qlLower, if_pos (by omega)]
  rw [q.fwd j i hj hi] at this
  beta_reduce at this
  rw [this]
  refine sum_congr rfl fun l _ => ?_
  rw [qlLower, mul_comm]
  by_cases c : l < i
  · rw [if_pos c, if_pos (by omega)]
  · rw [if_neg c, if_neg (by omega)]

example := C122_driver_partial (safmin := 1 / 2) true (by norm_num) (by norm_num) (fun x => |x|) (rqArgs_demo fun p => (p : ℝ)) (elb := 0)
  (Or.inl (by decide)) (Or.inl (by decide)) (fuel := 8) (by decide)

end Armas.Props
