import Verif.QlBuildLemmas
import Verif.Props.QrBuild
import Verif.Props.LqBuild
import Verif.Props.QlMult

/-!
# C119: building the orthogonal matrix of a QL factorization

See `properties.jsonl`.
-/

namespace Armas.Props

open Armas Finset

section field

variable {α : Type} [Field α] [DecidableEq α]

/-- Arguments of `armas_qlbuild_w`: `tau` holds the scalars, the areas do not overlap. -/
structure QlBuildArgs (env : Env) (m : Mem α) (A tau : View) (t : Nat → α) (w ws : Nat) : Prop where
  min2 : 2 ≤ env.blas2min ∨ (env.naive = true ∧ env.recursive = false)
  wf : A.WF
  sh : A.cols ≤ A.rows
  len : tau.rows = A.cols
  work : A.cols ≤ ws
  ht : ∀ k, k < A.cols → m (tau.at' k 0) = some (t k)
  hW : WAlloc m w ws
  dA : Disjoint A.foot (tcells tau A.cols ∪ wcells w ws)
  dt : Disjoint (tcells tau A.cols) (wcells w ws)

omit [DecidableEq α] in
/-- `(Q b)ᵀ c = bᵀ (Qᵀ c)`. -/
theorem sum_qlProd_mul (M N d : Nat) (t : Nat → α) (f b c : Nat → Nat → α) (p q : Nat) :
    ∑ i ∈ range M, qlProd M N d t f b i p * c i q = ∑ i ∈ range M, b i p * qlProdT M N d t f c i q := by
  induction d generalizing b with
  | zero => rfl
  | succ k ih =>
    unfold qlProd qlProdT
    rw [ih, sum_refl_mul]

omit [DecidableEq α] in
/-- `Qᵀ Q = I` when the reflectors are orthogonal. -/
theorem qlProdT_qlProd {M N : Nat} {t : Nat → α} {f : Nat → Nat → α} (d : Nat) (hd : d ≤ N)
    (ho : ∀ k, N - d ≤ k → k < N → t k = 0 ∨ t k * ∑ i ∈ range M, qlw M N f k i ^ 2 = 2) (b : Nat → Nat → α) (j : Nat) : ∀ i, i < M →
    qlProdT M N d t f (qlProd M N d t f b) i j = b i j := by
  induction d generalizing b with
  | zero => exact fun _ _ => rfl
  | succ d ih =>
    intro i hi
    unfold qlProd qlProdT
    rw [refl_congr hi (fun _ _ => rfl) (fun l hl => ih (by omega) (fun k h1 h2 => ho k (by omega) h2) _ l hl)]
    exact refl_refl (ho _ (by omega) (by omega)) b i j

omit [DecidableEq α] in
theorem qlProd_lin {M N n : Nat} {t : Nat → α} {f : Nat → Nat → α} (d : Nat) {b B : Nat → Nat → α} {g : Nat → α} {j : Nat}
    (h : ∀ i, i < M → b i j = ∑ l ∈ range n, B i l * g l) : ∀ i, i < M → qlProd M N d t f b i j = ∑ l ∈ range n, qlProd M N d t f B i l * g l := by
  induction d generalizing b B with
  | zero => exact h
  | succ d ih =>
    unfold qlProd
    refine ih fun i hi => ?_
    unfold refl
    have e : ∑ l ∈ range M, qlw M N f (N - 1 - d) l * b l j = ∑ r ∈ range n, (∑ l ∈ range M, qlw M N f (N - 1 - d) l * B l r) * g r := by
      rw [sum_congr rfl fun l hl => by rw [h l (mem_range.mp hl), mul_sum], sum_comm]
      refine sum_congr rfl fun r _ => ?_
      rw [sum_mul]
      exact sum_congr rfl fun _ _ => by ring
    rw [h i hi, e, mul_sum, ← sum_sub_distrib]
    exact sum_congr rfl fun r _ => by ring

/-- C119, `armas_qlbuild_w` with a block size that selects the unblocked algorithm, for `K ≤ cols(A) ≤ rows(A)`: `A` becomes the last `cols` columns of
`Q = H_{N-1} ... H_{N-K}`; only `A` and the work space are written.  When the reflectors are orthogonal, the columns are orthonormal; and `Q b` for a `b` with zeros
in all but the last `cols` rows is the product of the computed matrix and these rows. -/
theorem C119_qlbuild_partial (ab : α → α) {env : Env} {m : Mem α} {A tau : View} {f : Nat → Nat → α} {t : Nat → α}
    {w ws K : Nat} (H : QlBuildArgs env m A tau t w ws) (hA : Holds m A f) (hK : K ≤ A.cols) {elb : Nat}
    (hlb : invBlock elb A.cols ws = 0 ∨ A.cols ≤ invBlock elb A.cols ws) {fuel : Nat} (hf : A.rows < fuel) :
    Runs (qlbuildW ab env elb fuel m A tau K w ws) (fun r => r.1 = 0 ∧ Frame (A.foot ∪ wcells w ws) m r.2 ∧ ∃ Q, Holds r.2 A Q ∧
      (∀ i j, Q i j = qlProd A.rows A.cols K t f (fun p q => if p = A.rows - A.cols + q then 1 else 0) i j) ∧
      (∀ b i j, i < A.rows → (∀ l, l < A.rows - A.cols → b l j = 0) →
        qlProd A.rows A.cols K t f b i j = ∑ l ∈ range A.cols, Q i l * b (A.rows - A.cols + l) j) ∧
      ((∀ k, A.cols - K ≤ k → k < A.cols → t k = 0 ∨ t k * ∑ i ∈ range A.rows, qlw A.rows A.cols f k i ^ 2 = 2) → ∀ p q, p < A.cols → q < A.cols →
        ∑ i ∈ range A.rows, Q i p * Q i q = if p = q then 1 else 0)) := by
  obtain ⟨min2, wf, sh, len, work, ht, hW, dA, dt⟩ := H
  unfold qlbuildW
  rw [if_neg (by omega), if_pos hlb]
  refine Runs.bind (unblkQlbuild_spec ab min2 ⟨wf, sh, len, ht, hW, dA, dt.symm⟩ hK work hf hA) ?_
  rintro m' ⟨h1, -, h3⟩
  refine Runs.pure ⟨rfl, h3, _, h1, fun i j => rfl, fun b i j hi hb => ?_, fun ho p q hp hq => ?_⟩
  · refine qlProd_lin K (fun i hi => ?_) i hi
    by_cases c : i < A.rows - A.cols
    · rw [hb i c, sum_eq_zero fun l _ => by rw [idq, if_neg (by omega), zero_mul]]
    · rw [sum_eq_single (i - (A.rows - A.cols)) (fun r _ h => by rw [idq, if_neg (by omega), zero_mul]) (fun h => absurd (mem_range.mpr (by omega)) h), idq,
        if_pos (by omega), one_mul, show A.rows - A.cols + (i - (A.rows - A.cols)) = i by omega]
  · rw [sum_qlProd_mul, sum_congr rfl fun i hi => by rw [qlProdT_qlProd K hK ho _ q i (mem_range.mp hi)],
      sum_eq_single (A.rows - A.cols + p) (fun r _ h => by rw [idq, if_neg h, zero_mul]) (fun h => absurd (mem_range.mpr (by omega)) h), idq, if_pos rfl, one_mul, idq]
    by_cases c : p = q
    · rw [if_pos c, if_pos (by omega)]
    · rw [if_neg c, if_neg (by omega)]

/-- Concrete arguments. -/
theorem qlBuildArgs_demo : QlBuildArgs (α := ℚ) ⟨8, 8, false, true⟩ (tot fun p => (p : ℚ)) ⟨100, 8, 7, 5⟩ ⟨160, 5, 5, 1⟩ (fun k => (160 + k : ℕ)) 200 5 where
  min2 := Or.inl (by decide)
  wf := Or.inl (by decide)
  sh := by decide
  len := rfl
  work := by decide
  ht := fun k _ => by simp [tot, View.at']
  hW := fun _ _ => ⟨_, rfl⟩
  dA := Set.disjoint_left.mpr (by
    rintro p ⟨i, j, hi, hj, rfl⟩ (⟨k, hk, h⟩ | ⟨h1, h2⟩) <;> simp [View.at'] at * <;> omega)
  dt := Set.disjoint_left.mpr (by
    rintro p ⟨k, hk, rfl⟩ ⟨h1, h2⟩; simp [View.at'] at *; omega)

example := C119_qlbuild_partial id qlBuildArgs_demo (holds_tot _ _) (K := 4) (by decide) (elb := 64) (Or.inr (by decide)) (fuel := 30) (by decide)

/-- C119: a short work space is refused without a change. -/
theorem C119_errors (ab : α → α) (env : Env) (elb fuel : Nat) (m : Mem α) (A tau : View) (K w ws : Nat) (h : ws < A.cols) :
    qlbuildW ab env elb fuel m A tau K w ws = .ok (-5, m) := by
  unfold qlbuildW
  rw [if_pos h]; rfl

example := C119_errors (α := ℚ) id ⟨8, 8, false, true⟩ 2 30 (tot fun _ => 1) ⟨100, 8, 7, 5⟩ ⟨160, 5, 5, 1⟩ 4 200 4 (by decide)

/-- That a `tau` that is too short is refused is false: its size is not looked at (`src/lapack/qlbld.c:266-269`) and the code reads behind it; here it has one
element and `A` two columns. -/
theorem C119_tau_false : ∃ (m : Mem ℚ) (A tau : View), A.WF ∧ A.cols = 2 ∧ A.rows = 3 ∧ tau.rows = 1 ∧ tau.cols = 1 ∧ (∃ f, Holds m A f) ∧ (∃ s, Holds m tau s) ∧
    WAlloc m 20 2 ∧ qlbuildW id ⟨8, 8, false, true⟩ 0 8 m A tau 2 20 2 = .ub := by
  refine ⟨fun p => if p < 6 ∨ p = 10 ∨ p = 20 ∨ p = 21 then some 1 else none, ⟨0, 3, 3, 2⟩, ⟨10, 1, 1, 1⟩, Or.inl (by decide), rfl, rfl, rfl, rfl,
    ⟨fun _ _ => 1, fun i j hi hj => ?_⟩, ⟨fun _ _ => 1, fun i j hi hj => ?_⟩, fun p hp => ⟨1, if_pos (by omega)⟩, isUb_eq (by decide +kernel)⟩
  · simp only at hi hj
    exact if_pos (Or.inl (by simp only [View.at']; omega))
  · simp only at hi hj
    exact if_pos (Or.inr (Or.inl (by simp only [View.at']; omega)))

end field

/-- C119 after C117: factor `A`, then build `Q` in place of the factorization: the result has orthonormal columns and `Q L` is the original matrix. -/
theorem C119_driver_partial {safmin : ℝ} (nonneg : Bool) (h0 : 0 < safmin) (h1 : safmin < 1) (ab : ℝ → ℝ) {env : Env}
    {m : Mem ℝ} {A tau : View} {a : Nat → Nat → ℝ} {w ws : Nat} (H : QlArgs env m A tau a w ws) {elb : Nat}
    (hlb : invBlock elb A.cols ws = 0 ∨ A.cols ≤ invBlock elb A.cols ws) {fuel : Nat} (hf : A.rows < fuel) (htau : tau.rows = A.cols) :
    Runs (qlfactorW safmin nonneg ab env elb fuel m A tau w ws) (fun r => r.1 = 0 ∧ ∃ f, Holds r.2 A f ∧
      Runs (qlbuildW ab env elb fuel r.2 A tau A.cols w ws) (fun r' => r'.1 = 0 ∧ ∃ Q, Holds r'.2 A Q ∧
        (∀ i j, i < A.rows → j < A.cols → ∑ l ∈ range A.cols, Q i l * qlLower A.rows A.cols f (A.rows - A.cols + l) j = a i j) ∧
        ∀ p q, p < A.cols → q < A.cols → ∑ i ∈ range A.rows, Q i p * Q i q = if p = q then 1 else 0)) := by
  have tt : tcells tau A.cols ⊆ tau.foot := by
    rintro p ⟨k, hk, rfl⟩
    exact View.at_mem_foot (by omega) (by have := H.col.1; omega)
  refine (C117_ql_partial nonneg h0 h1 ab H hlb hf).mono ?_
  rintro ⟨e, m1⟩ ⟨he, f, t, hA1, ht1, q, F1, hW1⟩
  dsimp only at he hA1 ht1 F1 hW1 ⊢
  have Q : QlBuildArgs env m1 A tau t w ws := by
    refine ⟨H.min2, H.wf, H.shape, htau, H.work, fun k hk => ?_, hW1, H.dA.mono_right ?_, H.dt.mono_left tt⟩
    · have := ht1 k hk
      rwa [htau, Nat.sub_self, Nat.zero_add] at this
    · rintro p (h | h)
      exacts [Or.inl (tt h), Or.inr h]
  refine ⟨he, f, hA1, (C119_qlbuild_partial ab Q hA1 (le_refl _) hlb hf).mono ?_⟩
  rintro ⟨e', m2⟩ ⟨he', -, Q, hQ, hQe, hQb, hQo⟩
  refine ⟨he', Q, hQ, fun i j hi hj => ?_, hQo fun k _ hk => q.norm k hk⟩
  rw [← hQb (qlLower A.rows A.cols f) i j hi fun l hl => by rw [qlLower, if_pos (by omega)]]
  exact q.fwd i j hi hj

example := C119_driver_partial (safmin := 1 / 2) true (by norm_num) (by norm_num) (fun x => |x|) (m := tot fun p => (p : ℝ)) (A := ⟨0, 8, 7, 5⟩)
  (tau := ⟨100, 5, 5, 1⟩) (a := fun i j => ((i + j * 8 : ℕ) : ℝ)) (w := 200) (ws := 6) (env := ⟨8, 8, false, true⟩)
  { min2 := Or.inl (by decide), wf := Or.inl (by decide), shape := by decide, col := ⟨rfl, by decide⟩, work := by decide
    hA := fun i j _ _ => by simp [tot, View.at']
    ht := ⟨_, holds_tot _ _⟩
    hW := fun _ _ => ⟨_, rfl⟩
    dA := Set.disjoint_left.mpr (by
      rintro p ⟨i, j, hi, hj, rfl⟩ (⟨i', j', hi', hj', h⟩ | ⟨h1, h2⟩) <;> simp only [View.at'] at * <;> omega)
    dt := Set.disjoint_left.mpr (by
      rintro p ⟨i, j, hi, hj, rfl⟩ ⟨h1, h2⟩; simp only [View.at'] at *; omega) }
  (elb := 0) (Or.inl (by decide)) (fuel := 8) (by decide) rfl

end Armas.Props
