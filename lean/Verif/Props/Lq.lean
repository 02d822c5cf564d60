import Verif.LqFacLemmas
import Verif.Props.Qr

/-!
# C91, C92, C93: LQ factorization

Everything is stated about the transpose: `f i j`, `a i j` and `b i j` are the elements `(j, i)` of the matrices in memory, so that the words
of `QrSpec.lean` apply (`A = L Q` with `Q = H_{M-1} ... H_1 H_0` says `Aᵀ = H_0 H_1 ... H_{M-1} Lᵀ`).
-/

namespace Armas.Props

open Armas Finset

/-! ## C91: the block reflector -/

section field

variable {α : Type} [Field α] [DecidableEq α]

/-- C91, `armas_lqreflector` with `T` of order `cols` at least: `I - Y T Yᵀ` with the upper triangle of the computed `T` is the product `H_0 H_1 ... H_{N-1}` of the
reflectors stored in `A`, and with `Tᵀ` it is the product in the opposite order; only `T` is written.  `hz` and `hl` are not checked by the
code and not documented: columns of `T` with a zero `tau` have to be zero on entry (`C91_stale_false`), and the last `tau` of a square matrix
has to be zero (`C91_square_false`).  The block reflector has order `rows`, but a `T` of that order is refused (`C91_size_false`). -/
theorem C91_reflector_partial (ab : α → α) {env : Env} (hmin : env.blas2min ≠ 1 ∨ env.naive = true) {fuel : Nat} {m : Mem α} {T A tau : View}
    {f τ : Nat → Nat → α} {t : Nat → α} (wT : T.WF) (hsh : A.rows ≤ A.cols) (hTr : A.cols ≤ T.rows)
    (hTc : A.cols ≤ T.cols) (hfu : A.rows < fuel) (hT : Holds m T τ) (hA : Holds m A fun i j => f j i)
    (ht : ∀ k, k < A.rows → m (tau.at' k 0) = some (t k)) (dA : Disjoint A.foot T.foot) (dt : ∀ k, k < A.rows → tau.at' k 0 ∉ T.foot)
    (hl : ∀ k, k < A.rows → t k = 0 ∨ k = 0 ∨ k + 1 < A.cols) (hz : ∀ k i, k < A.rows → i ≤ k → t k = 0 → τ i k = 0) :
    Runs (lqreflector ab env fuel m T A tau) (fun r => r.1 = 0 ∧ Frame T.foot m r.2 ∧ ∃ x, Holds r.2 T x ∧ ∀ b i j,
      blockProd A.cols A.rows (upperPart x) f b i j = qrProd A.cols A.rows t f b i j ∧
      blockProd A.cols A.rows (fun p q => upperPart x q p) f b i j = qrProdT A.cols A.rows t f b i j) := by
  unfold lqreflector
  rw [if_neg (by omega)]
  refine (lqReflector_spec ab hmin wT hsh (by omega) (by omega) hfu hT hA ht dA dt hl hz).bind ?_
  rintro m' ⟨x, h1, h2, h3⟩
  refine Runs.pure ⟨rfl, h3, x, h1, fun b i j => ⟨?_, ?_⟩⟩
  · rw [h2.prod b i j]; rw [trm_upperPart]
  · rw [h2.prodT b i j]; rw [trm_upperPart]

example := C91_reflector_partial (α := ℚ) id (env := ⟨8, 8, false, true⟩) (Or.inl (by decide)) (fuel := 10) (m := tot fun p => (p : ℚ) + 1)
  (T := ⟨100, 5, 5, 5⟩) (A := ⟨0, 6, 3, 5⟩) (tau := ⟨50, 3, 3, 1⟩) (t := fun k => (50 + k : ℕ) + 1) (Or.inl (by decide)) (by decide) (by decide)
  (by decide) (by decide) (holds_tot _ _) (holds_tot _ _) (fun k _ => by simp [tot, View.at']) (View.disj_below (by decide))
  (fun k hk => by rintro ⟨i, j, hi, hj, h⟩; simp only [View.at'] at h hi hj hk; omega)
  (fun k hk => Or.inr (Or.inr (by simp only at hk ⊢; omega))) (fun k i _ _ h => by
    have : (0 : ℚ) < ((50 + k : ℕ) : ℚ) + 1 := by positivity
    exact absurd h this.ne')

omit [DecidableEq α] in
/-- The size check of `armas_lqreflector`. -/
theorem C91_size_error [DecidableEq α] (ab : α → α) (env : Env) (fuel : Nat) (m : Mem α) (T A tau : View) (h : T.cols < A.cols ∨ T.rows < A.cols) :
    lqreflector ab env fuel m T A tau = .ok (-1, m) := by
  unfold lqreflector
  rw [if_pos h]; rfl

example := C91_size_error (α := ℚ) id ⟨8, 8, false, true⟩ 10 (tot fun _ => 1) ⟨100, 5, 5, 4⟩ ⟨0, 6, 3, 5⟩ ⟨50, 3, 3, 1⟩ (Or.inl (by decide))

/-- C91 is false of a `T` of the order of the block reflector: the check of `armas_lqreflector` asks for `cols(A)` rows and columns as in the QR
case, though the LQ block reflector has order `rows(A)`.  A 1 by 2 matrix and a 1 by 1 `T`: nothing is computed. -/
theorem C91_size_false (ab : α → α) (env : Env) (fuel : Nat) (m : Mem α) : ∃ T A tau : View, T.rows = A.rows ∧ T.cols = A.rows ∧ A.rows ≤ A.cols ∧
    A.rows ≤ tau.rows ∧ tau.cols = 1 ∧ lqreflector ab env fuel m T A tau = .ok (-1, m) :=
  ⟨⟨20, 1, 1, 1⟩, ⟨0, 1, 1, 2⟩, ⟨10, 1, 1, 1⟩, rfl, rfl, by decide, by decide, rfl, by
    unfold lqreflector
    rw [if_pos (by decide)]; rfl⟩

end field

/-- C91 is false without `hz`: the code does not write the column of `T` of a zero `tau`.  One reflector with `tau = 0`, so that `Q = I`, and
`T` a 2 by 2 matrix of sevens on entry: `T` is unchanged and `I - Y T Yᵀ` is not the identity.  The last `tau` computed for a square matrix is always zero. -/
theorem C91_stale_false : ∃ (m : Mem ℚ) (T A tau : View) (f : Nat → Nat → ℚ) (t : Nat → ℚ), T.WF ∧ A.cols = 2 ∧ A.rows = 1 ∧ T.rows = 2 ∧ T.cols = 2 ∧
    (Holds m A fun i j => f j i) ∧ (∀ k, k < 1 → m (tau.at' k 0) = some (t k)) ∧ Disjoint A.foot T.foot ∧ tau.at' 0 0 ∉ T.foot ∧
    ∃ m', lqreflector id ⟨8, 8, false, true⟩ 10 m T A tau = .ok (0, m') ∧ ∀ x, Holds m' T x →
      ∃ b i j, blockProd 2 1 (upperPart x) f b i j ≠ qrProd 2 1 t f b i j := by
  obtain ⟨m', hm, hp⟩ := okay_ok (r := lqreflector (α := ℚ) id ⟨8, 8, false, true⟩ 10 (tot fun p => if p = 10 then 0 else 7) ⟨20, 2, 2, 2⟩ ⟨0, 1, 1, 2⟩
    ⟨10, 1, 1, 1⟩) (by decide +kernel)
  refine ⟨tot fun p => if p = 10 then 0 else 7, ⟨20, 2, 2, 2⟩, ⟨0, 1, 1, 2⟩, ⟨10, 1, 1, 1⟩, fun i j => if j + i = 10 then 0 else 7, fun _ => 0, Or.inl (by decide), rfl, rfl, rfl, rfl,
    (holds_tot _ _).congr (fun i j _ _ => by simp [View.at']), fun k hk => by simp [tot, View.at']; omega, View.disj_below (by decide),
    by rintro ⟨i, j, hi, hj, h⟩; simp only [View.at'] at h; omega, m', hm, fun x hx => ⟨fun _ _ => 1, 0, 0, ?_⟩⟩
  have h0 : x 0 0 = 7 := by
    have e := hx 0 0 (by decide) (by decide)
    rw [hp, show peek _ _ = some (7 : ℚ) from by decide +kernel] at e
    exact (Option.some.inj e).symm
  simp [blockProd, qrProd, refl, qrw, upperPart, sum_range_succ, h0, View.at']
  norm_num

/-- C91 is false for a square matrix with a non-zero last `tau`: the matrix-vector product is skipped because its matrix has no columns, and with it
the scaling of the column by `-tau`.  `A` a 2 by 2 matrix of ones, `tau = (1, 1)`. -/
theorem C91_square_false : ∃ (m : Mem ℚ) (T A tau : View) (f τ : Nat → Nat → ℚ) (t : Nat → ℚ), T.WF ∧ A.cols = 2 ∧ A.rows = 2 ∧ T.rows = 2 ∧ T.cols = 2 ∧
    (Holds m A fun i j => f j i) ∧ Holds m T τ ∧ (∀ i j, τ i j = 0) ∧ (∀ k, k < 2 → m (tau.at' k 0) = some (t k)) ∧ Disjoint A.foot T.foot ∧
    (∀ k, k < 2 → tau.at' k 0 ∉ T.foot) ∧
    ∃ m', lqreflector id ⟨8, 8, false, true⟩ 10 m T A tau = .ok (0, m') ∧ ∀ x, Holds m' T x →
      ∃ b i j, blockProd 2 2 (upperPart x) f b i j ≠ qrProd 2 2 t f b i j := by
  obtain ⟨m', hm, hp⟩ := okay_ok (r := lqreflector (α := ℚ) id ⟨8, 8, false, true⟩ 10 (tot fun p => if p < 20 then 1 else 0) ⟨20, 2, 2, 2⟩ ⟨0, 2, 2, 2⟩
    ⟨10, 2, 2, 1⟩) (by decide +kernel)
  refine ⟨tot fun p => if p < 20 then 1 else 0, ⟨20, 2, 2, 2⟩, ⟨0, 2, 2, 2⟩, ⟨10, 2, 2, 1⟩, fun i j => if j + i * 2 < 20 then 1 else 0,
    fun i j => if 20 + i + j * 2 < 20 then 1 else 0, fun _ => 1, Or.inl (by decide), rfl, rfl, rfl, rfl,
    (holds_tot _ _).congr (fun i j _ _ => by simp [View.at']), (holds_tot _ _).congr (fun i j _ _ => rfl),
    fun i j => by beta_reduce; rw [if_neg (by omega)], fun k hk => by simp [tot, View.at']; omega, View.disj_below (by decide),
    fun k hk => by rintro ⟨i, j, hi, hj, h⟩; simp only [View.at'] at h; omega, m', hm, fun x hx => ⟨fun i _ => if i = 1 then 1 else 0, 0, 0, ?_⟩⟩
  have h0 : x 0 0 = 1 := by
    have e := hx 0 0 (by decide) (by decide)
    rw [hp, show peek _ _ = some (1 : ℚ) from by decide +kernel] at e
    exact (Option.some.inj e).symm
  have h1 : x 0 1 = 1 := by
    have e := hx 0 1 (by decide) (by decide)
    rw [hp, show peek _ _ = some (1 : ℚ) from by decide +kernel] at e
    exact (Option.some.inj e).symm
  have h2 : x 1 1 = 1 := by
    have e := hx 1 1 (by decide) (by decide)
    rw [hp, show peek _ _ = some (1 : ℚ) from by decide +kernel] at e
    exact (Option.some.inj e).symm
  simp [blockProd, qrProd, refl, qrw, upperPart, sum_range_succ, h0, h1, h2]

/-! ## C92: applying a block reflector -/

section field2

variable {α : Type} [Field α] [DecidableEq α]

/-- C92, `armas_update_lq_left`: with `T` the block reflector of the reflectors `f` (the conclusion of C91), `C = (C1; C2)` becomes
`H_0 ... H_{nb-1} C`, or `H_{nb-1} ... H_0 C` with `transpose`; only `C` and the work spaces are written. -/
theorem C92_update_left_partial (ab : α → α) {env : Env} {c : Cache} (hc : Conf3 env c) {fuel : Nat} {m : Mem α}
    {C1 C2 Y1 Y2 T W : View} {nb P K : Nat} {f b x w : Nat → Nat → α} {t : Nat → α} (H : LqUpdArgs c m C1 C2 Y1 Y2 T W nb P K false f b x w)
    (hx : ∀ b i j, blockProd (nb + P) nb (upperPart x) f b i j = qrProd (nb + P) nb t f b i j ∧
      blockProd (nb + P) nb (fun p q => upperPart x q p) f b i j = qrProdT (nb + P) nb t f b i j)
    (hf : nb + K + nb < fuel) (transpose : Bool) :
    Runs (updateLqLeft ab env fuel m C1 C2 Y1 Y2 T W transpose (some c)) (fun m' => ∃ y,
      Holds m' C1 y ∧ Holds m' C2 (fun i j => y (nb + i) j) ∧
      (∀ i j, y i j = if transpose then qrProdT (nb + P) nb t f b i j else qrProd (nb + P) nb t f b i j) ∧
      Frame (C1.foot ∪ C2.foot ∪ W.foot ∪ c.foot) m m') := by
  rw [updateLqLeft_eq]
  refine (updLq_spec ab hc H hf).mono ?_
  rintro m' ⟨h1, h2, h3, -⟩
  simp only [trm_upperPart, Bool.false_eq_true, if_false] at h1 h2
  refine ⟨_, h1, h2, fun i j => ?_, h3⟩
  cases transpose
  · simpa using (hx b i j).1
  · simpa using (hx b i j).2

/-- Concrete arguments. -/
theorem lqUpd_demo (right : Bool) : LqUpdArgs (α := ℚ) ⟨1000, 1100, 4, 4, 3, 3, 1⟩ (tot fun _ => 3) ⟨0, 4, if right then 2 else 1, if right then 1 else 2⟩
    ⟨20, 4, if right then 2 else 3, if right then 3 else 2⟩ ⟨40, 4, 1, 1⟩ ⟨60, 4, 1, 3⟩ ⟨80, 1, 1, 1⟩ ⟨90, 2, 2, 1⟩ 1 3 2 right (fun _ _ => 3) (fun _ _ => 3)
    (fun _ _ => 3) (fun _ _ => 3) := by
  cases right
  all_goals
    exact ⟨rfl, rfl, rfl, rfl, ⟨rfl, rfl⟩, ⟨rfl, rfl⟩, ⟨rfl, rfl⟩, ⟨rfl, rfl⟩, Or.inl (by decide), Or.inl (by decide), Or.inl (by decide),
      ⟨by decide, by decide, by decide, by decide, by decide, ⟨_, holds_tot _ _⟩, ⟨_, holds_tot _ _⟩, View.disj_below (by decide)⟩,
      holds_tot _ _, holds_tot _ _, holds_tot _ _, holds_tot _ _, holds_tot _ _, holds_tot _ _, View.disj_below (by decide), View.disj_below (by decide),
      View.disj_below (by decide),
      by
        rw [Set.disjoint_union_right, Set.disjoint_union_right]
        exact ⟨⟨(View.disj_below (by decide)).symm, (View.disj_below (by decide)).symm⟩, View.disj_below (by decide)⟩,
      by
        rw [Set.disjoint_union_right, Set.disjoint_union_right]
        exact ⟨⟨(View.disj_below (by decide)).symm, (View.disj_below (by decide)).symm⟩, View.disj_below (by decide)⟩,
      by
        rw [Set.disjoint_union_right, Set.disjoint_union_right]
        exact ⟨⟨(View.disj_below (by decide)).symm, (View.disj_below (by decide)).symm⟩, View.disj_below (by decide)⟩,
      by
        simp only [Set.disjoint_union_left, Cache.foot, Set.disjoint_union_right]
        refine ⟨⟨⟨⟨⟨⟨?_, ?_⟩, ?_⟩, ?_⟩, ?_⟩, ?_⟩, ⟨⟨⟨⟨?_, ?_⟩, ?_⟩, ?_⟩, ?_⟩, ?_⟩ <;> exact View.disj_below (by decide)⟩

theorem lqUpd_demo_block (b : Nat → Nat → ℚ) (i j : Nat) :
    blockProd (1 + 3) 1 (upperPart fun _ _ => 3) (fun _ _ => 3) b i j = qrProd (1 + 3) 1 (fun _ => 3) (fun _ _ => 3) b i j ∧
    blockProd (1 + 3) 1 (fun p q => upperPart (fun _ _ => 3) q p) (fun _ _ => 3) b i j = qrProdT (1 + 3) 1 (fun _ => 3) (fun _ _ => 3) b i j := by
  constructor <;> simp [blockProd, qrProd, qrProdT, refl, upperPart] <;> ring

example := C92_update_left_partial (α := ℚ) id (env := ⟨8, 8, false, true⟩) ⟨Or.inl (by decide), by decide⟩ (lqUpd_demo false) lqUpd_demo_block
  (fuel := 10) (by decide) true

/-- C92, `armas_update_lq_right`: `C = (C1 C2)` becomes `C H_{nb-1} ... H_0`, or `C H_0 ... H_{nb-1}` with `transpose`.  `b` is `Cᵀ`. -/
theorem C92_update_right_partial (ab : α → α) {env : Env} {c : Cache} (hc : Conf3 env c) {fuel : Nat} {m : Mem α}
    {C1 C2 Y1 Y2 T W : View} {nb P K : Nat} {f b x w : Nat → Nat → α} {t : Nat → α} (H : LqUpdArgs c m C1 C2 Y1 Y2 T W nb P K true f b x w)
    (hx : ∀ b i j, blockProd (nb + P) nb (upperPart x) f b i j = qrProd (nb + P) nb t f b i j ∧
      blockProd (nb + P) nb (fun p q => upperPart x q p) f b i j = qrProdT (nb + P) nb t f b i j)
    (hf : nb + K + nb < fuel) (transpose : Bool) :
    Runs (updateLqRight ab env fuel m C1 C2 Y1 Y2 T W transpose (some c)) (fun m' => ∃ y : Nat → Nat → α,
      Holds m' C1 (fun i j => y j i) ∧ Holds m' C2 (fun i j => y (nb + j) i) ∧
      (∀ i j, y i j = if transpose then qrProdT (nb + P) nb t f b i j else qrProd (nb + P) nb t f b i j) ∧
      Frame (C1.foot ∪ C2.foot ∪ W.foot ∪ c.foot) m m') := by
  rw [updateLqRight_eq]
  refine (updLq_spec ab hc H hf).mono ?_
  rintro m' ⟨h1, h2, h3, -⟩
  simp only [trm_upperPart, if_true] at h1 h2
  refine ⟨_, h1, h2, fun i j => ?_, h3⟩
  cases transpose
  · simpa using (hx b i j).1
  · simpa using (hx b i j).2

example := C92_update_right_partial (α := ℚ) id (env := ⟨8, 8, false, true⟩) ⟨Or.inl (by decide), by decide⟩ (lqUpd_demo true) lqUpd_demo_block
  (fuel := 10) (by decide) true

end field2

/-! ## C93: the LQ factorization -/

/-- Arguments of `armas_lqfactor_w`. -/
structure LqArgs (env : Env) (c : Cache) (m : Mem ℝ) (A tau : View) (a : Nat → Nat → ℝ) (w ws : Nat) : Prop where
  conf : Conf3 env c
  min2 : 2 ≤ env.blas2min ∨ (env.naive = true ∧ env.recursive = false)
  wf : A.WF
  sh : A.rows ≤ A.cols
  col : tau.cols = 1 ∧ A.rows ≤ tau.rows
  work : A.rows ≤ ws
  ready : c.Ready m
  hA : Holds m A fun i j => a j i
  ht : ∀ k, k < A.rows → ∃ x, m (tau.at' k 0) = some x
  hW : WAlloc m w ws
  dA : Disjoint A.foot (tcells tau A.rows ∪ wcells w ws ∪ c.foot)
  dt : Disjoint (tcells tau A.rows) (wcells w ws ∪ c.foot)
  dW : Disjoint (wcells w ws) c.foot

/-- C93, `armas_lqfactor_w`: for every matrix with `rows ≤ cols`, every configured block size and every work space of at least `rows`
elements, `A = L H_{M-1} ... H_1 H_0` (that is, `Aᵀ = H_0 H_1 ... H_{M-1} Lᵀ`) where `L` is the lower triangle of the result,
`H_k = I - t_k w_k w_kᵀ`, `w_k = (0 ... 0 1 v_k)`, `v_k` is row `k` of the result right of the diagonal, `t` is what is stored in `tau`, and
every `H_k` is orthogonal; so `Q Qᵀ = Qᵀ Q = I`.  The last scalar of a square matrix is zero, and a reflector with a zero scalar has the unit
vector as its vector. -/
theorem C93_lqfactor_partial {safmin : ℝ} (nonneg : Bool) (h0 : 0 < safmin) (h1 : safmin < 1) (ab : ℝ → ℝ) {env : Env} {c : Cache}
    {m : Mem ℝ} {A tau : View} {a : Nat → Nat → ℝ} {w ws : Nat} (H : LqArgs env c m A tau a w ws) (elb : Nat) {fuel : Nat}
    (hf : A.cols + A.rows + A.rows < fuel) :
    Runs (lqfactorW safmin nonneg ab env elb fuel m A tau w ws (some c)) (fun r => r.1 = 0 ∧ ∃ f t, (Holds r.2 A fun i j => f j i) ∧
      (∀ k, k < A.rows → r.2 (tau.at' k 0) = some (t k)) ∧
      Frame (A.foot ∪ tcells tau A.rows ∪ wcells w ws ∪ c.foot) m r.2 ∧
      (∀ i j, i < A.cols → j < A.rows → qrProd A.cols A.rows t f (upperPart f) i j = a i j) ∧
      (∀ k, k < A.rows → OrthogonalRefl A.cols (t k) (qrw f k)) ∧ (∀ k, k < A.rows → k + 1 = A.cols → t k = 0) ∧
      (∀ b i j, i < A.cols → qrProd A.cols A.rows t f (qrProdT A.cols A.rows t f b) i j = b i j) ∧
      (∀ b i j, i < A.cols → qrProdT A.cols A.rows t f (qrProd A.cols A.rows t f b) i j = b i j) ∧ c.Ready r.2 ∧ WAlloc r.2 w ws ∧
      (∀ k, k < A.rows → t k = 0 → ∀ i, k < i → i < A.cols → f i k = 0)) := by
  obtain ⟨conf, min2, wf, sh, col, hws, ready, hA, ht, hW, dA, dt, dW⟩ := H
  choose! s hs using ht
  have key : ∀ f t, QrInv A.cols A.rows A.rows a f t →
      (∀ i j, i < A.cols → j < A.rows → qrProd A.cols A.rows t f (upperPart f) i j = a i j) ∧
      (∀ k, k < A.rows → OrthogonalRefl A.cols (t k) (qrw f k)) ∧ (∀ k, k < A.rows → k + 1 = A.cols → t k = 0) ∧
      (∀ b i j, i < A.cols → qrProd A.cols A.rows t f (qrProdT A.cols A.rows t f b) i j = b i j) ∧
      (∀ b i j, i < A.cols → qrProdT A.cols A.rows t f (qrProd A.cols A.rows t f b) i j = b i j) := by
    intro f t hI
    refine ⟨fun i j hi hj => ?_, fun k hk => orth_of (hI.norm k hk), hI.last, fun b i j hi => qrProd_qrProdT hI.norm b j i hi,
      fun b i j hi => qrProdT_qrProd hI.norm b j i hi⟩
    rw [← hI.prod i j hi hj]
    refine qrProd_congr (N := A.rows) (fun _ _ => rfl) (fun _ _ _ _ => rfl) (fun i j hi hj => ?_) i j hi hj
    unfold upperPart qrMid
    by_cases c : j < i
    · rw [if_pos c, if_pos ⟨by omega, c⟩]
    · rw [if_neg c, if_neg (fun h => c h.2)]
  unfold lqfactorW
  rw [if_neg ?_, if_neg (by omega), if_neg (by omega)]
  swap
  · rw [not_or, not_not]
    refine ⟨Or.inr col.1, ?_⟩
    unfold View.size
    rw [col.1]; omega
  dsimp only
  by_cases hb : invBlock elb A.rows ws = 0 ∨ A.rows ≤ invBlock elb A.rows ws
  · rw [if_pos hb]
    have sW : wcells w A.rows ⊆ wcells w ws := fun p hp => ⟨hp.1, by have := hp.2; omega⟩
    have q := unblkLq_spec nonneg h0 h1 ab min2 (fuel := fuel) (m := m) (A := A) (tau := tau) (W := w) (f0 := a) (s := s) (by omega) (by omega) wf
      hA (fun k hk => hs k (by omega)) (hW.le hws)
      (fun k hk h => Set.disjoint_left.mp dA h (Or.inl (Or.inl ⟨k, by omega, rfl⟩)))
      (dA.mono_right (fun p hp => Or.inl (Or.inr (sW hp))))
      (fun k hk h => Set.disjoint_left.mp dt ⟨k, by omega, rfl⟩ (Or.inl (sW h)))
    rw [Nat.min_eq_left sh] at q
    refine q.bind ?_
    rintro m' ⟨f, t, k1, k2, kw, k3, k4⟩
    obtain ⟨u1, u2, u3, u4, u5⟩ := key f t k4
    refine Runs.pure ⟨rfl, f, t, k1, k2, k3.mono ?_, u1, u2, u3, u4, u5, ready.frame k3 ?_, ?_, k4.unit⟩
    rotate_left
    · rw [Set.disjoint_union_right, Set.disjoint_union_right]
      exact ⟨⟨(dA.mono_right fun p hp => Or.inr hp).symm, (dt.mono_right fun p hp => Or.inr hp).symm⟩, (dW.mono_left sW).symm⟩
    · intro p hp
      by_cases h : p < A.rows
      · exact kw p h
      · dsimp only
        rw [k3 _ ?_]
        · exact hW p hp
        · have hm : w + p ∈ wcells w ws := ⟨by omega, by omega⟩
          rintro ((h' | h') | h')
          · exact Set.disjoint_left.mp dA h' (Or.inl (Or.inr hm))
          · exact Set.disjoint_left.mp dt h' (Or.inl hm)
          · have := h'.2; omega
    intro p hp
    rcases hp with (hp | hp) | hp
    · exact Or.inl (Or.inl (Or.inl hp))
    · exact Or.inl (Or.inl (Or.inr hp))
    · exact Or.inl (Or.inr (sW hp))
  · rw [if_neg hb]
    rw [not_or, not_le] at hb
    set lb := invBlock elb A.rows ws with hlb
    have hle : A.rows * lb ≤ ws := (invBlock_le hb.1).2 hb.2
    have h2 : lb * lb ≤ A.rows * lb := Nat.mul_le_mul_right _ (by omega)
    have sT : (⟨w, lb, lb, lb⟩ : View).foot ⊆ wcells w (lb * lb) := view_wcells (le_refl _)
    have sT' : wcells w (lb * lb) ⊆ wcells w ws := fun p hp => ⟨hp.1, by have := hp.2; omega⟩
    have sW : wcells (w + lb * lb) (ws - lb * lb) ⊆ wcells w ws := fun p hp => ⟨by have := hp.1; omega, by have := hp.2; omega⟩
    have HA : LqFacArgs c A tau ⟨w, lb, lb, lb⟩ (w + lb * lb) (ws - lb * lb) lb := by
      refine ⟨wf, sh, ⟨rfl, rfl⟩, Or.inl (le_refl _), ⟨by omega, hb.2⟩, ?_, dA.mono_right ?_, dt.mono_right ?_, ?_, dW.mono_left sW⟩
      · rw [Nat.sub_mul]; omega
      · intro p hp
        rcases hp with ((hp | hp) | hp) | hp
        · exact Or.inl (Or.inl hp)
        · exact Or.inl (Or.inr (sT' (sT hp)))
        · exact Or.inl (Or.inr (sW hp))
        · exact Or.inr hp
      · intro p hp
        rcases hp with (hp | hp) | hp
        · exact Or.inl (sT' (sT hp))
        · exact Or.inl (sW hp)
        · exact Or.inr hp
      · rw [Set.disjoint_union_right]
        refine ⟨Set.disjoint_left.mpr fun p hp hq => ?_, dW.mono_left (sT.trans sT')⟩
        have := (sT hp).2
        have := hq.1
        omega
    have hWT : WAlloc m w (lb * lb) := hW.le (by omega)
    have hWW : WAlloc m (w + lb * lb) (ws - lb * lb) := by
      intro p hp
      have := hW (lb * lb + p) (by omega)
      rwa [← Nat.add_assoc] at this
    refine (blkLq_spec nonneg h0 h1 ab conf min2 HA (by omega) hA hs (hWT.view (le_refl _)) hWW ready).bind ?_
    rintro m' ⟨⟨f, t, k1, k2, k3⟩, ⟨τ, kT⟩, kW, kr, F⟩
    obtain ⟨u1, u2, u3, u4, u5⟩ := key f t k3
    refine Runs.pure ⟨rfl, f, t, k1, k2, F.mono ?_, u1, u2, u3, u4, u5, kr, ?_, k3.unit⟩
    rotate_left
    · intro p hp
      by_cases h : p < lb * lb
      · have hq : (p % lb) + (p / lb) * lb = p := by rw [Nat.mul_comm, Nat.mod_add_div]
        have := kT (p % lb) (p / lb) (Nat.mod_lt _ (by omega)) (Nat.div_lt_of_lt_mul h)
        simp only [View.at'] at this
        rw [Nat.add_assoc, hq] at this
        exact ⟨_, this⟩
      · have := kW (p - lb * lb) (by omega)
        rwa [show w + lb * lb + (p - lb * lb) = w + p by omega] at this
    intro p hp
    rcases hp with (((hp | hp) | hp) | hp) | hp
    · exact Or.inl (Or.inl (Or.inl hp))
    · exact Or.inl (Or.inl (Or.inr hp))
    · exact Or.inl (Or.inr (sT' (sT hp)))
    · exact Or.inl (Or.inr (sW hp))
    · exact Or.inr hp

/-- Concrete arguments. -/
theorem lqArgs_demo (g : Nat → ℝ) : LqArgs ⟨8, 8, false, true⟩ ⟨1000, 1100, 4, 4, 3, 3, 1⟩ (tot g) ⟨0, 8, 6, 7⟩ ⟨60, 6, 6, 1⟩ (fun i j => g (0 + j + i * 8)) 70 20 where
  conf := ⟨Or.inl (by decide), by decide⟩
  min2 := Or.inl (by decide)
  wf := Or.inl (by decide)
  sh := by decide
  col := ⟨rfl, by decide⟩
  work := by decide
  ready := ⟨by decide, by decide, by decide, by decide, by decide, ⟨_, holds_tot _ _⟩, ⟨_, holds_tot _ _⟩, View.disj_below (by decide)⟩
  hA := holds_tot _ _
  ht := fun _ _ => ⟨_, rfl⟩
  hW := fun _ _ => ⟨_, rfl⟩
  dA := Set.disjoint_left.mpr (by
    rintro p ⟨i, j, hi, hj, rfl⟩ ((⟨k, hk, h⟩ | ⟨h1, h2⟩) | ⟨i', j', hi', hj', h⟩ | ⟨i', j', hi', hj', h⟩) <;>
      simp [View.at', Cache.A, Cache.B] at * <;> omega)
  dt := Set.disjoint_left.mpr (by
    rintro p ⟨k, hk, rfl⟩ (⟨h1, h2⟩ | ⟨i', j', hi', hj', h⟩ | ⟨i', j', hi', hj', h⟩) <;>
      simp [View.at', Cache.A, Cache.B] at * <;> omega)
  dW := Set.disjoint_left.mpr (by
    rintro p ⟨h1, h2⟩ (⟨i', j', hi', hj', h⟩ | ⟨i', j', hi', hj', h⟩) <;>
      simp [View.at', Cache.A, Cache.B] at * <;> omega)

example := C93_lqfactor_partial (safmin := 1 / 2) true (by norm_num) (by norm_num) (fun x => |x|) (lqArgs_demo fun p => (p : ℝ)) 3 (fuel := 30) (by decide)

/-- The checks of `armas_lqfactor_w`: a `tau` that is no vector or too short (the return value is -1, the code of a size error, though the error
recorded in the configuration is `EINVAL`), a matrix with more rows than columns, a work space with fewer than `rows` elements; nothing is
written. -/
theorem C93_errors (safmin : ℝ) (nonneg : Bool) (ab : ℝ → ℝ) (env : Env) (elb fuel : Nat) (m : Mem ℝ) (A tau : View) (w ws : Nat)
    (cbuf : Option Cache) :
    (((tau.rows ≠ 1 ∧ tau.cols ≠ 1) ∨ tau.rows * tau.cols < A.rows) →
      lqfactorW safmin nonneg ab env elb fuel m A tau w ws cbuf = .ok (-1, m)) ∧
    ((tau.rows = 1 ∨ tau.cols = 1) → A.rows ≤ tau.rows * tau.cols → A.cols < A.rows →
      lqfactorW safmin nonneg ab env elb fuel m A tau w ws cbuf = .ok (-1, m)) ∧
    ((tau.rows = 1 ∨ tau.cols = 1) → A.rows ≤ tau.rows * tau.cols → A.rows ≤ A.cols → ws < A.rows →
      lqfactorW safmin nonneg ab env elb fuel m A tau w ws cbuf = .ok (-5, m)) := by
  refine ⟨fun h => ?_, fun h h' h'' => ?_, fun h h' h'' h3 => ?_⟩
  · unfold lqfactorW
    rw [if_pos]
    simp only [View.isVec, View.size]
    tauto
  · unfold lqfactorW
    rw [if_neg, if_pos h'']
    · rfl
    · rw [not_or, not_not]
      exact ⟨h, by unfold View.size; omega⟩
  · unfold lqfactorW
    rw [if_neg, if_neg (by omega), if_pos h3]
    · rfl
    · rw [not_or, not_not]
      exact ⟨h, by unfold View.size; omega⟩

example := (C93_errors 1 true id ⟨8, 8, false, true⟩ 64 10 (tot fun _ => 1) ⟨0, 8, 6, 7⟩ ⟨60, 6, 6, 1⟩ 70 5 none).2.2 (by decide) (by decide) (by decide)
  (by decide)

end Armas.Props
