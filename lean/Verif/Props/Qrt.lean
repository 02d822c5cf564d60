import Verif.QrtWitness
import Verif.Props.Qr

/-!
# C86: QR factorization with stored block reflectors
-/

namespace Armas.Props

open Armas Finset

/-- Arguments of `armas_qrtfactor_w` with at least as many rows in `T` as columns in `A`. -/
structure QrtArgs (env : Env) (m : Mem ℝ) (A T : View) (a τ0 : Nat → Nat → ℝ) (w ws : Nat) : Prop where
  min2 : 2 ≤ env.blas2min ∨ (env.naive = true ∧ env.recursive = false)
  wf : A.WF
  wfT : T.WF
  sh : A.cols ≤ A.rows
  tsh : A.cols ≤ T.rows ∧ A.cols ≤ T.cols
  work : A.cols ≤ ws
  hA : Holds m A a
  hT : Holds m T τ0
  hW : WAlloc m w ws
  dA : Disjoint A.foot (T.foot ∪ wcells w ws)
  dT : Disjoint T.foot (wcells w ws)

/-- C86, `armas_qrtfactor_w` with `rows(T) ≥ cols(A)` (one block): `A = H_0 H_1 ... H_{N-1} R` where `R` is the upper triangle of the result `f`,
`H_k = I - t_k w_k w_kᵀ`, `w_k = (0 ... 0 1 f(k+1..,k))`, the scalars `t` are the diagonal of `T`, and every `H_k` is orthogonal.  `T` is
otherwise only written above its diagonal.  Not stated because it is false: that `T` is the block reflector (`C86_block_reflector_false`), and the
factorization with several blocks (`C86_blocked_false`).  `work` is not what the code checks (`C86_workspace_false`). -/
theorem C86_qrt_partial {safmin : ℝ} (nonneg : Bool) (h0 : 0 < safmin) (h1 : safmin < 1) (ab : ℝ → ℝ) {env : Env}
    {m : Mem ℝ} {A T : View} {a τ0 : Nat → Nat → ℝ} {w ws : Nat} (H : QrtArgs env m A T a τ0 w ws) {fuel : Nat}
    (hf : A.rows < fuel) (cbuf : Option Cache) :
    Runs (qrtfactorW safmin nonneg ab env fuel m A T w ws cbuf) (fun r => r.1 = 0 ∧ ∃ f τ, Holds r.2 A f ∧ Holds r.2 T τ ∧
      Frame (A.foot ∪ T.foot ∪ wcells w ws) m r.2 ∧
      (∀ i j, i < A.rows → j < A.cols → qrProd A.rows A.cols (fun k => τ k k) f (upperPart f) i j = a i j) ∧
      (∀ k, k < A.cols → OrthogonalRefl A.rows (τ k k) (qrw f k)) ∧
      (∀ i j, i < T.rows → j < T.cols → (j < i ∨ A.cols ≤ j) → τ i j = τ0 i j)) := by
  obtain ⟨min2, wf, wfT, sh, ⟨tr, tc⟩, work, hA, hT, hW, dA, dT⟩ := H
  have sT : (T.sub 0 0 A.cols A.cols).foot ⊆ T.foot := View.sub_foot (by omega) (by omega)
  have sW : wcells w A.cols ⊆ wcells w ws := fun p hp => ⟨hp.1, by have := hp.2; omega⟩
  have dAT : Disjoint A.foot T.foot := dA.mono_right fun p hp => Or.inl hp
  have dAW : Disjoint A.foot (wcells w ws) := dA.mono_right fun p hp => Or.inr hp
  unfold qrtfactorW
  have hnw : ¬ ws < (if T.rows = 0 ∨ A.cols < T.rows then A.cols else T.rows * (A.cols - T.rows)) := by
    by_cases c : T.rows = 0 ∨ A.cols < T.rows
    · rw [if_pos c]; omega
    · rw [if_neg c, show A.cols - T.rows = 0 by omega]; omega
  rw [if_neg (by omega), if_neg hnw, if_pos (Or.inr tr)]
  have q := unblkQrt_spec nonneg h0 h1 ab min2 (fuel := fuel) (m := m) (A := A) (T := T.sub 0 0 A.cols A.cols) (W := w) (f0 := a)
    (τ0 := τ0) (by omega) hf wf (wfT.sub (by omega) (by omega)) (le_refl _) (le_refl _) hA
    ((hT.part (by omega) (by omega)).congr fun i j _ _ => by simp) (hW.le work) (dAT.mono_right sT) (dAW.mono_right sW) (dT.mono sT sW)
  rw [Nat.min_eq_right sh] at q
  refine q.bind ?_
  rintro m' ⟨f, τ, S, -, F⟩
  have e0 : ∀ i j, (T.sub 0 0 A.cols A.cols).at' i j = T.at' i j := fun i j => by rw [View.at_sub]; simp
  refine Runs.pure ⟨rfl, f, fun i j => if i < A.cols ∧ j < A.cols then τ i j else τ0 i j, S.hA, ?_, F.mono ?_, ?_, ?_, ?_⟩
  · intro i j hi hj
    dsimp only
    by_cases c : i < A.cols ∧ j < A.cols
    · rw [if_pos c, ← e0]
      exact S.hT i j c.1 c.2
    · rw [if_neg c, F, hT i j hi hj]
      rintro ((h | h) | h)
      · exact Set.disjoint_left.mp dAT h (View.at_mem_foot hi hj)
      · rw [View.mem_sub_foot wfT (by omega) (by omega) hi hj] at h
        omega
      · exact Set.disjoint_left.mp dT (View.at_mem_foot hi hj) (sW h)
  · rintro p ((h | h) | h)
    · exact Or.inl (Or.inl h)
    · exact Or.inl (Or.inr (sT h))
    · exact Or.inr (sW h)
  · intro i j hi hj
    rw [← S.inv.prod i j hi hj]
    refine qrProd_congr (N := A.cols) (fun k hk => by beta_reduce; rw [if_pos ⟨hk, hk⟩]) (fun _ _ _ _ => rfl) (fun i j hi hj => ?_) i j hi hj
    unfold upperPart qrMid
    by_cases c : j < i
    · rw [if_pos c, if_pos ⟨by omega, c⟩]
    · rw [if_neg c, if_neg (fun h => c h.2)]
  · intro k hk
    beta_reduce
    rw [if_pos ⟨hk, hk⟩]
    exact orth_of (S.inv.norm k hk)
  · intro i j _ _ h
    dsimp only
    by_cases c : i < A.cols ∧ j < A.cols
    · rw [if_pos c, S.keep i j (by omega)]
    · rw [if_neg c]

/-- Concrete arguments. -/
theorem qrtArgs_demo (g : Nat → ℝ) (r c tr tc : Nat) (hr : r ≤ 3) (hcr : c ≤ r) (h1 : c ≤ tr) (h2 : c ≤ tc) (h3 : tr ≤ 3) (h4 : tc ≤ 3) :
    QrtArgs ⟨8, 8, false, true⟩ (tot g) ⟨0, 3, r, c⟩ ⟨10, 3, tr, tc⟩ (fun i j => g (0 + i + j * 3)) (fun i j => g (10 + i + j * 3)) 20 3 where
  min2 := Or.inl (by decide)
  wf := Or.inl hr
  wfT := Or.inl h3
  sh := hcr
  tsh := ⟨h1, h2⟩
  work := by simp only; omega
  hA := holds_tot _ _
  hT := holds_tot _ _
  hW := fun _ _ => ⟨_, rfl⟩
  dA := Set.disjoint_left.mpr (by
    rintro p ⟨i, j, hi, hj, rfl⟩ (⟨i', j', hi', hj', h⟩ | ⟨h1, h2⟩) <;>
      simp [View.at'] at * <;> omega)
  dT := Set.disjoint_left.mpr (by
    rintro p ⟨i, j, hi, hj, rfl⟩ ⟨h1, h2⟩ <;>
      simp [View.at'] at * <;> omega)

example := C86_qrt_partial (safmin := 1 / 2) true (by norm_num) (by norm_num) (fun x => |x|) (qrtArgs_demo (fun p => (p : ℝ)) 3 2 3 3
  (by decide) (by decide) (by decide) (by decide) (by decide) (by decide)) (fuel := 30) (by decide) none

/-- The checks of `armas_qrtfactor_w`. -/
theorem C86_errors (safmin : ℝ) (nonneg : Bool) (ab : ℝ → ℝ) (env : Env) (fuel : Nat) (m : Mem ℝ) (A T : View) (w ws : Nat)
    (cbuf : Option Cache) :
    (A.rows < A.cols ∨ T.cols < A.cols → qrtfactorW safmin nonneg ab env fuel m A T w ws cbuf = .ok (-1, m)) ∧
    (A.cols ≤ A.rows → A.cols ≤ T.cols → A.cols < T.rows → ws < A.cols →
      qrtfactorW safmin nonneg ab env fuel m A T w ws cbuf = .ok (-5, m)) ∧
    (A.cols ≤ A.rows → A.cols ≤ T.cols → 0 < T.rows → T.rows < A.cols → ws < T.rows * (A.cols - T.rows) →
      qrtfactorW safmin nonneg ab env fuel m A T w ws cbuf = .ok (-5, m)) := by
  refine ⟨fun h => ?_, fun h h' h'' h3 => ?_, fun h h' h'' h3 h4 => ?_⟩
  · unfold qrtfactorW; rw [if_pos h]; rfl
  · unfold qrtfactorW
    rw [if_neg (by omega), if_pos (by rw [if_pos (Or.inr h'')]; exact h3)]
    rfl
  · unfold qrtfactorW
    rw [if_neg (by omega), if_pos (by rw [if_neg (by omega)]; exact h4)]
    rfl

example := (C86_errors (1 / 2) true (fun x => |x|) ⟨8, 8, false, true⟩ 30 (tot fun _ => 1) ⟨0, 3, 3, 2⟩ ⟨10, 3, 3, 3⟩ 20 1 none).2.1
  (by decide) (by decide) (by decide) (by decide)

example := (C86_errors (1 / 2) true (fun x => |x|) ⟨8, 8, false, true⟩ 30 (tot fun _ => 1) ⟨0, 3, 3, 3⟩ ⟨10, 3, 2, 3⟩ 20 1 none).2.2
  (by decide) (by decide) (by decide) (by decide) (by decide)

/-! ## Where the code is wrong -/

/-- C86 is false: `T` is not the block reflector.  `t01` is computed from the blocks to the right of the column instead of those to its
left (`a12`, `A22` for `a10`, `A20`), whose sizes do not even agree, so that the calls fail without notice and `T(0,1)` stays what it was on
entry.  `A` the 3 by 2 matrix with the columns `(3, 4, 0)` and `(-12/5, 9/5, 4)`, `T` zero on entry. -/
theorem C86_block_reflector_false : ∃ (m : Mem ℝ) (A T : View) (a : Nat → Nat → ℝ), A.rows = 3 ∧ A.cols = 2 ∧ T.rows = 2 ∧ T.cols = 2 ∧
    QrtArgs ⟨8, 8, false, true⟩ m A T a (fun _ _ => 0) 20 3 ∧
    Runs (qrtfactorW (1 / 2) true (fun x => |x|) ⟨8, 8, false, true⟩ 30 m A T 20 3 none) (fun r => r.1 = 0 ∧ ∃ f τ, Holds r.2 A f ∧
      Holds r.2 T τ ∧ ∃ b i j, i < 3 ∧ blockProd 3 2 (upperPart τ) f b i j ≠ qrProd 3 2 (fun k => τ k k) f b i j) := by
  have HA := qrtArgs_demo qrtBad 3 2 2 2 (by decide) (by decide) (by decide) (by decide) (by decide) (by decide)
  have z : ∀ i j, qrtBad (10 + i + j * 3) = 0 := fun i j => by unfold qrtBad; rw [if_neg (by omega), if_neg (by omega), if_neg (by omega), if_neg (by omega), if_neg (by omega), if_neg (by omega)]
  simp only [z] at HA
  refine ⟨_, _, _, _, rfl, rfl, rfl, rfl, HA, ?_⟩
  obtain ⟨min2, wf, wfT, sh, ⟨tr, tc⟩, work, hA, hT, hW, dA, dT⟩ := HA
  unfold qrtfactorW
  rw [if_neg (by decide), if_neg (by decide), if_pos (by decide)]
  have sT : ((⟨10, 3, 2, 2⟩ : View).sub 0 0 2 2).foot ⊆ (⟨10, 3, 2, 2⟩ : View).foot := View.sub_foot (by decide) (by decide)
  have sW : wcells 20 2 ⊆ wcells 20 3 := fun p hp => ⟨hp.1, by have := hp.2; omega⟩
  have q := unblkQrt_spec (safmin := 1 / 2) true (by norm_num) (by norm_num) (fun x => |x|) min2 (fuel := 30) (m := tot qrtBad) (A := ⟨0, 3, 3, 2⟩)
    (T := (⟨10, 3, 2, 2⟩ : View).sub 0 0 2 2) (W := 20) (τ0 := fun _ _ => 0) (by decide) (by decide) wf (wfT.sub (by decide) (by decide))
    (by decide) (by decide) hA ((hT.part (by decide) (by decide)).congr fun i j _ _ => rfl) (hW.le work)
    (dA.mono_right fun p hp => Or.inl (sT hp)) (dA.mono_right fun p hp => Or.inr (sW hp)) (dT.mono sT sW)
  refine q.bind ?_
  rintro m' ⟨f, τ, S, -, -⟩
  refine Runs.pure ⟨rfl, f, τ, S.hA, ?_, fun r _ => if r = 1 then 1 else 0, 0, 0, by decide, ?_⟩
  · have := S.hT
    intro i j hi hj
    have := this i j hi hj
    rwa [View.at_sub, Nat.zero_add, Nat.zero_add] at this
  obtain ⟨a1, a2, a3, a4⟩ := qrt_alg (le_refl 2) S.inv
  have c01 : τ 0 1 = 0 := by
    rw [S.col 1 (by decide) (by decide) 0 (by decide)]
    simp
  have c10 : τ 1 0 = 0 := S.keep 1 0 (by decide)
  intro e
  simp [blockProd, qrProd, refl, qrw, upperPart, sum_range_succ, c01, a4] at e
  rcases e with h | h
  · have : f 1 0 * τ 1 1 = 0 := by linarith
    rcases mul_eq_zero.mp this with h | h
    · exact a3 h
    · exact a2 h
  · exact a1 h


/-- C86 is false with more than one block: the wrong `T` is used to update the columns to the right of the block, so that
`A = H_0 H_1 H_2 R` fails with the reflectors and the upper triangle left in `A` and the scalars left in `T`.  `A` the 3 by 3 matrix with the
columns `(3, 4, 0)`, `(-12/5, 9/5, 4)` and `(1, 0, 0)`, `T` a 2 by 3 matrix (blocks of two columns), zero on entry. -/
theorem C86_blocked_false : ∃ (m : Mem ℝ) (A T : View) (a : Nat → Nat → ℝ) (c : Cache), A.rows = 3 ∧ A.cols = 3 ∧ T.rows = 2 ∧ T.cols = 3 ∧
    A.WF ∧ T.WF ∧ Holds m A a ∧ Holds m T (fun _ _ => 0) ∧ WAlloc m 20 2 ∧ c.Ready m ∧ Disjoint A.foot T.foot ∧
    Disjoint (A.foot ∪ T.foot) (wcells 20 2) ∧ Disjoint (A.foot ∪ T.foot ∪ wcells 20 2) c.foot ∧
    Runs (qrtfactorW (1 / 2) true (fun x => |x|) ⟨8, 8, false, true⟩ 30 m A T 20 2 (some c)) (fun r => r.1 = 0 ∧ ∃ f τ, Holds r.2 A f ∧
      Holds r.2 T τ ∧ ∃ i j, i < 3 ∧ j < 3 ∧ qrProd 3 3 (fun k => τ (k % 2) k) f (upperPart f) i j ≠ a i j) := by
  refine ⟨tot qrtBad, ⟨0, 3, 3, 3⟩, ⟨10, 2, 2, 3⟩, _, qrtCache, rfl, rfl, rfl, rfl, Or.inl (by decide), Or.inl (by decide), holds_tot _ _,
    (holds_tot _ _).congr fun i j _ _ => qrtBad_hi (by simp only [View.at']; omega), fun _ _ => ⟨_, rfl⟩,
    ⟨by decide, by decide, by decide, by decide, by decide, ⟨_, holds_tot _ _⟩, ⟨_, holds_tot _ _⟩, View.disj_below (by decide)⟩,
    foot_disj (by decide), ?_, ?_, ?_⟩
  · rw [Set.disjoint_union_left]
    exact ⟨wcells_disj (by decide), wcells_disj (by decide)⟩
  · rw [Set.disjoint_left]
    rintro p ((h | h) | h) h' <;> have := qrtCache_foot h'
    · have := (foot_bounds h).2; simp only [View.lim] at this; omega
    · have := (foot_bounds h).2; simp only [View.lim] at this; omega
    · have := h.2; omega
  unfold qrtfactorW
  rw [if_neg (by decide), if_neg (by decide), if_neg (by decide)]
  unfold blkQrt
  refine Runs.bind (P := fun m' => ∃ g τ, Holds m' ⟨0, 3, 3, 3⟩ g ∧ Holds m' ⟨10, 2, 2, 3⟩ τ ∧
    ∃ i j, i < 3 ∧ j < 3 ∧ qrProd 3 3 (fun k => τ (k % 2) k) g (upperPart g) i j ≠ qrtBad (0 + i + j * 3)) ?_ ?_
  swap
  · rintro m' ⟨g, τ, h1, h2, h3⟩
    exact Runs.pure ⟨rfl, g, τ, h1, h2, h3⟩
  rw [forUp_eq, if_pos (by decide), if_pos (by decide)]
  refine Runs.bind (P := fun r => r.1 = 2 ∧ ∃ f τ, QrInv 3 2 2 (fun i j => qrtBad (0 + i + j * 3)) f (fun l => τ l l) ∧ τ 0 1 = 0 ∧
      Holds r.2 ⟨0, 3, 3, 2⟩ f ∧ Holds r.2 ⟨10, 2, 2, 2⟩ τ ∧
      Holds r.2 ⟨6, 3, 3, 1⟩ (fun i j => blockProd 3 2 (fun p q => trm true false τ q p) f (fun i j => qrtBad (6 + i + j * 3)) i j) ∧
      ((∃ x, r.2 14 = some x) ∧ ∃ x, r.2 15 = some x) ∧ WAlloc r.2 20 2) ?_ ?_
  · refine qrt_blocked_step.bind ?_
    rintro m1 h
    rw [forUp_eq, if_neg (by decide)]
    exact Runs.ok ⟨rfl, h⟩
  rintro ⟨k, m1⟩ ⟨hk, f, τ, hI, h01, hA, hT, hB, ⟨⟨x, hx⟩, ⟨y, hy⟩⟩, hW⟩
  dsimp only at hk hA hT hB hx hy hW ⊢
  subst hk
  rw [if_pos (by decide)]
  have q := unblkQrt_spec (safmin := 1 / 2) true (by norm_num) (by norm_num) (fun x => |x|) (env := ⟨8, 8, false, true⟩) (Or.inl (by decide)) (fuel := 30)
    (m := m1) (A := ⟨8, 3, 1, 1⟩) (T := ⟨14, 2, 1, 1⟩) (W := 20)
    (f0 := fun _ _ => blockProd 3 2 (fun p q => trm true false τ q p) f (fun i j => qrtBad (6 + i + j * 3)) 2 0)
    (τ0 := fun _ _ => x) (by decide) (by decide) (Or.inl (by decide))
    (Or.inl (by decide)) (by decide) (by decide) (fun i j hi hj => by
      simp only at hi hj
      obtain rfl : i = 0 := by omega
      obtain rfl : j = 0 := by omega
      exact hB 2 0 (by decide) (by decide)) (fun i j hi hj => by
      simp only at hi hj
      obtain rfl : i = 0 := by omega
      obtain rfl : j = 0 := by omega
      exact hx)
    (hW.le (by decide)) (foot_disj (Or.inl (by decide))) (wcells_disj (by decide))
    (wcells_disj (by decide))
  refine Runs.mono q ?_
  rintro m2 ⟨f2, τ2, S, -, F⟩
  have K : ∀ p, p ≠ 8 → p ≠ 14 → p < 20 → m2 p = m1 p := by
    intro p h1 h2 h3
    refine F _ ?_
    rintro ((h | h) | h)
    · have := foot_bounds h; simp only [View.lim] at this; omega
    · have := foot_bounds h; simp only [View.lim] at this; omega
    · have := h.1; omega
  have t2 : τ2 0 0 = 0 := S.inv.last 0 (by decide) rfl
  have f2' : f2 0 0 = blockProd 3 2 (fun p q => trm true false τ q p) f (fun i j => qrtBad (6 + i + j * 3)) 2 0 := by
    have := S.inv.prod 0 0 (by decide) (by decide)
    simp [qrProd, refl, qrMid, t2] at this
    exact this
  refine ⟨fun i j => if j < 2 then f i j else blockProd 3 2 (fun p q => trm true false τ q p) f (fun i j => qrtBad (6 + i + j * 3)) i 0,
    fun i j => if j < 2 then τ i j else if i = 0 then 0 else y, ?_, ?_, ?_⟩
  · intro i j hi hj
    simp only at hi hj
    dsimp only
    by_cases c : j < 2
    · rw [if_pos c, K _ (by simp only [View.at']; omega) (by simp only [View.at']; omega) (by simp only [View.at']; omega)]
      exact hA i j hi c
    · obtain rfl : j = 2 := by omega
      rw [if_neg c]
      by_cases c' : i = 2
      · subst c'
        have := S.hA 0 0 (by decide) (by decide)
        rw [f2'] at this
        exact this
      · rw [K _ (by simp only [View.at']; omega) (by simp only [View.at']; omega) (by simp only [View.at']; omega)]
        have := hB i 0 hi (by decide)
        simp only [View.at'] at this ⊢
        rw [← this]
        congr 1
        omega
  · intro i j hi hj
    simp only at hi hj
    dsimp only
    by_cases c : j < 2
    · rw [if_pos c, K _ (by simp only [View.at']; omega) (by simp only [View.at']; omega) (by simp only [View.at']; omega)]
      exact hT i j hi c
    · obtain rfl : j = 2 := by omega
      rw [if_neg c]
      by_cases c' : i = 0
      · subst c'
        have := S.hT 0 0 (by decide) (by decide)
        rw [t2] at this
        rw [if_pos rfl]
        exact this
      · obtain rfl : i = 1 := by omega
        rw [if_neg c', K _ (by simp only [View.at']; omega) (by simp only [View.at']; omega) (by simp only [View.at']; omega)]
        exact hy
  · exact qrt_blocked_alg hI h01 _ _ rfl rfl rfl (fun i j _ hj => by rw [if_pos hj]) (fun i _ => rfl)

/-- The work space check of `armas_qrtfactor_w` accepts an empty work space if `T` has as many rows as `A` has columns (`A->cols < lb` is
tested, but the unblocked code is used for `A->cols <= lb`): the code then writes outside it.  `A` is 2 by 2, `T` is 2 by 2; the documented
size, returned by the workspace query, is two elements. -/
theorem C86_workspace_false : ∃ (m : Mem ℝ) (A T : View) (a : Nat → Nat → ℝ), A.rows = 2 ∧ A.cols = 2 ∧ T.rows = 2 ∧ T.cols = 2 ∧ A.WF ∧ T.WF ∧
    Holds m A a ∧ Holds m T (fun _ _ => 0) ∧ Disjoint A.foot T.foot ∧
    qrtfactorW (1 / 2) true (fun x => |x|) ⟨8, 8, false, true⟩ 30 m A T 20 0 none = .ub := by
  refine ⟨fun p => if p < 20 then some (if p = 0 then 3 else if p = 1 then 4 else 0) else none, ⟨0, 2, 2, 2⟩, ⟨10, 2, 2, 2⟩,
    fun i j => if j = 0 then (if i = 0 then 3 else 4) else 0, rfl, rfl, rfl, rfl, Or.inl (by decide), Or.inl (by decide), ?_, ?_, foot_disj (by decide), ?_⟩
  · intro i j hi hj
    simp only at hi hj
    interval_cases i <;> interval_cases j <;> simp [View.at']
  · intro i j hi hj
    simp only at hi hj
    interval_cases i <;> interval_cases j <;> simp [View.at']
  set m : Mem ℝ := fun p => if p < 20 then some (if p = 0 then 3 else if p = 1 then 4 else 0) else none with hm
  obtain ⟨m1, e1, v, t, b, hv, hb, ht, F, hc⟩ := householder_spec (safmin := 1 / 2) (m := m) (X := ⟨1, 2, 1, 1⟩) (x := fun _ => 4) (a := 3) (t0 := 0)
    (a11 := 0) (tau := 10) false true (by norm_num) (by norm_num) (Or.inl rfl) (Or.inl (by decide)) (fun k hk => by
      simp only [View.size] at hk
      obtain rfl : k = 0 := by omega
      simp [hm, View.vat]) (by simp [hm]) (by simp [hm])
    (fun h => by have := (foot_bounds h).1; simp only at this; omega) (fun h => by have := (foot_bounds h).2; simp only [View.lim] at this; omega)
    (by decide)
  have ht0 : t ≠ 0 := by
    rcases hc with ⟨h, -⟩ | ⟨-, h⟩
    · norm_num [View.size] at h
    · rintro rfl
      have := h.norm
      norm_num at this
  have n20 : m1 20 = none := by
    rw [F]
    · simp [hm]
    rintro (h | h | h)
    · have := (foot_bounds h).2; simp only [View.lim] at this; omega
    · omega
    · have := Set.mem_singleton_iff.mp h; omega
  have ax : axpby m1 0 ⟨20, 1, 1, 1⟩ 1 ⟨2, 2, 1, 1⟩ = .ub := by
    unfold axpby
    rw [if_neg (by simp [View.isVec]), if_neg (by simp [View.size])]
    unfold axpbyUnsafe
    dsimp only
    rw [forUp_eq, if_neg (by decide)]
    simp [switchTail, View.size, View.vat, rd, n20]
  have ap : applyHH2x1 (fun x => |x|) ⟨8, 8, false, true⟩ 30 m1 (some 10) ⟨1, 2, 1, 1⟩ ⟨2, 2, 1, 1⟩ ⟨3, 2, 1, 1⟩ ⟨20, 1, 1, 1⟩ true = .ub := by
    unfold applyHH2x1
    simp [rd, ht, ht0, ax]
  have st : unblkQrStep (1 / 2) true (fun x => |x|) ⟨8, 8, false, true⟩ 30 ⟨0, 2, 2, 2⟩
      (((⟨10, 2, 2, 2⟩ : View).sub 0 0 2 2).sub 0 0 1 1) 20 0 m = .ub := by
    have : unblkQrStep (1 / 2) true (fun x => |x|) ⟨8, 8, false, true⟩ 30 ⟨0, 2, 2, 2⟩
      (((⟨10, 2, 2, 2⟩ : View).sub 0 0 2 2).sub 0 0 1 1) 20 0 m = (householder (1 / 2) m 0 ⟨1, 2, 1, 1⟩ 10 false true >>= fun m1 =>
        applyHH2x1 (fun x => |x|) ⟨8, 8, false, true⟩ 30 m1 (some 10) ⟨1, 2, 1, 1⟩ ⟨2, 2, 1, 1⟩ ⟨3, 2, 1, 1⟩ ⟨20, 1, 1, 1⟩ true) := rfl
    rw [this, e1]
    exact ap
  unfold qrtfactorW
  rw [if_neg (by decide), if_neg (by decide), if_pos (by decide)]
  unfold unblkQrt
  rw [forUp_eq, if_pos (by decide), if_pos (by decide)]
  unfold unblkQrtStep
  rw [st]
  rfl

end Armas.Props
