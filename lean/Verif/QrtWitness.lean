import Verif.QrtLemmas
import Verif.Demo

/-!
# Lemmas for the counterexamples about `src/lapack/qrt.c`
-/

namespace Armas

open Finset

/-- Three columns `(3, 4, 0)`, `(-12/5, 9/5, 4)`, `(1, 0, 0)`; zeros everywhere else. -/
noncomputable def qrtBad (p : Nat) : ℝ :=
  if p = 0 then 3 else if p = 1 then 4 else if p = 3 then -12 / 5 else if p = 4 then 9 / 5 else if p = 5 then 4 else if p = 6 then 1 else 0

theorem qrt_alg {N : Nat} {f : Nat → Nat → ℝ} {t : Nat → ℝ} (hN : 2 ≤ N) (h : QrInv 3 N 2 (fun i j => qrtBad (0 + i + j * 3)) f t) :
    t 0 ≠ 0 ∧ t 1 ≠ 0 ∧ f 1 0 ≠ 0 ∧ f 2 0 = 0 := by
  have e1 := h.prod 1 0 (by decide) (by omega)
  have e2 := h.prod 2 0 (by decide) (by omega)
  have e3 := h.prod 2 1 (by decide) (by omega)
  simp [qrProd, refl, qrw, qrMid, qrtBad, sum_range_succ] at e1 e2 e3
  have a1 : t 0 ≠ 0 := fun h0 => by simp [h0] at e1
  have a2 : f 1 0 ≠ 0 := fun h0 => by simp [h0] at e1
  have a3 : f 0 0 ≠ 0 := fun h0 => by simp [h0] at e1
  have a4 : f 2 0 = 0 := by
    rcases e2 with (h' | h') | h'
    exacts [absurd h' a1, h', absurd h' a3]
  refine ⟨a1, fun h0 => ?_, a2, a4⟩
  simp [h0, a4] at e3

theorem qrtBad_hi {p : Nat} (h : 9 ≤ p) : qrtBad p = 0 := by
  unfold qrtBad
  rw [if_neg (by omega), if_neg (by omega), if_neg (by omega), if_neg (by omega), if_neg (by omega), if_neg (by omega)]

/-- The cache of the witness. -/
def qrtCache : Cache := ⟨1000, 1100, 4, 4, 3, 3, 1⟩

theorem qrtCache_ready {m : Mem ℝ} (h : ∀ p, 900 ≤ p → m p = some 0) : qrtCache.Ready m :=
  ⟨by decide, by decide, by decide, by decide, by decide,
    ⟨fun _ _ => 0, fun i j _ _ => h _ (by simp only [View.at', Cache.A, qrtCache]; omega)⟩,
    ⟨fun _ _ => 0, fun i j _ _ => h _ (by simp only [View.at', Cache.B, qrtCache]; omega)⟩, View.disj_below (by decide)⟩

/-- One past the last cell of a view that is not empty. -/
def View.lim (V : View) : Nat := V.base + V.step * (V.cols - 1) + V.rows

theorem foot_bounds {V : View} {p : Nat} (h : p ∈ V.foot) : V.base ≤ p ∧ p < V.lim := by
  obtain ⟨i, j, hi, hj, rfl⟩ := h
  simp only [View.at', View.lim]
  have h2 : j * V.step ≤ (V.cols - 1) * V.step := Nat.mul_le_mul_right _ (by omega)
  rw [Nat.mul_comm (V.cols - 1)] at h2
  omega

theorem foot_disj {V U : View} (h : V.lim ≤ U.base ∨ U.lim ≤ V.base) : Disjoint V.foot U.foot := by
  rw [Set.disjoint_left]
  intro p h1 h2
  have := foot_bounds h1
  have := foot_bounds h2
  omega

theorem wcells_disj {V : View} {w n : Nat} (h : V.lim ≤ w) : Disjoint V.foot (wcells w n) := by
  rw [Set.disjoint_left]
  intro p h1 h2
  have := foot_bounds h1
  have := h2.1
  omega

theorem qrtCache_foot {p : Nat} (h : p ∈ qrtCache.foot) : 1000 ≤ p := by
  rcases h with h | h
  · exact (foot_bounds h).1
  · have := (foot_bounds h).1
    simp only [qrtCache, Cache.B] at this
    omega

/-- The first block of the witness: the panel is factored, and the third column becomes `(I - Y D Y^T) c` with the diagonal `D` of the scalars. -/
theorem qrt_blocked_step : Runs (blkQrtStep (1 / 2) true (fun x => |x|) ⟨8, 8, false, true⟩ 30 ⟨0, 3, 3, 3⟩ ⟨10, 2, 2, 3⟩ 20 2 (some qrtCache) 0
    (tot qrtBad)) (fun m' => ∃ f τ, QrInv 3 2 2 (fun i j => qrtBad (0 + i + j * 3)) f (fun l => τ l l) ∧ τ 0 1 = 0 ∧
      Holds m' ⟨0, 3, 3, 2⟩ f ∧ Holds m' ⟨10, 2, 2, 2⟩ τ ∧
      Holds m' ⟨6, 3, 3, 1⟩ (fun i j => blockProd 3 2 (fun p q => trm true false τ q p) f (fun i j => qrtBad (6 + i + j * 3)) i j) ∧
      ((∃ x, m' 14 = some x) ∧ ∃ x, m' 15 = some x) ∧ WAlloc m' 20 2) := by
  have q := unblkQrt_spec (safmin := 1 / 2) true (by norm_num) (by norm_num) (fun x => |x|) (env := ⟨8, 8, false, true⟩) (Or.inl (by decide)) (fuel := 30)
    (m := tot qrtBad) (A := ⟨0, 3, 3, 2⟩) (T := ⟨10, 2, 2, 2⟩) (W := 20) (τ0 := fun _ _ => 0) (by decide) (by decide) (Or.inl (by decide))
    (Or.inl (by decide)) (by decide) (by decide) (holds_tot _ _) ((holds_tot _ _).congr fun i j _ _ => qrtBad_hi (by simp only [View.at']; omega))
    (fun _ _ => ⟨_, rfl⟩) (foot_disj (Or.inl (by decide))) (wcells_disj (by decide))
    (wcells_disj (by decide))
  unfold blkQrtStep
  dsimp only
  refine Runs.bind q ?_
  rintro m1 ⟨f, τ, S, hW1, F1⟩
  have F : ∀ p, 6 ≤ p → p < 9 ∨ (14 ≤ p ∧ p < 20) ∨ 22 ≤ p → m1 p = some (qrtBad p) := by
    intro p h1 h2
    rw [F1]
    · rfl
    rintro ((h | h) | h)
    · have := (foot_bounds h).2; simp only [View.lim] at this; omega
    · have := foot_bounds h
      simp only [View.lim] at this; omega
    · have := h.1; have := h.2; simp only at *; omega
  have R1 : qrtCache.Ready m1 := qrtCache_ready fun p hp => by rw [F p (by omega) (by omega), qrtBad_hi (by omega)]
  obtain ⟨w, hw⟩ := hW1.view (r := 1) (c := 2) (by decide)
  have dc : ∀ V : View, V.lim ≤ 1000 → Disjoint V.foot qrtCache.foot := by
    intro V h1
    rw [Set.disjoint_left]
    intro p h3 h4
    have := qrtCache_foot h4
    have := foot_bounds h3
    omega
  have wA : (⟨0, 3, 3, 3⟩ : View).WF := Or.inl (by decide)
  have d : ∀ r c nr nc r' c' nr' nc', r + nr ≤ 3 → c + nc ≤ 3 → r' + nr' ≤ 3 → c' + nc' ≤ 3 →
      (r + nr ≤ r' ∨ r' + nr' ≤ r ∨ c + nc ≤ c' ∨ c' + nc' ≤ c) →
      Disjoint ((⟨0, 3, 3, 3⟩ : View).sub r c nr nc).foot ((⟨0, 3, 3, 3⟩ : View).sub r' c' nr' nc').foot :=
    fun r c nr nc r' c' nr' nc' h1 h2 h3 h4 h5 => View.sub_disj wA h1 h2 h3 h4 h5
  have U : QrUpdArgs qrtCache m1 ((⟨0, 3, 3, 3⟩ : View).sub 0 2 2 1) ((⟨0, 3, 3, 3⟩ : View).sub 2 2 1 1) ((⟨0, 3, 3, 3⟩ : View).sub 0 0 2 2)
      ((⟨0, 3, 3, 3⟩ : View).sub 2 0 1 2) ((⟨10, 2, 2, 3⟩ : View).sub 0 0 2 2) ⟨20, 1, 1, 2⟩ 2 1 1 false f
      (fun i j => qrtBad (6 + i + j * 3)) τ w := by
    refine ⟨rfl, rfl, rfl, rfl, ⟨rfl, rfl⟩, ⟨rfl, rfl⟩, ⟨rfl, rfl⟩, ⟨rfl, rfl⟩, Or.inl (by decide), Or.inl (by decide), Or.inl (by decide), R1, ?_, ?_, ?_, ?_,
      ?_, hw, ?_, ?_, ?_, ?_, ?_, ?_, ?_⟩
    · intro i j hi hj
      simp only [View.sub_rows, View.sub_cols] at hi hj
      simp only [View.at', View.sub, Bool.false_eq_true, if_false]
      rw [F _ (by omega) (by omega)]
    · intro i j hi hj
      simp only [View.sub_rows, View.sub_cols] at hi hj
      simp only [View.at', View.sub, Bool.false_eq_true, if_false]
      rw [F _ (by omega) (by omega)]
      congr 2
      omega
    · intro i j hi hj
      simp only [View.sub_rows, View.sub_cols] at hi hj
      exact S.hA i j (by simp only; omega) (by simp only; omega)
    · intro i j hi hj
      simp only [View.sub_rows, View.sub_cols] at hi hj
      have := S.hA (2 + i) j (by simp only; omega) (by simp only; omega)
      simp only [View.at', View.sub] at this ⊢
      rw [← this]
      congr 1
      omega
    · exact S.hT
    · exact d _ _ _ _ _ _ _ _ (by decide) (by decide) (by decide) (by decide) (by decide)
    · exact foot_disj (by decide)
    · exact foot_disj (by decide)
    · rw [Set.disjoint_union_right, Set.disjoint_union_right]
      exact ⟨⟨d _ _ _ _ _ _ _ _ (by decide) (by decide) (by decide) (by decide) (by decide), d _ _ _ _ _ _ _ _ (by decide) (by decide) (by decide) (by decide) (by decide)⟩, foot_disj (by decide)⟩
    · rw [Set.disjoint_union_right, Set.disjoint_union_right]
      exact ⟨⟨d _ _ _ _ _ _ _ _ (by decide) (by decide) (by decide) (by decide) (by decide), d _ _ _ _ _ _ _ _ (by decide) (by decide) (by decide) (by decide) (by decide)⟩, foot_disj (by decide)⟩
    · rw [Set.disjoint_union_right, Set.disjoint_union_right]
      exact ⟨⟨foot_disj (by decide), foot_disj (by decide)⟩, foot_disj (by decide)⟩
    · simp only [Set.disjoint_union_left]
      exact ⟨⟨⟨⟨⟨dc _ (by decide), dc _ (by decide)⟩, dc _ (by decide)⟩, dc _ (by decide)⟩, dc _ (by decide)⟩, dc _ (by decide)⟩
  rw [updateQrLeft_eq]
  refine (updQr_spec (fun x => |x|) ⟨Or.inl (by decide), by decide⟩ (tA := !true) U (fuel := 30) (by decide)).mono ?_
  rintro m4 ⟨c1, c2, F4, -, w4, hw4⟩
  simp only [Bool.not_true, Bool.false_eq_true, if_false] at c1 c2
  have K : ∀ p, p < 6 ∨ (10 ≤ p ∧ p < 20) → m4 p = m1 p := by
    intro p hp
    refine F4 _ ?_
    rintro (((h | h) | h) | h)
    · have := foot_bounds h
      simp only [View.lim, View.sub] at this; omega
    · have := foot_bounds h
      simp only [View.lim, View.sub] at this; omega
    · have := foot_bounds h
      simp only [View.lim] at this; omega
    · have := qrtCache_foot h; omega
  refine ⟨f, τ, S.inv, ?_, ?_, ?_, ?_, ⟨⟨0, ?_⟩, ⟨0, ?_⟩⟩, ?_⟩
  · rw [S.col 1 (by decide) (by decide) 0 (by decide)]
    simp
  · intro i j hi hj
    rw [K _ (Or.inl (by simp only [View.at'] at *; omega))]
    exact S.hA i j hi hj
  · intro i j hi hj
    rw [K _ (Or.inr (by simp only [View.at'] at *; omega))]
    exact S.hT i j hi hj
  · intro i j hi hj
    simp only at hi hj
    by_cases c : i < 2
    · have := c1 i j (by simp only [View.sub]; omega) (by simp only [View.sub]; omega)
      simpa [View.sub, View.at'] using this
    · have := c2 0 j (by simp only [View.sub]; omega) (by simp only [View.sub]; omega)
      have e : i = 2 := by omega
      subst e
      simpa [View.sub, View.at'] using this
  · rw [K _ (Or.inr (by omega)), F _ (by omega) (by omega), qrtBad_hi (by omega)]
  · rw [K _ (Or.inr (by omega)), F _ (by omega) (by omega), qrtBad_hi (by omega)]
  · intro p hp
    have := hw4 0 p (by decide) hp
    simp only [View.at', Nat.mul_one, Nat.add_zero] at this
    exact ⟨_, this⟩

theorem qrt_blocked_alg {f τ : Nat → Nat → ℝ} (h : QrInv 3 2 2 (fun i j => qrtBad (0 + i + j * 3)) f (fun l => τ l l)) (h01 : τ 0 1 = 0)
    (g : Nat → Nat → ℝ) (t : Nat → ℝ) (t0 : t 0 = τ 0 0) (t1 : t 1 = τ 1 1) (t2 : t 2 = 0) (hg : ∀ i j, i < 3 → j < 2 → g i j = f i j)
    (hb : ∀ i, i < 3 → g i 2 = blockProd 3 2 (fun p q => trm true false τ q p) f (fun i j => qrtBad (6 + i + j * 3)) i 0) :
    ∃ i j, i < 3 ∧ j < 3 ∧ qrProd 3 3 t g (upperPart g) i j ≠ qrtBad (0 + i + j * 3) := by
  obtain ⟨a1, a2, a3, a4⟩ := qrt_alg (le_refl 2) h
  by_contra hn
  push Not at hn
  have e0 := hn 0 2 (by decide) (by decide)
  have e1 := hn 1 2 (by decide) (by decide)
  have b0 := hb 0 (by decide)
  have b1 := hb 1 (by decide)
  have b2 := hb 2 (by decide)
  have g1 := hg 1 0 (by decide) (by decide)
  have g2 := hg 2 0 (by decide) (by decide)
  have g3 := hg 2 1 (by decide) (by decide)
  simp [blockProd, trm, qrw, sum_range_succ, qrtBad, h01, a4] at b0 b1 b2
  simp [qrProd, refl, qrw, upperPart, sum_range_succ, qrtBad, t0, t1, t2, g1, g2, g3, a4, b0, b1, b2] at e0 e1
  have k1 : τ 0 0 * (1 - τ 0 0 + f 1 0 * (-(f 1 0 * τ 0 0) + τ 1 1 * (f 1 0 * τ 0 0)) + 1) = 0 := by linarith
  have k2 := (mul_eq_zero.mp k1).resolve_left a1
  have k3 : τ 1 1 * (f 1 0 * τ 0 0) = 0 := by
    rw [show 1 - τ 0 0 + f 1 0 * (-(f 1 0 * τ 0 0) + τ 1 1 * (f 1 0 * τ 0 0)) = -1 by linarith] at e1
    linarith
  simp [a1, a2, a3] at k3

end Armas
