import Verif.EftProd

/-!
# Rounding to nearest even; division
-/

namespace Armas

/-- Rounding to nearest even rounds to nearest. -/
theorem rne_nearest {p : Nat} (hp : 0 < p) : Nearest p (rne p) := by
  intro x
  by_cases hx : x = 0
  · subst hx
    have : rne p 0 = 0 := by unfold rne; simp
    rw [this]
    exact ⟨fl_zero p, fun y _ => by simp⟩
  unfold rne
  set e := Int.log 2 |x| + 1 - (p : ℤ) with he
  have hu := two_zpow_pos e
  have hpow : (2 : ℚ) ^ p * 2 ^ e = 2 ^ (Int.log 2 |x| + 1) := by
    rw [← two_zpow_nat]
    congr 1
    rw [he]; ring
  have h0 : 0 < |x| := abs_pos.mpr hx
  have hlo : (2 : ℚ) ^ p * 2 ^ e ≤ 2 * |x| := by
    have h1 := Int.zpow_log_le_self (b := 2) (by norm_num) h0
    rw [hpow, two_zpow_succ]
    push_cast at h1
    linarith
  have hhi : |x| < (2 : ℚ) ^ p * 2 ^ e := by
    have h2 := Int.lt_zpow_succ_log_self (b := 2) (by norm_num) (|x|)
    rw [hpow]
    push_cast at h2
    exact h2
  dsimp only
  set q := x / 2 ^ e with hq
  have hxq : x = q * 2 ^ e := by rw [hq]; field_simp
  generalize hr : (if q - ⌊q⌋ < 1 / 2 then ⌊q⌋ else if 1 / 2 < q - ⌊q⌋ then ⌊q⌋ + 1 else if ⌊q⌋ % 2 = 0 then ⌊q⌋ else ⌊q⌋ + 1) = r
  have hf1 := Int.floor_le q
  have hf2 := Int.lt_floor_add_one q
  -- no integer is nearer to `q`
  have hrq : |q - r| ≤ 1 / 2 := by
    rw [abs_le]
    split_ifs at hr <;> subst hr <;> push_cast <;> constructor <;> linarith
  have hqp : |q| < 2 ^ p := by
    rw [hq, abs_div, abs_of_pos hu, div_lt_iff₀ hu]
    exact hhi
  have hrp : |r| ≤ 2 ^ p := by
    have h1 : |(r : ℚ)| < 2 ^ p + 1 := by
      have := abs_sub_abs_le_abs_sub (r : ℚ) q
      rw [abs_sub_comm] at this
      linarith
    have h2 : |r| < 2 ^ p + 1 := by exact_mod_cast h1
    omega
  have hxr : |x - r * 2 ^ e| * 2 ≤ 2 ^ e := by
    have : x - r * 2 ^ e = (q - r) * 2 ^ e := by rw [sub_mul, ← hxq]
    rw [this, abs_mul, abs_of_pos hu]
    have := mul_le_mul_of_nonneg_right hrq hu.le
    linarith
  refine ⟨fl_of hp ⟨r, rfl⟩ ?_, ?_⟩
  · rw [abs_mul, abs_of_pos hu]
    exact mul_le_mul_of_nonneg_right (by exact_mod_cast hrp) hu.le
  · intro y hy
    by_contra hc
    push Not at hc
    by_cases hym : Mlt e y
    · -- a nearer multiple of `2^e` would be the same
      have hd : |y - r * 2 ^ e| < 2 ^ e := by
        have h1 := abs_sub_le y x (r * 2 ^ e)
        rw [abs_sub_comm y x] at h1
        linarith
      obtain ⟨k, rfl⟩ := hym
      rw [← sub_mul, abs_mul, abs_of_pos hu] at hd
      have h1 : |(k : ℚ) - r| < 1 := by
        by_contra h2
        push Not at h2
        have := mul_le_mul_of_nonneg_right h2 hu.le
        linarith
      have h2 : |k - r| < 1 := by exact_mod_cast h1
      have h3 : k = r := by
        have := Int.abs_lt_one_iff.mp h2
        omega
      rw [h3] at hc
      exact lt_irrefl _ hc
    · -- smaller numbers are not nearer than the smallest of this binade
      have hsm : 2 * |y| < 2 ^ p * 2 ^ e := by
        by_contra h2
        exact hym (hy.mlt (not_lt.mp h2))
      have hgrid : ∃ g : ℤ, (2 : ℚ) ^ p * 2 ^ e = 2 * (g * 2 ^ e) := by
        obtain ⟨k, rfl⟩ : ∃ k, p = k + 1 := ⟨p - 1, by omega⟩
        exact ⟨2 ^ k, by push_cast; rw [pow_succ]; ring⟩
      obtain ⟨g, hg⟩ := hgrid
      -- the distance to the grid point at the lower end of the binade
      have key : ∀ t : ℚ, t = g * 2 ^ e ∨ t = -(g * 2 ^ e) → |x - r * 2 ^ e| ≤ |x - t| := by
        intro t ht
        by_contra hlt
        push Not at hlt
        obtain ⟨k, rfl⟩ : ∃ k : ℤ, t = k * 2 ^ e := by
          rcases ht with rfl | rfl
          · exact ⟨g, rfl⟩
          · exact ⟨-g, by push_cast; ring⟩
        have hd : |(k : ℚ) * 2 ^ e - r * 2 ^ e| < 2 ^ e := by
          have h1 := abs_sub_le ((k : ℚ) * 2 ^ e) x (r * 2 ^ e)
          rw [abs_sub_comm _ x] at h1
          linarith
        rw [← sub_mul, abs_mul, abs_of_pos hu] at hd
        have h1 : |(k : ℚ) - r| < 1 := by
          by_contra h2
          push Not at h2
          have := mul_le_mul_of_nonneg_right h2 hu.le
          linarith
        have h2 : |k - r| < 1 := by exact_mod_cast h1
        have h3 : k = r := by
          have := Int.abs_lt_one_iff.mp h2
          omega
        rw [h3] at hlt
        exact lt_irrefl _ hlt
      have hy1 := le_abs_self y
      have hy2 := neg_abs_le y
      rcases le_or_gt 0 x with hx0 | hx0
      · rw [abs_of_nonneg hx0] at hlo
        have h1 := key _ (Or.inl rfl)
        rw [abs_of_nonneg (by linarith : (0 : ℚ) ≤ x - g * 2 ^ e)] at h1
        have := le_abs_self (x - y)
        linarith
      · rw [abs_of_neg hx0] at hlo
        have h1 := key _ (Or.inr rfl)
        rw [abs_of_nonpos (by linarith : x - -(g * 2 ^ e) ≤ (0 : ℚ))] at h1
        have := neg_abs_le (x - y)
        linarith

namespace Nearest

variable {p : Nat} {rn : ℚ → ℚ}

/-- The result of rounding where there is no tie. -/
theorem near_eq (h : Nearest p rn) (hp : 0 < p) {x v : ℚ} {e : ℤ} (hv : Mlt e v) (hv' : |v| ≤ 2 ^ p * 2 ^ e) (hx : 2 ^ p * 2 ^ e ≤ 2 * |x|)
    (hd : 2 * |x - v| < 2 ^ e) : rn x = v := by
  have hu := two_zpow_pos e
  have h1 := (h x).2 v (fl_of hp hv hv')
  have h2 := (h.mlt_of_ge hp hx).sub hv
  obtain ⟨k, hk⟩ := h2
  have h3 : |rn x - v| < 2 ^ e := by
    have := abs_sub_le (rn x) x v
    rw [abs_sub_comm (rn x) x] at this
    linarith
  rw [hk, abs_mul, abs_of_pos hu] at h3
  have h4 : |(k : ℚ)| < 1 := by
    by_contra h5
    push Not at h5
    have := mul_le_mul_of_nonneg_right h5 hu.le
    linarith
  have h5 : |k| < 1 := by exact_mod_cast h4
  have h6 := Int.abs_lt_one_iff.mp h5
  rw [h6] at hk
  push_cast at hk
  linarith

/-- The remainder of a division and the difference of the dividend and the rounded product are representable. -/
theorem div_rem (h : Nearest p rn) (hp : 0 < p) {a b : ℚ} (ha : Fl p a) (hb : Fl p b) (hb0 : b ≠ 0) :
    Fl p (a - rn (rn (a / b) * b)) ∧ Fl p (a - rn (a / b) * b) := by
  have hp0 : 0 < p := by omega
  by_cases ha0 : a = 0
  · subst ha0
    rw [zero_div, h.zero, zero_mul, h.zero, sub_zero]
    exact ⟨fl_zero p, fl_zero p⟩
  obtain ⟨e, he1, he2⟩ := exists_exp p (div_ne_zero ha0 hb0)
  obtain ⟨f, hf1, hf2⟩ := exists_exp p hb0
  have hu := two_zpow_pos e
  have hw := two_zpow_pos f
  have hxm : Mlt e (rn (a / b)) := h.mlt_of_ge hp0 he1
  have hbm : Mlt f b := hb.mlt hf1
  have herr : 2 * |a / b - rn (a / b)| ≤ 2 ^ e := h.err hp0 he2.le
  have hc : a = a / b * b := by field_simp
  have hP : (2 : ℚ) ≤ 2 ^ p := by
    calc (2 : ℚ) = 2 ^ 1 := by norm_num
      _ ≤ 2 ^ p := pow_le_pow_right₀ (by norm_num) hp0
  have hUW : (2 : ℚ) ^ (e + f) = 2 ^ e * 2 ^ f := zpow_add₀ (by norm_num) e f
  have ham : Mlt (e + f) a := by
    refine ha.mlt ?_
    rw [hUW]
    have h1 : (2 ^ p * 2 ^ e) * (2 ^ p * 2 ^ f) ≤ (2 * |a / b|) * (2 * |b|) := mul_le_mul he1 hf1 (by positivity) (by positivity)
    have h2 : |a| = |a / b| * |b| := by rw [← abs_mul, ← hc]
    have h3 : 2 * (2 ^ p * (2 ^ e * 2 ^ f)) ≤ 2 ^ p * (2 ^ p * ((2 : ℚ) ^ e * 2 ^ f)) := mul_le_mul_of_nonneg_right hP (by positivity)
    rw [h2]
    linarith
  have hrem : 2 * |a - rn (a / b) * b| ≤ 2 ^ p * 2 ^ (e + f) := by
    have h1 : a - rn (a / b) * b = (a / b - rn (a / b)) * b := by rw [sub_mul, ← hc]
    rw [h1, abs_mul, hUW]
    have h2 : (2 * |a / b - rn (a / b)|) * |b| ≤ 2 ^ e * (2 ^ p * 2 ^ f) := mul_le_mul herr hf2.le (abs_nonneg _) hu.le
    linarith
  have hpm : Mlt (e + f) (rn (a / b) * b) := hxm.mul hbm
  have hn := abs_nonneg (a - rn (a / b) * b)
  refine ⟨fl_of hp0 (ham.sub (h.mlt hp0 hpm)) ?_, fl_of hp0 (ham.sub hpm) (by linarith)⟩
  have h1 := (h (rn (a / b) * b)).2 a ha
  have h2 := abs_sub_le a (rn (a / b) * b) (rn (rn (a / b) * b))
  rw [abs_sub_comm (rn (a / b) * b) a] at h1
  linarith

theorem twodivFma_spec (h : Nearest p rn) (hp : 0 < p) {a b : ℚ} (ha : Fl p a) (hb : Fl p b) (hb0 : b ≠ 0) :
    (twodivFma rn a b).1 = rn (a / b) ∧ (twodivFma rn a b).2 = rn (a / b - rn (a / b)) := by
  obtain ⟨h1, h2⟩ := h.div_rem hp ha hb hb0
  unfold twodivFma twoprodFma
  dsimp only
  have e1 : a - rn (rn (a / b) * b) - (rn (a / b) * b - rn (rn (a / b) * b)) = a - rn (a / b) * b := by ring
  have e2 : (a - rn (a / b) * b) / b = a / b - rn (a / b) := by field_simp
  rw [h.exact (h.prod_err (by omega) (h.fl _) hb), h.exact h1, e1, h.exact h2, e2]
  exact ⟨rfl, rfl⟩

theorem twodivBase_spec (h : Nearest p rn) {s : Nat} (h1 : p ≤ 2 * s) (h2 : 2 * s ≤ p + 2) (h3 : s + 2 ≤ p) {a b : ℚ} (ha : Fl p a) (hb : Fl p b)
    (hb0 : b ≠ 0) :
    (twodivBase rn (2 ^ s + 1) a b).1 = rn (a / b) ∧ (twodivBase rn (2 ^ s + 1) a b).2 = rn (a / b - rn (a / b)) := by
  obtain ⟨g1, g2⟩ := h.div_rem (by omega) ha hb hb0
  obtain ⟨t1, t2⟩ := h.twoprod_exact h1 h2 h3 (h.fl (a / b)) hb
  unfold twodivBase
  dsimp only
  generalize twoprod rn (2 ^ s + 1) (rn (a / b)) b = c at t1 t2
  obtain ⟨v, w⟩ := c
  dsimp only at t1 t2 ⊢
  refine ⟨rfl, ?_⟩
  have e1 : a - v - w = a - rn (a / b) * b := by rw [← t2]; ring
  have e2 : (a - rn (a / b) * b) / b = a / b - rn (a / b) := by field_simp
  rw [t1, h.exact g1, ← t1, e1, h.exact g2, e2]

end Nearest

end Armas
