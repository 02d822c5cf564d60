import Verif.Small
import Mathlib.Tactic.Linarith
import Mathlib.Tactic.Positivity
import Mathlib.Tactic.FieldSimp
import Mathlib.Tactic.Ring
import Mathlib.Tactic.LinearCombination

/-!
# Lemmas for the 2x2 functions
-/

namespace Armas

theorem qdiv_pos {x y : ℝ} (h : y ≠ 0) : qdiv x y = some (x / y) := if_neg h

/-- The scaled singular values: `C` is the larger and `q/C` the smaller one for the diagonal `1`, `q` and `γ` beside it. -/
theorem sing_key {q γ X Y : ℝ} (hq : 0 < q) (hX0 : 0 ≤ X) (hY0 : 0 ≤ Y)
    (hX : X ^ 2 = γ ^ 2 + (1 + q) ^ 2) (hY : Y ^ 2 = γ ^ 2 + (1 - q) ^ 2) :
    0 < (X + Y) / 2 ∧ 1 ≤ (X + Y) / 2 ∧ q / ((X + Y) / 2) = (X - Y) / 2 ∧
      (q / ((X + Y) / 2)) ^ 2 + ((X + Y) / 2) ^ 2 = 1 + q ^ 2 + γ ^ 2 := by
  have h1 : 1 + q ≤ X := by nlinarith [sq_nonneg γ, sq_nonneg (X - (1 + q))]
  have h2 : 1 - q ≤ Y := by
    by_contra hc
    push Not at hc
    nlinarith [sq_nonneg γ]
  have hC : 0 < (X + Y) / 2 := by linarith
  have h3 : q / ((X + Y) / 2) = (X - Y) / 2 := by
    rw [div_eq_iff hC.ne']
    nlinarith
  refine ⟨hC, by linarith, h3, ?_⟩
  rw [h3]
  nlinarith

theorem fsign_mul {x y : ℝ} (hx : x ≠ 0) (hy : y ≠ 0) : fsign 1 (x * y) = fsign 1 x * fsign 1 y := by
  unfold fsign
  rcases lt_or_gt_of_ne hx with h1 | h1 <;> rcases lt_or_gt_of_ne hy with h2 | h2
  · rw [if_pos h1, if_pos h2, if_neg (mul_pos_of_neg_of_neg h1 h2).not_gt]; norm_num
  · rw [if_pos h1, if_neg h2.not_gt, if_pos (mul_neg_of_neg_of_pos h1 h2)]; norm_num
  · rw [if_neg h1.not_gt, if_pos h2, if_pos (mul_neg_of_pos_of_neg h1 h2)]; norm_num
  · rw [if_neg h1.not_gt, if_neg h2.not_gt, if_neg (mul_pos h1 h2).not_gt]; norm_num

theorem fsign_pos {x : ℝ} (hx : 0 < x) : fsign 1 x = 1 := if_neg hx.not_gt

theorem fsign_self (x : ℝ) : fsign 1 x * fsign 1 x = 1 := by
  unfold fsign; split <;> norm_num

theorem fsign3 {x y z w : ℝ} (h : 0 < x * y * z * w) : fsign 1 x * fsign 1 y * fsign 1 z = fsign 1 w := by
  have hx : x ≠ 0 := by rintro rfl; simp at h
  have hy : y ≠ 0 := by rintro rfl; simp at h
  have hz : z ≠ 0 := by rintro rfl; simp at h
  have hw : w ≠ 0 := by rintro rfl; simp at h
  have := fsign_pos h
  rw [fsign_mul (mul_ne_zero (mul_ne_zero hx hy) hz) hw, fsign_mul (mul_ne_zero hx hy) hz, fsign_mul hx hy] at this
  have e := fsign_self w
  linear_combination fsign 1 w * this - fsign 1 x * fsign 1 y * fsign 1 z * e

theorem fsign_abs {x : ℝ} (c : ℝ) : fsign (|x| * c) (fsign 1 x) = x * c := by
  unfold fsign
  by_cases h : x < 0
  · rw [if_pos h, if_pos (by norm_num), abs_of_neg h]; ring
  · rw [if_neg h, if_neg (by norm_num), abs_of_nonneg (not_lt.mp h)]

/-- What the part before the label computes: `(clt, slt)` and `(crt, srt)` are left and right singular vectors of `(F g; 0 H)` for the singular
value `F a`. -/
structure SvdCore (F g H a clt slt crt srt : ℝ) : Prop where
  apos : 1 < a
  right : crt ^ 2 + srt ^ 2 = 1
  left : clt ^ 2 + slt ^ 2 = 1
  l1 : clt = a * crt
  l2 : H * srt = F * a * slt
  r2 : g * clt + H * slt = F * a * srt
  r1 : F * crt + g * srt = F * a * clt
  cpos : 0 < crt
  spos : 0 < srt * g * F

theorem svdCore_alg {F g H a m q x y : ℝ} (hF : F ≠ 0) (ha1 : 1 < a) (hgF : g = m * F) (hm0 : m ≠ 0) (hHq : (H / F) ^ 2 = q ^ 2)
    (hchar : a ^ 4 - (1 + q ^ 2 + m ^ 2) * a ^ 2 + q ^ 2 = 0) (hxp : 0 < x) (hxy : x ^ 2 + y ^ 2 = 1)
    (hmy : m * y = (a ^ 2 - 1) * x) : SvdCore F g H a ((x + y * m) / a) (H / F * y / a) x y := by
  have k1 : 0 < a := by linarith
  have hc : (x + y * m) / a = a * x := by
    rw [div_eq_iff k1.ne']; linear_combination hmy
  rw [hc]
  obtain ⟨z, hz⟩ : ∃ z, z = H / F * y / a := ⟨_, rfl⟩
  have l2 : H * y = F * a * z := by rw [hz]; field_simp
  rw [← hz]
  have hH2 : H ^ 2 = q ^ 2 * F ^ 2 := by rw [← hHq]; field_simp
  have hr2' : m * a ^ 2 * x + q ^ 2 * y = a ^ 2 * y := by
    apply mul_left_cancel₀ hm0
    linear_combination (q ^ 2 - a ^ 2) * hmy - x * hchar
  have r2 : g * (a * x) + H * z = F * a * y := by
    apply mul_left_cancel₀ (mul_ne_zero hF k1.ne')
    rw [hgF]
    linear_combination (-H) * l2 + F ^ 2 * hr2' + y * hH2
  have r1 : F * x + g * y = F * a * (a * x) := by rw [hgF]; linear_combination F * hmy
  refine ⟨ha1, hxy, ?_, rfl, l2, r2, r1, hxp, ?_⟩
  · have : F * a * ((a * x) ^ 2 + z ^ 2) = F * a * 1 := by
      linear_combination (-(a * x)) * r1 - z * l2 + y * r2 + F * a * hxy
    exact mul_left_cancel₀ (mul_ne_zero hF k1.ne') this
  · rw [hgF]
    have : y * (m * F) * F = (a ^ 2 - 1) * x * F ^ 2 := by linear_combination F ^ 2 * hmy
    rw [this]
    have : 0 < a ^ 2 - 1 := by nlinarith
    positivity

theorem svdCore_spec {eps F g H : ℝ} (hF : F ≠ 0) (hg : g ≠ 0) (hH : H ≠ 0) (hHF : |H| ≤ |F|)
    (he : ¬ (|g| > |F| ∧ |F| / |g| < eps)) :
    ∃ a clt slt crt srt, svdCore eps F g H = some (|H| / a, |F| * a, clt, slt, crt, srt) ∧ SvdCore F g H a clt slt crt srt := by
  have hFp : 0 < |F| := abs_pos.mpr hF
  have hHp : 0 < |H| := abs_pos.mpr hH
  have hgp : 0 < |g| := abs_pos.mpr hg
  unfold svdCore
  simp only
  rw [if_neg hgp.ne', qdiv_pos hgp.ne']
  simp only [Option.bind_eq_bind, Option.bind_some]
  rw [if_neg he, if_neg (by intro h; linarith), qdiv_pos hFp.ne']
  simp only [Option.bind_some]
  rw [qdiv_pos hF]
  simp only [Option.bind_some]
  obtain ⟨q, hq⟩ : ∃ q, q = |H| / |F| := ⟨_, rfl⟩
  have hq0 : 0 < q := by rw [hq]; positivity
  have hq1 : q ≤ 1 := by rw [hq, div_le_one hFp]; exact hHF
  have hl : (|F| - |H|) / |F| = 1 - q := by rw [hq]; field_simp
  rw [hl]
  obtain ⟨m, hm⟩ : ∃ m, m = g / F := ⟨_, rfl⟩
  have hm0 : m ≠ 0 := by rw [hm]; exact div_ne_zero hg hF
  rw [← hm]
  have hr : (if 1 - q = 0 then |m| else Real.sqrt ((1 - q) * (1 - q) + m * m)) = Real.sqrt ((1 - q) * (1 - q) + m * m) := by
    split
    · rename_i h
      rw [h, zero_mul, zero_add, Real.sqrt_mul_self_eq_abs]
    · rfl
  rw [hr]
  obtain ⟨s, hs⟩ : ∃ s, s = Real.sqrt ((2 - (1 - q)) * (2 - (1 - q)) + m * m) := ⟨_, rfl⟩
  obtain ⟨r, hr⟩ : ∃ r, r = Real.sqrt ((1 - q) * (1 - q) + m * m) := ⟨_, rfl⟩
  rw [← hs, ← hr]
  have hs2 : s ^ 2 = m ^ 2 + (1 + q) ^ 2 := by
    rw [hs, Real.sq_sqrt (add_nonneg (mul_self_nonneg _) (mul_self_nonneg _))]; ring
  have hr2 : r ^ 2 = m ^ 2 + (1 - q) ^ 2 := by
    rw [hr, Real.sq_sqrt (add_nonneg (mul_self_nonneg _) (mul_self_nonneg _))]; ring
  have hs0 : 0 ≤ s := by rw [hs]; exact Real.sqrt_nonneg _
  have hr0 : 0 ≤ r := by rw [hr]; exact Real.sqrt_nonneg _
  obtain ⟨k1, k2, k3, k4⟩ := sing_key hq0 hs0 hr0 hs2 hr2
  obtain ⟨a, ha⟩ : ∃ a, a = (s + r) / 2 := ⟨_, rfl⟩
  have ha' : 1 / 2 * (s + r) = a := by rw [ha]; ring
  rw [← ha] at k1 k2 k3 k4
  rw [ha', qdiv_pos k1.ne', if_neg (mul_self_ne_zero.mpr hm0)]
  have hm2 : 0 < m ^ 2 := by positivity
  have hst : s + (2 - (1 - q)) ≠ 0 := by linarith
  have hrl : r + (1 - q) ≠ 0 := by
    intro h
    have : r = 0 := by linarith
    rw [this] at hr2
    nlinarith [sq_nonneg (1 - q)]
  rw [qdiv_pos hst, qdiv_pos hrl]
  simp only [Option.bind_some]
  obtain ⟨t, ht⟩ : ∃ t, t = (m / (s + (2 - (1 - q))) + m / (r + (1 - q))) * (1 + a) := ⟨_, rfl⟩
  have htm : m * t = 2 * (a ^ 2 - 1) := by
    have e1 : m / (s + (2 - (1 - q))) = (s - (1 + q)) / m := by
      rw [div_eq_div_iff hst hm0]; linear_combination -hs2
    have e2 : m / (r + (1 - q)) = (r - (1 - q)) / m := by
      rw [div_eq_div_iff hrl hm0]; linear_combination -hr2
    rw [ht, e1, e2]
    have : m * (((s - (1 + q)) / m + (r - (1 - q)) / m) * (1 + a)) = ((s + r) - 2) * (1 + a) := by
      field_simp; ring
    rw [this, ha]; ring
  have hchar : a ^ 4 - (1 + q ^ 2 + m ^ 2) * a ^ 2 + q ^ 2 = 0 := by
    have h := congrArg (· * a ^ 2) k4
    simp only [div_pow, add_mul] at h
    rw [div_mul_cancel₀ _ (by positivity)] at h
    linear_combination h
  have ha1 : 1 < a := by
    refine lt_of_le_of_ne k2 (fun h => ?_)
    rw [← h] at hchar
    nlinarith
  simp only [Option.pure_def, Option.bind_some]
  rw [← ht]
  obtain ⟨L, hL⟩ : ∃ L, L = Real.sqrt (t * t + 4) := ⟨_, rfl⟩
  have hLp : 0 < L := by rw [hL]; exact Real.sqrt_pos.mpr (by nlinarith [mul_self_nonneg t])
  have hL2 : L ^ 2 = t ^ 2 + 4 := by rw [hL, Real.sq_sqrt (by nlinarith [mul_self_nonneg t])]; ring
  rw [← hL, qdiv_pos hLp.ne', qdiv_pos hLp.ne']
  simp only [Option.bind_some]
  rw [qdiv_pos k1.ne', qdiv_pos hF]
  simp only [Option.bind_some]
  rw [qdiv_pos k1.ne']
  refine ⟨a, _, _, _, _, rfl, ?_⟩
  have hxp : 0 < 2 / L := by positivity
  have hxy : (2 / L) ^ 2 + (t / L) ^ 2 = 1 := by
    rw [div_pow, div_pow, ← add_div, div_eq_one_iff_eq (by positivity), hL2]; ring
  have hmy : m * (t / L) = (a ^ 2 - 1) * (2 / L) := by
    rw [← mul_div_assoc, htm]; ring
  exact svdCore_alg hF ha1 (by rw [hm]; field_simp) hm0 (by rw [hq, div_pow, div_pow, sq_abs, sq_abs]) hchar hxp hxy hmy

end Armas
