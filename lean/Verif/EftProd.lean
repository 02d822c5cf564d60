import Verif.EftLemmas
import Mathlib.Algebra.Order.Field.Power

/-!
# Splitting and products
-/

namespace Armas

theorem Mlt.abs_lt {e : ℤ} {x : ℚ} (hx : Mlt e x) {k : Nat} (h : |x| < 2 ^ k * 2 ^ e) : |x| + 2 ^ e ≤ 2 ^ k * 2 ^ e := by
  obtain ⟨m, rfl⟩ := hx
  have hep := two_zpow_pos e
  rw [abs_mul, abs_of_pos hep] at h ⊢
  have h4 : (|m| : ℚ) < 2 ^ k := lt_of_mul_lt_mul_right h hep.le
  have h5 : |m| < 2 ^ k := by exact_mod_cast h4
  have h6 : |m| + 1 ≤ 2 ^ k := h5
  have h7 : (|m| : ℚ) + 1 ≤ 2 ^ k := by exact_mod_cast h6
  have := mul_le_mul_of_nonneg_right h7 hep.le
  linarith

/-- A multiple of `2^e` less than half a unit above `2^k * 2^e` is at most `2^k * 2^e`. -/
theorem Mlt.abs_le {e : ℤ} {x : ℚ} (hx : Mlt e x) {k : Nat} (h : |x| < 2 ^ k * 2 ^ e + 2 ^ e) : |x| ≤ 2 ^ k * 2 ^ e := by
  obtain ⟨m, rfl⟩ := hx
  have hep := two_zpow_pos e
  rw [abs_mul, abs_of_pos hep] at h ⊢
  have h4 : (|m| : ℚ) < 2 ^ k + 1 := lt_of_mul_lt_mul_right (by linarith : (|m| : ℚ) * 2 ^ e < (2 ^ k + 1) * 2 ^ e) hep.le
  have h5 : |m| < 2 ^ k + 1 := by exact_mod_cast h4
  have h6 : |m| ≤ 2 ^ k := by omega
  have h7 : (|m| : ℚ) ≤ 2 ^ k := by exact_mod_cast h6
  exact mul_le_mul_of_nonneg_right h7 hep.le

/-- The product of `2^s + 1` and a power of two is representable. -/
theorem fl_pow2 {p s : Nat} (hsp : s + 1 ≤ p) {e : ℤ} {a : ℚ} (ham : Mlt e a) (he1 : 2 ^ p * 2 ^ e ≤ 2 * |a|)
    (hsmall : 2 * |a| < 2 ^ p * 2 ^ e + 2 * 2 ^ e) : Fl p ((2 ^ s + 1) * a) := by
  have hp : 0 < p := by omega
  have hu := two_zpow_pos e
  obtain ⟨q, rfl⟩ : ∃ q, p = q + 1 := ⟨p - 1, by omega⟩
  have h1 : |a| = 2 ^ q * 2 ^ e := by
    obtain ⟨m, rfl⟩ := ham
    rw [abs_mul, abs_of_pos hu, pow_succ] at he1 hsmall
    rw [abs_mul, abs_of_pos hu]
    have h3 : (2 : ℚ) ^ q ≤ |(m : ℚ)| := le_of_mul_le_mul_right (by linarith : (2 : ℚ) ^ q * 2 ^ e ≤ |(m : ℚ)| * 2 ^ e) hu
    have h4 : |(m : ℚ)| < 2 ^ q + 1 := lt_of_mul_lt_mul_right (by linarith : |(m : ℚ)| * 2 ^ e < (2 ^ q + 1) * 2 ^ e) hu.le
    have h5 : (2 : ℤ) ^ q ≤ |m| := by exact_mod_cast h3
    have h6 : |m| < (2 : ℤ) ^ q + 1 := by exact_mod_cast h4
    have h7 : |m| = (2 : ℤ) ^ q := by omega
    have h8 : |(m : ℚ)| = 2 ^ q := by exact_mod_cast h7
    rw [h8]
  have h2 : Mlt (e + q) a := by
    rcases abs_choice a with h3 | h3
    · exact ⟨1, by rw [two_zpow_nat, ← h1, h3]; simp⟩
    · exact ⟨-1, by rw [two_zpow_nat, ← h1, h3]; simp⟩
  have h3 : Mlt (e + q) ((2 ^ s + 1) * a) := by
    obtain ⟨m, hm⟩ := h2
    exact ⟨(2 ^ s + 1) * m, by rw [hm]; push_cast; ring⟩
  refine fl_of hp h3 ?_
  rw [abs_mul, abs_of_pos (by positivity : (0 : ℚ) < 2 ^ s + 1), h1, two_zpow_nat]
  refine mul_le_mul_of_nonneg_right ?_ (mul_pos (by positivity) hu).le
  have h4 : (1 : ℚ) ≤ 2 ^ s := one_le_pow₀ (by norm_num)
  have h5 : (2 : ℚ) * 2 ^ s ≤ 2 ^ (q + 1) := by
    calc (2 : ℚ) * 2 ^ s = 2 ^ (s + 1) := by ring
      _ ≤ 2 ^ (q + 1) := pow_le_pow_right₀ (by norm_num) hsp
  linarith

/-- What splitting yields for `a` with the last place `2^e`. -/
structure SplitOf (p s : Nat) (e : ℤ) (a a1 a2 : ℚ) : Prop where
  mlt : Mlt e a
  lo : 2 ^ p * 2 ^ e ≤ 2 * |a|
  hi : |a| < 2 ^ p * 2 ^ e
  sum : a1 + a2 = a
  mlt1 : Mlt (e + s) a1
  hi1 : |a1| ≤ 2 ^ p * 2 ^ e
  mlt2 : Mlt e a2
  hi2 : 2 * |a2| ≤ 2 ^ s * 2 ^ e

namespace Nearest

variable {p : Nat} {rn : ℚ → ℚ}

theorem zero (h : Nearest p rn) : rn 0 = 0 := h.exact (fl_zero p)

/-- Rounding keeps numbers at or above `2^(p-1) * 2^e` multiples of `2^e`. -/
theorem mlt_of_ge (h : Nearest p rn) (hp : 0 < p) {x : ℚ} {e : ℤ} (hx : 2 ^ p * 2 ^ e ≤ 2 * |x|) : Mlt e (rn x) := by
  obtain ⟨q, rfl⟩ : ∃ q, p = q + 1 := ⟨p - 1, by omega⟩
  have hu := two_zpow_pos e
  have h1 : Fl (q + 1) ((2 : ℚ) ^ q * 2 ^ e) := fl_of hp ⟨2 ^ q, by push_cast; ring⟩ (by
    rw [abs_of_pos (mul_pos (by positivity) hu)]
    refine mul_le_mul_of_nonneg_right ?_ hu.le
    exact pow_le_pow_right₀ (by norm_num) (by omega))
  have h2 : (2 : ℚ) ^ q * 2 ^ e ≤ |x| := by rw [pow_succ] at hx; linarith
  have h3 := h.ge h1 (mul_pos (by positivity) hu).le h2
  refine (h.fl x).mlt ?_
  rw [pow_succ]
  linarith

theorem split_spec (h : Nearest p rn) {s : Nat} (hs : 1 ≤ s) (hsp : s + 1 ≤ p) {a : ℚ} (ha : Fl p a) (ha0 : a ≠ 0) :
    ∃ e, SplitOf p s e a (splitf rn (2 ^ s + 1) a).1 (splitf rn (2 ^ s + 1) a).2 := by
  have hp : 0 < p := by omega
  obtain ⟨e, he1, he2⟩ := exists_exp p ha0
  have ham := ha.mlt he1
  have hu := two_zpow_pos e
  have hE : (2 : ℚ) ^ (e + s) = 2 ^ s * 2 ^ e := two_zpow_nat e s
  have hE1 : (2 : ℚ) ^ (e + s + 1) = 2 * (2 ^ s * 2 ^ e) := by rw [two_zpow_succ, hE]
  have hS : (2 : ℚ) ≤ 2 ^ s := by
    calc (2 : ℚ) = 2 ^ 1 := by norm_num
      _ ≤ 2 ^ s := pow_le_pow_right₀ (by norm_num) hs
  have hSP : (2 : ℚ) * 2 ^ s ≤ 2 ^ p := by
    calc (2 : ℚ) * 2 ^ s = 2 ^ (s + 1) := by ring
      _ ≤ 2 ^ p := pow_le_pow_right₀ (by norm_num) hsp
  have ha1 := ham.abs_lt he2
  -- first product
  set g := rn ((2 ^ s + 1) * a) with hg
  have hCa : |((2 : ℚ) ^ s + 1) * a| = (2 ^ s + 1) * |a| := by
    rw [abs_mul, abs_of_pos (by positivity)]
  have hSa : 0 ≤ (2 : ℚ) ^ s * |a| := by positivity
  have hsa2 : (2 : ℚ) ^ s * |a| + 2 ^ s * 2 ^ e ≤ 2 ^ s * (2 ^ p * 2 ^ e) := by
    have := mul_le_mul_of_nonneg_left ha1 (by positivity : (0 : ℚ) ≤ 2 ^ s)
    linarith
  have hsa1 : 2 ^ s * (2 ^ p * 2 ^ e) ≤ 2 * (2 ^ s * |a|) := by
    have := mul_le_mul_of_nonneg_left he1 (by positivity : (0 : ℚ) ≤ 2 ^ s)
    linarith
  have herr1 : |(2 ^ s + 1) * a - g| ≤ 2 ^ s * 2 ^ e := by
    have h1 : |((2 : ℚ) ^ s + 1) * a| ≤ 2 ^ p * 2 ^ (e + s + 1) := by
      rw [hCa, hE1]
      have : |a| ≤ 2 ^ s * |a| := le_mul_of_one_le_left (abs_nonneg a) (by linarith)
      linarith [mul_pos (by positivity : (0 : ℚ) < 2 ^ s) hu]
    have := h.err hp h1
    rw [hE1] at this
    linarith
  have hgm : Mlt (e + s) g := h.mlt_of_ge hp (by
    rw [hE, hCa]
    have := abs_nonneg a
    linarith)
  -- difference
  have hga : g - a = 2 ^ s * a - ((2 ^ s + 1) * a - g) := by ring
  have habs : |(2 : ℚ) ^ s * a| = 2 ^ s * |a| := by rw [abs_mul, abs_of_pos (by positivity)]
  set d := rn (g - a) with hd
  have herr2 : 2 * |g - a - d| ≤ 2 ^ s * 2 ^ e := by
    rw [← hE]
    refine h.err hp ?_
    rw [hga, hE]
    have := abs_sub (2 ^ s * a) ((2 ^ s + 1) * a - g)
    rw [habs] at this
    linarith
  have hdm : Mlt (e + s) d := by
    refine h.mlt_of_ge hp ?_
    rw [hE]
    rcases le_or_gt (2 ^ p * 2 ^ e + 2 * 2 ^ e) (2 * |a|) with hbig | hsmall
    · have h1 := abs_sub_abs_le_abs_sub (2 ^ s * a) ((2 ^ s + 1) * a - g)
      rw [← hga, habs] at h1
      have h2 := mul_le_mul_of_nonneg_left hbig (by positivity : (0 : ℚ) ≤ 2 ^ s)
      linarith
    · -- `a` is a power of two, the product is exact
      have hex : g = (2 ^ s + 1) * a := h.exact (fl_pow2 hsp ham he1 hsmall)
      have : g - a = 2 ^ s * a := by rw [hex]; ring
      rw [this, habs]
      linarith
  -- high part
  have hh : g - d = a + (g - a - d) := by ring
  have hhm : Mlt (e + s) (g - d) := hgm.sub hdm
  obtain ⟨r, hr⟩ : ∃ r, p = s + r := ⟨p - s, by omega⟩
  have hpr : (2 : ℚ) ^ p * 2 ^ e = 2 ^ r * 2 ^ (e + s) := by rw [hE, hr, pow_add]; ring
  have hhle : |g - d| ≤ 2 ^ p * 2 ^ e := by
    rw [hpr]
    refine hhm.abs_le ?_
    rw [← hpr, hh, hE]
    have := abs_add_le a (g - a - d)
    linarith [mul_pos (by positivity : (0 : ℚ) < 2 ^ s) hu]
  have hhf : Fl p (g - d) := fl_of hp hhm (by
    rw [hE]
    have : (2 : ℚ) ^ e ≤ 2 ^ s * 2 ^ e := le_mul_of_one_le_left hu.le (by linarith)
    have := mul_le_mul_of_nonneg_left this (by positivity : (0 : ℚ) ≤ 2 ^ p)
    linarith)
  have hl : a - (g - d) = -(g - a - d) := by ring
  have hlm : Mlt e (a - (g - d)) := ham.sub (hhm.mono (by omega))
  have hlle : 2 * |a - (g - d)| ≤ 2 ^ s * 2 ^ e := by rw [hl, abs_neg]; exact herr2
  have hlf : Fl p (a - (g - d)) := fl_of hp hlm (by
    have := mul_le_mul_of_nonneg_right hSP hu.le
    have := abs_nonneg (a - (g - d))
    have := mul_nonneg (by positivity : (0 : ℚ) ≤ 2 ^ s) hu.le
    linarith)
  have e1 : (splitf rn (2 ^ s + 1) a).1 = g - d := by
    unfold splitf
    dsimp only
    rw [← hg, ← hd]
    exact h.exact hhf
  have e2 : (splitf rn (2 ^ s + 1) a).2 = a - (g - d) := by
    unfold splitf
    dsimp only
    rw [← hg, ← hd, h.exact hhf]
    exact h.exact hlf
  rw [e1, e2]
  exact ⟨e, ham, he1, he2, by ring, hhm, hhle, hlm, hlle⟩

/-- The error of a product is representable. -/
theorem prod_err (h : Nearest p rn) (hp : 0 < p) {a b : ℚ} (ha : Fl p a) (hb : Fl p b) : Fl p (a * b - rn (a * b)) := by
  by_cases ha0 : a = 0
  · subst ha0; rw [zero_mul, h.zero, sub_zero]; exact fl_zero p
  by_cases hb0 : b = 0
  · subst hb0; rw [mul_zero, h.zero, sub_zero]; exact fl_zero p
  obtain ⟨e, he1, he2⟩ := exists_exp p ha0
  obtain ⟨f, hf1, hf2⟩ := exists_exp p hb0
  have hm : Mlt (e + f) (a * b) := (ha.mlt he1).mul (hb.mlt hf1)
  refine fl_of hp (hm.sub (h.mlt hp hm)) ?_
  have h1 : |a * b| ≤ 2 ^ p * 2 ^ (e + f + p) := by
    rw [abs_mul, two_zpow_nat, zpow_add₀ (by norm_num)]
    calc |a| * |b| ≤ (2 ^ p * 2 ^ e) * (2 ^ p * 2 ^ f) := mul_le_mul he2.le hf2.le (abs_nonneg _) (by positivity)
      _ = 2 ^ p * (2 ^ p * (2 ^ e * 2 ^ f)) := by ring
  have h2 := h.err hp h1
  rw [two_zpow_nat] at h2
  have := abs_nonneg (a * b - rn (a * b))
  linarith

theorem twoprodFma_exact (h : Nearest p rn) (hp : 0 < p) {a b : ℚ} (ha : Fl p a) (hb : Fl p b) :
    (twoprodFma rn a b).1 = rn (a * b) ∧ (twoprodFma rn a b).1 + (twoprodFma rn a b).2 = a * b := by
  unfold twoprodFma
  dsimp only
  rw [h.exact (h.prod_err hp ha hb)]
  exact ⟨rfl, by ring⟩

theorem twoprod_exact (h : Nearest p rn) {s : Nat} (h1 : p ≤ 2 * s) (h2 : 2 * s ≤ p + 2) (h3 : s + 2 ≤ p) {a b : ℚ} (ha : Fl p a) (hb : Fl p b) :
    (twoprod rn (2 ^ s + 1) a b).1 = rn (a * b) ∧ (twoprod rn (2 ^ s + 1) a b).1 + (twoprod rn (2 ^ s + 1) a b).2 = a * b := by
  have hp : 0 < p := by omega
  refine ⟨rfl, ?_⟩
  have hz : splitf rn (2 ^ s + 1) 0 = (0, 0) := by
    unfold splitf
    simp only [mul_zero, h.zero, sub_self]
  by_cases ha0 : a = 0
  · subst ha0
    unfold twoprod
    rw [hz]
    simp only [zero_mul, h.zero, sub_self, add_zero]
  by_cases hb0 : b = 0
  · subst hb0
    unfold twoprod
    rw [hz]
    simp only [mul_zero, h.zero, sub_self, add_zero]
  obtain ⟨ea, SA⟩ := h.split_spec (s := s) (by omega) (by omega) ha ha0
  obtain ⟨eb, SB⟩ := h.split_spec (s := s) (by omega) (by omega) hb hb0
  unfold twoprod
  generalize splitf rn (2 ^ s + 1) a = ca at SA ⊢
  generalize splitf rn (2 ^ s + 1) b = cb at SB ⊢
  obtain ⟨a1, a2⟩ := ca
  obtain ⟨b1, b2⟩ := cb
  dsimp only at SA SB ⊢
  have perr := h.prod_err hp ha hb
  obtain ⟨q, rfl⟩ : ∃ q, p = q + 1 := ⟨p - 1, by omega⟩
  set E := ea + eb with hEdef
  have hU := two_zpow_pos E
  have hUU : (2 : ℚ) ^ E = 2 ^ ea * 2 ^ eb := by rw [hEdef, zpow_add₀ (by norm_num)]
  set U := (2 : ℚ) ^ E with hUdef
  set P := (2 : ℚ) ^ (q + 1) with hPdef
  set S := (2 : ℚ) ^ s with hSdef
  set Q := (2 : ℚ) ^ q with hQdef
  have hPQ : P = 2 * Q := by rw [hPdef, hQdef, pow_succ]; ring
  have hS4 : (4 : ℚ) ≤ S := by
    calc (4 : ℚ) = 2 ^ 2 := by norm_num
      _ ≤ S := pow_le_pow_right₀ (by norm_num) (by omega)
  have hSQ : 2 * S ≤ Q := by
    calc 2 * S = 2 ^ (s + 1) := by rw [hSdef]; ring
      _ ≤ Q := pow_le_pow_right₀ (by norm_num) (by omega)
  have hPSS : P ≤ S * S := by
    calc P ≤ 2 ^ (2 * s) := pow_le_pow_right₀ (by norm_num) h1
      _ = S * S := by rw [two_mul, pow_add]
  have hSSP : S * S ≤ 4 * P := by
    calc S * S = 2 ^ (2 * s) := by rw [two_mul, pow_add]
      _ ≤ 2 ^ (q + 1 + 2) := pow_le_pow_right₀ (by norm_num) h2
      _ = 4 * P := by rw [hPdef, pow_add]; ring
  have hP0 : 0 < P := by positivity
  have hS0 : 0 < S := by positivity
  -- sizes of the four products
  have bnd : ∀ {x y X Y : ℚ}, |x| ≤ X * 2 ^ ea → |y| ≤ Y * 2 ^ eb → 0 ≤ X → |x * y| ≤ X * Y * U := by
    intro x y X Y hx hy hX
    rw [abs_mul, hUU]
    calc |x| * |y| ≤ (X * 2 ^ ea) * (Y * 2 ^ eb) := mul_le_mul hx hy (abs_nonneg _) (mul_nonneg hX (two_zpow_pos ea).le)
      _ = X * Y * (2 ^ ea * 2 ^ eb) := by ring
  have hA2 : |a2| ≤ S / 2 * 2 ^ ea := by have := SA.hi2; linarith
  have hB2 : |b2| ≤ S / 2 * 2 ^ eb := by have := SB.hi2; linarith
  have n11 : |a1 * b1| ≤ P * P * U := bnd SA.hi1 SB.hi1 hP0.le
  have n21 : |a2 * b1| ≤ S / 2 * P * U := bnd hA2 SB.hi1 (by linarith)
  have n12 : |a1 * b2| ≤ P * (S / 2) * U := bnd SA.hi1 hB2 hP0.le
  have n22 : |a2 * b2| ≤ S / 2 * (S / 2) * U := bnd hA2 hB2 (by linarith)
  have m11 : Mlt (E + s + s) (a1 * b1) := by
    have := SA.mlt1.mul SB.mlt1
    have e : E + s + s = ea + s + (eb + s) := by rw [hEdef]; ring
    rw [e]; exact this
  have m21 : Mlt (E + s) (a2 * b1) := by
    have := SA.mlt2.mul SB.mlt1
    have e : E + s = ea + (eb + s) := by rw [hEdef]; ring
    rw [e]; exact this
  have m12 : Mlt (E + s) (a1 * b2) := by
    have := SA.mlt1.mul SB.mlt2
    have e : E + s = ea + s + eb := by rw [hEdef]; ring
    rw [e]; exact this
  have m22 : Mlt E (a2 * b2) := SA.mlt2.mul SB.mlt2
  have zs : (2 : ℚ) ^ (E + s) = S * U := two_zpow_nat E s
  have zss : (2 : ℚ) ^ (E + s + s) = S * (S * U) := by rw [two_zpow_nat, zs]
  have zq : (2 : ℚ) ^ (E + q) = Q * U := two_zpow_nat E q
  have hPU : 0 ≤ P * U := (mul_pos hP0 hU).le
  have f11 : Fl (q + 1) (a1 * b1) := fl_of hp m11 (by
    rw [zss]
    have := mul_le_mul_of_nonneg_left hPSS hPU
    nlinarith)
  have f21 : Fl (q + 1) (a2 * b1) := fl_of hp m21 (by
    rw [zs]
    have := mul_nonneg hPU hS0.le
    nlinarith)
  have f12 : Fl (q + 1) (a1 * b2) := fl_of hp m12 (by
    rw [zs]
    have := mul_nonneg hPU hS0.le
    nlinarith)
  have n22' : |a2 * b2| ≤ P * U := by
    have := mul_le_mul_of_nonneg_right hSSP hU.le
    linarith
  have f22 : Fl (q + 1) (a2 * b2) := fl_of hp m22 n22'
  -- the product and its error
  have hab : a * b = a1 * b1 + a2 * b1 + a1 * b2 + a2 * b2 := by rw [← SA.sum, ← SB.sum]; ring
  have hm : Mlt E (a * b) := SA.mlt.mul SB.mlt
  have herr : 2 * |a * b - rn (a * b)| ≤ P * U := by
    have h4 : |a * b| ≤ 2 ^ (q + 1) * 2 ^ (E + (q + 1 : ℕ)) := by
      rw [two_zpow_nat]
      have := bnd SA.hi.le SB.hi.le hP0.le
      rw [← hPdef, ← hUdef]
      linarith
    have := h.err hp h4
    rwa [two_zpow_nat] at this
  have hxm : Mlt (E + q) (rn (a * b)) := by
    refine h.mlt_of_ge hp ?_
    rw [zq, abs_mul]
    have ga : Q * 2 ^ ea ≤ |a| := by have := SA.lo; rw [← hPdef, hPQ] at this; linarith
    have gb : Q * 2 ^ eb ≤ |b| := by have := SB.lo; rw [← hPdef, hPQ] at this; linarith
    have : (Q * 2 ^ ea) * (Q * 2 ^ eb) ≤ |a| * |b| := mul_le_mul ga gb (by positivity) (abs_nonneg _)
    rw [← hPdef, hPQ]
    have e : 2 * Q * (Q * U) = 2 * ((Q * 2 ^ ea) * (Q * 2 ^ eb)) := by rw [hUU]; ring
    rw [e]
    linarith
  set x := rn (a * b) with hx
  have t1m : Mlt (E + q) (x - a1 * b1) := hxm.sub (m11.mono (by omega))
  have t1 : Fl (q + 1) (x - a1 * b1) := fl_of hp t1m (by
    rw [zq]
    have e : x - a1 * b1 = a2 * b1 + a1 * b2 + a2 * b2 - (a * b - x) := by rw [hab]; ring
    rw [e]
    have g1 := abs_sub (a2 * b1 + a1 * b2 + a2 * b2) (a * b - x)
    have g2 := abs_add_le (a2 * b1 + a1 * b2) (a2 * b2)
    have g3 := abs_add_le (a2 * b1) (a1 * b2)
    have g4 : P * U * (S + 3 / 2) ≤ P * U * Q := mul_le_mul_of_nonneg_left (by linarith) hPU
    rw [← hPdef]
    linarith)
  have t2m : Mlt (E + s) (x - a1 * b1 - a2 * b1) := (t1m.mono (by omega)).sub m21
  have t2 : Fl (q + 1) (x - a1 * b1 - a2 * b1) := fl_of hp t2m (by
    rw [zs]
    have e : x - a1 * b1 - a2 * b1 = a1 * b2 + a2 * b2 - (a * b - x) := by rw [hab]; ring
    rw [e]
    have g1 := abs_sub (a1 * b2 + a2 * b2) (a * b - x)
    have g2 := abs_add_le (a1 * b2) (a2 * b2)
    have g4 : P * U * (S / 2 + 3 / 2) ≤ P * U * S := mul_le_mul_of_nonneg_left (by linarith) hPU
    rw [← hPdef]
    linarith)
  have t3m : Mlt (E + s) (x - a1 * b1 - a2 * b1 - a1 * b2) := t2m.sub m12
  have t3 : Fl (q + 1) (x - a1 * b1 - a2 * b1 - a1 * b2) := fl_of hp t3m (by
    rw [zs]
    have e : x - a1 * b1 - a2 * b1 - a1 * b2 = a2 * b2 - (a * b - x) := by rw [hab]; ring
    rw [e]
    have g1 := abs_sub (a2 * b2) (a * b - x)
    have g4 : P * U * (3 / 2) ≤ P * U * S := mul_le_mul_of_nonneg_left (by linarith) hPU
    rw [← hPdef]
    linarith)
  have e4 : a2 * b2 - (x - a1 * b1 - a2 * b1 - a1 * b2) = a * b - x := by rw [hab]; ring
  rw [h.exact f11, h.exact f21, h.exact f12, h.exact f22, h.exact t1, h.exact t2, h.exact t3, e4, h.exact perr]
  ring

end Nearest

end Armas
