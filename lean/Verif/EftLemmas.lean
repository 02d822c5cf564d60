import Verif.Eft
import Mathlib.Tactic.Linarith
import Mathlib.Tactic.Positivity
import Mathlib.Tactic.Ring
import Mathlib.Tactic.FieldSimp
import Mathlib.Tactic.NormNum

/-!
# Floating-point numbers with unbounded exponent: lemmas
-/

namespace Armas

/-- Integer multiples of `2^e`. -/
def Mlt (e : ℤ) (x : ℚ) : Prop := ∃ m : ℤ, x = m * 2 ^ e

theorem two_zpow_pos (e : ℤ) : (0 : ℚ) < 2 ^ e := zpow_pos (by norm_num) e

theorem two_zpow_succ (e : ℤ) : (2 : ℚ) ^ (e + 1) = 2 * 2 ^ e := by
  rw [zpow_add_one₀ (by norm_num)]; ring

theorem two_zpow_nat (e : ℤ) (k : Nat) : (2 : ℚ) ^ (e + k) = 2 ^ k * 2 ^ e := by
  rw [zpow_add₀ (by norm_num), zpow_natCast]; ring

namespace Mlt

theorem zero (e : ℤ) : Mlt e 0 := ⟨0, by simp⟩

theorem add {e : ℤ} {x y : ℚ} (hx : Mlt e x) (hy : Mlt e y) : Mlt e (x + y) := by
  obtain ⟨m, rfl⟩ := hx; obtain ⟨n, rfl⟩ := hy
  exact ⟨m + n, by push_cast; ring⟩

theorem neg {e : ℤ} {x : ℚ} (hx : Mlt e x) : Mlt e (-x) := by
  obtain ⟨m, rfl⟩ := hx
  exact ⟨-m, by push_cast; ring⟩

theorem sub {e : ℤ} {x y : ℚ} (hx : Mlt e x) (hy : Mlt e y) : Mlt e (x - y) := by
  rw [sub_eq_add_neg]; exact hx.add hy.neg

theorem mul {e f : ℤ} {x y : ℚ} (hx : Mlt e x) (hy : Mlt f y) : Mlt (e + f) (x * y) := by
  obtain ⟨m, rfl⟩ := hx; obtain ⟨n, rfl⟩ := hy
  exact ⟨m * n, by rw [zpow_add₀ (by norm_num)]; push_cast; ring⟩

theorem mono {e f : ℤ} {x : ℚ} (hx : Mlt e x) (h : f ≤ e) : Mlt f x := by
  obtain ⟨m, rfl⟩ := hx
  obtain ⟨k, rfl⟩ := Int.le.dest h
  refine ⟨m * 2 ^ k, ?_⟩
  rw [two_zpow_nat]; push_cast; ring

end Mlt

theorem Fl.neg {p : Nat} {x : ℚ} (h : Fl p x) : Fl p (-x) := by
  obtain ⟨m, e, hm, rfl⟩ := h
  exact ⟨-m, e, by rwa [abs_neg], by push_cast; ring⟩

theorem fl_neg {p : Nat} {x : ℚ} : Fl p (-x) ↔ Fl p x := ⟨fun h => by have := h.neg; rwa [neg_neg] at this, Fl.neg⟩

theorem Fl.sub_comm {p : Nat} {x y : ℚ} (h : Fl p (x - y)) : Fl p (y - x) := by
  rw [← neg_sub]; exact h.neg

theorem fl_zero (p : Nat) : Fl p 0 := ⟨0, 0, by simp, by simp⟩

/-- Multiples of `2^e` of magnitude at most `2^p * 2^e` are representable. -/
theorem fl_of {p : Nat} (hp : 0 < p) {e : ℤ} {x : ℚ} (hx : Mlt e x) (h : |x| ≤ 2 ^ p * 2 ^ e) : Fl p x := by
  obtain ⟨m, rfl⟩ := hx
  have he := two_zpow_pos e
  rw [abs_mul, abs_of_pos he] at h
  have h1 : (|m| : ℚ) ≤ 2 ^ p := le_of_mul_le_mul_right h he
  have h2 : |m| ≤ 2 ^ p := by exact_mod_cast h1
  rcases lt_or_eq_of_le h2 with h3 | h3
  · exact ⟨m, e, h3, rfl⟩
  · have one : |(1 : ℤ)| < 2 ^ p := by simpa using one_lt_pow₀ (M₀ := ℤ) (by norm_num : (1 : ℤ) < 2) (by omega : p ≠ 0)
    rcases abs_eq (by positivity : (0 : ℤ) ≤ 2 ^ p) |>.mp h3 with rfl | rfl
    · exact ⟨1, e + p, one, by rw [two_zpow_nat]; push_cast; ring⟩
    · exact ⟨-1, e + p, by rwa [abs_neg], by rw [two_zpow_nat]; push_cast; ring⟩

/-- A representable number of magnitude at least `2^(p-1) * 2^e` is a multiple of `2^e`. -/
theorem Fl.mlt {p : Nat} {e : ℤ} {x : ℚ} (h : Fl p x) (hx : 2 ^ p * 2 ^ e ≤ 2 * |x|) : Mlt e x := by
  obtain ⟨m, f, hm, rfl⟩ := h
  by_cases hf : e ≤ f
  · exact Mlt.mono ⟨m, rfl⟩ hf
  · exfalso
    have h1 : f + 1 ≤ e := by omega
    have hfp := two_zpow_pos f
    rw [abs_mul, abs_of_pos hfp] at hx
    have h2 : (|m| : ℚ) < 2 ^ p := by exact_mod_cast hm
    have h3 : (2 : ℚ) ^ (f + 1) ≤ 2 ^ e := zpow_le_zpow_right₀ (by norm_num) h1
    rw [two_zpow_succ] at h3
    have h4 : (0 : ℚ) < 2 ^ p := by positivity
    have h5 : (|m| : ℚ) * 2 ^ f < 2 ^ p * 2 ^ f := mul_lt_mul_of_pos_right h2 hfp
    have h6 : (2 : ℚ) ^ p * (2 * 2 ^ f) ≤ 2 ^ p * 2 ^ e := mul_le_mul_of_nonneg_left h3 h4.le
    linarith

/-- The exponent of the last of `p` places. -/
theorem exists_exp (p : Nat) {x : ℚ} (hx : x ≠ 0) : ∃ e : ℤ, 2 ^ p * 2 ^ e ≤ 2 * |x| ∧ |x| < 2 ^ p * 2 ^ e := by
  have h0 : 0 < |x| := abs_pos.mpr hx
  have h1 := Int.zpow_log_le_self (b := 2) (by norm_num) h0
  have h2 := Int.lt_zpow_succ_log_self (b := 2) (by norm_num) (|x|)
  refine ⟨Int.log 2 |x| + 1 - p, ?_, ?_⟩
  · rw [← two_zpow_nat]
    have : Int.log 2 |x| + 1 - (p : ℤ) + p = Int.log 2 |x| + 1 := by ring
    rw [this, two_zpow_succ]
    push_cast at h1
    linarith
  · rw [← two_zpow_nat]
    have : Int.log 2 |x| + 1 - (p : ℤ) + p = Int.log 2 |x| + 1 := by ring
    rw [this]
    push_cast at h2
    exact h2

namespace Nearest

variable {p : Nat} {rn : ℚ → ℚ}

theorem fl (h : Nearest p rn) (x : ℚ) : Fl p (rn x) := (h x).1

theorem exact (h : Nearest p rn) {x : ℚ} (hx : Fl p x) : rn x = x := by
  have := (h x).2 x hx
  rw [sub_self, abs_zero] at this
  have := abs_eq_zero.mp (le_antisymm this (abs_nonneg _))
  linarith

/-- Rounding does not cross a representable number. -/
theorem ge (h : Nearest p rn) {x y : ℚ} (hy : Fl p y) (h0 : 0 ≤ y) (hx : y ≤ |x|) : y ≤ |rn x| := by
  by_contra hlt
  push Not at hlt
  rcases le_or_gt 0 x with hx0 | hx0
  · rw [abs_of_nonneg hx0] at hx
    have h1 := (h x).2 y hy
    rw [abs_of_nonneg (by linarith : (0 : ℚ) ≤ x - y)] at h1
    have h2 := le_abs_self (rn x)
    have h3 := le_abs_self (x - rn x)
    linarith
  · rw [abs_of_neg hx0] at hx
    have h1 := (h x).2 (-y) hy.neg
    rw [abs_of_nonpos (by linarith : x - -y ≤ 0)] at h1
    have h2 := neg_abs_le (rn x)
    have h3 := neg_abs_le (x - rn x)
    linarith

/-- Error of rounding. -/
theorem err (h : Nearest p rn) (hp : 0 < p) {x : ℚ} {e : ℤ} (hx : |x| ≤ 2 ^ p * 2 ^ e) : 2 * |x - rn x| ≤ 2 ^ e := by
  have he := two_zpow_pos e
  have hr : |x / 2 ^ e - round (x / 2 ^ e)| ≤ 1 / 2 := abs_sub_round _
  have hle : |(round (x / 2 ^ e) : ℤ)| ≤ 2 ^ p := by
    have h1 : |x / 2 ^ e| ≤ 2 ^ p := by
      rw [abs_div, abs_of_pos he, div_le_iff₀ he]; exact hx
    have h2 : (|round (x / 2 ^ e)| : ℤ) < (2 ^ p + 1 : ℤ) := by
      have : ((|round (x / 2 ^ e)| : ℤ) : ℚ) < ((2 ^ p + 1 : ℤ) : ℚ) := by
        push_cast
        have h3 : |(round (x / 2 ^ e) : ℚ)| ≤ |x / 2 ^ e| + |x / 2 ^ e - round (x / 2 ^ e)| := by
          have := abs_sub_abs_le_abs_sub (round (x / 2 ^ e) : ℚ) (x / 2 ^ e)
          rw [abs_sub_comm] at this
          linarith
        linarith
      exact_mod_cast this
    omega
  have hfl : Fl p ((round (x / 2 ^ e) : ℚ) * 2 ^ e) := by
    refine fl_of hp ⟨_, rfl⟩ ?_
    rw [abs_mul, abs_of_pos he]
    exact mul_le_mul_of_nonneg_right (by exact_mod_cast hle) he.le
  have h1 := (h x).2 _ hfl
  have h2 : x - (round (x / 2 ^ e) : ℚ) * 2 ^ e = (x / 2 ^ e - round (x / 2 ^ e)) * 2 ^ e := by
    field_simp
  rw [h2, abs_mul, abs_of_pos he] at h1
  have := mul_le_mul_of_nonneg_right hr he.le
  linarith

/-- The rounded value of a multiple of `2^e` that is not representable is a multiple of `2^(e+1)`. -/
theorem mlt_succ (h : Nearest p rn) (hp : 0 < p) {x : ℚ} {e : ℤ} (hx : Mlt e x) (hn : ¬ Fl p x) : Mlt (e + 1) (rn x) := by
  have h1 : 2 ^ p * 2 ^ e < |x| := by
    by_contra hc
    exact hn (fl_of hp hx (not_lt.mp hc))
  have h2 : Fl p ((2 : ℚ) ^ p * 2 ^ e) := fl_of hp ⟨2 ^ p, by push_cast; ring⟩ (by rw [abs_of_pos (mul_pos (by positivity) (two_zpow_pos e))])
  have h3 := h.ge h2 (mul_pos (by positivity) (two_zpow_pos e)).le h1.le
  refine (h.fl x).mlt ?_
  rw [two_zpow_succ]
  linarith

theorem mlt (h : Nearest p rn) (hp : 0 < p) {x : ℚ} {e : ℤ} (hx : Mlt e x) : Mlt e (rn x) := by
  by_cases hf : Fl p x
  · rwa [h.exact hf]
  · exact (h.mlt_succ hp hx hf).mono (by omega)

/-- The part of a sum that is lost by rounding is representable, and so is the difference of the rounded sum and the larger operand. -/
theorem dekker (h : Nearest p rn) (hp : 0 < p) {a b : ℚ} (ha : Fl p a) (hb : Fl p b) (hab : |b| ≤ |a|) :
    Fl p (rn (a + b) - a) ∧ Fl p (a + b - rn (a + b)) := by
  by_cases hs : Fl p (a + b)
  · rw [h.exact hs]
    exact ⟨by simpa using hb, by simpa using fl_zero p⟩
  by_cases hb0 : b = 0
  · subst hb0
    exact absurd (by simpa using ha) hs
  obtain ⟨e, he1, he2⟩ := exists_exp p hb0
  have hbm : Mlt e b := hb.mlt he1
  have ham : Mlt e a := ha.mlt (by linarith)
  have hxm := h.mlt_succ hp (ham.add hbm) hs
  have hxs : |a + b - rn (a + b)| ≤ |b| := by
    have := (h (a + b)).2 a ha
    simpa using this
  have hep := two_zpow_pos e
  have hP : (0 : ℚ) < 2 ^ p := by positivity
  constructor
  · rcases le_or_gt (2 ^ p * 2 ^ e) (|a|) with hbig | hsmall
    · have ham' : Mlt (e + 1) a := ha.mlt (by rw [two_zpow_succ]; linarith)
      refine fl_of hp (hxm.sub ham') ?_
      rw [two_zpow_succ]
      have : |rn (a + b) - a| ≤ |a + b - rn (a + b)| + |b| := by
        have : rn (a + b) - a = b - (a + b - rn (a + b)) := by ring
        rw [this]
        have := abs_sub b (a + b - rn (a + b))
        linarith
      linarith
    · refine fl_of hp ((hxm.mono (by omega)).sub ham) ?_
      have h1 : |a + b| ≤ 2 ^ p * 2 ^ (e + 1) := by
        rw [two_zpow_succ]
        have := abs_add_le a b
        linarith
      have h2 := h.err hp h1
      rw [two_zpow_succ] at h2
      have h3 : |b| + 2 ^ e ≤ 2 ^ p * 2 ^ e := by
        obtain ⟨m, rfl⟩ := hbm
        rw [abs_mul, abs_of_pos hep] at he2 ⊢
        have h4 : (|m| : ℚ) < 2 ^ p := lt_of_mul_lt_mul_right he2 hep.le
        have h5 : |m| < 2 ^ p := by exact_mod_cast h4
        have h6 : |m| + 1 ≤ 2 ^ p := h5
        have h7 : (|m| : ℚ) + 1 ≤ 2 ^ p := by exact_mod_cast h6
        have := mul_le_mul_of_nonneg_right h7 hep.le
        linarith
      have : |rn (a + b) - a| ≤ |a + b - rn (a + b)| + |b| := by
        have : rn (a + b) - a = b - (a + b - rn (a + b)) := by ring
        rw [this]
        have := abs_sub b (a + b - rn (a + b))
        linarith
      linarith
  · refine fl_of hp ((ham.add hbm).sub (hxm.mono (by omega))) ?_
    linarith

/-- The part of a sum that is lost by rounding is representable. -/
theorem err_fl (h : Nearest p rn) (hp : 0 < p) {a b : ℚ} (ha : Fl p a) (hb : Fl p b) : Fl p (a + b - rn (a + b)) := by
  rcases le_total (|b|) (|a|) with hab | hab
  · exact (h.dekker hp ha hb hab).2
  · rw [add_comm]; exact (h.dekker hp hb ha hab).2

theorem fastsum_exact (h : Nearest p rn) (hp : 0 < p) {a b : ℚ} (ha : Fl p a) (hb : Fl p b) (hab : |b| ≤ |a|) :
    (fastsum rn a b).1 = rn (a + b) ∧ (fastsum rn a b).1 + (fastsum rn a b).2 = a + b := by
  obtain ⟨h1, h2⟩ := h.dekker hp ha hb hab
  unfold fastsum
  dsimp only
  have e1 : rn (a - rn (a + b)) = a - rn (a + b) := h.exact h1.sub_comm
  have e2 : a - rn (a + b) + b = a + b - rn (a + b) := by ring
  rw [e1, e2, h.exact h2]
  exact ⟨rfl, by ring⟩

theorem twosum_exact (h : Nearest p rn) (hp : 0 < p) {a b : ℚ} (ha : Fl p a) (hb : Fl p b) :
    (twosum rn a b).1 = rn (a + b) ∧ (twosum rn a b).1 + (twosum rn a b).2 = a + b := by
  have herr := h.err_fl hp ha hb
  unfold twosum
  dsimp only
  refine ⟨rfl, ?_⟩
  -- it is enough that the two corrections are computed exactly
  have fin : ∀ z : ℚ, rn (rn (a + b) - a) = z → rn (rn (a + b) - z) = rn (a + b) - z → Fl p (a - (rn (a + b) - z)) → Fl p (b - z) →
      rn (a + b) + rn (rn (a - rn (rn (a + b) - rn (rn (a + b) - a))) + rn (b - rn (rn (a + b) - a))) = a + b := by
    intro z e1 e2 f1 f2
    have e3 : a - (rn (a + b) - z) + (b - z) = a + b - rn (a + b) := by ring
    rw [e1, e2, h.exact f1, h.exact f2, e3, h.exact herr]
    ring
  have zero : a - (rn (a + b) - (rn (a + b) - a)) = 0 := by ring
  have ra : rn (a + b) - (rn (a + b) - a) = a := by ring
  have rb : b - (rn (a + b) - a) = a + b - rn (a + b) := by ring
  by_cases hz : Fl p (rn (a + b) - a)
  · refine fin _ (h.exact hz) (by rw [ra]; exact h.exact ha) (by rw [zero]; exact fl_zero p) (by rw [rb]; exact herr)
  have hab : |a| < |b| := by
    by_contra hc
    exact hz (h.dekker hp ha hb (not_lt.mp hc)).1
  have ha0 : a ≠ 0 := by
    rintro rfl
    apply hz
    rw [sub_zero]
    exact h.fl _
  obtain ⟨e, he1, he2⟩ := exists_exp p ha0
  have ham : Mlt e a := ha.mlt he1
  have hbm : Mlt e b := hb.mlt (by linarith)
  have hax : |a| ≤ |rn (a + b)| := by
    by_contra hc
    push Not at hc
    apply hz
    have h1 : |a + b| ≤ |a| := by
      by_contra hc2
      push Not at hc2
      have hA : Fl p (|a|) := by
        rcases abs_choice a with h | h <;> rw [h]
        · exact ha
        · exact ha.neg
      exact absurd (h.ge hA (abs_nonneg a) hc2.le) (not_le.mpr hc)
    have hs : Fl p (a + b) := fl_of hp (ham.add hbm) (by linarith)
    rw [h.exact hs]
    simpa using hb
  have hd := h.dekker hp (h.fl (a + b)) ha.neg (by rwa [abs_neg])
  rw [← sub_eq_add_neg] at hd
  refine fin _ rfl (h.exact hd.1.sub_comm) ?_ ?_
  · have : a - (rn (a + b) - rn (rn (a + b) - a)) = -(rn (a + b) - a - rn (rn (a + b) - a)) := by ring
    rw [this]
    exact hd.2.neg
  · have hxm := h.mlt hp (ham.add hbm)
    have hzm := h.mlt_succ hp (hxm.sub ham) hz
    have hxs : |a + b - rn (a + b)| ≤ |a| := by
      have := (h (a + b)).2 b hb
      simpa using this
    have hzs : |rn (a + b) - a - rn (rn (a + b) - a)| ≤ |a + b - rn (a + b)| := by
      have := (h (rn (a + b) - a)).2 b hb
      have e : rn (a + b) - a - b = -(a + b - rn (a + b)) := by ring
      rwa [e, abs_neg] at this
    have htot : |b - rn (rn (a + b) - a)| ≤ 2 * |a + b - rn (a + b)| := by
      have e : b - rn (rn (a + b) - a) = (a + b - rn (a + b)) + (rn (a + b) - a - rn (rn (a + b) - a)) := by ring
      rw [e]
      have := abs_add_le (a + b - rn (a + b)) (rn (a + b) - a - rn (rn (a + b) - a))
      linarith
    rcases le_or_gt (2 ^ p * 2 ^ e) (|b|) with hbig | hsmall
    · have hbm' : Mlt (e + 1) b := hb.mlt (by rw [two_zpow_succ]; linarith)
      refine fl_of hp (hbm'.sub hzm) ?_
      rw [two_zpow_succ]
      linarith
    · refine fl_of hp (hbm.sub (hzm.mono (by omega))) ?_
      have h1 : |a + b| ≤ 2 ^ p * 2 ^ (e + 1) := by
        rw [two_zpow_succ]
        have := abs_add_le a b
        linarith
      have h2 := h.err hp h1
      rw [two_zpow_succ] at h2
      have h3 : (2 : ℚ) ≤ 2 ^ p := by
        calc (2 : ℚ) = 2 ^ 1 := by norm_num
          _ ≤ 2 ^ p := pow_le_pow_right₀ (by norm_num) hp
      have := mul_le_mul_of_nonneg_right h3 (two_zpow_pos e).le
      linarith

end Nearest

end Armas
