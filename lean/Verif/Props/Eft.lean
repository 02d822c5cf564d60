import Verif.EftProd
import Verif.EftDiv

/-!
# Property C56: the error-free transformations
-/

namespace Armas.Props

open Armas

/-! The hypotheses of the theorems are met by rounding to nearest even for every precision: `rne_nearest` (`Verif/EftDiv.lean`). -/

/-- C56 for `twosum`: the pair is the rounded sum and its exact error, for all operands, in every precision and for every rounding to nearest. -/
theorem C56_twosum {p : Nat} (hp : 0 < p) {rn : ℚ → ℚ} (h : Nearest p rn) {a b : ℚ} (ha : Fl p a) (hb : Fl p b) :
    (twosum rn a b).1 = rn (a + b) ∧ (twosum rn a b).1 + (twosum rn a b).2 = a + b := h.twosum_exact hp ha hb

private theorem fl_int (n : ℤ) (p : Nat) (h : |n| < 2 ^ p) : Fl p n := ⟨n, 0, h, by simp⟩

example := C56_twosum (p := 53) (by norm_num) (rne_nearest (by norm_num)) (fl_int 12345678912345 53 (by norm_num)) (fl_int (-7) 53 (by norm_num))

/-- C56 for `fastsum`, which requires the first operand to be the larger one in magnitude. -/
theorem C56_fastsum {p : Nat} (hp : 0 < p) {rn : ℚ → ℚ} (h : Nearest p rn) {a b : ℚ} (ha : Fl p a) (hb : Fl p b) (hab : |b| ≤ |a|) :
    (fastsum rn a b).1 = rn (a + b) ∧ (fastsum rn a b).1 + (fastsum rn a b).2 = a + b := h.fastsum_exact hp ha hb hab

example := C56_fastsum (p := 24) (by norm_num) (rne_nearest (by norm_num)) (fl_int 16777215 24 (by norm_num)) (fl_int (-7) 24 (by norm_num)) (by norm_num)

/-- `fastsum` with the operands in the other order loses the smaller one: 1 and 2^60 in double precision. -/
theorem C56_fastsum_order_false {rn : ℚ → ℚ} (h : Nearest 53 rn) : fastsum rn 1 (2 ^ 60) = (2 ^ 60, 0) := by
  have r0 : rn (1152921504606846977) = 1152921504606846976 := h.near_eq (by norm_num) (e := 8) ⟨4503599627370496, by norm_num⟩ (by norm_num)
    (by norm_num) (by norm_num)
  have r1 : rn (-1152921504606846975) = -1152921504606846976 := h.near_eq (by norm_num) (e := 7) ⟨-9007199254740992, by norm_num⟩ (by norm_num)
    (by norm_num) (by norm_num)
  norm_num [fastsum, r0, r1, h.zero]

example := C56_fastsum_order_false (rne_nearest (by norm_num))

/-- `split` in double precision: two parts of at most 26 bits with the sum `a`. -/
theorem C56_split_f64 {rn : ℚ → ℚ} (h : Nearest 53 rn) {a : ℚ} (ha : Fl 53 a) :
    (splitf rn fact64 a).1 + (splitf rn fact64 a).2 = a ∧ Fl 26 (splitf rn fact64 a).1 ∧ Fl 26 (splitf rn fact64 a).2 := by
  unfold fact64
  by_cases ha0 : a = 0
  · subst ha0
    unfold splitf
    simp only [mul_zero, h.zero, sub_self, add_zero]
    exact ⟨trivial, fl_zero 26, fl_zero 26⟩
  obtain ⟨e, S⟩ := h.split_spec (s := 27) (by norm_num) (by norm_num) ha ha0
  refine ⟨S.sum, fl_of (by norm_num) S.mlt1 ?_, fl_of (by norm_num) S.mlt2 ?_⟩
  · have := S.hi1
    rw [two_zpow_nat]
    linarith
  · have := S.hi2
    linarith

example := C56_split_f64 (rne_nearest (by norm_num)) (fl_int 12345678912345 53 (by norm_num))

/-- C56 for `twoprod` in double precision (without fused multiply-add). -/
theorem C56_twoprod_f64 {rn : ℚ → ℚ} (h : Nearest 53 rn) {a b : ℚ} (ha : Fl 53 a) (hb : Fl 53 b) :
    (twoprod rn fact64 a b).1 = rn (a * b) ∧ (twoprod rn fact64 a b).1 + (twoprod rn fact64 a b).2 = a * b :=
  h.twoprod_exact (s := 27) (by norm_num) (by norm_num) (by norm_num) ha hb

example := C56_twoprod_f64 (rne_nearest (by norm_num)) (fl_int 12345678912345 53 (by norm_num)) (fl_int 98765432198765 53 (by norm_num))

/-- C56 for `twoprod` with fused multiply-add, in every precision. -/
theorem C56_twoprod_fma {p : Nat} (hp : 0 < p) {rn : ℚ → ℚ} (h : Nearest p rn) {a b : ℚ} (ha : Fl p a) (hb : Fl p b) :
    (twoprodFma rn a b).1 = rn (a * b) ∧ (twoprodFma rn a b).1 + (twoprodFma rn a b).2 = a * b := h.twoprodFma_exact hp ha hb

example := C56_twoprod_fma (p := 24) (by norm_num) (rne_nearest (by norm_num)) (fl_int 16777215 24 (by norm_num)) (fl_int 12345677 24 (by norm_num))

/-- What would make `twoprod` in single precision error free: the factor 2^12 + 1 (or 2^13 + 1) instead of 2^14 + 1. -/
theorem C56_twoprod_f32_partial {rn : ℚ → ℚ} (h : Nearest 24 rn) {s : Nat} (hs : s = 12 ∨ s = 13) {a b : ℚ} (ha : Fl 24 a) (hb : Fl 24 b) :
    (twoprod rn (2 ^ s + 1) a b).1 = rn (a * b) ∧ (twoprod rn (2 ^ s + 1) a b).1 + (twoprod rn (2 ^ s + 1) a b).2 = a * b :=
  h.twoprod_exact (by omega) (by omega) (by omega) ha hb

example := C56_twoprod_f32_partial (rne_nearest (by norm_num)) (.inl rfl) (fl_int 8396801 24 (by norm_num)) (fl_int 8396801 24 (by norm_num))

/-- `twoprod` in single precision (without fused multiply-add) is not error free: the factor 2^14 + 1 leaves low parts of 13 bits, whose product does not
fit.  For a = b = 8396801 the pair is 70506267017216, 16384 but the product is 70506267033601. -/
theorem C56_twoprod_f32_false {rn : ℚ → ℚ} (h : Nearest 24 rn) :
    Fl 24 8396801 ∧ twoprod rn fact32 8396801 8396801 = (70506267017216, 16384) ∧ (70506267017216 : ℚ) + 16384 ≠ 8396801 * 8396801 := by
  have r0 : rn (137581584385) = 137581592576 := h.near_eq (by norm_num)
    (e := 14) ⟨8397314, by norm_num⟩ (by norm_num) (by norm_num) (by norm_num)
  have r1 : rn (137573195775) = 137573187584 := h.near_eq (by norm_num)
    (e := 14) ⟨8396801, by norm_num⟩ (by norm_num) (by norm_num) (by norm_num)
  have r2 : rn (8404992) = 8404992 := h.exact (fl_of (by norm_num)
    (e := 0) ⟨8404992, by norm_num⟩ (by norm_num))
  have r3 : rn (-(8191)) = -(8191) := h.exact (fl_of (by norm_num)
    (e := -11) ⟨-16775168, by norm_num⟩ (by norm_num))
  have r4 : rn (70506267033601) = 70506267017216 := h.near_eq (by norm_num)
    (e := 23) ⟨8405002, by norm_num⟩ (by norm_num) (by norm_num) (by norm_num)
  have r5 : rn (70643890520064) = 70643890520064 := h.exact (fl_of (by norm_num)
    (e := 23) ⟨8421408, by norm_num⟩ (by norm_num))
  have r6 : rn (-(137623502848)) = -(137623502848) := h.exact (fl_of (by norm_num)
    (e := 14) ⟨-8399872, by norm_num⟩ (by norm_num))
  have r7 : rn (-(68845289472)) = -(68845289472) := h.exact (fl_of (by norm_num)
    (e := 13) ⟨-8403966, by norm_num⟩ (by norm_num))
  have r8 : rn (-(68778213376)) = -(68778213376) := h.exact (fl_of (by norm_num)
    (e := 13) ⟨-8395778, by norm_num⟩ (by norm_num))
  have r9 : rn (67076096) = 67076096 := h.exact (fl_of (by norm_num)
    (e := 2) ⟨16769024, by norm_num⟩ (by norm_num))
  have r10 : rn (67092481) = 67092480 := h.near_eq (by norm_num)
    (e := 2) ⟨16773120, by norm_num⟩ (by norm_num) (by norm_num) (by norm_num)
  have r11 : rn (16384) = 16384 := h.exact (fl_of (by norm_num)
    (e := -9) ⟨8388608, by norm_num⟩ (by norm_num))
  refine ⟨⟨8396801, 0, by norm_num, by norm_num⟩, ?_, by norm_num⟩
  norm_num [twoprod, splitf, fact32, r0, r1, r2, r3, r4, r5, r6, r7, r8, r9, r10, r11]

example := C56_twoprod_f32_false (rne_nearest (by norm_num))

/-- The extraction of the high part by the x86_64 macro: the parts have the sum `v` and the high part is at most twice the operand. -/
theorem C56_extract {p : Nat} (hp : 0 < p) {rn : ℚ → ℚ} (h : Nearest p rn) {v r : ℚ} (hv : Fl p v) (hr : Fl p r) (hvr : |v| ≤ |r|) :
    (extractAvx rn v r).1 + (extractAvx rn v r).2 = v ∧ |(extractAvx rn v r).1| ≤ 2 * |v| := by
  obtain ⟨h1, h2⟩ := h.dekker hp hr hv hvr
  unfold extractAvx
  dsimp only
  have e1 : v - (rn (v + r) - r) = r + v - rn (r + v) := by rw [add_comm v r]; ring
  rw [add_comm r v] at h1
  rw [h.exact h1, e1, h.exact h2, add_comm v r]
  refine ⟨by ring, ?_⟩
  have h3 := (h (r + v)).2 r hr
  have h4 : rn (r + v) - r = v - (r + v - rn (r + v)) := by ring
  have h5 := abs_sub v (r + v - rn (r + v))
  rw [h4]
  have h6 : r + v - r = v := by ring
  rw [h6] at h3
  linarith

example := C56_extract (p := 53) (by norm_num) (rne_nearest (by norm_num)) (fl_int 12345678912345 53 (by norm_num)) (fl_int (2 ^ 50) 53 (by norm_num))
  (by norm_num [abs_of_pos])

/-- The generic macro subtracts `r` twice: for 0 the parts are -2r and 2r. -/
theorem C56_extract_base_false {p : Nat} (hp : 0 < p) {rn : ℚ → ℚ} (h : Nearest p rn) : extractBase rn 0 1 = (-2, 2) := by
  have f1 : ∀ k : Nat, Fl p ((2 : ℚ) ^ k) := fun k => fl_of hp (e := k) ⟨1, by simp⟩ (by
    rw [abs_of_pos (by positivity), zpow_natCast]
    exact le_mul_of_one_le_left (by positivity) (one_le_pow₀ (by norm_num)))
  have r1 : rn (-1) = -1 := h.exact (by simpa using (f1 0).neg)
  have r2 : rn (-2) = -2 := h.exact (by simpa using (f1 1).neg)
  have r3 : rn 2 = 2 := h.exact (by simpa using f1 1)
  norm_num [extractBase, r1, r2, r3]

example := C56_extract_base_false (p := 53) (by norm_num) (rne_nearest (by norm_num))

/-- `twodiv` with fused multiply-add: the rounded quotient and its correctly rounded error. -/
theorem C56_twodiv_fma {p : Nat} (hp : 0 < p) {rn : ℚ → ℚ} (h : Nearest p rn) {a b : ℚ} (ha : Fl p a) (hb : Fl p b) (hb0 : b ≠ 0) :
    (twodivFma rn a b).1 = rn (a / b) ∧ (twodivFma rn a b).2 = rn (a / b - rn (a / b)) := h.twodivFma_spec hp ha hb hb0

example := C56_twodiv_fma (p := 24) (by norm_num) (rne_nearest (by norm_num)) (fl_int 1 24 (by norm_num)) (fl_int 3 24 (by norm_num)) (by norm_num)

/-- `twodiv` of the generic header in double precision. -/
theorem C56_twodiv_f64 {rn : ℚ → ℚ} (h : Nearest 53 rn) {a b : ℚ} (ha : Fl 53 a) (hb : Fl 53 b) (hb0 : b ≠ 0) :
    (twodivBase rn fact64 a b).1 = rn (a / b) ∧ (twodivBase rn fact64 a b).2 = rn (a / b - rn (a / b)) :=
  h.twodivBase_spec (s := 27) (by norm_num) (by norm_num) (by norm_num) ha hb hb0

example := C56_twodiv_f64 (rne_nearest (by norm_num)) (fl_int 1 53 (by norm_num)) (fl_int 3 53 (by norm_num)) (by norm_num)

/-- The x86_64 macro without fused multiply-add multiplies the wrong operands: for 1/3 in double precision the correction is 0, although the
quotient has an error. -/
theorem C56_twodiv_avx_false {rn : ℚ → ℚ} (h : Nearest 53 rn) :
    twodivAvx rn fact64 1 3 = (6004799503160661 / 18014398509481984, 0) ∧ rn (1 / 3 - rn (1 / 3)) ≠ 0 := by
  have r0 : rn (1 / 3) = 6004799503160661 / 18014398509481984 := h.near_eq (by norm_num)
    (e := -54) ⟨6004799503160661, by norm_num⟩ (by norm_num) (by norm_num) (by norm_num)
  have r1 : rn (805950552414552241558869 / 18014398509481984) = 44739243 := h.near_eq (by norm_num)
    (e := -27) ⟨6004799547899904, by norm_num⟩ (by norm_num) (by norm_num) (by norm_num)
  have r2 : rn (805950546409752783137451 / 18014398509481984) = 6004799503160661 / 134217728 := h.near_eq (by norm_num)
    (e := -27) ⟨6004799503160661, by norm_num⟩ (by norm_num) (by norm_num) (by norm_num)
  have r3 : rn (44739243 / 134217728) = 44739243 / 134217728 := h.exact (fl_of (by norm_num)
    (e := -54) ⟨6004799547899904, by norm_num⟩ (by norm_num))
  have r4 : rn (-(44739243 / 18014398509481984)) = -(44739243 / 18014398509481984) := h.exact (fl_of (by norm_num)
    (e := -81) ⟨-6004799547899904, by norm_num⟩ (by norm_num))
  have r5 : rn (402653187) = 402653187 := h.exact (fl_of (by norm_num)
    (e := -24) ⟨6755399491387392, by norm_num⟩ (by norm_num))
  have r6 : rn (402653184) = 402653184 := h.exact (fl_of (by norm_num)
    (e := -24) ⟨6755399441055744, by norm_num⟩ (by norm_num))
  have r7 : rn (3) = 3 := h.exact (fl_of (by norm_num)
    (e := -51) ⟨6755399441055744, by norm_num⟩ (by norm_num))
  have r8 : rn (134217729 / 134217728) = 134217729 / 134217728 := h.exact (fl_of (by norm_num)
    (e := -52) ⟨4503599660924928, by norm_num⟩ (by norm_num))
  have r9 : rn (268435455 / 134217728) = 268435455 / 134217728 := h.exact (fl_of (by norm_num)
    (e := -52) ⟨9007199221186560, by norm_num⟩ (by norm_num))
  have r10 : rn (-(134217729 / 18014398509481984)) = -(134217729 / 18014398509481984) := h.exact (fl_of (by norm_num)
    (e := -79) ⟨-4503599660924928, by norm_num⟩ (by norm_num))
  have r11 : rn (36028797018963969 / 18014398509481984) = 2 := h.near_eq (by norm_num)
    (e := -51) ⟨4503599627370496, by norm_num⟩ (by norm_num) (by norm_num) (by norm_num)
  have r12 : rn (2) = 2 := h.exact (fl_of (by norm_num)
    (e := -51) ⟨4503599627370496, by norm_num⟩ (by norm_num))
  have r13 : rn (-(2)) = -(2) := h.exact (fl_of (by norm_num)
    (e := -51) ⟨-4503599627370496, by norm_num⟩ (by norm_num))
  have z := h.zero
  constructor
  · norm_num [twodivAvx, splitf, fact64, r0, r1, r2, r3, r4, r5, r6, r7, r8, r9, r10, r11, r12, r13, z]
  · intro hz
    have := h.mlt_of_ge (p := 53) (by norm_num) (x := 1 / 3 - rn (1 / 3)) (e := 0)
    have f : Fl 53 ((1 : ℚ) / 2 ^ 60) := ⟨1, -60, by norm_num, by norm_num⟩
    have h1 := h.ge f (by norm_num) (x := 1 / 3 - rn (1 / 3)) (by rw [r0]; norm_num)
    rw [hz] at h1
    norm_num at h1

example := C56_twodiv_avx_false (rne_nearest (by norm_num))

end Armas.Props
