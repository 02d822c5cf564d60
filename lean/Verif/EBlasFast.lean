import Verif.EBlasLemmas

/-! # `fastsum` with operands in any order, scaled inner products -/

namespace Armas

/-- Bound of what `fastsum` loses when its second operand is the larger one. -/
def kap (u : ℚ) : ℚ := u + 5 * u ^ 2 + 2 * u ^ 3

theorem uround_le {p : Nat} (hp : 0 < p) : uround p ≤ 1 / 2 := by
  unfold uround
  have : (2 : ℚ) ^ 1 ≤ 2 ^ p := pow_le_pow_right₀ (by norm_num) hp
  rw [pow_one] at this
  exact one_div_le_one_div_of_le (by norm_num) this

theorem kap_nonneg {u : ℚ} (hu : 0 ≤ u) : 0 ≤ kap u := by unfold kap; positivity

theorem kap_le {u : ℚ} (hu : 0 ≤ u) (h : u ≤ 1 / 2) : kap u ≤ gr u 3 := by
  unfold kap gr
  nlinarith [mul_nonneg hu hu, mul_nonneg hu (sub_nonneg.2 h), mul_nonneg (mul_nonneg hu hu) hu,
    mul_nonneg (mul_nonneg hu hu) (sub_nonneg.2 h)]

theorem fl_sterbenz {p : Nat} (hp : 0 < p) {a b : ℚ} (ha : Fl p a) (hb : Fl p b)
    (hab : |a| ≤ |b|) (hs : |a + b| ≤ |a|) : Fl p (a + b) := by
  by_cases h0 : a = 0
  · subst h0; rwa [zero_add]
  obtain ⟨e, h1, h2⟩ := exists_exp p h0
  exact fl_of hp ((ha.mlt h1).add (hb.mlt (by linarith))) (by linarith)

section
variable {p : Nat} {rn : ℚ → ℚ} (hp : 0 < p) (R : Nearest p rn)
include hp R

theorem fastsum_zero {b : ℚ} (hb : Fl p b) : fastsum rn 0 b = (b, 0) := by
  simp only [fastsum, zero_add, zero_sub, R.exact hb, R.exact hb.neg, neg_add_cancel,
    R.exact (fl_zero p)]

theorem fastsum_defect {a b : ℚ} (ha : Fl p a) (hb : Fl p b) :
    |(fastsum rn a b).1 + (fastsum rn a b).2 - (a + b)| ≤ kap (uround p) * |b| ∧
    |(fastsum rn a b).1 + (fastsum rn a b).2 - (a + b)| ≤ 2 * kap (uround p) * |a + b| := by
  have hu := (uround_pos p).le
  have hk := kap_nonneg hu
  have triv : ∀ z : ℚ, z = a + b → |z - (a + b)| ≤ kap (uround p) * |b| ∧
      |z - (a + b)| ≤ 2 * kap (uround p) * |a + b| := by
    rintro z rfl
    rw [sub_self, abs_zero]
    constructor <;> positivity
  rcases le_or_gt |b| |a| with h | h
  · exact triv _ (R.fastsum_exact hp ha hb h).2
  have c1 : |(fastsum rn a b).1 + (fastsum rn a b).2 - (a + b)| ≤ kap (uround p) * |b| := by
    simp only [fastsum]
    have e1 := R.rel hp (a + b)
    have e2 := R.rel hp (a - rn (a + b))
    set x := rn (a + b)
    set d := rn (a - x)
    have e3 := R.rel hp (d + b)
    set y := rn (d + b)
    set u := uround p
    have s1 : |a + b| ≤ 2 * |b| := le_trans (abs_add_le _ _) (by linarith)
    have e1' : |x - (a + b)| ≤ u * (2 * |b|) := le_trans e1 (mul_le_mul_of_nonneg_left s1 hu)
    have s2 : |a - x| ≤ |b| + u * (2 * |b|) := by
      calc |a - x| = |b + (x - (a + b))| := by rw [← abs_neg]; ring_nf
        _ ≤ |b| + |x - (a + b)| := abs_add_le _ _
        _ ≤ _ := by linarith
    have e2' : |d - (a - x)| ≤ u * (|b| + u * (2 * |b|)) :=
      le_trans e2 (mul_le_mul_of_nonneg_left s2 hu)
    have s3 : |d + b| ≤ u * (|b| + u * (2 * |b|)) + u * (2 * |b|) := by
      calc |d + b| = |(d - (a - x)) - (x - (a + b))| := by ring_nf
        _ ≤ |d - (a - x)| + |x - (a + b)| := abs_sub _ _
        _ ≤ _ := by linarith
    have e3' := le_trans e3 (mul_le_mul_of_nonneg_left s3 hu)
    calc |x + y - (a + b)| = |(y - (d + b)) + (d - (a - x))| := by ring_nf
      _ ≤ |y - (d + b)| + |d - (a - x)| := abs_add_le _ _
      _ ≤ u * (u * (|b| + u * (2 * |b|)) + u * (2 * |b|)) + u * (|b| + u * (2 * |b|)) := by linarith
      _ = kap u * |b| := by unfold kap; ring
  refine ⟨c1, ?_⟩
  rcases le_or_gt |a + b| |a| with hs | hs
  · have hf := fl_sterbenz hp ha hb h.le hs
    refine (triv _ ?_).2
    simp only [fastsum, R.exact hf]
    rw [show a - (a + b) = -b by ring, R.exact hb.neg, neg_add_cancel, R.exact (fl_zero p), add_zero]
  · refine le_trans c1 ?_
    have : |b| ≤ 2 * |a + b| := by
      have : |b| ≤ |a + b| + |a| := by
        calc |b| = |(a + b) - a| := by ring_nf
          _ ≤ _ := abs_sub _ _
      linarith
    nlinarith

/-- Rounding of the pair `fastsum s c`, when `s + E` is the wanted value up to `z`. -/
theorem fast_final {k : Nat} {s c E A V z : ℚ} (hs : Fl p s) (hcf : Fl p c)
    (hc : Cr (uround p) k c E A) (hV : |s + E - V| ≤ z) :
    |rn ((fastsum rn s c).1 + (fastsum rn s c).2) - V| ≤
      uround p * |V| + (1 + uround p) * (z + gr (uround p) (k + 3) * A) := by
  have hu := (uround_pos p).le
  have hk := kap_nonneg hu
  have hA : 0 ≤ A := le_trans (abs_nonneg _) hc.le
  have d1 := (fastsum_defect hp R hs hcf).1
  have hsz := hc.size hu
  have d2 : |(fastsum rn s c).1 + (fastsum rn s c).2 - V| ≤ z + gr (uround p) (k + 3) * A := by
    have t1 : kap (uround p) * |c| ≤ gr (uround p) 3 * ((1 + gr (uround p) k) * A) :=
      mul_le_mul (kap_le hu (uround_le hp)) hsz (abs_nonneg _) (gr_nonneg hu 3)
    have t2 : gr (uround p) (k + 3) * A
        = gr (uround p) 3 * ((1 + gr (uround p) k) * A) + gr (uround p) k * A := by
      unfold gr; rw [pow_add]; ring
    have t3 := hc.err
    calc |(fastsum rn s c).1 + (fastsum rn s c).2 - V|
        = |((fastsum rn s c).1 + (fastsum rn s c).2 - (s + c)) + (c - E) + (s + E - V)| := by ring_nf
      _ ≤ |((fastsum rn s c).1 + (fastsum rn s c).2 - (s + c)) + (c - E)| + |s + E - V| :=
        abs_add_le _ _
      _ ≤ |(fastsum rn s c).1 + (fastsum rn s c).2 - (s + c)| + |c - E| + |s + E - V| :=
        add_le_add (abs_add_le _ _) le_rfl
      _ ≤ _ := by linarith
  have := round_err hu (R.rel hp _) d2
  linarith

end

open Finset

section
variable {p : Nat} {rn : ℚ → ℚ} {tp : ℚ → ℚ → ℚ × ℚ} (hp : 0 < p) (R : Nearest p rn)
  (P : ProdOk p rn tp)
include hp R P

/-- `armas_ext_adot`: the error of the scaled inner product. -/
theorem adot_final {k : Nat} {T S alpha : ℚ} {sc : ℚ × ℚ} (h : Acc p k T S sc) (ha : Fl p alpha) :
    let hp0 := tp sc.1 alpha
    let sz := fastsum rn 0 hp0.1
    let c0 := rn (rn (rn (0 + hp0.2) + rn (alpha * sc.2)) + sz.2)
    |rn ((fastsum rn sz.1 c0).1 + (fastsum rn sz.1 c0).2) - alpha * T| ≤
      uround p * |alpha * T| + gr (uround p) (k + 7) * gr (uround p) (k + 1) * (|alpha| * S) := by
  have hu := (uround_pos p).le
  obtain ⟨f, E, A, h1, h2⟩ := h
  obtain ⟨fh, e1, e2⟩ := prod_err hp R P f ha
  dsimp only
  rw [fastsum_zero hp R fh]
  dsimp only
  have c1 := ((Cr.zero (u := uround p) hu 0).add hp R (Cr.exact (tp sc.1 alpha).2)).mono hu
    (show 0 + 1 ≤ k + 1 by omega)
  have c2 := (c1.add hp R (h2.scale hp R alpha)).add hp R (Cr.zero hu (k + 1 + 1))
  have hS : 0 ≤ S := le_trans (abs_nonneg _) h1.tot
  have := fast_final hp R fh (R.fl _) c2 (V := alpha * T) (z := 0) (by
    rw [h1.eq]
    rw [show (tp sc.1 alpha).1 + (0 + (tp sc.1 alpha).2 + alpha * E + 0) - alpha * (sc.1 + E)
      = (tp sc.1 alpha).1 + (tp sc.1 alpha).2 - sc.1 * alpha by ring, e1, sub_self, abs_zero])
  refine le_trans this (add_le_add le_rfl ?_)
  have hs : |sc.1| ≤ S + A := by
    calc |sc.1| = |T - E| := by rw [h1.eq]; ring_nf
      _ ≤ |T| + |E| := abs_sub _ _
      _ ≤ _ := add_le_add h1.tot h1.le
  have hA : 0 + |(tp sc.1 alpha).2| + |alpha| * A + 0 ≤ gr (uround p) (k + 1) * (|alpha| * S) := by
    have t1 : |(tp sc.1 alpha).2| ≤ uround p * (|alpha| * (S + A)) := by
      refine le_trans e2 (mul_le_mul_of_nonneg_left ?_ hu)
      rw [abs_mul, mul_comm]
      exact mul_le_mul_of_nonneg_left hs (abs_nonneg _)
    have t2 := mul_le_mul_of_nonneg_left h1.small (abs_nonneg alpha)
    have t3 := mul_le_mul_of_nonneg_left t2 (show 0 ≤ 1 + uround p by linarith)
    rw [gr_succ]
    linarith
  have g0 := gr_nonneg hu (k + 1 + 1 + 1 + 3)
  have t4 := mul_le_mul_of_nonneg_left hA g0
  have t5 := mul_le_mul_of_nonneg_left t4 (show 0 ≤ 1 + uround p by linarith)
  have g1 : (1 + uround p) * gr (uround p) (k + 1 + 1 + 1 + 3) ≤ gr (uround p) (k + 7) := by
    have := gr_succ (u := uround p) (k + 1 + 1 + 1 + 3)
    rw [show k + 7 = (k + 1 + 1 + 1 + 3) + 1 by omega, this]; linarith
  have g2 : 0 ≤ gr (uround p) (k + 1) * (|alpha| * S) :=
    mul_nonneg (gr_nonneg hu _) (mul_nonneg (abs_nonneg _) hS)
  have t6 := mul_le_mul_of_nonneg_right g1 g2
  linarith

theorem extAdot_spec {m : Mem ℚ} {X Y : View} {x y : Nat → ℚ} {result alpha : ℚ}
    (hX : HoldsV m X x) (hY : HoldsV m Y y) (vX : X.isVec) (vY : Y.isVec) (hXY : X.size = Y.size)
    (fx : ∀ i, i < X.size → Fl p (x i)) (fy : ∀ i, i < X.size → Fl p (y i)) (fa : Fl p alpha) :
    Runs (extAdot rn tp m result alpha X Y) (fun r => r.1 = 0 ∧
      |r.2 - alpha * ∑ i ∈ range X.size, x i * y i| ≤
        uround p * |alpha * ∑ i ∈ range X.size, x i * y i| +
        gr (uround p) (X.size + 8) * gr (uround p) (X.size + 2) *
          (|alpha| * ∑ i ∈ range X.size, |x i * y i|)) := by
  unfold extAdot extAdotUnsafe
  rw [if_neg (by simp [vX, vY]), if_neg (by simp [hXY])]
  by_cases h0 : alpha = 0
  · rw [if_pos h0]
    refine Runs.bind (Runs.pure (Q := fun q => q = (0, 0)) rfl) ?_
    rintro q rfl
    refine Runs.pure ⟨rfl, ?_⟩
    simp [h0, R.exact (fl_zero p)]
  · rw [if_neg h0]
    refine Runs.bind (P := fun q => |rn (q.1 + q.2) - alpha * ∑ i ∈ range X.size, x i * y i| ≤
        uround p * |alpha * ∑ i ∈ range X.size, x i * y i| +
        gr (uround p) (X.size + 8) * gr (uround p) (X.size + 2) *
          (|alpha| * ∑ i ∈ range X.size, |x i * y i|)) ?_ ?_
    · refine Runs.bind (adotLoop_spec hp R P hX hY hXY.le fx fy) ?_
      rintro ⟨i, sc⟩ hA
      exact Runs.pure (adot_final hp R P hA fa)
    · rintro q hq
      exact Runs.pure ⟨rfl, hq⟩

end
end Armas
