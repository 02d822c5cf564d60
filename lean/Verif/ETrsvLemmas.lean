import Verif.ETrsv
import Verif.EBlasFast
import Verif.TrsvLemmas

/-! # Error analysis of the extended-precision triangular solve -/

namespace Armas
open Finset

/-- `td` is a quotient with its rounded correction: what C56 proves of two variants of `approx_twodiv`. -/
def DivOk (p : Nat) (rn : ℚ → ℚ) (td : ℚ → ℚ → ℚ × ℚ) : Prop :=
  ∀ a b, Fl p a → Fl p b → b ≠ 0 → td a b = (rn (a / b), rn (a / b - rn (a / b)))

theorem gr_add_le {u : ℚ} (hu : 0 ≤ u) (a b : Nat) : gr u a + gr u b ≤ gr u (a + b) := by
  have h1 := gr_nonneg hu a
  have h2 := gr_nonneg hu b
  have : gr u (a + b) = gr u a + gr u b + gr u a * gr u b := by unfold gr; rw [pow_add]; ring
  nlinarith [mul_nonneg h1 h2]

theorem gr_lin {u : ℚ} (hu : 0 ≤ u) (a : Nat) : a * u ≤ gr u a := by
  induction a with
  | zero => simp [gr_zero]
  | succ a ih =>
    have := gr_add_le hu a 1
    rw [gr_one] at this
    push_cast
    linarith

theorem kap4 {u : ℚ} (hu : 0 ≤ u) (h : u ≤ 1 / 64) : u + 2 * kap u ≤ 7 / 2 * u * (1 - u) := by
  unfold kap
  nlinarith [mul_nonneg hu hu, mul_nonneg hu (sub_nonneg.2 h), mul_nonneg (mul_nonneg hu hu) (sub_nonneg.2 h)]

theorem uround_64 {p : Nat} (hp : 6 ≤ p) : uround p ≤ 1 / 64 := by
  unfold uround
  have : (2 : ℚ) ^ 6 ≤ 2 ^ p := pow_le_pow_right₀ (by norm_num) hp
  exact one_div_le_one_div_of_le (by norm_num) (by linarith)

section
variable {p : Nat} {rn : ℚ → ℚ} {tp td : ℚ → ℚ → ℚ × ℚ} (hp : 6 ≤ p) (R : Nearest p rn)
include hp R

theorem near_ge {x : ℚ} : (1 - uround p) * |x| ≤ |rn x| := by
  have h := R.rel (by omega) x
  have : |x| ≤ |rn x - x| + |rn x| := by
    calc |x| = |-(rn x - x) + rn x| := by ring_nf
      _ ≤ |-(rn x - x)| + |rn x| := abs_add_le _ _
      _ = _ := by rw [abs_neg]
  linarith

/-- The second part of `fastsum` is small. -/
theorem fastsum_small' {a b : ℚ} (ha : Fl p a) (hb : Fl p b) :
    Fl p (fastsum rn a b).1 ∧ Fl p (fastsum rn a b).2 ∧
      |(fastsum rn a b).2| ≤ 7 / 2 * uround p * |(fastsum rn a b).1| := by
  have hu := (uround_pos p).le
  have h64 := uround_64 hp
  refine ⟨R.fl _, R.fl _, ?_⟩
  have d := (fastsum_defect (by omega) R ha hb).2
  have e : |rn (a + b) - (a + b)| ≤ uround p * |a + b| := R.rel (by omega) _
  have g : (1 - uround p) * |a + b| ≤ |rn (a + b)| := near_ge hp R
  change |_ + (fastsum rn a b).2 - _| ≤ _ at d
  have h1 : (fastsum rn a b).1 = rn (a + b) := rfl
  rw [h1] at d ⊢
  have : |(fastsum rn a b).2| ≤ (uround p + 2 * kap (uround p)) * |a + b| := by
    calc |(fastsum rn a b).2|
        = |(rn (a + b) + (fastsum rn a b).2 - (a + b)) - (rn (a + b) - (a + b))| := by ring_nf
      _ ≤ _ + _ := abs_sub _ _
      _ ≤ _ := by linarith
  have k4 := mul_le_mul_of_nonneg_right (kap4 hu h64) (abs_nonneg (a + b))
  have g4 := mul_le_mul_of_nonneg_left g (show 0 ≤ 7 / 2 * uround p by linarith)
  linarith

theorem fastsum_small {a b : ℚ} (ha : Fl p a) (hb : Fl p b) :
    Fl p (fastsum rn a b).1 ∧ Fl p (fastsum rn a b).2 ∧
      |(fastsum rn a b).2| ≤ 4 * uround p * |(fastsum rn a b).1| := by
  obtain ⟨h1, h2, h3⟩ := fastsum_small' hp R ha hb
  refine ⟨h1, h2, le_trans h3 (mul_le_mul_of_nonneg_right ?_ (abs_nonneg _))⟩
  have := (uround_pos p).le
  linarith

/-- Normalising the result of `fastsum` once more changes it only if the second operand was the larger one. -/
theorem fastsum_again {a b : ℚ} (ha : Fl p a) (hb : Fl p b) :
    |rn ((fastsum rn a b).1 + (fastsum rn a b).2) - (fastsum rn a b).1| ≤ 13 * uround p * |b| ∧
    |(fastsum rn a b).2| ≤
      4 * uround p * |rn ((fastsum rn a b).1 + (fastsum rn a b).2)| := by
  have hu := (uround_pos p).le
  have h64 := uround_64 hp
  obtain ⟨f1, f2, f3⟩ := fastsum_small' hp R ha hb
  have hp0 : 0 < p := by omega
  have e0 : (fastsum rn a b).1 = rn (a + b) := rfl
  have r1 := R.rel hp0 (a + b)
  have hex := fun h => (R.fastsum_exact hp0 ha hb h).2
  rw [e0] at f3 hex ⊢
  set s := rn (a + b)
  set c := (fastsum rn a b).2
  have r2 := R.rel hp0 (s + c)
  have g2 : (1 - uround p) * |s + c| ≤ |rn (s + c)| := near_ge hp R
  have t1 : |s| ≤ |s + c| + |c| := by
    calc |s| = |(s + c) - c| := by ring_nf
      _ ≤ _ := abs_sub _ _
  have t2 : |s + c| ≤ |s| + |c| := abs_add_le _ _
  have n1 := abs_nonneg s
  have n2 := abs_nonneg (s + c)
  have us : uround p * |s| ≤ 1 / 64 * |s| := mul_le_mul_of_nonneg_right h64 n1
  constructor
  · rcases le_or_gt |b| |a| with h | h
    · rw [hex h]
      change |s - s| ≤ _
      rw [sub_self, abs_zero]; positivity
    · have s1 : |a + b| ≤ 2 * |b| := le_trans (abs_add_le _ _) (by linarith)
      have s2 : |s| ≤ |a + b| + |s - (a + b)| := by
        calc |s| = |(a + b) + (s - (a + b))| := by ring_nf
          _ ≤ _ := abs_add_le _ _
      have s3 : |s| ≤ 65 / 32 * |b| := by
        have : uround p * |a + b| ≤ 1 / 64 * |a + b| := mul_le_mul_of_nonneg_right h64 (abs_nonneg _)
        linarith
      have s4 : |rn (s + c) - s| ≤ |rn (s + c) - (s + c)| + |c| := by
        calc |rn (s + c) - s| = |(rn (s + c) - (s + c)) + c| := by ring_nf
          _ ≤ _ := abs_add_le _ _
      have s5 : uround p * |s + c| ≤ uround p * (65 / 32 * |s|) :=
        mul_le_mul_of_nonneg_left (by linarith) hu
      have s6 := mul_le_mul_of_nonneg_left s3 hu
      have := mul_nonneg hu (abs_nonneg b)
      linarith
  · have q1 : 121 / 128 * |s| ≤ |s + c| := by linarith
    have q2 : (63 / 64 : ℚ) * |s + c| ≤ (1 - uround p) * |s + c| :=
      mul_le_mul_of_nonneg_right (by linarith) n2
    have q3 : 7 / 8 * |s| ≤ |rn (s + c)| := by linarith
    have q4 := mul_le_mul_of_nonneg_left q3 hu
    linarith

/-- The division: the pair is the quotient of the sums up to second order. -/
theorem etrsvDiv_err (D : DivOk p rn td) {s c ak : ℚ} (hs : Fl p s) (hak : Fl p ak)
    (h0 : ak ≠ 0) (hc : |c| ≤ 4 * uround p * |s|) :
    Fl p (etrsvDiv rn td s c ak).1 ∧ Fl p (etrsvDiv rn td s c ak).2 ∧
    |(etrsvDiv rn td s c ak).2| ≤ 4 * uround p * |(etrsvDiv rn td s c ak).1| ∧
    |ak * ((etrsvDiv rn td s c ak).1 + (etrsvDiv rn td s c ak).2) - (s + c)| ≤
      gr (uround p) 5 * gr (uround p) 10 * (|ak| * |(etrsvDiv rn td s c ak).1|) := by
  have hu := (uround_pos p).le
  have h64 := uround_64 hp
  unfold etrsvDiv
  rw [D s ak hs hak h0]
  dsimp only
  set q := s / ak with hq
  set t := rn (rn (c / ak) + rn (q - rn q)) with ht
  obtain ⟨f1, f2, f3⟩ := fastsum_small hp R (R.fl q) (R.fl (rn (c / ak) + rn (q - rn q)))
  rw [← ht] at f1 f2 f3
  refine ⟨f1, f2, f3, ?_⟩
  have c1 : Cr (uround p) 1 (rn (c / ak)) (c / ak) |c / ak| :=
    ⟨le_rfl, by rw [gr_one]; exact R.rel (by omega) _⟩
  have c2 : Cr (uround p) 1 (rn (q - rn q)) (q - rn q) |q - rn q| :=
    ⟨le_rfl, by rw [gr_one]; exact R.rel (by omega) _⟩
  have c3 := c1.add (by omega) R c2
  rw [← ht] at c3
  have hcq : |c / ak| ≤ 4 * uround p * |q| := by
    rw [hq, abs_div, abs_div, ← mul_div_assoc]
    exact div_le_div_of_nonneg_right hc (abs_nonneg _)
  have hqq : |q - rn q| ≤ uround p * |q| := by rw [abs_sub_comm]; exact R.rel (by omega) _
  have hA : |c / ak| + |q - rn q| ≤ 5 * uround p * |q| := by linarith
  have hts := c3.size hu
  have d1 := (fastsum_defect (by omega) R (R.fl q) (R.fl (rn (c / ak) + rn (q - rn q)))).1
  rw [← ht] at d1
  have k3 := kap_le hu (by linarith : uround p ≤ 1 / 2)
  set z := fastsum rn (rn q) t with hz
  have g2 := gr_nonneg hu 2
  have g3 := gr_nonneg hu 3
  -- total error
  have tot : |z.1 + z.2 - (q + c / ak)| ≤ gr (uround p) 5 * (5 * uround p * |q|) := by
    have e1 : kap (uround p) * |t| ≤ gr (uround p) 3 * ((1 + gr (uround p) 2) * (5 * uround p * |q|)) := by
      refine mul_le_mul k3 (le_trans hts ?_) (abs_nonneg _) g3
      exact mul_le_mul_of_nonneg_left hA (by linarith)
    have e2 := le_trans c3.err (mul_le_mul_of_nonneg_left hA g2)
    have e3 : gr (uround p) 5 = gr (uround p) 3 * (1 + gr (uround p) 2) + gr (uround p) 2 := by
      unfold gr; ring
    calc |z.1 + z.2 - (q + c / ak)|
        = |(z.1 + z.2 - (rn q + t)) + (t - (c / ak + (q - rn q)))| := by ring_nf
      _ ≤ _ + _ := abs_add_le _ _
      _ ≤ _ := by rw [e3]; linarith
  -- size of q by z.1
  have hq2 : |q| ≤ 2 * |z.1| := by
    have hz1 : z.1 = rn (rn q + t) := rfl
    have a1 : (1 - uround p) * |rn q + t| ≤ |z.1| := by rw [hz1]; exact near_ge hp R
    have a2 : (1 - uround p) * |q| ≤ |rn q| := near_ge hp R
    have a3 : |rn q| ≤ |rn q + t| + |t| := by
      calc |rn q| = |(rn q + t) - t| := by ring_nf
        _ ≤ _ := abs_sub _ _
    have a4 : |t| ≤ (1 + gr (uround p) 2) * (5 * uround p * |q|) :=
      le_trans hts (mul_le_mul_of_nonneg_left hA (by linarith))
    have a5 : gr (uround p) 2 ≤ 1 / 20 := by unfold gr; nlinarith
    have a6 : |t| ≤ 3 / 20 * |q| := by
      refine le_trans a4 ?_
      have : (1 + gr (uround p) 2) * (5 * uround p) ≤ 3 / 20 := by nlinarith
      nlinarith [abs_nonneg q]
    have a7 : (63 / 64 : ℚ) * |q| ≤ (1 - uround p) * |q| :=
      mul_le_mul_of_nonneg_right (by linarith) (abs_nonneg _)
    have a8 : (63 / 64 : ℚ) * |rn q + t| ≤ (1 - uround p) * |rn q + t| :=
      mul_le_mul_of_nonneg_right (by linarith) (abs_nonneg _)
    have := abs_nonneg q
    linarith
  have g5 := gr_nonneg hu 5
  have l10 := gr_lin hu 10
  push_cast at l10
  have fin : |z.1 + z.2 - (q + c / ak)| ≤ gr (uround p) 5 * gr (uround p) 10 * |z.1| := by
    refine le_trans tot ?_
    rw [mul_assoc (gr (uround p) 5) (gr (uround p) 10)]
    refine mul_le_mul_of_nonneg_left ?_ g5
    have b1 := mul_le_mul_of_nonneg_left hq2 (show 0 ≤ 5 * uround p by linarith)
    have b2 := mul_le_mul_of_nonneg_right l10 (abs_nonneg z.1)
    linarith
  have e : ak * (z.1 + z.2) - (s + c) = ak * (z.1 + z.2 - (q + c / ak)) := by
    rw [hq]; field_simp
  rw [e, abs_mul]
  have := mul_le_mul_of_nonneg_left fin (abs_nonneg ak)
  linarith


/-- State of the loop of `armas_ext_adot_dx_unsafe`: `T`, `S` for the products with `x`, `F`, `D` for those
with `dx`. -/
def AccD (p k : Nat) (T S F D : ℚ) (sc : ℚ × ℚ) : Prop :=
  Fl p sc.1 ∧ ∃ E A, Sm (uround p) (k + 1) T S sc.1 E A ∧ Cr (uround p) (k + 2) sc.2 (E + F) (A + D)

theorem AccD.step (P : ProdOk p rn tp) {k : Nat} {T S F D x dx y : ℚ} {sc : ℚ × ℚ}
    (h : AccD p k T S F D sc) (hx : Fl p x) (hy : Fl p y) :
    AccD p (k + 1) (T + x * y) (S + |x * y|) (F + dx * y) (D + |dx * y|)
      ((twosum rn sc.1 (tp x y).1).1,
        rn (sc.2 + rn (rn ((twosum rn sc.1 (tp x y).1).2 + (tp x y).2) + rn (dx * y)))) := by
  have hu := (uround_pos p).le
  have hp0 : 0 < p := by omega
  obtain ⟨f, E, A, h1, h2⟩ := h
  obtain ⟨fh, _, _⟩ := prod_err hp0 R P hx hy
  have hm := (Sm.prod hp0 R P hx hy).mono hu (show 1 ≤ k + 1 by omega)
  have hs := h1.add hp0 R hm f fh
  refine ⟨(twosum_err hp0 R f fh).1, _, _, hs, ?_⟩
  have c1 := (Cr.exact (u := uround p) (twosum rn sc.1 (tp x y).1).2).add hp0 R
    (Cr.exact (tp x y).2)
  have c2 : Cr (uround p) (0 + 1) (rn (dx * y)) (dx * y) |dx * y| :=
    ⟨le_rfl, by rw [zero_add, gr_one]; exact R.rel hp0 _⟩
  have c3 := (c1.add hp0 R c2).mono hu (show 0 + 1 + 1 ≤ k + 2 by omega)
  have c4 := h2.add hp0 R c3
  have e1 : E + (tp x y).2 + (twosum rn sc.1 (tp x y).1).2 + (F + dx * y)
      = E + F + ((twosum rn sc.1 (tp x y).1).2 + (tp x y).2 + dx * y) := by ring
  have e2 : A + |(tp x y).2| + |(twosum rn sc.1 (tp x y).1).2| + (D + |dx * y|)
      = A + D + (|(twosum rn sc.1 (tp x y).1).2| + |(tp x y).2| + |dx * y|) := by ring
  rw [e1, e2]
  exact c4

/-- End of `armas_ext_adot_dx_unsafe` with factor `-1`. -/
theorem AccD.final (P : ProdOk p rn tp) {k : Nat} {T S F D b alpha : ℚ} {sc : ℚ × ℚ}
    (h : AccD p k T S F D sc) (hb : Fl p b) (ha : Fl p alpha) (hD : D ≤ 4 * uround p * S) :
    let hl := tp b alpha
    let pq := tp sc.1 (-1)
    let sz := twosum rn hl.1 pq.1
    let c := rn (rn (rn (hl.2 + pq.2) + rn (-1 * sc.2)) + sz.2)
    Fl p (fastsum rn sz.1 c).1 ∧ Fl p (fastsum rn sz.1 c).2 ∧
    |(fastsum rn sz.1 c).2| ≤ 4 * uround p * |(fastsum rn sz.1 c).1| ∧
    |(fastsum rn sz.1 c).1 + (fastsum rn sz.1 c).2 - (alpha * b - (T + F))| ≤
      gr (uround p) (k + 8) * gr (uround p) (k + 7) * (|alpha * b| + S) ∧
    |rn ((fastsum rn sz.1 c).1 + (fastsum rn sz.1 c).2) - (fastsum rn sz.1 c).1| ≤
      gr (uround p) (k + 18) * gr (uround p) (k + 7) * (|alpha * b| + S) ∧
    |(fastsum rn sz.1 c).2| ≤ 4 * uround p *
      |rn ((fastsum rn sz.1 c).1 + (fastsum rn sz.1 c).2)| := by
  have hu := (uround_pos p).le
  have h64 := uround_64 hp
  have hp0 : 0 < p := by omega
  obtain ⟨f, E, A, h1, h2⟩ := h
  have f1 : Fl p (-1 : ℚ) := ⟨-1, 0, by
    have : (1 : ℤ) < 2 ^ p := by exact_mod_cast Nat.one_lt_two_pow (by omega)
    simpa using this, by simp⟩
  obtain ⟨q1, q2⟩ := P sc.1 (-1) f f1
  have e1 : (tp sc.1 (-1)).1 = -sc.1 := by
    rw [q1, show sc.1 * -1 = -sc.1 by ring]; exact R.exact f.neg
  have e2 : (tp sc.1 (-1)).2 = 0 := by rw [e1] at q2; linarith
  obtain ⟨fh, l1, l2⟩ := prod_err hp0 R P hb ha
  dsimp only
  rw [e1, e2]
  set h := (tp b alpha).1
  set l := (tp b alpha).2
  obtain ⟨fs, z1, z2⟩ := twosum_err hp0 R fh f.neg
  set s' := (twosum rn h (-sc.1)).1
  set z := (twosum rn h (-sc.1)).2
  have c1 := ((Cr.exact (u := uround p) l).add hp0 R (Cr.zero hu 0)).mono hu
    (show 0 + 1 ≤ k + 2 + 1 by omega)
  have c2 := c1.add hp0 R (h2.scale hp0 R (-1))
  have c3 := c2.add hp0 R ((Cr.exact (u := uround p) z).mono hu (show 0 ≤ k + 2 + 1 + 1 by omega))
  set c := rn (rn (rn (l + 0) + rn (-1 * sc.2)) + z) with hc
  have fc : Fl p c := R.fl _
  obtain ⟨g1, g2, g3⟩ := fastsum_small hp R fs fc
  obtain ⟨w1, w2⟩ := fastsum_again hp R fs fc
  refine ⟨g1, g2, g3, and_assoc.1 ⟨?_, w2⟩⟩
  have d1 := (fastsum_defect hp0 R fs fc).1
  have hsz := c3.size hu
  have hS : 0 ≤ S := le_trans (abs_nonneg _) h1.tot
  have k3 := kap_le hu (by linarith : uround p ≤ 1 / 2)
  -- size of the corrections
  have hsc : |sc.1| ≤ S + A := by
    calc |sc.1| = |T - E| := by rw [h1.eq]; ring_nf
      _ ≤ |T| + |E| := abs_sub _ _
      _ ≤ _ := add_le_add h1.tot h1.le
  have hA : 0 ≤ A := le_trans (abs_nonneg _) h1.le
  have hh : |h| ≤ (1 + uround p) * |alpha * b| := by
    calc |h| = |alpha * b - l| := by rw [show h = alpha * b - l by linarith]
      _ ≤ |alpha * b| + |l| := abs_sub _ _
      _ ≤ _ := by rw [mul_comm b alpha] at l2; linarith
  have hz : |z| ≤ uround p * ((1 + uround p) * |alpha * b| + (S + A)) := by
    refine le_trans z2 (mul_le_mul_of_nonneg_left ?_ hu)
    refine le_trans (abs_add_le _ _) ?_
    rw [abs_neg]; linarith
  have hl : |l| ≤ uround p * |alpha * b| := by rw [mul_comm b alpha] at l2; exact l2
  have hB : |l| + 0 + |(-1 : ℚ)| * (A + D) + |z| ≤ gr (uround p) (k + 7) * (|alpha * b| + S) := by
    rw [abs_neg, abs_one, one_mul]
    have t1 := h1.small
    have s1 := gr_succ (u := uround p) (k + 1)
    have t2 := mul_le_mul_of_nonneg_left t1 (show 0 ≤ 1 + uround p by linarith)
    have a1 : |l| + |z| + A + D ≤ gr (uround p) 2 * |alpha * b| +
        (gr (uround p) (k + 1 + 1) + 4 * uround p) * S := by
      have : gr (uround p) 2 = uround p + uround p * (1 + uround p) := by unfold gr; ring
      rw [this, s1]; linarith
    have b1 : gr (uround p) 2 ≤ gr (uround p) (k + 7) := gr_mono hu (by omega)
    have b2 : gr (uround p) (k + 1 + 1) + 4 * uround p ≤ gr (uround p) (k + 7) := by
      have l4 := gr_lin hu 5
      push_cast at l4
      have := gr_add_le hu (k + 2) 5
      linarith
    have b3 := mul_le_mul_of_nonneg_right b1 (abs_nonneg (alpha * b))
    have b4 := mul_le_mul_of_nonneg_right b2 hS
    linarith
  have gk := gr_nonneg hu (k + 2 + 1 + 1 + 1)
  have e3 : gr (uround p) (k + 8) = gr (uround p) 3 * (1 + gr (uround p) (k + 2 + 1 + 1 + 1))
      + gr (uround p) (k + 2 + 1 + 1 + 1) := by
    rw [show k + 8 = 3 + (k + 2 + 1 + 1 + 1) by omega]; unfold gr; rw [pow_add]; ring
  have t1 : kap (uround p) * |c| ≤ gr (uround p) 3 * ((1 + gr (uround p) (k + 2 + 1 + 1 + 1)) *
      (gr (uround p) (k + 7) * (|alpha * b| + S))) :=
    mul_le_mul k3 (le_trans hsz (mul_le_mul_of_nonneg_left hB (by linarith))) (abs_nonneg _)
      (gr_nonneg hu 3)
  have t2 := le_trans c3.err (mul_le_mul_of_nonneg_left hB gk)
  constructor
  swap
  · refine le_trans w1 ?_
    have l13 := gr_lin hu 13
    push_cast at l13
    have e4 : gr (uround p) (k + 18) = gr (uround p) 13 * (1 + gr (uround p) (k + 2 + 1 + 1 + 1))
        + gr (uround p) (k + 2 + 1 + 1 + 1) := by
      rw [show k + 18 = 13 + (k + 2 + 1 + 1 + 1) by omega]; unfold gr; rw [pow_add]; ring
    have gB : 0 ≤ gr (uround p) (k + 7) * (|alpha * b| + S) :=
      mul_nonneg (gr_nonneg hu _) (add_nonneg (abs_nonneg _) hS)
    have y1 := mul_le_mul l13 (le_trans hsz (mul_le_mul_of_nonneg_left hB (by linarith)))
      (abs_nonneg _) (gr_nonneg hu 13)
    have y2 := mul_nonneg gk gB
    rw [e4]
    linarith
  calc |(fastsum rn s' c).1 + (fastsum rn s' c).2 - (alpha * b - (T + F))|
      = |((fastsum rn s' c).1 + (fastsum rn s' c).2 - (s' + c)) + (c - (l + 0 + -1 * (E + F) + z))| := by
        rw [h1.eq, mul_comm alpha b, ← l1]
        congr 1
        linarith
    _ ≤ _ + _ := abs_add_le _ _
    _ ≤ _ := by rw [e3]; linarith

/-- `armas_ext_adot_dx_unsafe` as the solve calls it. -/
theorem adotDx_spec (P : ProdOk p rn tp) {m : Mem ℚ} {X dX Y : View} {x dx y : Nat → ℚ} {n : Nat}
    {b alpha : ℚ} (hn : X.size = n)
    (hX : ∀ i, i < n → m (X.vat i) = some (x i)) (hdX : ∀ i, i < n → m (dX.vat i) = some (dx i))
    (hY : ∀ i, i < n → m (Y.vat i) = some (y i)) (fx : ∀ i, i < n → Fl p (x i))
    (fy : ∀ i, i < n → Fl p (y i)) (hdx : ∀ i, i < n → |dx i| ≤ 4 * uround p * |x i|)
    (hb : Fl p b) (ha : Fl p alpha) :
    Runs (extAdotDxUnsafe rn tp m (tp b alpha).1 (tp b alpha).2 (-1) X dX Y) (fun su =>
      Fl p su.1 ∧ Fl p su.2 ∧ |su.2| ≤ 4 * uround p * |su.1| ∧
      |su.1 + su.2 - (alpha * b - ∑ i ∈ range n, y i * (x i + dx i))| ≤
        gr (uround p) (n + 8) * gr (uround p) (n + 7) *
          (|alpha * b| + ∑ i ∈ range n, |y i| * |x i|) ∧
      |rn (su.1 + su.2) - su.1| ≤ gr (uround p) (n + 18) * gr (uround p) (n + 7) *
          (|alpha * b| + ∑ i ∈ range n, |y i| * |x i|) ∧
      |su.2| ≤ 4 * uround p * |rn (su.1 + su.2)|) := by
  have hp0 : 0 < p := by omega
  have hu := (uround_pos p).le
  unfold extAdotDxUnsafe
  rw [if_neg (by norm_num), hn]
  have L : Runs (forUp 0 n 1 (fun i (sc : ℚ × ℚ) => do
      let x ← rd m (X.vat i)
      let y ← rd m (Y.vat i)
      let dx ← rd m (dX.vat i)
      let (p, q) := tp x y
      let r := rn (dx * y)
      let (s, z) := twosum rn sc.1 p
      pure (s, rn (sc.2 + rn (rn (z + q) + r)))) (0, 0)) (fun q =>
      AccD p n (∑ i ∈ range n, x i * y i) (∑ i ∈ range n, |x i * y i|)
        (∑ i ∈ range n, dx i * y i) (∑ i ∈ range n, |dx i * y i|) q.2) := by
    refine Runs.forUp1 (fun i sc => AccD p i (∑ j ∈ range i, x j * y j) (∑ j ∈ range i, |x j * y j|)
        (∑ j ∈ range i, dx j * y j) (∑ j ∈ range i, |dx j * y j|) sc) (by omega) ?_ ?_ (fun st h => h)
    · exact ⟨fl_zero p, 0, 0, by simpa using Sm.zero 1, by simpa using Cr.zero hu 2⟩
    · intro i sc _ hi h
      refine Runs.rd_bind (hX i hi) (Runs.rd_bind (hY i hi) (Runs.rd_bind (hdX i hi) (Runs.pure ?_)))
      simp only [sum_range_succ]
      exact h.step hp R P (fx i hi) (fy i hi)
  refine Runs.bind L ?_
  rintro ⟨i, sc⟩ hA
  refine Runs.pure ?_
  have := hA.final hp R P hb ha (by
    rw [mul_sum]
    refine sum_le_sum fun i hi => ?_
    rw [abs_mul, abs_mul, ← mul_assoc]
    exact mul_le_mul_of_nonneg_right (hdx i (mem_range.1 hi)) (abs_nonneg _))
  rw [← sum_add_distrib, sum_congr rfl (fun i _ => show x i * y i + dx i * y i = y i * (x i + dx i) by ring),
    sum_congr rfl (fun i _ => show |x i * y i| = |y i| * |x i| by rw [abs_mul, mul_comm])] at this
  exact this

end
end Armas
