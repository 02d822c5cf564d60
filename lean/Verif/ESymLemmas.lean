import Verif.ESym
import Verif.EBlasLemmas
import Verif.TrsvLemmas
import Verif.Tri

/-! # Error analysis of the extended-precision triangular and symmetric matrix-vector functions -/

namespace Armas
open Finset

section
variable {p : Nat} {rn : ℚ → ℚ} {tp : ℚ → ℚ → ℚ × ℚ} (hp : 0 < p) (R : Nearest p rn)
include hp R

theorem edotLoop_spec (P : ProdOk p rn tp) {m : Mem ℚ} {at' : Nat → Nat} {X : View} {a x : Nat → ℚ}
    {lo hi k : Nat} {T S : ℚ} {st : ℚ × ℚ} (hle : lo ≤ hi) (h : Acc p (k + 1) T S st)
    (ha : ∀ j, lo ≤ j → j < hi → m (at' j) = some (a j))
    (hx : ∀ j, lo ≤ j → j < hi → m (X.vat j) = some (x j))
    (fa : ∀ j, lo ≤ j → j < hi → Fl p (a j)) (fx : ∀ j, lo ≤ j → j < hi → Fl p (x j)) :
    Runs (edotLoop rn tp m at' X lo hi st) (Acc p (k + 1 + (hi - lo))
      (T + ∑ j ∈ Ico lo hi, a j * x j) (S + ∑ j ∈ Ico lo hi, |a j * x j|)) := by
  unfold edotLoop
  refine Runs.bind (Runs.forUp1 (Q := fun q => Acc p (k + 1 + (hi - lo))
      (T + ∑ j ∈ Ico lo hi, a j * x j) (S + ∑ j ∈ Ico lo hi, |a j * x j|) q.2)
    (fun i st => Acc p (k + 1 + (i - lo))
      (T + ∑ j ∈ Ico lo i, a j * x j) (S + ∑ j ∈ Ico lo i, |a j * x j|) st) hle ?_ ?_ ?_) ?_
  · simpa using h
  · intro i sc h1 h2 hI
    refine Runs.rd_bind (ha i h1 h2) (Runs.rd_bind (hx i h1 h2) (Runs.pure ?_))
    have := Acc.dotStep (k := k + (i - lo)) hp R P (hI.mono (by omega)) (fa i h1 h2) (fx i h1 h2)
    rw [sum_Ico_succ_top h1, sum_Ico_succ_top h1, ← add_assoc, ← add_assoc]
    exact this.mono (by omega)
  · intro sc hI; exact hI
  · rintro ⟨i, sc⟩ hI
    exact Runs.pure hI

/-- The value stored by the triangular product. -/
theorem etrmvVal_err (P : ProdOk p rn tp) {k : Nat} {T S alpha : ℚ} {su : ℚ × ℚ} (h : Acc p k T S su)
    (fal : Fl p alpha) :
    |etrmvVal rn tp alpha su - alpha * T| ≤ gr (uround p) 2 * |alpha * T| +
      gr (uround p) (k + 2) * gr (uround p) (k + 1) * (|alpha| * S) := by
  have hu := (uround_pos p).le
  obtain ⟨f, E, A, h1, h2⟩ := h
  obtain ⟨_, e2, e3⟩ := prod_err hp R P f fal
  set u := uround p
  set l := (tp su.1 alpha).2
  set hh := (tp su.1 alpha).1
  have hA : 0 ≤ A := le_trans (abs_nonneg _) h1.le
  have hS : 0 ≤ S := le_trans (abs_nonneg _) h1.tot
  have ha := abs_nonneg alpha
  have c1 := (h2.scale hp R alpha).err
  rw [mul_comm alpha su.2] at c1
  set w := rn (su.2 * alpha)
  have hT : alpha * T = hh + l + alpha * E := by rw [e2, h1.eq]; ring
  have d1 : |hh + w - (alpha * T - l)| ≤ gr u (k + 1) * (|alpha| * A) := by
    rw [hT, show hh + w - (hh + l + alpha * E - l) = w - alpha * E by ring]; exact c1
  have r1 := round_err hu (R.rel hp (hh + w)) d1
  have t1 : |alpha * T - l| ≤ |alpha * T| + |l| := abs_sub _ _
  have d2 : |rn (hh + w) + l - alpha * T| ≤
      (1 + u) * (gr u (k + 1) * (|alpha| * A)) + u * (|alpha * T| + |l|) := by
    rw [show rn (hh + w) + l - alpha * T = rn (hh + w) - (alpha * T - l) by ring]
    have := mul_le_mul_of_nonneg_left t1 hu
    linarith
  have r2 := round_err hu (R.rel hp (rn (hh + w) + l)) d2
  change |rn (rn (hh + w) + l) - alpha * T| ≤ _
  refine le_trans r2 ?_
  have hs : |su.1| ≤ S + A := by
    have : su.1 = T - E := by rw [h1.eq]; ring
    rw [this]
    exact le_trans (abs_sub _ _) (add_le_add h1.tot h1.le)
  have hl : |l| ≤ u * (|alpha| * (S + A)) := by
    refine le_trans e3 (mul_le_mul_of_nonneg_left ?_ hu)
    rw [abs_mul, mul_comm]
    exact mul_le_mul_of_nonneg_left hs ha
  have g1 := gr_succ (u := u) k
  have g2 := gr_succ (u := u) (k + 1)
  have g3 : gr u 2 = (1 + u) * u + u := by rw [gr_succ, gr_one]
  have hg := gr_nonneg hu (k + 1)
  have hgk := gr_nonneg hu k
  have hAs : |alpha| * A ≤ |alpha| * (gr u k * S) := mul_le_mul_of_nonneg_left h1.small ha
  have hl2 : |l| ≤ gr u (k + 1) * (|alpha| * S) := by
    refine le_trans hl ?_
    rw [g1]
    have := mul_le_mul_of_nonneg_left hAs hu
    have h0 : 0 ≤ gr u k * (|alpha| * S) := mul_nonneg hgk (mul_nonneg ha hS)
    nlinarith
  set L := |l|
  set Z := |alpha| * S with hZ
  have hZ0 : 0 ≤ Z := mul_nonneg ha hS
  have b1 : |alpha| * A ≤ gr u k * Z := by rw [hZ]; linarith
  have b2 : (1 + u) * ((1 + u) * (gr u (k + 1) * (|alpha| * A))) ≤
      (1 + u) * ((1 + u) * (gr u (k + 1) * (gr u k * Z))) := by gcongr
  have b3 : (1 + u) * (u * L) ≤ (1 + u) * (u * (gr u (k + 1) * Z)) := by gcongr
  have b4 : 0 ≤ u * (gr u (k + 1) * Z) := mul_nonneg hu (mul_nonneg hg hZ0)
  have b5 : (1 + u) * ((1 + u) * (gr u (k + 1) * (gr u k * Z))) + (1 + u) * (u * (gr u (k + 1) * Z)) =
      (1 + u) * (gr u (k + 1) * gr u (k + 1) * Z) := by rw [g1]; ring
  have b6 : (1 + u) * (gr u (k + 1) * gr u (k + 1) * Z) ≤ gr u (k + 2) * gr u (k + 1) * Z := by
    rw [g2]; nlinarith
  rw [g3]
  linarith

/-- The value stored by the symmetric product. -/
theorem esymvVal_err (P : ProdOk p rn tp) {k : Nat} {T S alpha beta y : ℚ} {ys : ℚ × ℚ}
    (h : Acc p k T S ys) (fal : Fl p alpha) (fbe : Fl p beta) (fy : Fl p y) :
    |esymvVal rn tp beta y alpha ys - (beta * y + alpha * T)| ≤
      gr (uround p) 4 * (|beta * y| + |alpha * T|) +
      gr (uround p) (k + 4) * gr (uround p) k * (|alpha| * S) := by
  have hu := (uround_pos p).le
  have hf := h.final hp R
  have hS : 0 ≤ S := by obtain ⟨_, _, _, h1, _⟩ := h; exact le_trans (abs_nonneg _) h1.tot
  set u := uround p
  set t := rn (ys.1 + ys.2)
  obtain ⟨f1, e2, e3⟩ := prod_err hp R P (R.fl (ys.1 + ys.2)) fal
  obtain ⟨f2, e4, e5⟩ := prod_err hp R P fy fbe
  obtain ⟨f3, e6, e7⟩ := twosum_err hp R f2 f1
  change Fl p (tp t alpha).1 at f1
  change (tp t alpha).1 + (tp t alpha).2 = t * alpha at e2
  change |(tp t alpha).2| ≤ u * |t * alpha| at e3
  set h1 := (tp t alpha).1
  set l1 := (tp t alpha).2
  set h2 := (tp y beta).1
  set l2 := (tp y beta).2
  change |rn ((twosum rn h2 h1).1 + rn (l1 + l2)) - (beta * y + alpha * T)| ≤ _
  set s := (twosum rn h2 h1).1
  set c := (twosum rn h2 h1).2
  set B := |beta * y| with hB
  set V := |t * alpha| with hV
  have eB : |y * beta| = B := by rw [hB, mul_comm]
  rw [eB] at e5
  have hB0 : 0 ≤ B := abs_nonneg _
  have hV0 : 0 ≤ V := abs_nonneg _
  -- the exact sum with the rounded `T`
  have hc : |c| ≤ u * ((1 + u) * B + (1 + u) * V) := by
    refine le_trans e7 (mul_le_mul_of_nonneg_left ?_ hu)
    have a1 : |h2| ≤ (1 + u) * B := by
      rw [show h2 = y * beta - l2 by linarith]
      have := abs_sub (y * beta) l2
      rw [eB] at this
      linarith
    have a2 : |h1| ≤ (1 + u) * V := by
      rw [show h1 = t * alpha - l1 by linarith]
      have := abs_sub (t * alpha) l1
      linarith
    exact le_trans (abs_add_le _ _) (add_le_add a1 a2)
  have hw : |rn (l1 + l2) - (l1 + l2)| ≤ u * (u * V + u * B) :=
    le_trans (R.rel hp _) (mul_le_mul_of_nonneg_left
      (le_trans (abs_add_le _ _) (add_le_add e3 e5)) hu)
  have hd : |s + rn (l1 + l2) - (beta * y + alpha * t)| ≤ u * (1 + 2 * u) * (B + V) := by
    have e : s + rn (l1 + l2) - (beta * y + alpha * t) = (rn (l1 + l2) - (l1 + l2)) - c := by
      have : beta * y + alpha * t = (h2 + l2) + (h1 + l1) := by rw [e4, e2]; ring
      rw [this]; linarith
    rw [e]
    refine le_trans (abs_sub _ _) ?_
    nlinarith
  have hvt : |beta * y + alpha * t| ≤ B + V := by
    refine le_trans (abs_add_le _ _) ?_
    rw [mul_comm alpha t]
  have r1 := round_err hu (R.rel hp (s + rn (l1 + l2))) hd
  have r2 : |rn (s + rn (l1 + l2)) - (beta * y + alpha * t)| ≤ gr u 3 * (B + V) := by
    refine le_trans r1 ?_
    have g3 : gr u 3 = (1 + u) * ((1 + u) * u + u) + u := by rw [gr_succ, gr_succ, gr_one]
    rw [g3]
    have := mul_le_mul_of_nonneg_left hvt hu
    have hu1 : 0 ≤ 1 - u * u := by
      have : u ≤ 1 := by
        rw [show u = 1 / 2 ^ p from rfl, div_le_one (by positivity)]
        exact one_le_pow₀ (by norm_num)
      nlinarith
    have hz : 0 ≤ (1 - u * u) * (u * (B + V)) := mul_nonneg hu1 (by positivity)
    linarith
  -- the error of `t`
  set W := |alpha * T| with hW
  set Z := |alpha| * S with hZ
  have hZ0 : 0 ≤ Z := mul_nonneg (abs_nonneg _) hS
  have ht : |alpha * t - alpha * T| ≤ u * W + gr u (k + 1) * gr u k * Z := by
    rw [← mul_sub, abs_mul]
    refine le_trans (mul_le_mul_of_nonneg_left hf (abs_nonneg alpha)) (le_of_eq ?_)
    rw [hW, hZ, abs_mul]; ring
  have hVW : V ≤ W + (u * W + gr u (k + 1) * gr u k * Z) := by
    rw [hV, mul_comm t alpha, hW]
    calc |alpha * t| = |alpha * T + (alpha * t - alpha * T)| := by ring_nf
      _ ≤ _ := abs_add_le _ _
      _ ≤ _ := by linarith
  have fin : |rn (s + rn (l1 + l2)) - (beta * y + alpha * T)| ≤
      gr u 3 * (B + V) + (u * W + gr u (k + 1) * gr u k * Z) := by
    calc |rn (s + rn (l1 + l2)) - (beta * y + alpha * T)|
        = |(rn (s + rn (l1 + l2)) - (beta * y + alpha * t)) + (alpha * t - alpha * T)| := by ring_nf
      _ ≤ _ := abs_add_le _ _
      _ ≤ _ := by linarith
  refine le_trans fin ?_
  have g0 := gr_nonneg hu 3
  have m1 := mul_le_mul_of_nonneg_left hVW g0
  have g4 : gr u 4 = (1 + u) * gr u 3 + u := gr_succ 3
  have gk : gr u (k + 4) = (1 + gr u 3) * gr u (k + 1) + gr u 3 := by
    simp only [gr]; rw [show k + 4 = 3 + (k + 1) by omega, pow_add]; ring
  have hgk := gr_nonneg hu k
  have hW0 : 0 ≤ W := abs_nonneg _
  have z1 : 0 ≤ gr u 3 * (gr u k * Z) := mul_nonneg g0 (mul_nonneg hgk hZ0)
  have z2 : 0 ≤ u * (1 + gr u 3) * B := by positivity
  rw [g4, gk]
  nlinarith

/-- The value stored by the rank two update. -/
theorem esyr2Val_err (P : ProdOk p rn tp) {beta a alpha xi yj xj yi : ℚ} (fbe : Fl p beta) (fa : Fl p a)
    (fal : Fl p alpha) (f1 : Fl p xi) (f2 : Fl p yj) (f3 : Fl p xj) (f4 : Fl p yi) :
    |esyr2Val rn tp beta a alpha xi yj xj yi - (beta * a + alpha * (xi * yj) + alpha * (xj * yi))| ≤
      uround p * |beta * a + alpha * (xi * yj) + alpha * (xj * yi)| +
      uround p * (1 + uround p) ^ 2 * |alpha * (xj * yi)| +
      gr (uround p) 7 * gr (uround p) 4 *
        (|beta * a| + |alpha * (xi * yj)| + |alpha * (xj * yi)|) := by
  have hu := (uround_pos p).le
  set u := uround p with hudef
  obtain ⟨k1, k2, k3⟩ := prod_err hp R P f1 f2
  set P0 := (tp xi yj).1
  set r0 := (tp xi yj).2
  obtain ⟨l1, l2, l3⟩ := prod_err hp R P fal k1
  set Q0 := (tp alpha P0).1
  set C0 := (tp alpha P0).2
  obtain ⟨m1, m2, m3⟩ := prod_err hp R P f3 f4
  set P1 := (tp xj yi).1
  set r1 := (tp xj yi).2
  obtain ⟨n1, n2, n3⟩ := prod_err hp R P fal m1
  set Q1 := (tp alpha P1).1
  set C1 := (tp alpha P1).2
  obtain ⟨o1, o2, o3⟩ := twosum_err hp R l1 n1
  set s1 := (twosum rn Q0 Q1).1
  set q := (twosum rn Q0 Q1).2
  obtain ⟨v1, v2, v3⟩ := prod_err hp R P fbe fa
  set B := (tp beta a).1
  set b := (tp beta a).2
  obtain ⟨w1, w2, w3⟩ := twosum_err hp R v1 o1
  set s := (twosum rn B s1).1
  set c := (twosum rn B s1).2
  have c1 := (Cr.exact (u := u) C0).mono hu (show 0 ≤ 1 by omega)
  have c2 := c1.add hp R ((Cr.exact (u := u) r0).scale hp R alpha)
  have c3 := c2.add hp R (((Cr.exact (u := u) r1).scale hp R alpha).mono hu (show 0 + 1 ≤ 1 + 1 by omega))
  have c4 := ((Cr.exact (u := u) q).mono hu (show 0 ≤ 1 + 1 + 1 by omega)).add hp R c3
  have c5 := ((Cr.exact (u := u) c).mono hu (show 0 ≤ 1 + 1 + 1 + 1 by omega)).add hp R c4
  have c6 := c5.add hp R ((Cr.exact (u := u) b).mono hu (show 0 ≤ 1 + 1 + 1 + 1 + 1 by omega))
  change |rn (s + rn (rn (c + rn (q + rn (rn (C0 + rn (alpha * r0)) + rn (alpha * r1)))) + b)) -
    (beta * a + alpha * (xi * yj) + alpha * (xj * yi))| ≤ _
  set w := rn (rn (c + rn (q + rn (rn (C0 + rn (alpha * r0)) + rn (alpha * r1)))) + b)
  set E := c + (q + (C0 + alpha * r0 + alpha * r1)) + b with hE
  set A := |c| + (|q| + (|C0| + |alpha| * |r0| + |alpha| * |r1|)) + |b| with hA
  set V := beta * a + alpha * (xi * yj) + alpha * (xj * yi) with hV
  set G0 := |beta * a| with hG0
  set G1 := |alpha * (xi * yj)| with hG1
  set G2 := |alpha * (xj * yi)| with hG2
  have z0 : 0 ≤ G0 := abs_nonneg _
  have z1 : 0 ≤ G1 := abs_nonneg _
  have z2 : 0 ≤ G2 := abs_nonneg _
  have ha := abs_nonneg alpha
  have hVE : V = s + E + C1 := by
    have x1 : alpha * (xi * yj) = Q0 + C0 + alpha * r0 := by rw [l2, ← k2]; ring
    have x2 : alpha * (xj * yi) = Q1 + C1 + alpha * r1 := by rw [n2, ← m2]; ring
    rw [hV, hE, x1, x2]; linarith
  -- sizes
  have s0 : |alpha| * |r0| ≤ u * G1 := by
    have := mul_le_mul_of_nonneg_left k3 ha
    rw [hG1, abs_mul]; linarith
  have s0' : |alpha| * |r1| ≤ u * G2 := by
    have := mul_le_mul_of_nonneg_left m3 ha
    rw [hG2, abs_mul]; linarith
  have p0 : |alpha * P0| ≤ (1 + u) * G1 := by
    rw [show alpha * P0 = alpha * (xi * yj) - alpha * r0 by rw [← k2]; ring]
    have := abs_sub (alpha * (xi * yj)) (alpha * r0)
    rw [abs_mul alpha r0] at this
    linarith
  have p1 : |alpha * P1| ≤ (1 + u) * G2 := by
    rw [show alpha * P1 = alpha * (xj * yi) - alpha * r1 by rw [← m2]; ring]
    have := abs_sub (alpha * (xj * yi)) (alpha * r1)
    rw [abs_mul alpha r1] at this
    linarith
  have t0 : |C0| ≤ u * ((1 + u) * G1) := le_trans l3 (mul_le_mul_of_nonneg_left p0 hu)
  have t1 : |C1| ≤ u * ((1 + u) * G2) := le_trans n3 (mul_le_mul_of_nonneg_left p1 hu)
  have y0 : |Q0| ≤ (1 + u) * ((1 + u) * G1) := by
    rw [show Q0 = alpha * P0 - C0 by linarith]
    have := abs_sub (alpha * P0) C0
    linarith
  have y1 : |Q1| ≤ (1 + u) * ((1 + u) * G2) := by
    rw [show Q1 = alpha * P1 - C1 by linarith]
    have := abs_sub (alpha * P1) C1
    linarith
  have y2 : |Q0 + Q1| ≤ (1 + u) * ((1 + u) * (G1 + G2)) := by
    refine le_trans (abs_add_le _ _) ?_
    linarith
  have t2 : |q| ≤ u * ((1 + u) * ((1 + u) * (G1 + G2))) := le_trans o3 (mul_le_mul_of_nonneg_left y2 hu)
  have y3 : |s1| ≤ (1 + u) * ((1 + u) * ((1 + u) * (G1 + G2))) := by
    rw [show s1 = (Q0 + Q1) - q by linarith]
    have := abs_sub (Q0 + Q1) q
    linarith
  have y4 : |B| ≤ (1 + u) * G0 := by
    rw [show B = beta * a - b by linarith]
    have := abs_sub (beta * a) b
    linarith
  have t3 : |c| ≤ u * ((1 + u) * G0 + (1 + u) * ((1 + u) * ((1 + u) * (G1 + G2)))) := by
    refine le_trans w3 (mul_le_mul_of_nonneg_left ?_ hu)
    exact le_trans (abs_add_le _ _) (add_le_add y4 y3)
  have g2 : gr u 2 = (1 + u) * u + u := by rw [gr_succ, gr_one]
  have g4 : gr u 4 = (1 + u) * ((1 + u) * ((1 + u) * u + u) + u) + u := by
    rw [gr_succ, gr_succ, gr_succ, gr_one]
  have sA : A ≤ gr u 4 * (G0 + G1 + G2) := by
    have h1 : A ≤ gr u 2 * G0 + gr u 4 * (G1 + G2) := by
      rw [g2, g4, hA]; linarith only [t3, t2, t0, s0, s0', v3, mul_nonneg hu (mul_nonneg hu z2), mul_nonneg hu z2]
    have h2 := mul_le_mul_of_nonneg_right (gr_mono hu (show 2 ≤ 4 by omega)) z0
    linarith
  have hA0 : 0 ≤ A := by positivity
  have r1 : |rn (s + w) - (s + E)| ≤ (1 + u) * (gr u 6 * A) + u * |s + E| := by
    refine round_err hu (R.rel hp _) ?_
    rw [add_sub_add_left_eq_sub]
    exact c6.err
  have e1 : |s + E| ≤ |V| + |C1| := by
    rw [show s + E = V - C1 by rw [hVE]; ring]; exact abs_sub _ _
  have e2 : |rn (s + w) - V| ≤ |rn (s + w) - (s + E)| + |C1| := by
    rw [show rn (s + w) - V = (rn (s + w) - (s + E)) - C1 by rw [hVE]; ring]; exact abs_sub _ _
  have g7 : gr u 7 = (1 + u) * gr u 6 + u := gr_succ 6
  have x1 : (1 + u) * (gr u 6 * A) ≤ gr u 7 * A := by
    rw [g7]; linarith only [mul_nonneg hu hA0]
  have x2 := mul_le_mul_of_nonneg_left sA (gr_nonneg hu 7)
  have x3 := mul_le_mul_of_nonneg_left e1 hu
  have x4 : (1 + u) * |C1| ≤ (1 + u) * (u * ((1 + u) * G2)) :=
    mul_le_mul_of_nonneg_left t1 (by linarith)
  have x5 : u * (1 + u) ^ 2 * G2 = (1 + u) * (u * ((1 + u) * G2)) := by ring
  rw [x5]
  linarith only [e2, r1, x1, x2, x3, x4]

end
end Armas
