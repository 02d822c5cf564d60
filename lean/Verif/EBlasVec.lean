import Verif.EBlasFast
import Verif.LapackLemmas

/-! # Extended-precision updates of vectors and matrices -/

namespace Armas
open Finset

/-- The arithmetic of `mv_final`. -/
theorem mv_arith {u g g1 V bt aS b2 aA z ba : ℚ} (hu : 0 ≤ u) (huh : u ≤ 1 / 2)
    (hk0 : 0 ≤ kap u) (hu6 : 6 * u ≤ g) (hk6 : 2 * kap u ≤ g) (g0 : 0 ≤ g) (hV0 : 0 ≤ V)
    (hb : 0 ≤ bt) (haS : 0 ≤ aS) (hba0 : 0 ≤ ba) (hVW : V ≤ bt + aS) (hb2 : b2 ≤ u * bt)
    (haA : aA ≤ g1 * aS) (hg1 : g1 ≤ g) (hz : z ≤ (2 * kap u + u) * ba)
    (hba : ba ≤ V + (b2 + aA)) :
    u * V + (1 + u) * (2 * kap u * ba + g * (b2 + aA + z)) ≤
      3 * u * V + 8 * g ^ 2 * (1 + g) ^ 2 * (bt + aS) := by
  obtain ⟨W, hW⟩ : ∃ W, W = bt + aS := ⟨_, rfl⟩
  have hW0 : 0 ≤ W := by linarith
  have hB : b2 + aA ≤ g * W := by
    have t1 : u * bt ≤ g * bt := mul_le_mul_of_nonneg_right (by linarith) hb
    have t2 : g1 * aS ≤ g * aS := mul_le_mul_of_nonneg_right hg1 haS
    rw [hW, mul_add]; linarith
  rw [← hW] at hVW ⊢
  clear hb2 haA hg1 hW haS hb
  obtain ⟨B, hBe⟩ : ∃ B, B = b2 + aA := ⟨_, rfl⟩
  rw [← hBe] at hB hba ⊢
  clear hBe
  have gW : 0 ≤ g * W := mul_nonneg g0 hW0
  have hba' : ba ≤ V + g * W := by linarith
  have q1 : 2 * kap u * ba ≤ 2 * kap u * V + g * (g * W) := by
    have h1 := mul_le_mul_of_nonneg_left hba' (show 0 ≤ 2 * kap u by linarith)
    have h2 := mul_le_mul_of_nonneg_right hk6 gW
    linarith
  have q2 : z ≤ 2 * g * (W + g * W) := by
    have h1 : (2 * kap u + u) ≤ 2 * g := by linarith
    have h2 : ba ≤ W + g * W := by linarith
    exact hz.trans (mul_le_mul h1 h2 hba0 (by linarith))
  have q3 : g * (B + z) ≤ g * (g * W + 2 * g * (W + g * W)) :=
    mul_le_mul_of_nonneg_left (by linarith) g0
  have q4 : (1 + u) * (2 * kap u * ba + g * (B + z)) ≤
      (1 + u) * (2 * kap u * V) + (1 + u) * (g * (g * W) + g * (g * W + 2 * g * (W + g * W))) := by
    have := mul_le_mul_of_nonneg_left (add_le_add q1 q3) (show 0 ≤ 1 + u by linarith)
    linarith
  have q5 : (1 + u) * (2 * kap u * V) ≤ 2 * u * V + 3 * g ^ 2 * W := by
    have hu2 : u ^ 2 * 36 ≤ g ^ 2 := by
      have := mul_self_le_mul_self (show 0 ≤ 6 * u by linarith) hu6
      linarith [sq (6 * u), sq g, sq u]
    have h1 : (1 + u) * (2 * kap u) ≤ 2 * u + 3 * g ^ 2 := by
      have e : (1 + u) * (2 * kap u) = 2 * u + u ^ 2 * (12 + 14 * u + 4 * u ^ 2) := by
        unfold kap; ring
      have b1 : 12 + 14 * u + 4 * u ^ 2 ≤ 20 := by nlinarith
      have b2 := mul_le_mul_of_nonneg_left b1 (sq_nonneg u)
      rw [e]; linarith [sq_nonneg g]
    have h2 := mul_le_mul_of_nonneg_right h1 hV0
    have h3 := mul_le_mul_of_nonneg_left hVW (show 0 ≤ 3 * g ^ 2 by positivity)
    linarith
  have q6 : (1 + u) * (g * (g * W) + g * (g * W + 2 * g * (W + g * W))) ≤
      (1 + g) * (g * (g * W) + g * (g * W + 2 * g * (W + g * W))) :=
    mul_le_mul_of_nonneg_right (by linarith) (by positivity)
  have q7 : (1 + g) * (g * (g * W) + g * (g * W + 2 * g * (W + g * W)))
      ≤ 5 * g ^ 2 * (1 + g) ^ 2 * W := by
    have e : 5 * g ^ 2 * (1 + g) ^ 2 * W - (1 + g) * (g * (g * W) + g * (g * W + 2 * g * (W + g * W)))
      = (1 + g) * g ^ 2 * W * (1 + 3 * g) := by ring
    have : 0 ≤ (1 + g) * g ^ 2 * W * (1 + 3 * g) := by positivity
    linarith
  have q8 : 3 * g ^ 2 * W ≤ 3 * g ^ 2 * (1 + g) ^ 2 * W := by
    have e : 3 * g ^ 2 * (1 + g) ^ 2 * W - 3 * g ^ 2 * W = 3 * g ^ 2 * W * (2 * g + g ^ 2) := by ring
    have : 0 ≤ 3 * g ^ 2 * W * (2 * g + g ^ 2) := by positivity
    linarith
  have q9 : 8 * g ^ 2 * (1 + g) ^ 2 * W = 5 * g ^ 2 * (1 + g) ^ 2 * W + 3 * g ^ 2 * (1 + g) ^ 2 * W := by
    ring
  linarith

/-- The arithmetic of `axpbyDxVal_err`. -/
theorem dx_arith {u V W : ℚ} (hu : 0 ≤ u) (huh : u ≤ 1 / 2) (hVW : V ≤ W) (hV : 0 ≤ V) :
    (1 + u) * (((1 + u) * ((1 + u) * (u * (u * (1 + u) ^ 2 * W)) +
      u * (V + u * (1 + u) ^ 2 * W + u * (1 + u) ^ 2 * W)) +
      u * (V + u * (1 + u) ^ 2 * W)) + u * (u * (1 + u) ^ 2 * W)) + u * V ≤
      3 * u * V + 30 * u ^ 2 * W := by
  have hW : 0 ≤ W := hV.trans hVW
  have e : (1 + u) * (((1 + u) * ((1 + u) * (u * (u * (1 + u) ^ 2 * W)) +
      u * (V + u * (1 + u) ^ 2 * W + u * (1 + u) ^ 2 * W)) +
      u * (V + u * (1 + u) ^ 2 * W)) + u * (u * (1 + u) ^ 2 * W)) + u * V
      = 3 * u * V + u ^ 2 * (3 + u) * V +
        u ^ 2 * ((1 + u) ^ 5 + 2 * (1 + u) ^ 4 + 2 * (1 + u) ^ 3) * W := by ring
  have h1 : u ^ 2 * (3 + u) * V ≤ u ^ 2 * (7 / 2) * W :=
    mul_le_mul (mul_le_mul_of_nonneg_left (by linarith) (sq_nonneg u)) hVW hV (by positivity)
  have w1 : (1 + u) ≤ 3 / 2 := by linarith
  have w3 : (1 + u) ^ 3 ≤ (3 / 2) ^ 3 := pow_le_pow_left₀ (by linarith) w1 3
  have w4 : (1 + u) ^ 4 ≤ (3 / 2) ^ 4 := pow_le_pow_left₀ (by linarith) w1 4
  have w5 : (1 + u) ^ 5 ≤ (3 / 2) ^ 5 := pow_le_pow_left₀ (by linarith) w1 5
  have h2 : u ^ 2 * ((1 + u) ^ 5 + 2 * (1 + u) ^ 4 + 2 * (1 + u) ^ 3) * W ≤ u ^ 2 * (49 / 2) * W :=
    mul_le_mul_of_nonneg_right (mul_le_mul_of_nonneg_left (by norm_num at w3 w4 w5; linarith)
      (sq_nonneg u)) hW
  rw [e]
  nlinarith [mul_nonneg (sq_nonneg u) hW]

section
variable {p : Nat} {rn : ℚ → ℚ} {tp : ℚ → ℚ → ℚ × ℚ} (hp : 0 < p) (R : Nearest p rn)
  (P : ProdOk p rn tp)
include hp R P

theorem axpyVal_err {x alpha y : ℚ} (hx : Fl p x) (ha : Fl p alpha) (hy : Fl p y) :
    |axpyVal rn tp x alpha y - (x * alpha + y)| ≤ uround p * |x * alpha + y| +
      gr (uround p) 3 * gr (uround p) 2 * (|x * alpha| + |y|) := by
  have hu := (uround_pos p).le
  obtain ⟨fh, _, _⟩ := prod_err hp R P hx ha
  have s1 := (Sm.prod hp R P hx ha).add hp R ((Sm.val (u := uround p) y).mono hu
    (show 0 ≤ 1 by omega)) fh hy
  have c1 := ((Cr.exact (u := uround p) (tp x alpha).2).add hp R
    (Cr.exact (twosum rn (tp x alpha).1 y).2)).mono hu (show 1 ≤ 2 by omega)
  rw [add_zero, add_zero] at s1
  have := Acc.final hp R (sc := ((twosum rn (tp x alpha).1 y).1,
    rn ((tp x alpha).2 + (twosum rn (tp x alpha).1 y).2)))
    ⟨(twosum_err hp R fh hy).1, _, _, s1, c1⟩
  simpa only [axpyVal, add_comm] using this

theorem axpbyVal_err {beta x alpha y : ℚ} (hb : Fl p beta) (hx : Fl p x) (ha : Fl p alpha)
    (hy : Fl p y) :
    |axpbyVal rn tp beta x alpha y - (x * alpha + y * beta)| ≤
      uround p * |x * alpha + y * beta| +
      gr (uround p) 3 * gr (uround p) 2 * (|x * alpha| + |y * beta|) := by
  have hu := (uround_pos p).le
  obtain ⟨fh, _, _⟩ := prod_err hp R P hx ha
  obtain ⟨fy, _, _⟩ := prod_err hp R P hy hb
  have s1 := (Sm.prod hp R P hx ha).add hp R (Sm.prod hp R P hy hb) fh fy
  have c1 := ((Cr.exact (u := uround p) (tp x alpha).2).add hp R
    (Cr.exact (tp y beta).2)).add hp R
    ((Cr.exact (u := uround p) (twosum rn (tp x alpha).1 (tp y beta).1).2).mono hu
      (show 0 ≤ 1 by omega))
  have := Acc.final hp R (sc := ((twosum rn (tp x alpha).1 (tp y beta).1).1,
    rn (rn ((tp x alpha).2 + (tp y beta).2) + (twosum rn (tp x alpha).1 (tp y beta).1).2)))
    ⟨(twosum_err hp R fh fy).1, _, _, s1, c1⟩
  rw [add_comm (twosum rn (tp x alpha).1 (tp y beta).1).1] at this
  exact this

end

section
variable {rn : ℚ → ℚ} {tp : ℚ → ℚ → ℚ × ℚ}

theorem upd2_spec {m : Mem ℚ} {X Y : View} {x y : Nat → ℚ} (f : ℚ → ℚ → ℚ)
    (hX : HoldsV m X x) (hY : HoldsV m Y y) (vX : X.isVec) (vY : Y.isVec) (wY : Y.WF)
    (hXY : X.size = Y.size) (hd : Disjoint X.foot Y.foot) :
    Runs (do
      let (i, m) ← forUp 0 (X.size - 1) 2 (fun i (m : Mem ℚ) => do
        let x0 ← rd m (X.vat (i + 0))
        let x1 ← rd m (X.vat (i + 1))
        let y0 ← rd m (Y.vat (i + 0))
        let y1 ← rd m (Y.vat (i + 1))
        let m ← wr m (Y.vat (i + 0)) (f x0 y0)
        wr m (Y.vat (i + 1)) (f x1 y1)) m
      if i = X.size then pure m else do
        let x0 ← rd m (X.vat i)
        let y0 ← rd m (Y.vat i)
        wr m (Y.vat i) (f x0 y0))
      (fun m' => HoldsV m' Y (fun i => f (x i) (y i)) ∧ Frame Y.foot m m') := by
  refine Runs.bind (Runs.forUp (Q := fun q => 2 ∣ q.1 ∧ q.1 ≤ X.size ∧ X.size - 1 ≤ q.1 ∧
      UpdV m Y y (fun i => f (x i) (y i)) (fun k => k < q.1) q.2)
    (fun i st => 2 ∣ i ∧ i ≤ X.size ∧ UpdV m Y y (fun i => f (x i) (y i)) (fun k => k < i) st)
    (by omega) ⟨by omega, by omega, UpdV.init_lt hY _⟩ ?_ ?_) ?_
  · rintro i st - hi ⟨he, hle, hU⟩
    obtain ⟨hn, he'⟩ := even_step hi he
    have hX' := hU.other hX vX hd
    refine Runs.rd_bind (hX' i (by omega)) (Runs.rd_bind (hX' (i + 1) (by omega))
      (Runs.rd_bind (hU.old (by omega) (by omega)) (Runs.rd_bind (hU.old (by omega) (by omega)) ?_)))
    have h1 := hU.set_lt vY wY (k := i) (by omega) (v := f (x i) (y i)) rfl
    refine Runs.wr_bind (hU.old (k := i) (by omega) (by omega)) ?_
    refine Runs.wr (h1.old (k := i + 1) (by omega) (by omega)) ?_
    exact ⟨he', hn, h1.set_lt vY wY (by omega) rfl⟩
  · intro i st _ hi ⟨he, hle, hU⟩
    exact ⟨he, hle, by omega, hU⟩
  · rintro ⟨i, st⟩ ⟨he, hle, hge, hU⟩
    dsimp only at he hle hge hU ⊢
    by_cases hi : i = X.size
    · rw [if_pos hi]
      exact Runs.pure ⟨hU.done (by omega), hU.frame⟩
    · rw [if_neg hi]
      refine Runs.rd_bind (hU.other hX vX hd i (by omega))
        (Runs.rd_bind (hU.old (by omega) (by omega)) ?_)
      refine Runs.wr (hU.old (k := i) (by omega) (by omega)) ?_
      have h1 := hU.set_lt vY wY (k := i) (by omega) (v := f (x i) (y i)) rfl
      exact ⟨h1.done (by omega), h1.frame⟩

/-- Result of the loop of `armas_ext_adot_unsafe` as a function of the elements. -/
def dotFold (rn : ℚ → ℚ) (tp : ℚ → ℚ → ℚ × ℚ) (x y : Nat → ℚ) : Nat → ℚ × ℚ
  | 0 => (0, 0)
  | n + 1 => dotStep rn tp (x n) (y n) (dotFold rn tp x y n)

/-- Result of `armas_ext_adot_unsafe` as a function of the elements. -/
def adotVal (rn : ℚ → ℚ) (tp : ℚ → ℚ → ℚ × ℚ) (h l alpha : ℚ) (x y : Nat → ℚ) (n : Nat) : ℚ × ℚ :=
  if alpha = 0 then (h, l) else
    let sc := dotFold rn tp x y n
    let hp := tp sc.1 alpha
    let sz := fastsum rn h hp.1
    fastsum rn sz.1 (rn (rn (rn (l + hp.2) + rn (alpha * sc.2)) + sz.2))

theorem adotUnsafe_run {m : Mem ℚ} {X Y : View} {x y : Nat → ℚ} (h l alpha : ℚ)
    (hX : HoldsV m X x) (hY : HoldsV m Y y) (hXY : X.size ≤ Y.size) :
    Runs (extAdotUnsafe rn tp m h l alpha X Y)
      (fun r => r = adotVal rn tp h l alpha x y X.size) := by
  unfold extAdotUnsafe adotVal
  split
  · exact Runs.pure rfl
  · refine Runs.bind (P := fun q => q.2 = dotFold rn tp x y X.size)
      (Runs.forUp1 (fun i sc => sc = dotFold rn tp x y i) (by omega) rfl ?_ (fun st h => h)) ?_
    · rintro i sc - hi rfl
      exact Runs.rd_bind (hX i hi) (Runs.rd_bind (hY i (by omega)) (Runs.pure rfl))
    · rintro ⟨i, sc⟩ rfl
      exact Runs.pure rfl

end

section
variable {p : Nat} {rn : ℚ → ℚ} {tp : ℚ → ℚ → ℚ × ℚ} (hp : 0 < p) (R : Nearest p rn)
  (P : ProdOk p rn tp)
include hp R P

theorem dotFold_acc {x y : Nat → ℚ} (n : Nat) (fx : ∀ i, i < n → Fl p (x i))
    (fy : ∀ i, i < n → Fl p (y i)) :
    Acc p (n + 1) (∑ i ∈ range n, x i * y i) (∑ i ∈ range n, |x i * y i|) (dotFold rn tp x y n) := by
  induction n with
  | zero => simpa [dotFold] using Acc.zero p 1
  | succ n ih =>
    rw [sum_range_succ, sum_range_succ]
    exact (ih (fun i hi => fx i (by omega)) (fun i hi => fy i (by omega))).dotStep hp R P
      (fx n (by omega)) (fy n (by omega))

/-- The element of `beta*y + alpha*A*x`: `armas_ext_adot_unsafe` on the pair of `beta*y`. -/
theorem mv_final {k : Nat} {T S alpha beta y : ℚ} {sc : ℚ × ℚ} (h : Acc p k T S sc)
    (ha : Fl p alpha) (hb : Fl p beta) (hy : Fl p y) :
    let yc := tp beta y
    let hp0 := tp sc.1 alpha
    let sz := fastsum rn yc.1 hp0.1
    let c0 := rn (rn (rn (yc.2 + hp0.2) + rn (alpha * sc.2)) + sz.2)
    |rn ((fastsum rn sz.1 c0).1 + (fastsum rn sz.1 c0).2) - (beta * y + alpha * T)| ≤
      3 * uround p * |beta * y + alpha * T| + 8 * gr (uround p) (k + 6) ^ 2 *
        (1 + gr (uround p) (k + 6)) ^ 2 * (|beta * y| + |alpha| * S) := by
  have hu := (uround_pos p).le
  obtain ⟨f, E, A, h1, h2⟩ := h
  obtain ⟨fh, e1, e2⟩ := prod_err hp R P f ha
  obtain ⟨fy, y1, y2⟩ := prod_err hp R P hb hy
  have hS : 0 ≤ S := le_trans (abs_nonneg _) h1.tot
  dsimp only
  have d2 := (fastsum_defect hp R fy fh).2
  set b := tp beta y
  set a := tp sc.1 alpha
  have fz : Fl p (fastsum rn b.1 a.1).1 := R.fl _
  have hz : |(fastsum rn b.1 a.1).1 - (b.1 + a.1)| ≤ uround p * |b.1 + a.1| := R.rel hp _
  set z := fastsum rn b.1 a.1
  have c1 := ((Cr.exact (u := uround p) b.2).add hp R (Cr.exact a.2)).mono hu
    (show 0 + 1 ≤ k + 1 by omega)
  have c2 := (c1.add hp R (h2.scale hp R alpha)).add hp R
    ((Cr.exact z.2).mono hu (show 0 ≤ k + 1 + 1 by omega))
  have main := fast_final hp R fz (R.fl _) c2 (V := beta * y + alpha * T)
    (z := 2 * kap (uround p) * |b.1 + a.1|) (by
      rw [h1.eq]
      have : z.1 + (b.2 + a.2 + alpha * E + z.2) - (beta * y + alpha * (sc.1 + E))
        = z.1 + z.2 - (b.1 + a.1) := by linarith
      rw [this]; exact d2)
  refine le_trans main ?_
  rw [add_assoc |b.2| |a.2|]
  have hs : |sc.1| ≤ S + A := by
    calc |sc.1| = |T - E| := by rw [h1.eq]; ring_nf
      _ ≤ |T| + |E| := abs_sub _ _
      _ ≤ _ := add_le_add h1.tot h1.le
  have hA : |a.2| + |alpha| * A ≤ gr (uround p) (k + 1) * (|alpha| * S) := by
    have t1 : |a.2| ≤ uround p * (|alpha| * (S + A)) := by
      refine le_trans e2 (mul_le_mul_of_nonneg_left ?_ hu)
      rw [abs_mul, mul_comm]
      exact mul_le_mul_of_nonneg_left hs (abs_nonneg _)
    have t2 := mul_le_mul_of_nonneg_left h1.small (abs_nonneg alpha)
    have t3 := mul_le_mul_of_nonneg_left t2 (show 0 ≤ 1 + uround p by linarith)
    rw [gr_succ]
    linarith
  have hzz : |z.2| ≤ (2 * kap (uround p) + uround p) * |b.1 + a.1| := by
    calc |z.2| = |(z.1 + z.2 - (b.1 + a.1)) - (z.1 - (b.1 + a.1))| := by ring_nf
      _ ≤ _ := abs_sub _ _
      _ ≤ _ := by linarith
  have hba : |b.1 + a.1| ≤ |beta * y + alpha * T| + (|b.2| + (|a.2| + |alpha| * A)) := by
    have hE : |alpha * E| ≤ |alpha| * A := by
      rw [abs_mul]; exact mul_le_mul_of_nonneg_left h1.le (abs_nonneg _)
    calc |b.1 + a.1| = |(beta * y + alpha * T) - (b.2 + (a.2 + alpha * E))| := by
          congr 1; rw [h1.eq]; linarith
      _ ≤ |beta * y + alpha * T| + |b.2 + (a.2 + alpha * E)| := abs_sub _ _
      _ ≤ |beta * y + alpha * T| + (|b.2| + |a.2 + alpha * E|) :=
        add_le_add le_rfl (abs_add_le _ _)
      _ ≤ |beta * y + alpha * T| + (|b.2| + (|a.2| + |alpha * E|)) :=
        add_le_add le_rfl (add_le_add le_rfl (abs_add_le _ _))
      _ ≤ _ := by linarith
  have hVW : |beta * y + alpha * T| ≤ |beta * y| + |alpha| * S := by
    refine le_trans (abs_add_le _ _) (add_le_add le_rfl ?_)
    rw [abs_mul]; exact mul_le_mul_of_nonneg_left h1.tot (abs_nonneg _)
  have hg1 : gr (uround p) (k + 1) ≤ gr (uround p) (k + 6) := gr_mono hu (by omega)
  have hg6 : gr (uround p) 6 ≤ gr (uround p) (k + 6) := gr_mono hu (by omega)
  have hg6' : gr (uround p) (k + 1 + 1 + 1 + 3) = gr (uround p) (k + 6) := rfl
  have hu6 : 6 * uround p ≤ gr (uround p) 6 := by
    have := one_add_mul_le_pow (show (-2 : ℚ) ≤ uround p by linarith) 6
    unfold gr; push_cast at this; linarith
  have hk6 : 2 * kap (uround p) ≤ gr (uround p) 6 := by
    have := kap_le hu (uround_le hp)
    have h3 := gr_nonneg hu 3
    have e : gr (uround p) 6 = 2 * gr (uround p) 3 + gr (uround p) 3 ^ 2 := by unfold gr; ring
    rw [e]; nlinarith
  have hk0 := kap_nonneg hu
  rw [hg6']
  exact mv_arith hu (uround_le hp) hk0 (hu6.trans hg6) (hk6.trans hg6) (gr_nonneg hu _)
    (abs_nonneg _) (abs_nonneg _) (mul_nonneg (abs_nonneg _) hS) (abs_nonneg _) hVW y2 hA hg1 hzz hba

/-- The error of the elements of `armas_ext_axpby_dx_unsafe`, when `dx` is a correction of `alpha`. -/
theorem axpbyDxVal_err {beta x alpha dx y : ℚ} (hb : Fl p beta) (hx : Fl p x) (ha : Fl p alpha)
    (hy : Fl p y) (hdx : |dx * x| ≤ uround p * |x * (alpha + dx)|) :
    |axpbyDxVal rn tp beta x alpha dx y - (y * beta + x * (alpha + dx))| ≤
      3 * uround p * |y * beta + x * (alpha + dx)| +
      30 * uround p ^ 2 * (|y * beta| + |x * (alpha + dx)|) := by
  have hu := (uround_pos p).le
  have huh := uround_le hp
  obtain ⟨fx, x1, x2⟩ := prod_err hp R P hx ha
  obtain ⟨fy, y1, y2⟩ := prod_err hp R P hy hb
  obtain ⟨fs, s1, s2⟩ := twosum_err hp R fx fy
  have hxp : |(tp x alpha).1| ≤ (1 + uround p) * |x * alpha| := by
    calc |(tp x alpha).1| = |x * alpha - (tp x alpha).2| := by rw [← x1]; ring_nf
      _ ≤ |x * alpha| + |(tp x alpha).2| := abs_sub _ _
      _ ≤ _ := by linarith
  have hyp : |(tp y beta).1| ≤ (1 + uround p) * |y * beta| := by
    calc |(tp y beta).1| = |y * beta - (tp y beta).2| := by rw [← y1]; ring_nf
      _ ≤ |y * beta| + |(tp y beta).2| := abs_sub _ _
      _ ≤ _ := by linarith
  have hxa : |x * alpha| ≤ (1 + uround p) * |x * (alpha + dx)| := by
    calc |x * alpha| = |x * (alpha + dx) - dx * x| := by ring_nf
      _ ≤ |x * (alpha + dx)| + |dx * x| := abs_sub _ _
      _ ≤ _ := by linarith
  unfold axpbyDxVal
  dsimp only
  have rz := R.rel hp (dx * x)
  have rq := R.rel hp ((tp x alpha).2 + (tp y beta).2)
  set z0 := rn (dx * x)
  set q := rn ((tp x alpha).2 + (tp y beta).2)
  set s := twosum rn (tp x alpha).1 (tp y beta).1
  have r1 := R.rel hp (s.1 + z0)
  set v1 := rn (s.1 + z0)
  have r2 := R.rel hp (v1 + s.2)
  set v2 := rn (v1 + s.2)
  have r3 := R.rel hp (v2 + q)
  set v3 := rn (v2 + q)
  set px := (tp x alpha).2
  set py := (tp y beta).2
  set hx' := (tp x alpha).1
  set hy' := (tp y beta).1
  obtain ⟨V, hV⟩ : ∃ V, V = y * beta + x * (alpha + dx) := ⟨_, rfl⟩
  obtain ⟨Wx, hWx⟩ : ∃ W, W = |x * (alpha + dx)| := ⟨_, rfl⟩
  obtain ⟨Wy, hWy⟩ : ∃ W, W = |y * beta| := ⟨_, rfl⟩
  rw [← hV, ← hWx, ← hWy]
  rw [← hWx] at hxa hdx
  rw [← hWy] at hyp y2
  have hVW : |V| ≤ Wy + Wx := by rw [hV, hWx, hWy]; exact abs_add_le _ _
  have W0x : 0 ≤ Wx := by rw [hWx]; exact abs_nonneg _
  have W0y : 0 ≤ Wy := by rw [hWy]; exact abs_nonneg _
  set u := uround p
  have hxp' : |hx'| ≤ (1 + u) * ((1 + u) * Wx) :=
    hxp.trans (mul_le_mul_of_nonneg_left hxa (by linarith))
  have hx2' : |px| ≤ u * ((1 + u) * Wx) := x2.trans (mul_le_mul_of_nonneg_left hxa hu)
  have hs2 : |s.2| ≤ u * ((1 + u) * ((1 + u) * Wx) + (1 + u) * Wy) :=
    s2.trans (mul_le_mul_of_nonneg_left ((abs_add_le _ _).trans (add_le_add hxp' hyp)) hu)
  have hq0 : |px + py| ≤ u * ((1 + u) * Wx) + u * Wy :=
    (abs_add_le _ _).trans (add_le_add hx2' y2)
  -- one bound for all corrections
  obtain ⟨G, hG⟩ : ∃ G, G = u * (1 + u) ^ 2 * (Wy + Wx) := ⟨_, rfl⟩
  have uW := mul_nonneg hu W0x
  have uWy := mul_nonneg hu W0y
  have uuW := mul_nonneg hu uW
  have uuWy := mul_nonneg hu uWy
  have uuuW := mul_nonneg hu uuW
  have uuuWy := mul_nonneg hu uuWy
  have bD : |dx * x| ≤ G := by
    rw [hG, show u * (1 + u) ^ 2 * (Wy + Wx) = u * Wy + u * Wx + 2 * (u * (u * Wy)) + 2 * (u * (u * Wx))
      + u * (u * (u * Wy)) + u * (u * (u * Wx)) by ring]
    linarith
  have bC : |s.2| ≤ G := by
    rw [hG, show u * (1 + u) ^ 2 * (Wy + Wx) = u * Wy + u * Wx + 2 * (u * (u * Wy)) + 2 * (u * (u * Wx))
      + u * (u * (u * Wy)) + u * (u * (u * Wx)) by ring]
    linarith [hs2]
  have bQ : |px + py| ≤ G := by
    rw [hG, show u * (1 + u) ^ 2 * (Wy + Wx) = u * Wy + u * Wx + 2 * (u * (u * Wy)) + 2 * (u * (u * Wx))
      + u * (u * (u * Wy)) + u * (u * (u * Wx)) by ring]
    linarith [hq0]
  have G0 : 0 ≤ G := (abs_nonneg _).trans bD
  have A1 : |V - s.2 - (px + py)| ≤ |V| + G + G :=
    (abs_sub _ _).trans (add_le_add ((abs_sub _ _).trans (add_le_add le_rfl bC)) bQ)
  have A2 : |V - (px + py)| ≤ |V| + G := (abs_sub _ _).trans (add_le_add le_rfl bQ)
  have e1 : |v1 - (V - s.2 - (px + py))| ≤ (1 + u) * (u * G) + u * (|V| + G + G) := by
    refine (round_err hu r1 (d := u * G) ?_).trans
      (add_le_add le_rfl (mul_le_mul_of_nonneg_left A1 hu))
    have : s.1 + z0 - (V - s.2 - (px + py)) = z0 - dx * x := by
      rw [hV]; linarith
    rw [this]
    exact rz.trans (mul_le_mul_of_nonneg_left bD hu)
  have e2 : |v2 - (V - (px + py))| ≤
      (1 + u) * ((1 + u) * (u * G) + u * (|V| + G + G)) + u * (|V| + G) := by
    refine (round_err hu r2 (d := (1 + u) * (u * G) + u * (|V| + G + G)) ?_).trans
      (add_le_add le_rfl (mul_le_mul_of_nonneg_left A2 hu))
    have : v1 + s.2 - (V - (px + py)) = v1 - (V - s.2 - (px + py)) := by ring
    rw [this]; exact e1
  have e3 : |v3 - V| ≤ (1 + u) * (((1 + u) * ((1 + u) * (u * G) + u * (|V| + G + G)) +
      u * (|V| + G)) + u * G) + u * |V| := by
    refine round_err hu r3 ?_
    have : v2 + q - V = (v2 - (V - (px + py))) + (q - (px + py)) := by ring
    rw [this]
    exact (abs_add_le _ _).trans (add_le_add e2 (rq.trans (mul_le_mul_of_nonneg_left bQ hu)))
  refine e3.trans ?_
  have V0 := abs_nonneg V
  rw [hG]
  exact dx_arith hu huh hVW V0

end

section
variable {p : Nat} {rn : ℚ → ℚ} {tp : ℚ → ℚ → ℚ × ℚ}

theorem axpbyDx_run {m : Mem ℚ} {X Y : View} {x y : Nat → ℚ} (beta alpha dx : ℚ)
    (hX : HoldsV m X x) (hY : HoldsV m Y y) (vX : X.isVec) (vY : Y.isVec) (wY : Y.WF)
    (hXY : X.size = Y.size) (hd : Disjoint X.foot Y.foot) :
    Runs (extAxpbyDxUnsafe rn tp m beta Y alpha dx X)
      (fun m' => HoldsV m' Y (fun i => axpbyDxVal rn tp beta (x i) alpha dx (y i)) ∧
        Frame Y.foot m m') := by
  unfold extAxpbyDxUnsafe
  refine Runs.bind (P := fun q => UpdV m Y y (fun i => axpbyDxVal rn tp beta (x i) alpha dx (y i))
      (fun k => k < X.size) q.2)
    (Runs.forUp1 (fun i st => UpdV m Y y (fun i => axpbyDxVal rn tp beta (x i) alpha dx (y i))
      (fun k => k < i) st) (by omega) (UpdV.init_lt hY _) ?_ (fun st h => h)) ?_
  · intro i st _ hi hU
    refine Runs.rd_bind (hU.old (k := i) (by omega) (by omega))
      (Runs.rd_bind (hU.other hX vX hd i hi) ?_)
    exact Runs.wr (hU.old (k := i) (by omega) (by omega)) (hU.set_lt vY wY (by omega) rfl)
  · rintro ⟨i, st⟩ hU
    exact Runs.pure ⟨hU.done (by omega), hU.frame⟩

/-- The element written by `armas_ext_mvmult_unsafe`. -/
def mvVal (rn : ℚ → ℚ) (tp : ℚ → ℚ → ℚ × ℚ) (beta alpha y : ℚ) (a x : Nat → ℚ) (n : Nat) : ℚ :=
  let r := adotVal rn tp (tp beta y).1 (tp beta y).2 alpha a x n
  rn (r.1 + r.2)

theorem mvmult_run {m : Mem ℚ} {A X Y : View} {a : Nat → Nat → ℚ} {x y : Nat → ℚ}
    (beta alpha : ℚ) (trans : Bool) (hA : Holds m A a)
    (hX : HoldsV m X x) (hY : HoldsV m Y y) (vX : X.isVec) (vY : Y.isVec) (wY : Y.WF)
    (hs : if trans then A.cols = Y.size ∧ A.rows = X.size else A.rows = Y.size ∧ A.cols = X.size)
    (dX : Disjoint X.foot Y.foot) (dA : Disjoint A.foot Y.foot) :
    Runs (extMvmultUnsafe rn tp m beta Y alpha A X trans)
      (fun m' => HoldsV m' Y (fun i => mvVal rn tp beta alpha (y i)
        (fun k => if trans then a k i else a i k) x X.size) ∧ Frame Y.foot m m') := by
  unfold extMvmultUnsafe
  refine Runs.bind (P := fun q => UpdV m Y y (fun i => mvVal rn tp beta alpha (y i)
        (fun k => if trans then a k i else a i k) x X.size) (fun k => k < Y.size) q.2)
    (Runs.forUp1 (fun i st => UpdV m Y y (fun i => mvVal rn tp beta alpha (y i)
        (fun k => if trans then a k i else a i k) x X.size) (fun k => k < i) st) (by omega)
      (UpdV.init_lt hY _) ?_ (fun st h => h)) ?_
  · intro i st _ hi hU
    have hX' := hU.other hX vX dX
    have hA' := hU.otherM hA dA
    have hrow : HoldsV st (if trans then A.sub 0 i A.rows 1 else A.sub i 0 1 A.cols)
          (fun k => if trans then a k i else a i k) ∧
        (if trans then A.sub 0 i A.rows 1 else A.sub i 0 1 A.cols).size = X.size := by
      cases trans
      · simp only [Bool.false_eq_true, if_false] at hs ⊢
        exact ⟨by simpa using Holds.toV_row (hA'.sub (r := i) (c := 0) (nr := 1) (nc := A.cols)
          (by omega) (by omega)), by simp [View.size, hs.2]⟩
      · simp only [if_true] at hs ⊢
        exact ⟨by simpa using Holds.toV_col (hA'.sub (r := 0) (c := i) (nr := A.rows) (nc := 1)
          (by omega) (by omega)), by simp [View.size, hs.2]⟩
    refine Runs.rd_bind (hU.old (k := i) (by omega) (by omega)) ?_
    dsimp only
    refine Runs.bind (adotUnsafe_run _ _ alpha hrow.1 hX' (by rw [hrow.2])) ?_
    rintro q rfl
    refine Runs.wr (hU.old (k := i) (by omega) (by omega)) (hU.set_lt vY wY (by omega) ?_)
    rw [hrow.2]; rfl
  · rintro ⟨i, st⟩ hU
    exact Runs.pure ⟨hU.done (by omega), hU.frame⟩

theorem mvupdate_run {m : Mem ℚ} {A X Y : View} {a : Nat → Nat → ℚ} {x y : Nat → ℚ}
    (beta alpha : ℚ) (hA : Holds m A a) (wA : A.WF)
    (hX : HoldsV m X x) (hY : HoldsV m Y y) (vX : X.isVec) (vY : Y.isVec)
    (hc : A.cols = Y.size) (hr : A.rows = X.size)
    (dX : Disjoint X.foot A.foot) (dY : Disjoint Y.foot A.foot) :
    Runs (extMvupdateUnsafe rn tp m beta A alpha X Y)
      (fun m' => Holds m' A (fun i j => axpbyDxVal rn tp beta (x i) (tp alpha (y j)).1
        (tp alpha (y j)).2 (a i j)) ∧ Frame A.foot m m') := by
  unfold extMvupdateUnsafe
  refine Runs.bind (P := fun q => Upd m A a (fun i j => axpbyDxVal rn tp beta (x i)
        (tp alpha (y j)).1 (tp alpha (y j)).2 (a i j)) (fun _ j => j < A.cols) q.2)
    (Runs.forUp1 (fun k st => Upd m A a (fun i j => axpbyDxVal rn tp beta (x i)
        (tp alpha (y j)).1 (tp alpha (y j)).2 (a i j)) (fun _ j => j < k) st) (by omega)
      ((Upd.init hA _).congr (by simp)) ?_ (fun st h => h)) ?_
  · intro k st _ hk hU
    refine Runs.rd_bind (hU.other hY vY dY k (by omega)) ?_
    dsimp only
    have hb := hU.block_old (r := 0) (c := k) (nr := A.rows) (nc := 1) (by omega) (by omega)
      (fun i j _ hj => by omega)
    refine (axpbyDx_run beta _ _ (hU.other hX vX dX) (Holds.toV_col hb) vX (Or.inr rfl)
      (wA.sub (by omega) (by omega)) (by simp [View.size, hr])
      (dX.mono_right (View.sub_foot (by omega) (by omega)))).mono ?_
    rintro m' ⟨h1, h2⟩
    rw [holdsV_iff (Or.inr rfl)] at h1
    refine (hU.block wA (r := 0) (c := k) (nr := A.rows) (nc := 1) (by omega) (by omega)
      (h1.congr (fun i j _ hj => ?_)) h2).congr (fun i j hi hj => by omega)
    have : j = 0 := by rw [View.sub_cols] at hj; omega
    subst this; simp
  · rintro ⟨i, st⟩ hU
    exact Runs.pure ⟨hU.all (fun i j _ hj => hj), hU.frame⟩

end
end Armas
