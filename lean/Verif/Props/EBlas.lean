import Verif.EBlasVec
import Verif.EftDiv

/-!
# Properties C82–C85: the extended-precision vector functions

`u = 1 / 2 ^ p` is the unit roundoff and `gr u k = (1 + u) ^ k - 1`, about `k u`.  A bound
`u |T| + gr u a * gr u b * S` says that the result has the error of one rounding of the exact value
`T`, plus a part of second order in `u`: the accuracy of a computation with twice the digits.
-/

namespace Armas.Props

open Armas Finset

/-- The product of the build: with fused multiply-add in any precision, or by splitting in double
precision (`src/include/eft.h`, `src/include/x86_64/eftops.h`). -/
def Build (p : Nat) (rn : ℚ → ℚ) (tp : ℚ → ℚ → ℚ × ℚ) : Prop :=
  tp = twoprodFma rn ∨ p = 53 ∧ tp = twoprod rn fact64

private theorem Build.ok {p : Nat} {rn : ℚ → ℚ} {tp : ℚ → ℚ → ℚ × ℚ} (hp : 0 < p)
    (R : Nearest p rn) (b : Build p rn tp) : ProdOk p rn tp := by
  rcases b with rfl | ⟨rfl, rfl⟩
  · exact fun a b ha hb => R.twoprodFma_exact hp ha hb
  · exact fun a b ha hb => R.twoprod_exact (s := 27) (by norm_num) (by norm_num) (by norm_num) ha hb

private theorem flnat (n : ℕ) (h : n < 2 ^ 53) : Fl 53 (n : ℚ) :=
  ⟨n, 0, by rw [abs_of_nonneg (by positivity)]; exact_mod_cast h, by simp⟩

private def exm : Mem ℚ := fun a => if a < 40 then some (a : ℚ) else none

private theorem exv {n k : Nat} (h : n + k ≤ 40) :
    HoldsV exm ⟨k, 7, n, 1⟩ (fun i => ((k + i : ℕ) : ℚ)) := by
  intro i hi
  have hi : i < n := by simpa [View.size] using hi
  have : View.vat ⟨k, 7, n, 1⟩ i = k + i := by
    simp only [View.vat, View.inc]
    split
    · next h =>
      have : i = 0 := by omega
      subst this; simp
    · simp
  rw [this, exm, if_pos (by omega)]

section
variable {p : Nat} {rn : ℚ → ℚ} {tp : ℚ → ℚ → ℚ × ℚ}

/-- C82 for `armas_ext_dot_unsafe`: the inner product has the accuracy of a computation with twice
the digits, for vectors of any length. -/
theorem C82_dot (hp : 0 < p) (R : Nearest p rn) (B : Build p rn tp) {m : Mem ℚ} {X Y : View}
    {x y : Nat → ℚ} (hX : HoldsV m X x) (hY : HoldsV m Y y) (hXY : X.size ≤ Y.size)
    (fx : ∀ i, i < X.size → Fl p (x i)) (fy : ∀ i, i < X.size → Fl p (y i)) :
    ∃ r, extDot rn tp m X Y = .ok r ∧
      |r - ∑ i ∈ range X.size, x i * y i| ≤ uround p * |∑ i ∈ range X.size, x i * y i| +
        gr (uround p) ((X.size + 1) / 2 + 4) * gr (uround p) ((X.size + 1) / 2 + 3) *
          ∑ i ∈ range X.size, |x i * y i| := by
  obtain ⟨r, h1, sc, rfl, h2⟩ := extDot_spec hp R (B.ok hp R) hX hY hXY fx fy
  exact ⟨_, h1, h2.final hp R⟩

example := C82_dot (p := 53) (by norm_num) (rne_nearest (by norm_num)) (.inr ⟨rfl, rfl⟩)
  (exv (n := 5) (k := 3) (by omega)) (exv (n := 5) (k := 20) (by omega)) le_rfl
  (fun i hi => flnat _ (by have : i < 5 * 1 := hi; omega))
  (fun i hi => flnat _ (by have : i < 5 * 1 := hi; omega))

/-- C82 for `armas_ext_adot`: `alpha * x^T * y` with the accuracy of twice the digits. -/
theorem C82_adot (hp : 0 < p) (R : Nearest p rn) (B : Build p rn tp) {m : Mem ℚ} {X Y : View}
    {x y : Nat → ℚ} {result alpha : ℚ} (hX : HoldsV m X x) (hY : HoldsV m Y y)
    (vX : X.isVec) (vY : Y.isVec) (hXY : X.size = Y.size)
    (fx : ∀ i, i < X.size → Fl p (x i)) (fy : ∀ i, i < X.size → Fl p (y i)) (fa : Fl p alpha) :
    ∃ r, extAdot rn tp m result alpha X Y = .ok (0, r) ∧
      |r - alpha * ∑ i ∈ range X.size, x i * y i| ≤
        uround p * |alpha * ∑ i ∈ range X.size, x i * y i| +
        gr (uround p) (X.size + 8) * gr (uround p) (X.size + 2) *
          (|alpha| * ∑ i ∈ range X.size, |x i * y i|) := by
  obtain ⟨⟨e, r⟩, h1, rfl, h2⟩ := extAdot_spec hp R (B.ok hp R) (result := result) hX hY vX vY hXY
    fx fy fa
  exact ⟨r, h1, h2⟩

example := C82_adot (p := 53) (result := 9) (alpha := ((7 : ℕ) : ℚ)) (by norm_num)
  (rne_nearest (by norm_num)) (.inl rfl)
  (exv (n := 5) (k := 3) (by omega)) (exv (n := 5) (k := 20) (by omega)) (.inr rfl) (.inr rfl) rfl
  (fun i hi => flnat _ (by have : i < 5 * 1 := hi; omega))
  (fun i hi => flnat _ (by have : i < 5 * 1 := hi; omega)) (flnat 7 (by norm_num))

/-- `armas_ext_adot` refuses operands that are not vectors or differ in length, and leaves `*result`
alone. -/
theorem C82_adot_error {m : Mem ℚ} {X Y : View} {result alpha : ℚ}
    (h : ¬ X.isVec ∨ ¬ Y.isVec ∨ X.size ≠ Y.size) :
    extAdot rn tp m result alpha X Y = .ok (-1, result) := by
  unfold extAdot
  split
  · rfl
  · next hv =>
    rw [if_pos]
    · rfl
    · tauto

example := C82_adot_error (rn := rne 53) (tp := twoprodFma (rne 53)) (m := exm) (X := ⟨0, 1, 2, 1⟩)
  (Y := ⟨8, 1, 3, 1⟩) (result := 5) (alpha := 1) (.inr (.inr (by decide)))

/-- The pair that `armas_ext_adot_unsafe` hands back does not carry the exact value to second order:
it adds the inner product to `*h` with `fastsum`, which needs the first operand to be the larger one.
With `*h = 1`, `*l = 0` and the inner product `2 ^ 60 * 1` the pair is `(2 ^ 60, 0)`, and the 1 is
lost (`src/eblas/dot_ext.c:102`; the variant for corrected vectors, line 150, uses `twosum`). -/
theorem C82_adot_pair_false {m : Mem ℚ} (h0 : m 0 = some (2 ^ 60)) (h1 : m 1 = some 1) :
    extAdotUnsafe (rne 53) (twoprodFma (rne 53)) m 1 0 1 ⟨0, 1, 1, 1⟩ ⟨1, 1, 1, 1⟩ =
      .ok (2 ^ 60, 0) := by
  have hX : HoldsV m ⟨0, 1, 1, 1⟩ (fun _ => (2 ^ 60 : ℚ)) := fun k hk => by
    have : k = 0 := by have : k < 1 * 1 := hk; omega
    subst this; exact h0
  have hY : HoldsV m ⟨1, 1, 1, 1⟩ (fun _ => (1 : ℚ)) := fun k hk => by
    have : k = 0 := by have : k < 1 * 1 := hk; omega
    subst this; exact h1
  obtain ⟨r, h1, rfl⟩ := adotUnsafe_run (rn := rne 53) (tp := twoprodFma (rne 53)) 1 0 1 hX hY le_rfl
  rw [h1]
  congr 1
  decide +kernel

example := C82_adot_pair_false (m := fun a => if a = 0 then some (2 ^ 60) else some 1) rfl rfl

/-- C83 for `armas_ext_sum_unsafe`: the sum of the elements with the accuracy of twice the digits. -/
theorem C83_sum_unsafe (hp : 0 < p) (R : Nearest p rn) {m : Mem ℚ} {X : View} {x : Nat → ℚ}
    (hX : HoldsV m X x) (fx : ∀ i, i < X.size → Fl p (x i)) :
    ∃ r, extSumUnsafe rn m X = .ok r ∧
      |r - ∑ i ∈ range X.size, x i| ≤ uround p * |∑ i ∈ range X.size, x i| +
        gr (uround p) ((X.size + 3) / 4 + 7) * gr (uround p) ((X.size + 3) / 4 + 6) *
          ∑ i ∈ range X.size, |x i| := by
  have : Runs (extSumUnsafe rn m X) (fun r =>
      |r - ∑ i ∈ range X.size, x i| ≤ uround p * |∑ i ∈ range X.size, x i| +
        gr (uround p) ((X.size + 3) / 4 + 7) * gr (uround p) ((X.size + 3) / 4 + 6) *
          ∑ i ∈ range X.size, |x i|) := by
    unfold extSumUnsafe
    refine Runs.bind (extSum2s_spec hp R hX fx) ?_
    rintro ⟨h, l⟩ hA
    exact Runs.pure (hA.final hp R)
  exact this

example := C83_sum_unsafe (p := 53) (by norm_num) (rne_nearest (by norm_num))
  (exv (n := 7) (k := 3) (by omega)) (fun i hi => flnat _ (by have : i < 7 * 1 := hi; omega))

/-- C83 for `armas_ext_sum` with `alpha = 1`, and for the sum of the absolute values (`ARMAS_ABS`).
Other factors: `C83_sum_false`. -/
theorem C83_sum_partial (hp : 0 < p) (R : Nearest p rn) {m : Mem ℚ} {X : View} {x : Nat → ℚ}
    {result : ℚ} (absf : Bool) (hX : HoldsV m X x) (vX : X.isVec)
    (fx : ∀ i, i < X.size → Fl p (x i)) :
    ∃ r, extSum rn tp m result 1 X absf = .ok (0, r) ∧
      |r - ∑ i ∈ range X.size, (if absf then |x i| else x i)| ≤
        uround p * |∑ i ∈ range X.size, (if absf then |x i| else x i)| +
        gr (uround p) (X.size / 2 + 8) * gr (uround p) (X.size / 2 + 7) *
          ∑ i ∈ range X.size, |x i| := by
  have hu := (uround_pos p).le
  have : Runs (extSum rn tp m result 1 X absf) (fun q => q.1 = 0 ∧
      |q.2 - ∑ i ∈ range X.size, (if absf then |x i| else x i)| ≤
        uround p * |∑ i ∈ range X.size, (if absf then |x i| else x i)| +
        gr (uround p) (X.size / 2 + 8) * gr (uround p) (X.size / 2 + 7) *
          ∑ i ∈ range X.size, |x i|) := by
    unfold extSum
    rw [if_neg (by simp [vX])]
    refine Runs.bind (P := fun r => Acc p (X.size / 2 + 7)
      (∑ i ∈ range X.size, (if absf then |x i| else x i)) (∑ i ∈ range X.size, |x i|) r) ?_ ?_
    · cases absf
      · simp only [Bool.false_eq_true, if_false]
        exact (extSum2s_spec hp R hX fx).mono (fun r h => h.mono (by omega))
      · simp only [if_true]
        exact (extAsum2s_spec hp R hX fx).mono (fun r h => h.mono (by omega))
    · rintro ⟨h, l⟩ hA
      simp only [ne_eq, not_true_eq_false, if_false]
      exact Runs.pure ⟨rfl, hA.final hp R⟩
  obtain ⟨⟨e, r⟩, h1, rfl, h2⟩ := this
  exact ⟨r, h1, h2⟩

example := C83_sum_partial (p := 53) (tp := twoprodFma (rne 53)) (result := 0) (by norm_num)
  (rne_nearest (by norm_num)) true
  (exv (n := 7) (k := 3) (by omega)) (.inr rfl)
  (fun i hi => flnat _ (by have : i < 7 * 1 := hi; omega))

/-- `armas_ext_sum` with a factor other than one drops the high part of the product: after
`twoprod(result, &q, alpha, h)` the next statement overwrites `*result` with `q + alpha*l`
(`src/eblas/asum_ext.c:157-158`).  Twice the sum of the single element 1 is returned as 0. -/
theorem C83_sum_false : Fl 53 (1 : ℚ) ∧ ∀ absf : Bool,
    extSum (rne 53) (twoprodFma (rne 53)) (fun _ => some 1) 7 2 ⟨0, 1, 1, 1⟩ absf = .ok (0, 0) := by
  refine ⟨by simpa using flnat 1 (by norm_num), fun absf => ?_⟩
  cases absf
  · decide +kernel
  · decide +kernel

/-- C84: `armas_ext_axpby` computes every element of `beta*y + alpha*x` with the accuracy of twice
the digits and writes nothing else. -/
theorem C84_axpby (hp : 0 < p) (R : Nearest p rn) (B : Build p rn tp) {m : Mem ℚ} {X Y : View}
    {x y : Nat → ℚ} {alpha beta : ℚ} (hX : HoldsV m X x) (hY : HoldsV m Y y)
    (vX : X.isVec) (vY : Y.isVec) (wY : Y.WF) (hXY : X.size = Y.size)
    (hd : Disjoint X.foot Y.foot)
    (fx : ∀ i, i < X.size → Fl p (x i)) (fy : ∀ i, i < X.size → Fl p (y i))
    (fa : Fl p alpha) (fb : Fl p beta) :
    ∃ m' y', extAxpby rn tp m beta Y alpha X = .ok (0, m') ∧ HoldsV m' Y y' ∧
      Frame Y.foot m m' ∧ ∀ i, i < Y.size →
        |y' i - (beta * y i + alpha * x i)| ≤ uround p * |beta * y i + alpha * x i| +
          gr (uround p) 3 * gr (uround p) 2 * (|beta * y i| + |alpha * x i|) := by
  have P := B.ok hp R
  have : Runs (extAxpby rn tp m beta Y alpha X) (fun q => q.1 = 0 ∧
      HoldsV q.2 Y (fun i => if beta = 1 then axpyVal rn tp (x i) alpha (y i)
        else axpbyVal rn tp beta (x i) alpha (y i)) ∧ Frame Y.foot m q.2) := by
    unfold extAxpby
    rw [if_neg (by simp [vX, vY]), if_neg (by simp [hXY])]
    refine Runs.bind (P := fun m' => HoldsV m' Y (fun i => if beta = 1 then
      axpyVal rn tp (x i) alpha (y i) else axpbyVal rn tp beta (x i) alpha (y i)) ∧
      Frame Y.foot m m') ?_ (fun m' h => Runs.pure ⟨rfl, h⟩)
    unfold extAxpbyUnsafe
    by_cases hb : beta = 1
    · simp only [hb, if_true]
      exact upd2_spec (fun x y => axpyVal rn tp x alpha y) hX hY vX vY wY hXY hd
    · simp only [hb, if_false]
      exact upd2_spec (fun x y => axpbyVal rn tp beta x alpha y) hX hY vX vY wY hXY hd
  obtain ⟨⟨e, m'⟩, h1, rfl, h2, h3⟩ := this
  refine ⟨m', _, h1, h2, h3, fun i hi => ?_⟩
  rw [← hXY] at hi
  rw [add_comm (beta * y i), add_comm |beta * y i|, mul_comm beta, mul_comm alpha]
  by_cases hb : beta = 1
  · simp only [hb, if_true, mul_one]
    exact axpyVal_err hp R P (fx i hi) fa (fy i hi)
  · simp only [hb, if_false]
    exact axpbyVal_err hp R P fb (fx i hi) fa (fy i hi)

private theorem exd {n k l : Nat} (h : n + k ≤ l) :
    Disjoint (View.foot ⟨k, 7, n, 1⟩) (View.foot ⟨l, 7, n, 1⟩) := by
  rw [Set.disjoint_left]
  rintro a ⟨i, j, hi, hj, rfl⟩ ⟨i', j', hi', hj', e⟩
  simp only [View.at'] at *
  have : j = 0 := by omega
  have : j' = 0 := by omega
  subst_vars
  omega

example := C84_axpby (p := 53) (alpha := ((7 : ℕ) : ℚ)) (beta := ((3 : ℕ) : ℚ)) (by norm_num)
  (rne_nearest (by norm_num)) (.inl rfl)
  (exv (n := 5) (k := 3) (by omega)) (exv (n := 5) (k := 20) (by omega)) (.inr rfl) (.inr rfl)
  (.inl (by decide)) rfl (exd (by omega))
  (fun i hi => flnat _ (by have : i < 5 * 1 := hi; omega))
  (fun i hi => flnat _ (by have : i < 5 * 1 := hi; omega)) (flnat 7 (by norm_num))
  (flnat 3 (by norm_num))

/-- C85 for `armas_ext_mvmult`: every element of `beta*y + alpha*A*x` (or with `A^T`) has an error
of three roundings plus a part of second order.  The intended bound has one rounding; the sum of
`beta*y` and the product is formed by `fastsum` with operands in any order, which can lose two
more. -/
theorem C85_mvmult_partial (hp : 0 < p) (R : Nearest p rn) (B : Build p rn tp) {m : Mem ℚ}
    {A X Y : View} {a : Nat → Nat → ℚ} {x y : Nat → ℚ} {alpha beta : ℚ} (trans : Bool)
    (hA : Holds m A a) (hX : HoldsV m X x) (hY : HoldsV m Y y)
    (vX : X.isVec) (vY : Y.isVec) (wY : Y.WF) (hn : X.size ≠ 0) (hn' : Y.size ≠ 0)
    (hs : if trans then A.cols = Y.size ∧ A.rows = X.size else A.rows = Y.size ∧ A.cols = X.size)
    (dX : Disjoint X.foot Y.foot) (dA : Disjoint A.foot Y.foot)
    (fA : ∀ i j, i < A.rows → j < A.cols → Fl p (a i j))
    (fx : ∀ i, i < X.size → Fl p (x i)) (fy : ∀ i, i < Y.size → Fl p (y i))
    (fa : Fl p alpha) (fb : Fl p beta) :
    ∃ m' y', extMvmult rn tp m beta Y alpha A X trans = .ok (0, m') ∧ HoldsV m' Y y' ∧
      Frame Y.foot m m' ∧ ∀ i, i < Y.size →
        |y' i - (beta * y i + alpha * ∑ k ∈ range X.size, (if trans then a k i else a i k) * x k)| ≤
          3 * uround p *
            |beta * y i + alpha * ∑ k ∈ range X.size, (if trans then a k i else a i k) * x k| +
          8 * gr (uround p) (X.size + 7) ^ 2 * (1 + gr (uround p) (X.size + 7)) ^ 2 *
            (|beta * y i| + |alpha| * ∑ k ∈ range X.size, |(if trans then a k i else a i k) * x k|) := by
  have P := B.ok hp R
  have hu := (uround_pos p).le
  have : Runs (extMvmult rn tp m beta Y alpha A X trans) (fun q => q.1 = 0 ∧
      HoldsV q.2 Y (fun i => mvVal rn tp beta alpha (y i)
        (fun k => if trans then a k i else a i k) x X.size) ∧ Frame Y.foot m q.2) := by
    unfold extMvmult
    rw [if_neg (by cases trans <;> simp at hs <;> simp [hs.1, hs.2, hn, hn']),
      if_neg (by simp [vX, vY]), if_neg (by simpa using hs)]
    exact Runs.bind (mvmult_run beta alpha trans hA hX hY vX vY wY hs dX dA)
      (fun m' h => Runs.pure ⟨rfl, h⟩)
  obtain ⟨⟨e, m'⟩, h1, rfl, h2, h3⟩ := this
  refine ⟨m', _, h1, h2, h3, fun i hi => ?_⟩
  have fr : ∀ k, k < X.size → Fl p (if trans then a k i else a i k) := by
    intro k hk
    cases trans
    · simp only [Bool.false_eq_true, if_false] at hs ⊢
      exact fA _ _ (by omega) (by omega)
    · simp only [if_true] at hs ⊢
      exact fA _ _ (by omega) (by omega)
  have acc := dotFold_acc hp R P X.size fr fx
  unfold mvVal adotVal
  by_cases h0 : alpha = 0
  · simp only [h0, if_true, zero_mul, add_zero, abs_zero]
    rw [(P beta (y i) fb (fy i hi)).2]
    have := R.rel hp (beta * y i)
    have h4 : 0 ≤ uround p * |beta * y i| := mul_nonneg hu (abs_nonneg _)
    have h5 : 0 ≤ 8 * gr (uround p) (X.size + 7) ^ 2 * (1 + gr (uround p) (X.size + 7)) ^ 2 *
      |beta * y i| := by positivity
    linarith
  · rw [if_neg h0]
    exact mv_final hp R P acc fa fb (fy i hi)

private theorem exM : Holds exm ⟨0, 3, 3, 2⟩ (fun i j => ((i + 3 * j : ℕ) : ℚ)) := by
  intro i j hi hj
  simp only at hi hj
  have : View.at' ⟨0, 3, 3, 2⟩ i j = i + 3 * j := by simp [View.at']; ring
  rw [this, exm, if_pos (by omega)]

private theorem exdM {n k : Nat} (h : 6 ≤ k) :
    Disjoint (View.foot ⟨0, 3, 3, 2⟩) (View.foot ⟨k, 7, n, 1⟩) := by
  rw [Set.disjoint_left]
  rintro a ⟨i, j, hi, hj, rfl⟩ ⟨i', j', hi', hj', e⟩
  simp only [View.at'] at *
  have : j' = 0 := by omega
  subst this
  omega

example := C85_mvmult_partial (p := 53) (alpha := ((7 : ℕ) : ℚ)) (beta := ((3 : ℕ) : ℚ))
  (by norm_num) (rne_nearest (by norm_num)) (.inr ⟨rfl, rfl⟩) true exM
  (exv (n := 3) (k := 10) (by omega)) (exv (n := 2) (k := 20) (by omega)) (.inr rfl) (.inr rfl)
  (.inl (by decide)) (by decide) (by decide) (by decide)
  (by rw [Set.disjoint_left]
      rintro a ⟨i, j, hi, hj, rfl⟩ ⟨i', j', hi', hj', e⟩
      simp only [View.at'] at *
      have : j = 0 := by omega
      have : j' = 0 := by omega
      subst_vars
      omega)
  (exdM (by omega))
  (fun i j hi hj => flnat _ (by simp only at hi hj; omega))
  (fun i hi => flnat _ (by have : i < 3 * 1 := hi; omega))
  (fun i hi => flnat _ (by have : i < 2 * 1 := hi; omega)) (flnat 7 (by norm_num))
  (flnat 3 (by norm_num))

/-- C85 for `armas_ext_mvupdate`: every element of `beta*A + alpha*x*y^T` has an error of three
roundings plus a part of second order.  The intended bound has one rounding; the code adds the
corrections one after the other to the rounded sum. -/
theorem C85_mvupdate_partial (hp : 0 < p) (R : Nearest p rn) (B : Build p rn tp) {m : Mem ℚ}
    {A X Y : View} {a : Nat → Nat → ℚ} {x y : Nat → ℚ} {alpha beta : ℚ}
    (hA : Holds m A a) (wA : A.WF) (hX : HoldsV m X x) (hY : HoldsV m Y y)
    (vX : X.isVec) (vY : Y.isVec) (hn : X.size ≠ 0) (hn' : Y.size ≠ 0)
    (hc : A.cols = Y.size) (hr : A.rows = X.size)
    (dX : Disjoint X.foot A.foot) (dY : Disjoint Y.foot A.foot)
    (fA : ∀ i j, i < A.rows → j < A.cols → Fl p (a i j))
    (fx : ∀ i, i < X.size → Fl p (x i)) (fy : ∀ i, i < Y.size → Fl p (y i))
    (fa : Fl p alpha) (fb : Fl p beta) :
    ∃ m' a', extMvupdate rn tp m beta A alpha X Y = .ok (0, m') ∧ Holds m' A a' ∧
      Frame A.foot m m' ∧ ∀ i j, i < A.rows → j < A.cols →
        |a' i j - (beta * a i j + alpha * x i * y j)| ≤
          3 * uround p * |beta * a i j + alpha * x i * y j| +
          30 * uround p ^ 2 * (|beta * a i j| + |alpha * x i * y j|) := by
  have P := B.ok hp R
  have : Runs (extMvupdate rn tp m beta A alpha X Y) (fun q => q.1 = 0 ∧
      Holds q.2 A (fun i j => axpbyDxVal rn tp beta (x i) (tp alpha (y j)).1
        (tp alpha (y j)).2 (a i j)) ∧ Frame A.foot m q.2) := by
    unfold extMvupdate
    rw [if_neg (by simp [hc, hr, hn, hn']), if_neg (by simp [vX]), if_neg (by simp [vY]),
      if_neg (by simp [hc, hr])]
    exact Runs.bind (mvupdate_run beta alpha hA wA hX hY vX vY hc hr dX dY)
      (fun m' h => Runs.pure ⟨rfl, h⟩)
  obtain ⟨⟨e, m'⟩, h1, rfl, h2, h3⟩ := this
  refine ⟨m', _, h1, h2, h3, fun i j hi hj => ?_⟩
  obtain ⟨f1, e1, e2⟩ := prod_err hp R P fa (fy j (by omega))
  have := axpbyDxVal_err hp R P (dx := (tp alpha (y j)).2) fb (fx i (by omega)) f1 (fA i j hi hj) (by
    rw [e1, abs_mul, abs_mul]
    calc _ ≤ uround p * |alpha * y j| * |x i| := mul_le_mul_of_nonneg_right e2 (abs_nonneg _)
      _ = _ := by ring)
  rw [e1, show a i j * beta = beta * a i j by ring,
    show x i * (alpha * y j) = alpha * x i * y j by ring] at this
  exact this

example := C85_mvupdate_partial (p := 53) (alpha := ((7 : ℕ) : ℚ)) (beta := ((3 : ℕ) : ℚ))
  (by norm_num) (rne_nearest (by norm_num)) (.inl rfl) exM (.inl (by decide))
  (exv (n := 3) (k := 10) (by omega)) (exv (n := 2) (k := 20) (by omega)) (.inr rfl) (.inr rfl)
  (by decide) (by decide) rfl rfl (exdM (by omega)).symm (exdM (by omega)).symm
  (fun i j hi hj => flnat _ (by simp only at hi hj; omega))
  (fun i hi => flnat _ (by have : i < 3 * 1 := hi; omega))
  (fun i hi => flnat _ (by have : i < 2 * 1 := hi; omega)) (flnat 7 (by norm_num))
  (flnat 3 (by norm_num))

end
end Armas.Props
