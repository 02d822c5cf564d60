import Verif.QrLemmas
import Verif.Demo

/-!
# C55: Householder reflectors and QR factorization
-/

namespace Armas.Props

open Armas Classical Finset

/-- The vector `(a; x)`. -/
def consV (a : ℝ) (x : Nat → ℝ) : Nat → ℝ
  | 0 => a
  | k + 1 => x k

/-- `(I - t w wᵀ) z` for vectors of length `n`. -/
noncomputable def reflV (n : Nat) (t : ℝ) (w z : Nat → ℝ) (i : Nat) : ℝ := z i - t * w i * ∑ l ∈ range n, w l * z l

/-- `I - t w wᵀ` is orthogonal: it keeps all inner products. -/
def OrthogonalRefl (n : Nat) (t : ℝ) (w : Nat → ℝ) : Prop :=
  ∀ y z : Nat → ℝ, ∑ i ∈ range n, reflV n t w y i * reflV n t w z i = ∑ i ∈ range n, y i * z i

theorem orth_of {n : Nat} {t : ℝ} {w : Nat → ℝ} (h : t = 0 ∨ t * ∑ l ∈ range n, w l ^ 2 = 2) :
    OrthogonalRefl n t w := by
  intro y z
  have e : ∀ i, reflV n t w y i * reflV n t w z i = y i * z i - t * (∑ l ∈ range n, w l * z l) * (w i * y i) -
      t * (∑ l ∈ range n, w l * y l) * (w i * z i) +
      t ^ 2 * (∑ l ∈ range n, w l * z l) * (∑ l ∈ range n, w l * y l) * w i ^ 2 := by
    intro i; unfold reflV; ring
  rw [sum_congr rfl fun i _ => e i, sum_add_distrib, sum_sub_distrib, sum_sub_distrib, ← mul_sum, ← mul_sum, ← mul_sum]
  rcases h with rfl | h
  · simp
  · linear_combination t * (∑ l ∈ range n, w l * z l) * (∑ l ∈ range n, w l * y l) * h

private theorem sum_cons (n : Nat) (a : ℝ) (x z : Nat → ℝ) (b : ℝ) :
    ∑ l ∈ range (n + 1), consV a x l * consV b z l = a * b + ∑ l ∈ range n, x l * z l := by
  rw [sum_range_succ']
  simp only [consV]
  ring

/-- C55, scaled reflectors (`ARMAS_UNIT`; the form used by all factorizations): for every vector `(a; x)`, every length, `v` (left in
`X`), `tau` and `beta` (left in `a11`) are such that `H = I - tau (1;v)(1;v)ᵀ` is orthogonal and `H (a;x) = (beta; 0)` — with
`ARMAS_HHNEGATIVE` and `x ≠ 0`, `(-beta; 0)`.  `beta² = a² + ‖x‖²`, and with `ARMAS_NONNEG` and `x ≠ 0`, `beta ≥ 0`.  The rescaling
loop for very small vectors terminates.  Only `X`, `a11`, `tau` change. -/
theorem C55_house {safmin : ℝ} {m : Mem ℝ} {X : View} {x : Nat → ℝ} {a t0 : ℝ} {a11 tau : Nat} (neg nonneg : Bool)
    (h0 : 0 < safmin) (h1 : safmin < 1) (hX : X.isVec) (wX : X.WF) (hx : HoldsV m X x) (ha : m a11 = some a)
    (ht : m tau = some t0) (da : a11 ∉ X.foot) (dt : tau ∉ X.foot) (dat : a11 ≠ tau) :
    Runs (house safmin m a11 X tau true neg nonneg) (fun m' => ∃ v t b, HoldsV m' X v ∧ m' tau = some t ∧ m' a11 = some b ∧
      Frame (X.foot ∪ {a11, tau}) m m' ∧
      OrthogonalRefl (X.size + 1) t (consV 1 v) ∧
      (∀ i, i < X.size + 1 → reflV (X.size + 1) t (consV 1 v) (consV a x) i =
        if i = 0 then (if neg ∧ ∃ k, k < X.size ∧ x k ≠ 0 then -b else b) else 0) ∧
      b ^ 2 = a ^ 2 + ∑ k ∈ range X.size, x k ^ 2 ∧
      (nonneg = true → (∃ k, k < X.size ∧ x k ≠ 0) → 0 ≤ b) ∧
      (nonneg = false → (∃ k, k < X.size ∧ x k ≠ 0) → a * (if neg then -b else b) ≤ 0)) := by
  unfold house
  rw [if_pos rfl]
  refine (householder_spec neg nonneg h0 h1 hX wX hx ha ht da dt dat).mono ?_
  rintro m' ⟨v, t, b, hv, hb, htt, hF, hcase⟩
  refine ⟨v, t, b, hv, htt, hb, hF, ?_⟩
  rcases hcase with ⟨hS, rfl, rfl, rfl⟩ | ⟨hS, hI⟩
  · have hz : ∀ k, k < X.size → v k = 0 := by
      intro k hk
      have := (sum_eq_zero_iff_of_nonneg (fun k _ => sq_nonneg (v k))).mp hS k (mem_range.mpr hk)
      exact pow_eq_zero_iff (two_ne_zero) |>.mp this
    have hne : ¬ ∃ k, k < X.size ∧ v k ≠ 0 := by
      rintro ⟨k, hk, h⟩; exact h (hz k hk)
    refine ⟨orth_of (Or.inl rfl), ?_, by rw [hS, add_zero], fun _ h => absurd h hne, fun _ h => absurd h hne⟩
    intro i hi
    rw [if_neg (c := (neg = true ∧ _)) (fun h => hne h.2)]
    cases i with
    | zero => simp [reflV, consV]
    | succ i => simp [reflV, consV, hz i (by omega)]
  · have hne : ∃ k, k < X.size ∧ x k ≠ 0 := by
      by_contra hcon
      push Not at hcon
      have : ∑ k ∈ range X.size, x k ^ 2 = 0 := sum_eq_zero fun k hk => by rw [hcon k (mem_range.mp hk)]; simp
      linarith
    have hsum : ∑ l ∈ range (X.size + 1), consV 1 v l ^ 2 = 1 + ∑ k ∈ range X.size, v k ^ 2 := by
      rw [sum_congr rfl fun l _ => pow_two (consV 1 v l), sum_cons]
      rw [sum_congr rfl fun l _ => (pow_two (v l)).symm]; ring
    refine ⟨orth_of (Or.inr (by rw [hsum]; exact hI.norm)), ?_, hI.sq, fun h _ => hI.sign h,
      fun h _ => by have := hI.opp h; cases neg <;> simpa [hhSigma] using this⟩
    have hf : t * (1 * a + ∑ k ∈ range X.size, v k * x k) = a - hhSigma neg * b := by rw [one_mul]; exact hI.first
    intro i hi
    unfold reflV
    rw [sum_cons]
    cases i with
    | zero =>
      simp only [consV, mul_one, if_true]
      rw [hf]
      cases neg
      · simp [hhSigma]
      · rw [if_pos ⟨rfl, hne⟩]; simp [hhSigma]
    | succ i =>
      rw [if_neg (by omega)]
      simp only [consV]
      have := hI.rest i (by omega)
      linear_combination -v i * hf - this

example := C55_house (safmin := 1 / 2) (m := tot (fun p => (p : ℝ))) (X := ⟨10, 4, 4, 1⟩) (a11 := 9) (tau := 50) false true
  (by norm_num) (by norm_num) (Or.inr rfl) (Or.inl (by decide)) (holdsV_tot _ _) rfl rfl
  (by rintro ⟨i, j, hi, hj, h⟩; simp only [View.at'] at h; omega)
  (by rintro ⟨i, j, hi, hj, h⟩; simp only [View.at'] at h hi hj; omega) (by decide)

/-! ## Unscaled reflectors -/

private theorem unscaled_tail {m : Mem ℝ} {X : View} {x : Nat → ℝ} {a t0 r al b d : ℝ} {x0 tau : Nat} (nonneg : Bool)
    (hX : X.isVec) (wX : X.WF) (hx : HoldsV m X x) (ha : m x0 = some a)
    (ht : m tau = some t0) (da : x0 ∉ X.foot) (dt : tau ∉ X.foot) (dat : x0 ≠ tau)
    (hr : 0 < r) (hr2 : r ^ 2 = ∑ k ∈ range X.size, x k ^ 2) (hb : b ^ 2 = a ^ 2 + r ^ 2) (hal : al = a - b) (hd : d = hypot r al)
    (hnn : nonneg = true → 0 ≤ b) :
    Runs (do let m ← wr m x0 (al / d); let r ← scale m X (1 / d); wr r.2 tau b) (fun m' => ∃ v0 v b,
      HoldsV m' X v ∧ m' x0 = some v0 ∧ m' tau = some b ∧
      Frame (X.foot ∪ {x0, tau}) m m' ∧
      OrthogonalRefl (X.size + 1) 2 (consV v0 v) ∧
      (∀ i, i < X.size + 1 → reflV (X.size + 1) 2 (consV v0 v) (consV a x) i = if i = 0 then b else 0) ∧
      b ^ 2 = a ^ 2 + ∑ k ∈ range X.size, x k ^ 2 ∧ (nonneg = true → 0 ≤ b)) := by
  have hx' : ∀ m' : Mem ℝ, (∀ p, p ≠ x0 → p ≠ tau → m' p = m p) → HoldsV m' X x := by
    intro m' h k hk
    have := View.vat_mem_foot hX hk
    rw [h _ (fun e => da (by rw [← e]; exact this)) (fun e => dt (by rw [← e]; exact this)), hx k hk]
  refine Runs.wr_bind ha ?_
  beta_reduce
  refine Runs.bind (C06_scale (1 / d) hX wX (hx' _ fun p h _ => Mem.set_ne _ _ h)) ?_
  rintro ⟨e, m1⟩ ⟨-, k1, k2⟩
  dsimp only at k1 k2 ⊢
  have e1 : m1 tau = some t0 := by rw [k2 _ dt, Mem.set_ne _ _ (Ne.symm dat), ht]
  have e2 : m1 x0 = some (al / d) := by rw [k2 _ da, Mem.set_same]
  obtain ⟨hd0, hd2⟩ := hypot_spec r al
  rw [← hd] at hd0 hd2
  have hdpos : 0 < d := lt_of_le_of_ne hd0 (fun e => by rw [← e] at hd2; nlinarith [sq_nonneg al])
  have key : 2 * (al * a + r ^ 2) = d ^ 2 := by rw [hd2, hal]; linear_combination -hb
  have hsx : ∑ l ∈ range X.size, (1 / d * x l) * x l = r ^ 2 / d := by
    rw [hr2, sum_div]; exact sum_congr rfl fun l _ => by ring
  have hsq : ∑ l ∈ range X.size, (1 / d * x l) * (1 / d * x l) = r ^ 2 / d ^ 2 := by
    rw [hr2, sum_div]; exact sum_congr rfl fun l _ => by ring
  refine Runs.wr e1 ⟨al / d, fun k => 1 / d * x k, b, ?_, ?_, Mem.set_same _ _ _, ?_, orth_of (Or.inr ?_), ?_, ?_, hnn⟩
  · intro k hk
    rw [Mem.set_ne _ _ (fun e => dt (by rw [← e]; exact View.vat_mem_foot hX hk)), k1 k hk]
  · rw [Mem.set_ne _ _ dat, e2]
  · exact ((Frame.set (by simp) _).trans (k2.mono Set.subset_union_left)).trans (Frame.set (by simp) _)
  · rw [sum_congr rfl fun l _ => pow_two (consV _ _ l), sum_cons, hsq]
    field_simp
    rw [hd2]; ring
  · intro i hi
    unfold reflV
    rw [sum_cons, hsx]
    have e3 : al / d * a + r ^ 2 / d = d / 2 := by
      field_simp
      linarith
    rw [e3]
    cases i with
    | zero =>
      simp only [consV, if_true]
      field_simp
      rw [hal]; ring
    | succ i =>
      simp only [consV]
      rw [if_neg (by omega)]
      field_simp
      ring
  · rw [hb, hr2]

/-- C55, unscaled reflectors (no `ARMAS_UNIT`): for `x ≠ 0`, `v` (left in `x0` and `X`) has length one, so `H = I - 2 v vᵀ` is
orthogonal, and `H (a; x) = (beta; 0)` with `beta` left in `tau`.  Missing: `x = 0`, where it is false (`C55_unscaled_false`). -/
theorem C55_unscaled_partial {safmin : ℝ} {m : Mem ℝ} {X : View} {x : Nat → ℝ} {a t0 : ℝ} {x0 tau : Nat} (neg nonneg : Bool)
    (hX : X.isVec) (wX : X.WF) (hx : HoldsV m X x) (ha : m x0 = some a)
    (ht : m tau = some t0) (da : x0 ∉ X.foot) (dt : tau ∉ X.foot) (dat : x0 ≠ tau) (hne : ∃ k, k < X.size ∧ x k ≠ 0) :
    Runs (house safmin m x0 X tau false neg nonneg) (fun m' => ∃ v0 v b, HoldsV m' X v ∧ m' x0 = some v0 ∧ m' tau = some b ∧
      Frame (X.foot ∪ {x0, tau}) m m' ∧
      OrthogonalRefl (X.size + 1) 2 (consV v0 v) ∧
      (∀ i, i < X.size + 1 → reflV (X.size + 1) 2 (consV v0 v) (consV a x) i = if i = 0 then b else 0) ∧
      b ^ 2 = a ^ 2 + ∑ k ∈ range X.size, x k ^ 2 ∧ (nonneg = true → 0 ≤ b)) := by
  unfold house
  rw [if_neg (by simp)]
  unfold hhUnscaled
  refine Runs.bind (real_nrm2 hX hx) ?_
  rintro r ⟨hr0, hr2⟩
  have hr : 0 < r := by
    refine lt_of_le_of_ne hr0 fun e => ?_
    obtain ⟨k, hk, h⟩ := hne
    rw [← e, zero_pow two_ne_zero] at hr2
    have := (sum_eq_zero_iff_of_nonneg (fun k _ => sq_nonneg (x k))).mp hr2.symm k (mem_range.mpr hk)
    exact h (pow_eq_zero_iff (two_ne_zero) |>.mp this)
  rw [if_neg hr.ne']
  refine Runs.rd_bind ha ?_
  obtain ⟨hy0, hy2⟩ := hypot_spec a r
  cases nonneg with
  | false =>
    simp only [Bool.false_eq_true, if_false]
    refine (unscaled_tail false hX wX hx ha ht da dt dat hr hr2 ?_ rfl rfl (by simp)).mono fun m' h => by simpa using h
    rw [mul_pow, hy2]
    split <;> norm_num
  | true =>
    simp only [if_true]
    refine (unscaled_tail true hX wX hx ha ht da dt dat hr hr2 hy2 ?_ rfl (fun _ => hy0)).mono fun m' h => by simpa using h
    by_cases c : a ≤ 0
    · rw [if_pos c]
    · rw [if_neg c]
      have : 0 < a + hypot a r := by push Not at c; linarith
      field_simp
      linear_combination hy2

example := C55_unscaled_partial (safmin := 1 / 2) (m := tot (fun p => (p : ℝ))) (X := ⟨10, 4, 4, 1⟩) (x0 := 9) (tau := 50) false true
  (Or.inr rfl) (Or.inl (by decide)) (holdsV_tot _ _) rfl rfl
  (by rintro ⟨i, j, hi, hj, h⟩; simp only [View.at'] at h; omega)
  (by rintro ⟨i, j, hi, hj, h⟩; simp only [View.at'] at h hi hj; omega) (by decide)
  ⟨2, by decide, by norm_num [View.vat, View.inc]⟩

/-- For `x = 0` the unscaled form is no reflector to `(beta; 0)`: with `(a; x) = (1/2; 0)` the code keeps `v = (1/2; 0)` and
`beta = 1/2`, but `(I - 2 v vᵀ)(1/2; 0) = (1/4; 0)`. -/
theorem C55_unscaled_false : ∃ (m : Mem ℝ) (X : View) (x0 tau : Nat), X.isVec ∧ X.WF ∧ m x0 = some (1 / 2) ∧
    HoldsV m X (fun _ => 0) ∧
    Runs (house (1 / 4) m x0 X tau false false false) (fun m' => ∃ v0 v b, HoldsV m' X v ∧ m' x0 = some v0 ∧ m' tau = some b ∧
      reflV (X.size + 1) 2 (consV v0 v) (consV (1 / 2) (fun _ => 0)) 0 ≠ b) := by
  let m : Mem ℝ := fun p => if p = 0 then some (1 / 2) else some 0
  have hx : HoldsV m ⟨1, 1, 1, 1⟩ (fun _ => 0) := by
    intro k hk
    simp [m, View.vat]
  refine ⟨m, ⟨1, 1, 1, 1⟩, 0, 5, Or.inr rfl, Or.inl (le_refl 1), rfl, hx, ?_⟩
  unfold house
  rw [if_neg (by simp)]
  unfold hhUnscaled
  refine Runs.bind (real_nrm2 (Or.inr rfl) hx) ?_
  rintro r ⟨hr0, hr2⟩
  have : r = 0 := by simpa using hr2
  rw [if_pos this]
  refine Runs.rd_bind (v := 1 / 2) rfl (Runs.wr (v := 0) rfl ⟨1 / 2, fun _ => 0, 1 / 2, ?_, rfl, Mem.set_same _ _ _, ?_⟩)
  · intro k hk
    have : k = 0 := by simp [View.size] at hk; exact hk
    subst this
    rfl
  · simp [reflV, consV, View.size, sum_range_succ]

/-- With `ARMAS_NONNEG` and `x = 0`, `beta` can be negative although it is documented to be non-negative
(`src/lapack/house.c:246-251`). -/
theorem C55_nonneg_false : ∃ (m : Mem ℝ) (X : View) (a11 tau : Nat), X.isVec ∧ X.WF ∧ HoldsV m X (fun _ => 0) ∧
    Runs (house (1 / 4) m a11 X tau true false true) (fun m' => ∃ b, m' a11 = some b ∧ b < 0) := by
  let m : Mem ℝ := fun p => if p = 0 then some (-1) else some 0
  have hx : HoldsV m ⟨1, 1, 1, 1⟩ (fun _ => 0) := by
    intro k hk
    simp [m, View.vat]
  refine ⟨m, ⟨1, 1, 1, 1⟩, 0, 5, Or.inr rfl, Or.inl (le_refl 1), hx, ?_⟩
  unfold house
  rw [if_pos rfl]
  unfold householder
  refine Runs.bind (real_nrm2 (Or.inr rfl) hx) ?_
  rintro r ⟨hr0, hr2⟩
  have : r = 0 := by simpa using hr2
  rw [if_pos this]
  exact Runs.wr (v := 0) rfl ⟨-1, rfl, by norm_num⟩

/-! ## QR factorization -/

/-- C55, `armas_unblk_qrfactor`: for every matrix of every size, the factored matrix `f` and the scalars `t` satisfy
`A = H_0 H_1 ... H_{K-1} R` where `R` is the upper triangle (trapezoid) of `f`, `K = min(M, N)`, `H_k = I - t_k w_k w_kᵀ`,
`w_k = (0 ... 0 1 f(k+1..,k))`, and every `H_k` is orthogonal.  Only the matrix, the first `K` elements of `tau` and the first `N` cells
of the work space change.  `tau` is a column vector. -/
theorem C55_qr_partial {safmin : ℝ} (nonneg : Bool) (h0 : 0 < safmin) (h1 : safmin < 1) (ab : ℝ → ℝ) {env : Env}
    (hmin : 2 ≤ env.blas2min ∨ (env.naive = true ∧ env.recursive = false)) {fuel : Nat} {m : Mem ℝ} {A tau : View} {W : Nat}
    {a : Nat → Nat → ℝ} {s : Nat → ℝ} (hf : A.cols < fuel) (hf' : A.rows < fuel) (wA : A.WF)
    (hA : Holds m A a) (ht : ∀ k, k < min A.rows A.cols → m (tau.at' k 0) = some (s k)) (hW : WAlloc m W A.cols)
    (dt : ∀ k, k < min A.rows A.cols → tau.at' k 0 ∉ A.foot)
    (dW : Disjoint A.foot (wcells W A.cols)) (dtW : ∀ k, k < min A.rows A.cols → tau.at' k 0 ∉ wcells W A.cols) :
    Runs (unblkQr safmin nonneg ab env fuel m A tau W) (fun m' => ∃ f t, Holds m' A f ∧
      (∀ k, k < min A.rows A.cols → m' (tau.at' k 0) = some (t k)) ∧
      Frame (A.foot ∪ {p | ∃ k, k < min A.rows A.cols ∧ p = tau.at' k 0} ∪ wcells W A.cols) m m' ∧
      (∀ i j, i < A.rows → j < A.cols → qrProd A.rows (min A.rows A.cols) t f (upperPart f) i j = a i j) ∧
      (∀ k, k < min A.rows A.cols → OrthogonalRefl A.rows (t k) (qrw f k))) := by
  refine (unblkQr_spec nonneg h0 h1 ab hmin hf hf' wA hA ht hW dt dW dtW).mono ?_
  rintro m' ⟨f, t, k1, k2, -, k3, k4⟩
  refine ⟨f, t, k1, k2, k3, fun i j hi hj => ?_, fun k hk => orth_of (k4.norm k hk)⟩
  rw [← k4.prod i j hi hj]
  refine qrProd_congr (N := A.cols) (fun _ _ => rfl) (fun _ _ _ _ => rfl) (fun i j hi hj => ?_) i j hi hj
  unfold upperPart qrMid
  by_cases c : j < i
  · rw [if_pos c, if_pos ⟨by omega, c⟩]
  · rw [if_neg c, if_neg (fun h => c h.2)]

example := C55_qr_partial (safmin := 1 / 2) true (by norm_num) (by norm_num) (fun x => |x|) (env := ⟨8, 8, false, true⟩) (Or.inl (by decide))
  (fuel := 10) (m := tot (fun p => (p : ℝ))) (A := ⟨0, 8, 7, 6⟩) (tau := ⟨100, 6, 6, 1⟩) (W := 200) (s := fun k => (100 + k : ℕ))
  (by decide) (by decide) (Or.inl (by decide)) (holds_tot _ _)
  (fun k hk => by simp [tot, View.at']) (fun p hp => ⟨_, rfl⟩)
  (fun k _ => by rintro ⟨i, j, hi, hj, h⟩; simp only [View.at'] at h hi hj; omega)
  (by rw [Set.disjoint_left]; rintro p ⟨i, j, hi, hj, h⟩ ⟨h1, h2⟩; simp only [View.at'] at h hi hj; omega)
  (fun k hk => by rintro ⟨h1, h2⟩; simp only [View.at'] at h1 hk; omega)

end Armas.Props
