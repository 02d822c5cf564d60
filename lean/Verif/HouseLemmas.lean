import Verif.House
import Verif.Props.Blas1
import Verif.Props.Blas2
import Mathlib.Tactic.FieldSimp
import Mathlib.Tactic.Linarith
import Mathlib.Tactic.LinearCombination
import Mathlib.Tactic.Positivity
import Mathlib.Algebra.Order.Archimedean.Basic
import Mathlib.Algebra.BigOperators.Field

/-!
# Lemmas on Householder reflectors
-/

namespace Armas

open Classical Finset

theorem hypot_spec (a b : ℝ) : 0 ≤ hypot a b ∧ hypot a b ^ 2 = a ^ 2 + b ^ 2 := by
  refine ⟨Real.sqrt_nonneg _, ?_⟩
  rw [hypot, Real.sq_sqrt (add_nonneg (mul_self_nonneg _) (mul_self_nonneg _))]
  ring

theorem real_nrm2 {m : Mem ℝ} {X : View} {x : Nat → ℝ} (hX : X.isVec) (hx : HoldsV m X x) :
    Runs (nrm2 Real.sqrt m X) (fun v => 0 ≤ v ∧ v ^ 2 = ∑ k ∈ range X.size, x k ^ 2) := by
  refine (nrm2_spec Real.sqrt hX (fun v hv => ⟨Real.sqrt_nonneg _, Real.mul_self_sqrt hv⟩) hx).mono ?_
  rintro v ⟨h1, h2⟩
  refine ⟨h1, ?_⟩
  rw [pow_two, h2]
  exact sum_congr rfl fun k _ => by ring

/-- The sign of the first component. -/
def hhSigma (neg : Bool) : ℝ := if neg then -1 else 1

theorem houseSwitch_spec (neg nonneg : Bool) {r a be sg : ℝ} (hr : 0 < r) (hbe : 0 ≤ be) (hb2 : be ^ 2 = a ^ 2 + r ^ 2)
    (hsg : sg = 1 ∨ sg = -1) :
    let p := houseSwitch neg nonneg r a be sg
    p.1 ^ 2 = be ^ 2 ∧ p.2.1 = a - hhSigma neg * p.1 ∧ p.2.1 ≠ 0 ∧ p.2.2 = -hhSigma neg * p.2.1 / p.1 ∧
      (nonneg = true → 0 ≤ p.1) := by
  have hab : |a| < be := by
    rw [← abs_of_nonneg hbe]
    exact sq_lt_sq.mp (by nlinarith)
  obtain ⟨h1, h2⟩ := abs_lt.mp hab
  have hbpos : 0 < be := lt_of_le_of_lt (abs_nonneg a) hab
  have hfac : r * r = (be - a) * (be + a) := by nlinarith
  unfold houseSwitch hhSigma
  cases neg <;> cases nonneg
  · rcases hsg with rfl | rfl
    · simp only [Bool.false_eq_true, and_false, false_and, if_false, if_true]
      refine ⟨by ring, by ring, fun h => by linarith, by ring, fun h => absurd h (by decide)⟩
    · simp only [Bool.false_eq_true, and_false, false_and, if_false, if_true]
      refine ⟨by ring, by ring, fun h => by linarith, by ring, fun h => absurd h (by decide)⟩
  · have hd : (if a ≤ 0 then a - be else -r * (r / (a + be))) = a - be := by
      split
      · rfl
      · have : a + be ≠ 0 := by linarith
        field_simp
        linear_combination -hfac
    simp only [Bool.false_eq_true, false_and, if_false, if_true, hd]
    refine ⟨trivial, by ring, fun h => by linarith, by ring, fun _ => hbe⟩
  · rcases hsg with rfl | rfl
    · simp only [Bool.false_eq_true, and_false, false_and, if_false, if_true]
      refine ⟨by ring, by ring, fun h => by linarith, by ring, fun h => absurd h (by decide)⟩
    · simp only [Bool.false_eq_true, and_false, false_and, if_false, if_true]
      refine ⟨by ring, by ring, fun h => by linarith, by ring, fun h => absurd h (by decide)⟩
  · have hd : (if 0 ≤ a then a + be else -r * (r / (a - be))) = a + be := by
      split
      · rfl
      · have : a - be ≠ 0 := by linarith
        field_simp
        linear_combination -hfac
    simp only [and_self, if_true, hd]
    refine ⟨trivial, by ring, fun h => by linarith, by ring, fun _ => hbe⟩

/-- Without `ARMAS_NONNEG` the first element of the image gets the sign opposite to `sg`. -/
theorem houseSwitch_opp (neg : Bool) (r a be sg : ℝ) :
    hhSigma neg * (houseSwitch neg false r a be sg).1 = -(sg * be) := by
  cases neg <;> simp [houseSwitch, hhSigma]

/-- What a reflector does: `v`, `t` and `b` for `(a; x)`, `x ≠ 0`. -/
structure IsHouse (neg nonneg : Bool) (n : Nat) (a : ℝ) (x : Nat → ℝ) (v : Nat → ℝ) (t b : ℝ) : Prop where
  norm : t * (1 + ∑ k ∈ range n, v k ^ 2) = 2
  first : t * (a + ∑ k ∈ range n, v k * x k) = a - hhSigma neg * b
  rest : ∀ k, k < n → v k * (a - hhSigma neg * b) = x k
  sq : b ^ 2 = a ^ 2 + ∑ k ∈ range n, x k ^ 2
  sign : nonneg = true → 0 ≤ b
  opp : nonneg = false → a * (hhSigma neg * b) ≤ 0

theorem isHouse_of {neg nonneg : Bool} {n : Nat} {a : ℝ} {x : Nat → ℝ} {t b d : ℝ} (hS : 0 < ∑ k ∈ range n, x k ^ 2)
    (hb2 : b ^ 2 = a ^ 2 + ∑ k ∈ range n, x k ^ 2) (hd : d = a - hhSigma neg * b) (hd0 : d ≠ 0) (ht : t = -hhSigma neg * d / b)
    (hs : nonneg = true → 0 ≤ b) (ho : nonneg = false → a * (hhSigma neg * b) ≤ 0) : IsHouse neg nonneg n a x (fun k => 1 / d * x k) t b := by
  have hb0 : b ≠ 0 := by
    rintro rfl
    nlinarith [sq_nonneg a]
  have hg : hhSigma neg ^ 2 = 1 := by cases neg <;> simp [hhSigma]
  obtain ⟨g, hge⟩ : ∃ g, hhSigma neg = g := ⟨_, rfl⟩
  rw [hge] at hd ht hg
  generalize hSe : ∑ k ∈ range n, x k ^ 2 = S at hS hb2
  have e1 : ∑ k ∈ range n, (1 / d * x k) ^ 2 = S / d ^ 2 := by
    rw [← hSe, sum_div]
    exact sum_congr rfl fun k _ => by field_simp
  have e2 : ∑ k ∈ range n, 1 / d * x k * x k = S / d := by
    rw [← hSe, sum_div]
    exact sum_congr rfl fun k _ => by field_simp
  have k1 : d ^ 2 + S = -2 * g * b * d := by
    rw [hd]; linear_combination -hb2 + (2*b^2 - b^2) * 0 - b ^ 2 * hg
  have k2 : a * d + S = -g * b * d := by
    rw [hd]; linear_combination -hb2 - b ^ 2 * hg
  refine ⟨?_, ?_, ?_, ?_, hs, ho⟩
  · rw [e1, ht]
    have : -g * d / b * (1 + S / d ^ 2) = -g * (d ^ 2 + S) / (b * d) := by field_simp
    rw [this, k1]
    field_simp
    linear_combination hg
  · rw [e2, ht]
    have : -g * d / b * (a + S / d) = -g * (a * d + S) / b := by field_simp
    rw [this, k2, hge, ← hd]
    field_simp
    linear_combination hg
  · intro k _
    rw [hge, ← hd]
    field_simp
  · rw [hSe]; exact hb2


/-- Number of rescalings still needed. -/
noncomputable def rescaleVar (safmin : ℝ) (be : ℝ) : Nat :=
  if h : ∃ j : Nat, safmin ≤ be * (1 / safmin) ^ j then Nat.find h else 0

theorem rescaleVar_lt {safmin be : ℝ} (h0 : 0 < safmin) (h1 : safmin < 1) (hb : 0 < be) (hlt : be < safmin) :
    rescaleVar safmin (be * (1 / safmin)) < rescaleVar safmin be := by
  have hR : 1 < 1 / safmin := by rw [lt_div_iff₀ h0]; linarith
  have ex : ∃ j : Nat, safmin ≤ be * (1 / safmin) ^ j := by
    obtain ⟨j, hj⟩ := pow_unbounded_of_one_lt (safmin / be) hR
    refine ⟨j, ?_⟩
    rw [div_lt_iff₀ hb] at hj
    linarith
  have hf := Nat.find_spec ex
  have hf0 : Nat.find ex ≠ 0 := by
    intro h; rw [h] at hf; simp at hf; linarith
  obtain ⟨j, hj⟩ := Nat.exists_eq_succ_of_ne_zero hf0
  have ej : safmin ≤ be * (1 / safmin) * (1 / safmin) ^ j := by
    rw [hj] at hf
    calc safmin ≤ be * (1 / safmin) ^ (j + 1) := hf
      _ = be * (1 / safmin) * (1 / safmin) ^ j := by ring
  have ex' : ∃ j : Nat, safmin ≤ be * (1 / safmin) * (1 / safmin) ^ j := ⟨j, ej⟩
  unfold rescaleVar
  rw [dif_pos ex, dif_pos ex', hj]
  exact Nat.lt_succ_of_le (Nat.find_min' ex' ej)

theorem rescale_spec {safmin : ℝ} {m : Mem ℝ} {X : View} {x : Nat → ℝ} {a be : ℝ} (h0 : 0 < safmin) (h1 : safmin < 1)
    (hb : 0 < be) (hX : X.isVec) (wX : X.WF) (hx : HoldsV m X x) :
    Runs (whileR (fun st => st.2.2.1 < safmin) (houseRescale safmin X) (0, a, be, m)) (fun st =>
      st.2.1 = a * (1 / safmin) ^ st.1 ∧ HoldsV st.2.2.2 X (fun k => x k * (1 / safmin) ^ st.1) ∧
      Frame X.foot m st.2.2.2) := by
  refine (Runs.whileR (I := fun st : Nat × ℝ × ℝ × Mem ℝ => 0 < st.2.2.1 ∧ st.2.1 = a * (1 / safmin) ^ st.1 ∧
      HoldsV st.2.2.2 X (fun k => x k * (1 / safmin) ^ st.1) ∧ Frame X.foot m st.2.2.2)
    (V := fun st => rescaleVar safmin st.2.2.1) ?_ ?_).mono (fun st h => h.1.2)
  · exact ⟨hb, by simp, fun k hk => by simp [hx k hk], Frame.refl _ _⟩
  · rintro ⟨n, al, b, m'⟩ ⟨hb', ha, hx', hF⟩ hlt
    dsimp only at hb' ha hx' hF hlt
    simp only [houseRescale]
    refine Runs.bind (Props.C06_scale (1 / safmin) hX wX hx') ?_
    rintro ⟨e, m''⟩ ⟨-, h2, h3⟩
    refine Runs.pure ⟨⟨mul_pos hb' (by positivity), ?_, ?_, hF.trans h3⟩, rescaleVar_lt h0 h1 hb' hlt⟩
    · dsimp only; rw [ha]; ring
    · exact h2.congr fun k _ => by dsimp only; ring

theorem householder_spec {safmin : ℝ} {m : Mem ℝ} {X : View} {x : Nat → ℝ} {a t0 : ℝ} {a11 tau : Nat} (neg nonneg : Bool)
    (h0 : 0 < safmin) (h1 : safmin < 1) (hX : X.isVec) (wX : X.WF) (hx : HoldsV m X x) (ha : m a11 = some a)
    (ht : m tau = some t0) (da : a11 ∉ X.foot) (dt : tau ∉ X.foot) (dat : a11 ≠ tau) :
    Runs (householder safmin m a11 X tau neg nonneg) (fun m' => ∃ v t b, HoldsV m' X v ∧ m' a11 = some b ∧ m' tau = some t ∧
      Frame (X.foot ∪ {a11, tau}) m m' ∧
      ((∑ k ∈ range X.size, x k ^ 2 = 0 ∧ t = 0 ∧ b = a ∧ v = x) ∨
        (0 < ∑ k ∈ range X.size, x k ^ 2 ∧ IsHouse neg nonneg X.size a x v t b))) := by
  unfold householder
  refine Runs.bind (real_nrm2 hX hx) ?_
  rintro r ⟨hr0, hr2⟩
  by_cases hr : r = 0
  · rw [if_pos hr]
    refine Runs.wr ht ⟨x, 0, a, ?_, ?_, Mem.set_same _ _ _, Frame.set (by simp) _, Or.inl ⟨?_, rfl, rfl, rfl⟩⟩
    · intro k hk
      rw [Mem.set_ne _ _ (fun e => dt (by rw [← e]; exact View.vat_mem_foot hX hk)), hx k hk]
    · rw [Mem.set_ne _ _ dat, ha]
    · rw [← hr2, hr]; simp
  rw [if_neg hr]
  have hrpos : 0 < r := lt_of_le_of_ne hr0 (Ne.symm hr)
  have hS : 0 < ∑ k ∈ range X.size, x k ^ 2 := by rw [← hr2]; positivity
  refine Runs.rd_bind ha ?_
  simp only []
  obtain ⟨sg, hsg, hsge⟩ : ∃ sg : ℝ, (sg = 1 ∨ sg = -1) ∧ (if a < 0 then -1 else 1) = sg := by
    by_cases h : a < 0
    · exact ⟨-1, Or.inr rfl, if_pos h⟩
    · exact ⟨1, Or.inl rfl, if_neg h⟩
  simp only [hsge]
  obtain ⟨hy0, hy2⟩ := hypot_spec a r
  have hypos : 0 < hypot a r := lt_of_le_of_ne hy0 (fun e => by rw [← e] at hy2; nlinarith [sq_nonneg a])
  have hRpos : 0 < 1 / safmin := by positivity
  refine Runs.bind (P := fun st : Nat × ℝ × ℝ × ℝ × Mem ℝ => 
      st.2.1 = a * (1 / safmin) ^ st.1 ∧ 0 < st.2.2.1 ∧
      st.2.2.1 ^ 2 = ∑ k ∈ range X.size, (x k * (1 / safmin) ^ st.1) ^ 2 ∧ 
      0 ≤ st.2.2.2.1 ∧ st.2.2.2.1 ^ 2 = st.2.1 ^ 2 + st.2.2.1 ^ 2 ∧
      HoldsV st.2.2.2.2 X (fun k => x k * (1 / safmin) ^ st.1) ∧ Frame X.foot m st.2.2.2.2) ?_ ?_
  · unfold houseScaled
    by_cases hlt : hypot a r < safmin
    · rw [if_pos hlt]
      refine Runs.bind (rescale_spec (a := a) h0 h1 hypos hX wX hx) ?_
      rintro ⟨n, al, b, m'⟩ ⟨e1, e2, e3⟩
      dsimp only at e1 e2 e3
      refine Runs.bind (real_nrm2 hX e2) ?_
      rintro r' ⟨hr0', hr2'⟩
      obtain ⟨hz0, hz2⟩ := hypot_spec al r'
      refine Runs.pure ⟨e1, ?_, hr2', hz0, hz2, e2, e3⟩
      refine lt_of_le_of_ne hr0' (fun e => ?_)
      dsimp only at e
      have : ∑ k ∈ range X.size, (x k * (1 / safmin) ^ n) ^ 2 = (∑ k ∈ range X.size, x k ^ 2) * ((1 / safmin) ^ n) ^ 2 := by
        rw [sum_mul]; exact sum_congr rfl fun k _ => by ring
      rw [this, ← e] at hr2'
      have : 0 < (∑ k ∈ range X.size, x k ^ 2) * ((1 / safmin) ^ n) ^ 2 := by positivity
      linarith
    · rw [if_neg hlt]
      refine Runs.pure ⟨by simp, hrpos, by simpa using hr2, hy0, hy2, fun k hk => by simp [hx k hk], Frame.refl _ _⟩
  rintro ⟨n, al, r', be, m'⟩ ⟨e1, e2, e3, e4, e5, e6, e7⟩
  dsimp only at e1 e2 e3 e4 e5 e6 e7 ⊢
  obtain ⟨p1, p2, p3, p4, p5⟩ := houseSwitch_spec neg nonneg e2 e4 e5 hsg
  have p6 : nonneg = false → al * (hhSigma neg * (houseSwitch neg nonneg r' al be sg).1) ≤ 0 := by
    rintro rfl
    have hz : 0 ≤ a * sg := by
      rw [← hsge]; split <;> linarith
    rw [houseSwitch_opp, e1]
    have : 0 ≤ (1 / safmin) ^ n := by positivity
    nlinarith [mul_nonneg (mul_nonneg hz this) e4]
  generalize houseSwitch neg nonneg r' al be sg = p at p1 p2 p3 p4 p5 p6
  obtain ⟨b, d, t⟩ := p
  dsimp only at p1 p2 p3 p4 p5 p6 ⊢
  have hIs : IsHouse neg nonneg X.size al (fun k => x k * (1 / safmin) ^ n) (fun k => 1 / d * (x k * (1 / safmin) ^ n)) t b :=
    isHouse_of (by rw [← e3]; positivity) (by rw [p1, e5, e3]) p2 p3 p4 p5 p6
  refine Runs.bind (Props.C06_scale (1 / d) hX wX e6) ?_
  rintro ⟨e, m''⟩ ⟨-, f1, f2⟩
  dsimp only at f1 f2 ⊢
  have ht'' : m'' tau = some t0 := by rw [f2 _ dt, e7 _ dt, ht]
  have ha'' : m'' a11 = some a := by rw [f2 _ da, e7 _ da, ha]
  refine Runs.wr_bind ht'' (Runs.wr (by rw [Mem.set_ne _ _ dat]; exact ha'') ?_)
  have hRn : (1 / safmin) ^ n * safmin ^ n = 1 := by
    rw [← mul_pow, one_div, inv_mul_cancel₀ h0.ne', one_pow]
  have hRn0 : (1 / safmin) ^ n ≠ 0 := by positivity
  refine ⟨fun k => 1 / d * (x k * (1 / safmin) ^ n), t, b * safmin ^ n, ?_, Mem.set_same _ _ _, ?_, ?_, Or.inr ⟨hS, ?_⟩⟩
  · intro k hk
    have hmem := View.vat_mem_foot hX hk
    rw [Mem.set_ne _ _ (fun e => da (by rw [← e]; exact hmem)), Mem.set_ne _ _ (fun e => dt (by rw [← e]; exact hmem)), f1 k hk]
  · rw [Mem.set_ne _ _ dat.symm, Mem.set_same]
  · refine ((e7.trans f2).mono (Set.subset_union_left)).trans ((Frame.set (by simp) _).trans (Frame.set (by simp) _))
  · obtain ⟨q1, q2, q3, q4, q5, q6⟩ := hIs
    rw [e1] at q2 q3 q4 q6
    generalize (1 / safmin) ^ n = R at hRn hRn0 q1 q2 q3 q4 q6
    generalize hz : safmin ^ n = z at hRn
    have hz0 : 0 < z := by rw [← hz]; positivity
    refine ⟨q1, ?_, ?_, ?_, fun h => mul_nonneg (q5 h) hz0.le, fun h => ?_⟩
    · have : ∑ k ∈ range X.size, 1 / d * (x k * R) * (x k * R) = (∑ k ∈ range X.size, 1 / d * (x k * R) * x k) * R := by
        rw [sum_mul]; exact sum_congr rfl fun k _ => by ring
      rw [this] at q2
      have h3 : z * (t * (a * R + (∑ k ∈ range X.size, 1 / d * (x k * R) * x k) * R)) = z * (a * R - hhSigma neg * b) := by rw [q2]
      linear_combination h3 - (t * (a + ∑ k ∈ range X.size, 1 / d * (x k * R) * x k)) * hRn + a * hRn
    · intro k hk
      have h3 := q3 k hk
      have h4 : z * (1 / d * (x k * R) * (a * R - hhSigma neg * b)) = z * (x k * R) := by rw [h3]
      linear_combination h4 - (1 / d * (x k * R) * a) * hRn + x k * hRn
    · have : ∑ k ∈ range X.size, (x k * R) ^ 2 = (∑ k ∈ range X.size, x k ^ 2) * R ^ 2 := by
        rw [sum_mul]; exact sum_congr rfl fun k _ => by ring
      rw [this] at q4
      have h5 : z ^ 2 * b ^ 2 = z ^ 2 * ((a * R) ^ 2 + (∑ k ∈ range X.size, x k ^ 2) * R ^ 2) := by rw [q4]
      linear_combination h5 + (a ^ 2 + ∑ k ∈ range X.size, x k ^ 2) * (R * z + 1) * hRn
    · have h6 : a * (hhSigma neg * (b * z)) = a * R * (hhSigma neg * b) * (z * z) := by
        linear_combination -(a * hhSigma neg * b * z) * hRn
      rw [h6]
      exact mul_nonpos_of_nonpos_of_nonneg (q6 h) (mul_nonneg hz0.le hz0.le)


/-- `armas_mvmult` with `beta = 1`, empty operands included. -/
theorem mvmult_one (ab : ℝ → ℝ) {env : Env} (hmin : env.blas2min ≠ 1 ∨ env.naive = true) {fuel : Nat} {m : Mem ℝ} {Y A X : View}
    {y x : Nat → ℝ} {a : Nat → Nat → ℝ} (alpha : ℝ) {fl : Flags} (hfl : fl.absA = false) (hf : Y.size < fuel)
    (hv : Y.isVec) (hw : Y.WF) (hXv : X.isVec)
    (hY : (if fl.transA then A.cols else A.rows) = Y.size) (hX : (if fl.transA then A.rows else A.cols) = X.size)
    (hy : HoldsV m Y y) (hA : Holds m A a) (hx : HoldsV m X x)
    (hdA : Disjoint A.foot Y.foot) (hdX : Disjoint X.foot Y.foot) :
    Runs (mvmult ab env fuel m 1 Y alpha A X fl) (fun r => 
      HoldsV r.2 Y (fun i => y i + alpha * ∑ j ∈ range X.size, (if fl.transA then a j i else a i j) * x j) ∧
      Frame Y.foot m r.2) := by
  by_cases h0 : A.size = 0
  · unfold mvmult
    rw [if_pos (Or.inl h0)]
    refine Runs.ok ⟨?_, Frame.refl _ _⟩
    intro k hk
    dsimp only
    rw [hy k hk]
    have : X.size = 0 := by
      rw [View.size, Nat.mul_eq_zero] at h0
      rw [← hX]
      by_cases ht : fl.transA
      · rw [if_pos ht] at hY ⊢; omega
      · rw [if_neg ht] at hY ⊢; omega
    simp [this]
  · refine (Props.C10_mvmult_partial ab hmin 1 alpha hfl h0 hf hv hw hXv hY hX hy hA hx hdA hdX).mono ?_
    rintro r ⟨-, h1, h2⟩
    exact ⟨h1.congr fun k _ => by rw [one_mul], h2⟩

/-- Applying a reflector from the left. -/
theorem applyHH_left_spec (ab : ℝ → ℝ) {env : Env} (hmin : 2 ≤ env.blas2min ∨ (env.naive = true ∧ env.recursive = false))
    {fuel : Nat} {m : Mem ℝ} {v a1 A2 w1 : View} {tau : Nat} {t : ℝ} {f g w : Nat → ℝ} {a : Nat → Nat → ℝ}
    (hf : A2.cols < fuel) (hf' : A2.rows < fuel) (ht : m tau = some t)
    (vv : v.isVec) (v1 : a1.isVec) (vw : w1.isVec) (w1w : w1.WF) (a1w : a1.WF) (A2w : A2.WF)
    (sv : v.size = A2.rows) (s1 : a1.size = A2.cols) (sw : w1.size = A2.cols)
    (hv : HoldsV m v f) (h1 : HoldsV m a1 g) (hA : Holds m A2 a) (hw : HoldsV m w1 w)
    (dvw : Disjoint v.foot w1.foot) (dv1 : Disjoint v.foot a1.foot) (dvA : Disjoint v.foot A2.foot)
    (d1w : Disjoint a1.foot w1.foot) (d1A : Disjoint a1.foot A2.foot) (dAw : Disjoint A2.foot w1.foot) :
    Runs (applyHH2x1 ab env fuel m (some tau) v a1 A2 w1 true) (fun m' =>
      HoldsV m' a1 (fun j => g j - t * (g j + ∑ l ∈ range A2.rows, f l * a l j)) ∧
      Holds m' A2 (fun i j => a i j - f i * (t * (g j + ∑ l ∈ range A2.rows, f l * a l j))) ∧
      (∃ w', HoldsV m' w1 w') ∧ Frame (a1.foot ∪ A2.foot ∪ w1.foot) m m') := by
  unfold applyHH2x1
  refine Runs.rd_bind ht ?_
  beta_reduce
  by_cases h0 : t = 0
  · rw [if_pos h0]
    refine Runs.pure ⟨fun k hk => ?_, fun i j hi hj => ?_, ⟨w, hw⟩, Frame.refl _ _⟩
    · rw [h1 k hk, h0]; simp
    · rw [hA i j hi hj, h0]; simp
  rw [if_neg h0]
  refine Runs.bind (Props.C06_axpby 0 1 v1 vw w1w (by rw [s1, sw]) h1 hw d1w) ?_
  rintro ⟨e, m1⟩ ⟨-, k1, k2⟩
  dsimp only at k1 k2 ⊢
  have hmin' : env.blas2min ≠ 1 ∨ env.naive = true := by
    rcases hmin with h | h
    · left; omega
    · exact Or.inr h.1
  refine Runs.bind (mvmult_one (A := A2) (X := v) ab hmin' 1 rfl (by omega) vw w1w vv (by simp [sw]) (by simp [sv]) k1
    (hA.frame k2 dAw) (hv.frame vv k2 dvw) dAw dvw) ?_
  rintro ⟨e, m2⟩ ⟨k3, k4⟩
  dsimp only at k3 k4 ⊢
  refine Runs.bind (Props.C06_scale t vw w1w k3) ?_
  rintro ⟨e, m3⟩ ⟨-, k5, k6⟩
  dsimp only at k5 k6 ⊢
  have F3 : Frame w1.foot m m3 := (k2.trans k4).trans k6
  refine Runs.bind (Props.C06_axpy (-1) vw v1 a1w (by rw [s1, sw]) k5 (h1.frame v1 F3 d1w) d1w.symm) ?_
  rintro ⟨e, m4⟩ ⟨-, k7, k8⟩
  dsimp only at k7 k8
  have F4 : Frame (a1.foot ∪ w1.foot) m m4 :=
    (F3.mono Set.subset_union_right).trans (k8.mono Set.subset_union_left)
  rw [if_pos rfl]
  refine Runs.bind (Props.C11_mvupdate_partial hmin 1 (-1) hf' A2w vv vw sv sw
    (hA.frame F4 (Set.disjoint_union_right.mpr ⟨d1A.symm, dAw⟩))
    (hv.frame vv F4 (Set.disjoint_union_right.mpr ⟨dv1, dvw⟩))
    (k5.frame vw k8 d1w.symm) dvA dAw.symm) ?_
  rintro ⟨e, m5⟩ ⟨-, k9, k10⟩
  dsimp only at k9 k10 ⊢
  refine Runs.pure ⟨?_, ?_, ⟨_, (k5.frame vw k8 d1w.symm).frame vw k10 dAw.symm⟩, ?_⟩
  · refine (k7.frame v1 k10 d1A).congr fun k _ => ?_
    rw [sv]
    have e1 : ∀ k, ∑ j ∈ range A2.rows, a j k * f j = ∑ j ∈ range A2.rows, f j * a j k := fun k =>
      sum_congr rfl fun j _ => mul_comm _ _
    simp only [if_true, e1]
    ring
  · refine k9.congr fun i j _ _ => ?_
    rw [sv]
    have e1 : ∀ k, ∑ j ∈ range A2.rows, a j k * f j = ∑ j ∈ range A2.rows, f j * a j k := fun k =>
      sum_congr rfl fun j _ => mul_comm _ _
    simp only [if_true, e1]
    ring
  · refine (F4.mono ?_).trans (k10.mono ?_)
    · intro p hp
      rcases hp with h | h
      · exact Or.inl (Or.inl h)
      · exact Or.inr h
    · intro p hp
      exact Or.inl (Or.inr hp)

end Armas
