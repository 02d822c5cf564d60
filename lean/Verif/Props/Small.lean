import Verif.SmallLemmas
import Verif.EBlasLemmas
import Verif.Props.Givens
import Verif.Props.Eft
import Verif.Tri

/-!
# C102-C106: 2x2 singular values, eigenvalues and quadratic equations
-/

namespace Armas.Props

open Real

/-- `0 ≤ s ≤ S` are the singular values of the matrix `B = (f g; 0 h)`: their squares are the roots of the characteristic polynomial of `BᵀB`. -/
def IsSing (f g h s S : ℝ) : Prop :=
  0 ≤ s ∧ s ≤ S ∧ ∀ x, (f ^ 2 - x) * (g ^ 2 + h ^ 2 - x) - (f * g) ^ 2 = (x - s ^ 2) * (x - S ^ 2)

theorem isSing_of {f g h s S : ℝ} (h1 : 0 ≤ s) (h2 : s ≤ S) (h3 : (s * S) ^ 2 = (f * h) ^ 2)
    (h4 : s ^ 2 + S ^ 2 = f ^ 2 + g ^ 2 + h ^ 2) : IsSing f g h s S := by
  refine ⟨h1, h2, fun x => ?_⟩
  linear_combination x * h4 - h3

/-- C102: in exact arithmetic `armas_bdsvd2x2` gives the singular values of every 2x2 upper bidiagonal matrix.
Missing: rounding and overflow. -/
theorem C102_singular_partial (f g h : ℝ) : ∃ s S, bdsvd2x2 f g h = some (s, S) ∧ IsSing f g h s S := by
  obtain ⟨M, hM⟩ : ∃ M, M = if |f| > |h| then |f| else |h| := ⟨_, rfl⟩
  obtain ⟨n, hn⟩ : ∃ n, n = if |f| > |h| then |h| else |f| := ⟨_, rfl⟩
  have hMn : n ≤ M := by
    rw [hM, hn]; split <;> linarith
  have hn0 : 0 ≤ n := by rw [hn]; split <;> exact abs_nonneg _
  have hprod : (n * M) ^ 2 = (f * h) ^ 2 := by
    rw [hM, hn]; split <;> rw [mul_pow, mul_pow, sq_abs, sq_abs] <;> ring
  have hsum : n ^ 2 + M ^ 2 = f ^ 2 + h ^ 2 := by
    rw [hM, hn]; split <;> rw [sq_abs, sq_abs] <;> ring
  have hg : |g| ^ 2 = g ^ 2 := sq_abs g
  have hg0 := abs_nonneg g
  unfold bdsvd2x2
  simp only [← hM, ← hn]
  by_cases c1 : n = 0
  · rw [if_pos c1]
    rw [c1] at hsum hprod
    by_cases c2 : M = 0
    · rw [if_pos c2]
      rw [c2] at hsum
      refine ⟨_, _, rfl, isSing_of le_rfl hg0 ?_ ?_⟩
      · rw [zero_mul] at hprod ⊢; exact hprod
      · linarith
    · rw [if_neg c2]
      have hM0 : 0 < M := lt_of_le_of_ne (hn0.trans hMn) (Ne.symm c2)
      have key : ∀ x y : ℝ, 0 < x → x ^ 2 + y ^ 2 = f ^ 2 + g ^ 2 + h ^ 2 →
          ∃ s S, (do
            let q ← qdiv y x
            pure (0, x * √(1 + q * q)) : Option (ℝ × ℝ)) = some (s, S) ∧ IsSing f g h s S := by
        intro x y hx hxy
        rw [qdiv_pos hx.ne']
        refine ⟨0, x * √(1 + y / x * (y / x)), rfl, isSing_of le_rfl (by positivity) ?_ ?_⟩
        · rw [zero_mul] at hprod ⊢; exact hprod
        · rw [mul_pow, sq_sqrt (by nlinarith [mul_self_nonneg (y / x)]), ← hxy]
          field_simp
          ring
      by_cases c3 : M > |g|
      · simp only [if_pos c3]
        exact key _ _ hM0 (by rw [hg]; linarith)
      · simp only [if_neg c3]
        exact key _ _ (by linarith) (by rw [hg]; linarith)
  · rw [if_neg c1]
    have hnp : 0 < n := lt_of_le_of_ne hn0 (Ne.symm c1)
    have hM0 : 0 < M := hnp.trans_le hMn
    rw [qdiv_pos hM0.ne', qdiv_pos hM0.ne']
    simp only [Option.bind_eq_bind, Option.bind_some]
    have hq : 0 < n / M := by positivity
    have hd : (M - n) / M = 1 - n / M := by field_simp
    rw [hd]
    have fin : ∀ X Y : ℝ, 0 ≤ X → 0 ≤ Y → X ^ 2 = (|g| / M) ^ 2 + (1 + n / M) ^ 2 → Y ^ 2 = (|g| / M) ^ 2 + (1 - n / M) ^ 2 →
        ∃ s S, (do
          let s ← qdiv n ((X + Y) / 2)
          pure (s, M * ((X + Y) / 2)) : Option (ℝ × ℝ)) = some (s, S) ∧ IsSing f g h s S := by
      intro X Y hX0 hY0 hX hY
      obtain ⟨k1, k2, k3, k4⟩ := sing_key hq hX0 hY0 hX hY
      generalize (X + Y) / 2 = C at k1 k2 k3 k4 ⊢
      rw [qdiv_pos k1.ne']
      refine ⟨n / C, M * C, rfl, isSing_of (by positivity) ?_ ?_ ?_⟩
      · rw [div_le_iff₀ k1, mul_assoc]; nlinarith [mul_le_mul k2 k2 zero_le_one k1.le]
      · rw [← hprod]; congr 1; field_simp
      · have e : n / C = M * (n / M / C) := by field_simp
        rw [e, mul_pow, mul_pow, ← mul_add, k4]
        have : M ^ 2 * (1 + (n / M) ^ 2 + (|g| / M) ^ 2) = M ^ 2 + n ^ 2 + |g| ^ 2 := by field_simp
        rw [this, hg]; linarith
    by_cases c2 : |g| < M
    · rw [if_pos c2, qdiv_pos hM0.ne']
      simp only [Option.bind_eq_bind, Option.bind_some]
      exact fin _ _ (sqrt_nonneg _) (sqrt_nonneg _) (by rw [sq_sqrt (by positivity)]; ring)
        (by rw [sq_sqrt (by nlinarith [sq_nonneg (|g| / M), sq_nonneg (1 - n / M)])]; ring)
    · rw [if_neg c2]
      have hgp : 0 < |g| := by linarith
      rw [qdiv_pos hgp.ne']
      have hgs : 0 < M / |g| := by positivity
      simp only [Option.bind_eq_bind, Option.bind_some]
      rw [if_neg hgs.ne', qdiv_pos (by positivity)]
      have := fin (√(1 + M / |g| * (1 + n / M) * (M / |g| * (1 + n / M))) / (M / |g|))
        (√(1 + M / |g| * (1 - n / M) * (M / |g| * (1 - n / M))) / (M / |g|)) (by positivity) (by positivity)
        (by rw [div_pow, sq_sqrt (by positivity)]; field_simp)
        (by
          rw [div_pow, sq_sqrt (by nlinarith [sq_nonneg (M / |g| * (1 - n / M))])]
          field_simp)
      rw [← add_div, div_div, mul_comm (M / |g|) 2] at this
      exact this

example := C102_singular_partial 3 (-4) 1

/-- The equation in the documentation of `armas_bdsvd2x2_vec`: the rotations make the matrix `(f g; 0 h)` diagonal with the elements `ssmax`
and `ssmin`. -/
structure IsSvd2 (f g h : ℝ) (x : Svd2) : Prop where
  left : x.cosl ^ 2 + x.sinl ^ 2 = 1
  right : x.cosr ^ 2 + x.sinr ^ 2 = 1
  e11 : x.cosl * f * x.cosr + (x.cosl * g + x.sinl * h) * x.sinr = x.ssmax
  e12 : -(x.cosl * f * x.sinr) + (x.cosl * g + x.sinl * h) * x.cosr = 0
  e21 : -(x.sinl * f) * x.cosr + (-(x.sinl * g) + x.cosl * h) * x.sinr = 0
  e22 : x.sinl * f * x.sinr + (-(x.sinl * g) + x.cosl * h) * x.cosr = x.ssmin
  order : |x.ssmin| ≤ |x.ssmax|

/-- C103: in exact arithmetic `armas_bdsvd2x2_vec` gives the singular value decomposition of a 2x2 upper bidiagonal matrix without zeros.
Missing: zeros on the diagonal (the sign bits of zeros decide there); a diagonal matrix (false, `C103_diag_false`); the approximation for `|g|` larger
than the diagonal by the factor `1/EPS`; rounding. -/
theorem C103_svd_partial {eps f g h : ℝ} (hf : f ≠ 0) (hg : g ≠ 0) (hh : h ≠ 0)
    (he : ¬ (|g| > max |f| |h| ∧ max |f| |h| / |g| < eps)) : ∃ x, bdsvd2x2Vec eps f g h = some x ∧ IsSvd2 f g h x := by
  have hord : ∀ {a F H : ℝ}, 1 < a → |H| ≤ |F| → |H / a| ≤ |F * a| := by
    intro a F H ha hHF
    rw [abs_div, abs_mul, abs_of_pos (by linarith : 0 < a), div_le_iff₀ (by linarith)]
    have : |F| * 1 ≤ |F| * (a * a) := mul_le_mul_of_nonneg_left (by nlinarith) (abs_nonneg _)
    linarith [mul_assoc |F| a a]
  have hsgn : ∀ {a F H : ℝ}, fsign (|H| / a) (fsign 1 F * fsign 1 F * fsign 1 H) = H / a := by
    intro a F H
    rw [fsign_self, one_mul, div_eq_mul_inv, fsign_abs, div_eq_mul_inv]
  unfold bdsvd2x2Vec
  by_cases c : |f| > |h|
  · simp only [if_pos c]
    rw [max_eq_left c.le] at he
    obtain ⟨a, clt, slt, crt, srt, e, C⟩ := svdCore_spec hf hg hh c.le he
    rw [e]
    have ha0 : 0 < a := by linarith [C.apos]
    have hclt : 0 < clt := by rw [C.l1]; have := C.cpos; positivity
    have hs : srt ≠ 0 := by rintro h; have := C.spos; rw [h] at this; simp at this
    have hts : (if |g| > |f| then fsign 1 srt * fsign 1 clt * fsign 1 g else fsign 1 srt * fsign 1 slt * fsign 1 h) = fsign 1 f := by
      split
      · refine fsign3 ?_
        have : srt * clt * g * f = clt * (srt * g * f) := by ring
        rw [this]; exact mul_pos hclt C.spos
      · refine fsign3 ?_
        have : srt * slt * h * f * a = (h * srt) ^ 2 := by linear_combination -(srt * h) * C.l2
        have h2 : 0 < srt * slt * h * f * a := by rw [this]; positivity
        exact pos_of_mul_pos_left h2 ha0.le
    refine ⟨_, rfl, ?_⟩
    dsimp only
    rw [hts, fsign_abs, hsgn]
    refine ⟨C.left, C.right, ?_, ?_, ?_, ?_, hord C.apos c.le⟩
    · linear_combination crt * f * C.l1 + srt * C.r2 + f * a * C.right
    · linear_combination (-(srt * f)) * C.l1 + crt * C.r2
    · linear_combination (-slt) * C.r1 + clt * C.l2
    · dsimp only
      rw [eq_div_iff ha0.ne']
      apply mul_left_cancel₀ hf
      linear_combination (-(f * srt - g * crt)) * C.l2 - h * crt * C.r1 + f * h * C.right
  · simp only [if_neg c]
    rw [max_eq_right (not_lt.mp c)] at he
    obtain ⟨a, clt, slt, crt, srt, e, C⟩ := svdCore_spec hh hg hf (not_lt.mp c) he
    rw [e]
    have ha0 : 0 < a := by linarith [C.apos]
    have hclt : 0 < clt := by rw [C.l1]; have := C.cpos; positivity
    have hs : srt ≠ 0 := by rintro h; have := C.spos; rw [h] at this; simp at this
    have hts : (if |g| > |h| then fsign 1 clt * fsign 1 srt * fsign 1 g else fsign 1 slt * fsign 1 srt * fsign 1 f) = fsign 1 h := by
      split
      · refine fsign3 ?_
        have : clt * srt * g * h = clt * (srt * g * h) := by ring
        rw [this]; exact mul_pos hclt C.spos
      · refine fsign3 ?_
        have : slt * srt * f * h * a = (f * srt) ^ 2 := by linear_combination -(srt * f) * C.l2
        have h2 : 0 < slt * srt * f * h * a := by rw [this]; positivity
        exact pos_of_mul_pos_left h2 ha0.le
    refine ⟨_, rfl, ?_⟩
    dsimp only
    have hsg : fsign (|f| / a) (fsign 1 h * fsign 1 f * fsign 1 h) = f / a := by
      rw [mul_right_comm]; exact hsgn
    rw [hts, fsign_abs, hsg]
    refine ⟨by linear_combination C.right, by linear_combination C.left, ?_, ?_, ?_, ?_, hord C.apos (not_lt.mp c)⟩
    · dsimp only
      linear_combination crt * h * C.l1 + srt * C.r2 + h * a * C.right
    · dsimp only
      linear_combination slt * C.r1 - clt * C.l2
    · dsimp only
      linear_combination (srt * h) * C.l1 - crt * C.r2
    · dsimp only
      rw [eq_div_iff ha0.ne']
      apply mul_left_cancel₀ hh
      linear_combination (-(h * srt - g * crt)) * C.l2 - f * crt * C.r1 + f * h * C.right

example := C103_svd_partial (eps := 1 / 1024) (f := 3) (g := -4) (h := 1) (by norm_num) (by norm_num) (by norm_num)
  (fun h => by norm_num at h)

/-- C103 for a diagonal matrix with elements of the same sign. -/
theorem C103_diag_partial (eps : ℝ) {f h : ℝ} (hp : 0 < f * h) : ∃ x, bdsvd2x2Vec eps f 0 h = some x ∧ IsSvd2 f 0 h x := by
  have hf : f ≠ 0 := by rintro rfl; simp at hp
  have hh : h ≠ 0 := by rintro rfl; simp at hp
  have e : fsign 1 f = fsign 1 h := by
    have := fsign_pos hp
    rw [fsign_mul hf hh] at this
    linear_combination fsign 1 h * this - fsign 1 f * fsign_self h
  have e0 : fsign 1 0 = 1 := if_neg (lt_irrefl _)
  have e1 : ∀ x : ℝ, fsign |x| (fsign 1 x) = x := fun x => by simpa using fsign_abs (x := x) 1
  unfold bdsvd2x2Vec
  have ng : ∀ F : ℝ, ¬ (|(0 : ℝ)| > |F|) := fun F => by rw [abs_zero]; exact not_lt.mpr (abs_nonneg F)
  have core : ∀ F H : ℝ, svdCore eps F 0 H = some (|H|, |F|, 1, 0, 1, 0) := fun F H => by
    unfold svdCore; simp
  by_cases c : |f| > |h|
  · simp only [if_pos c, core, if_neg (ng _), e0]
    refine ⟨_, rfl, ?_⟩
    have x1 : fsign |h| (1 * 1 * fsign 1 h * fsign 1 f * fsign 1 h) = h := by
      rw [one_mul, one_mul, e, fsign_self, one_mul, e1]
    have x2 : fsign |f| (1 * 1 * fsign 1 h) = f := by rw [one_mul, one_mul, ← e, e1]
    dsimp only
    rw [e0, x1, x2]
    exact ⟨by norm_num, by norm_num, by ring, by ring, by ring, by ring, c.le⟩
  · simp only [if_neg c, core, if_neg (ng _), e0]
    refine ⟨_, rfl, ?_⟩
    have x1 : fsign |f| (1 * 1 * fsign 1 f * fsign 1 f * fsign 1 h) = f := by
      rw [one_mul, one_mul, fsign_self, one_mul, ← e, e1]
    have x2 : fsign |h| (1 * 1 * fsign 1 f) = h := by rw [one_mul, one_mul, e, e1]
    dsimp only
    rw [e0, x1, x2]
    exact ⟨by norm_num, by norm_num, by ring, by ring, by ring, by ring, not_lt.mp c⟩

example := C103_diag_partial (1 / 1024) (f := -3) (h := -2) (by norm_num)

/-- C103 is false for every diagonal matrix with elements of different sign: both singular values get the wrong sign.  (The formulas for the
signs are those of LAPACK, but the one meant for `|f| ≥ |h|` is used for `|f| ≤ |h|` and vice versa.) -/
theorem C103_diag_false (eps : ℝ) {f h : ℝ} (hp : f * h < 0) : ∃ x, bdsvd2x2Vec eps f 0 h = some x ∧ ¬ IsSvd2 f 0 h x := by
  have hf : f ≠ 0 := by rintro rfl; simp at hp
  have hh : h ≠ 0 := by rintro rfl; simp at hp
  have e0 : fsign 1 0 = 1 := if_neg (lt_irrefl _)
  have ng : ∀ F : ℝ, ¬ (|(0 : ℝ)| > |F|) := fun F => by rw [abs_zero]; exact not_lt.mpr (abs_nonneg F)
  have core : ∀ F H : ℝ, svdCore eps F 0 H = some (|H|, |F|, 1, 0, 1, 0) := fun F H => by
    unfold svdCore; simp
  have key : ∀ x y : ℝ, x * y < 0 → fsign |x| (fsign 1 y) ≠ x := by
    intro x y hxy he
    unfold fsign at he
    by_cases hy : y < 0
    · rw [if_pos hy, if_pos (by norm_num)] at he
      have : 0 < x := by nlinarith
      rw [abs_of_pos this] at he; linarith
    · rw [if_neg hy, if_neg (by norm_num)] at he
      have : x < 0 := by
        by_contra hx
        nlinarith [mul_nonneg (not_lt.mp hx) (not_lt.mp hy)]
      rw [abs_of_neg this] at he; linarith
  unfold bdsvd2x2Vec
  by_cases c : |f| > |h|
  · simp only [if_pos c, core, if_neg (ng _), e0]
    refine ⟨_, rfl, fun H => key f h hp ?_⟩
    have := H.e11
    dsimp only at this
    simp only [e0, one_mul, mul_one, mul_zero, zero_mul, add_zero, zero_add] at this
    exact this.symm
  · simp only [if_neg c, core, if_neg (ng _), e0]
    refine ⟨_, rfl, fun H => key h f (by linarith) ?_⟩
    have := H.e11
    dsimp only at this
    simp only [e0, one_mul, mul_one, mul_zero, zero_mul, add_zero, zero_add] at this
    exact this.symm

example := C103_diag_false (1 / 1024) (f := 1) (h := -2) (by norm_num)

/-- `z1`, `z2` are the eigenvalues of the matrix `(a b; b c)`: the roots of its characteristic polynomial. -/
def IsEig (a b c z1 z2 : ℝ) : Prop := ∀ x, (a - x) * (c - x) - b * b = (x - z1) * (x - z2)

/-- C104: in exact arithmetic `armas_sym_eigen2x2` gives the eigenvalues of every symmetric 2x2 matrix but the zero matrix, the larger (by absolute
value) first.  Missing: the zero matrix (false, `C104_zero_false`), rounding. -/
theorem C104_eigen_partial {a b c : ℝ} (h0 : a ≠ 0 ∨ b ≠ 0 ∨ c ≠ 0) :
    ∃ z1 z2, symEigen2x2 a b c = some (z1, z2) ∧ IsEig a b c z1 z2 ∧ |z2| ≤ |z1| := by
  obtain ⟨h, hh⟩ : ∃ h, h = fhypot |a - c| |b + b| := ⟨_, rfl⟩
  have hp : 0 ≤ h := by rw [hh]; exact sqrt_nonneg _
  have h2 : h ^ 2 = (a - c) ^ 2 + 4 * b ^ 2 := by
    rw [hh, fhypot, sq_sqrt (add_nonneg (mul_self_nonneg _) (mul_self_nonneg _)), abs_mul_abs_self, abs_mul_abs_self]; ring
  obtain ⟨Z, hZ⟩ : ∃ Z, Z = a + c + fsign h (a + c) := ⟨_, rfl⟩
  have hZT : (Z - (a + c)) ^ 2 = h ^ 2 := by
    rw [hZ]; unfold fsign; split <;> ring
  have hZa : |Z| = |a + c| + h := by
    rw [hZ]; unfold fsign
    split
    · rename_i hn
      rw [abs_of_neg hn, abs_of_neg (by linarith)]; ring
    · rename_i hn
      rw [abs_of_nonneg (not_lt.mp hn), abs_of_nonneg (by linarith)]
  have hZ0 : Z ≠ 0 := by
    intro hz
    rw [hz, abs_zero] at hZa
    have t1 : |a + c| = 0 := by linarith [abs_nonneg (a + c)]
    have t2 : h = 0 := by linarith [abs_nonneg (a + c)]
    rw [t2] at h2
    have t3 := abs_eq_zero.mp t1
    have t4 : a - c = 0 := by nlinarith [sq_nonneg b, sq_nonneg (a - c)]
    have t5 : b = 0 := by nlinarith [sq_nonneg b, sq_nonneg (a - c)]
    rcases h0 with h | h | h
    · exact h (by linarith)
    · exact h t5
    · exact h (by linarith)
  unfold symEigen2x2
  simp only
  rw [← hh, ← hZ, qdiv_pos hZ0, qdiv_pos hZ0]
  have hm : (if |c| > |a| then c else a) * (if |c| > |a| then a else c) = a * c := by split <;> ring
  obtain ⟨z2, hz2⟩ : ∃ z, z = 2 * ((if |c| > |a| then c else a) / Z * (if |c| > |a| then a else c) - b / Z * b) := ⟨_, rfl⟩
  have e2 : z2 = 2 * (a * c - b * b) / Z := by rw [hz2, ← hm]; ring
  have eT : 1 / 2 * Z + z2 = a + c := by
    rw [e2]; field_simp; linear_combination hZT + h2
  refine ⟨1 / 2 * Z, z2, by rw [hz2]; rfl, ?_, ?_⟩
  · intro x
    have e3 : 1 / 2 * Z * z2 = a * c - b * b := by rw [e2]; field_simp
    linear_combination x * eT - e3
  · have e4 : z2 = a + c - 1 / 2 * Z := by linarith
    rw [e4, abs_mul, hZa, abs_of_pos (by norm_num : (0 : ℝ) < 1 / 2), abs_le]
    have e5 : Z - (a + c) = h ∨ Z - (a + c) = -h := sq_eq_sq_iff_eq_or_eq_neg.mp hZT
    have := le_abs_self (a + c)
    have := neg_abs_le (a + c)
    rcases e5 with e | e <;> constructor <;> linarith

example := C104_eigen_partial (a := 0) (b := 1) (c := 0) (Or.inr (Or.inl one_ne_zero))

/-- C104 is false for the zero matrix: `0/0` is computed. -/
theorem C104_zero_false : symEigen2x2 0 0 0 = none := by
  simp [symEigen2x2, qdiv, fhypot, fsign]

/-- C104: `armas_sym_eigen2x2vec` gives a unit eigenvector for the first eigenvalue if the matrix is not diagonal; the vector `(-sn, cs)` belongs to
the second one.  Missing: diagonal matrices (false, `C104_diag_false`). -/
theorem C104_vector_partial {a b : ℝ} (c : ℝ) (hb : b ≠ 0) : ∃ z1 z2 cs sn, symEigen2x2Vec a b c = some (z1, z2, some (cs, sn)) ∧
    IsEig a b c z1 z2 ∧ |z2| ≤ |z1| ∧ cs ^ 2 + sn ^ 2 = 1 ∧ a * cs + b * sn = z1 * cs ∧ b * cs + c * sn = z1 * sn ∧
    a * -sn + b * cs = z2 * -sn ∧ b * -sn + c * cs = z2 * cs := by
  obtain ⟨z1, z2, e, h1, h2⟩ := C104_eigen_partial (a := a) (b := b) (c := c) (Or.inr (Or.inl hb))
  obtain ⟨x, hx⟩ : ∃ x, x = (z1 - a) / b := ⟨_, rfl⟩
  obtain ⟨t, ht⟩ : ∃ t, t = fhypot 1 x := ⟨_, rfl⟩
  have ht2 : t ^ 2 = 1 + x ^ 2 := by
    rw [ht, fhypot, sq_sqrt (by nlinarith [mul_self_nonneg x])]; ring
  have htp : 0 < t := by rw [ht]; exact sqrt_pos.mpr (by nlinarith [mul_self_nonneg x])
  have hxb : x * b = z1 - a := by rw [hx]; field_simp
  have e1 := h1 z1
  have e0 := h1 0
  have e3 := h1 1
  have etr : z1 + z2 = a + c := by linarith
  have k1 : b + c * x = z1 * x := by
    apply mul_left_cancel₀ hb
    linear_combination (c - z1) * hxb - e1
  refine ⟨z1, z2, 1 / t, x / t, ?_, h1, h2, ?_, ?_, ?_, ?_, ?_⟩
  · unfold symEigen2x2Vec symVec2x2
    rw [e]
    simp only [Option.bind_eq_bind, Option.bind_some]
    rw [qdiv_pos hb]
    simp only [Option.bind_some]
    rw [← hx, ← ht, qdiv_pos htp.ne', qdiv_pos (mul_ne_zero hb htp.ne'), ← hxb]
    simp only [Option.bind_some, Option.pure_def]
    congr 5
    field_simp
  · rw [div_pow, div_pow, ← add_div, div_eq_one_iff_eq (by positivity), ht2]; ring
  · field_simp; linear_combination hxb
  · field_simp; linear_combination k1
  · field_simp; linear_combination k1 + x * etr
  · field_simp; linear_combination (-1 : ℝ) * hxb - etr

example := C104_vector_partial (a := 2) (b := 1) 2 one_ne_zero

/-- C104 is false for every diagonal matrix: the vector computed is not a vector of numbers (a division by zero). -/
theorem C104_diag_false (a c : ℝ) (h : a ≠ 0 ∨ c ≠ 0) : ∃ z1 z2, symEigen2x2Vec a 0 c = some (z1, z2, none) := by
  obtain ⟨z1, z2, e, -⟩ := C104_eigen_partial (a := a) (b := 0) (c := c) (h.imp id Or.inr)
  refine ⟨z1, z2, ?_⟩
  unfold symEigen2x2Vec symVec2x2
  rw [e]
  simp [qdiv]

example := C104_diag_false 1 2 (Or.inl one_ne_zero)

/-- C104: `armas_eigen_sym` for a 2x2 matrix that is not diagonal, with eigenvectors: only the given triangle is read, `A` is overwritten with an
orthonormal matrix of eigenvectors and `D` with the eigenvalues, and only these are written.  Missing: diagonal matrices (false,
`C104_small_false`), rounding. -/
theorem C104_small_partial {m : Mem ℝ} {D A : View} {a : Nat → Nat → ℝ} {d : Nat → ℝ} {upper : Bool} (hA : Holds m A a) (hAw : A.WF)
    (hAr : A.rows = 2) (hAc : A.cols = 2) (hD : HoldsV m D d) (hDv : D.isVec) (hDw : D.WF) (hDs : D.size = 2) (hDA : Disjoint D.foot A.foot)
    (hb : (if upper then a 0 1 else a 1 0) ≠ 0) :
    Runs (eigenSymSmall m D A upper true) (fun r => ∃ m' v w, r = some m' ∧ Frame (D.foot ∪ A.foot) m m' ∧ Holds m' A v ∧ HoldsV m' D w ∧
      (∀ i j, i < 2 → j < 2 → Armas.symm upper a i 0 * v 0 j + Armas.symm upper a i 1 * v 1 j = w j * v i j) ∧
      (∀ i j, i < 2 → j < 2 → v 0 i * v 0 j + v 1 i * v 1 j = if i = j then 1 else 0) ∧ |w 1| ≤ |w 0|) := by
  obtain ⟨b, hbe⟩ : ∃ b, b = if upper then a 0 1 else a 1 0 := ⟨_, rfl⟩
  rw [← hbe] at hb
  obtain ⟨z1, z2, cs, sn, e, -, hz, hn, q1, q2, q3, q4⟩ := C104_vector_partial (a := a 0 0) (a 1 1) hb
  have at0 : ∀ {i j}, i < 2 → j < 2 → A.at' i j ∈ A.foot := fun hi hj => View.at_mem_foot (by omega) (by omega)
  have dt0 : ∀ {k}, k < 2 → D.vat k ∈ D.foot := fun hk => View.vat_mem_foot hDv (by omega)
  unfold eigenSymSmall
  refine Runs.rd_bind (hA 0 0 (by omega) (by omega)) ?_
  refine Runs.rd_bind (hA 1 1 (by omega) (by omega)) ?_
  refine Runs.rd_bind (v := b) (by
    rw [hbe]; cases upper
    · exact hA 1 0 (by omega) (by omega)
    · exact hA 0 1 (by omega) (by omega)) ?_
  rw [e]
  dsimp only
  refine Runs.wr_bind (hD 0 (by omega)) ?_
  have hD1 := hD.write hDv hDw (k := 0) (by omega) z1
  have hA1 := hA.frame (Frame.set (dt0 (k := 0) (by omega)) z1) hDA.symm
  refine Runs.wr_bind (hD1 1 (by omega)) ?_
  have hD2 := hD1.write hDv hDw (k := 1) (by omega) z2
  have hA2 := hA1.frame (Frame.set (dt0 (k := 1) (by omega)) z2) hDA.symm
  have F2 : Frame (D.foot ∪ A.foot) m ((m.set (D.vat 0) z1).set (D.vat 1) z2) :=
    (Frame.set (Or.inl (dt0 (by omega))) z1).trans (Frame.set (Or.inl (dt0 (by omega))) z2)
  generalize (m.set (D.vat 0) z1).set (D.vat 1) z2 = m2 at *
  rw [if_pos rfl]
  refine Runs.wr_bind (hA2 0 0 (by omega) (by omega)) ?_
  have hA3 := hA2.write hAw (i := 0) (j := 0) (by omega) (by omega) 1
  refine Runs.wr_bind (hA3 1 1 (by omega) (by omega)) ?_
  have hA4 := hA3.write hAw (i := 1) (j := 1) (by omega) (by omega) 1
  refine Runs.wr_bind (hA4 0 1 (by omega) (by omega)) ?_
  have hA5 := hA4.write hAw (i := 0) (j := 1) (by omega) (by omega) 0
  refine Runs.wr_bind (hA5 1 0 (by omega) (by omega)) ?_
  have hA6 := hA5.write hAw (i := 1) (j := 0) (by omega) (by omega) 0
  have F6 : Frame A.foot m2 ((((m2.set (A.at' 0 0) 1).set (A.at' 1 1) 1).set (A.at' 0 1) 0).set (A.at' 1 0) 0) :=
    (((Frame.set (at0 (by omega) (by omega)) 1).trans (Frame.set (at0 (by omega) (by omega)) 1)).trans
      (Frame.set (at0 (by omega) (by omega)) 0)).trans (Frame.set (at0 (by omega) (by omega)) 0)
  generalize (((m2.set (A.at' 0 0) 1).set (A.at' 1 1) 1).set (A.at' 0 1) 0).set (A.at' 1 0) 0 = m6 at *
  refine (C50_single_partial (left := false) cs sn (p := 0) (q := 1) (f := 0) (n := A.rows) hAw hA6 (by simp [hAc]) (by simp [hAc])
    (Or.inr (by simp))).bind fun m' ⟨F', v, hv, ev⟩ => ?_
  have ev' : ∀ i j, i < 2 → j < 2 → v i j = if j = 0 then (if i = 0 then cs else sn) else (if i = 0 then -sn else cs) := by
    intro i j hi hj
    rw [ev i j (by omega) (by omega), if_pos (by simp; omega), if_neg (by omega)]
    obtain rfl | rfl : i = 0 ∨ i = 1 := by omega
    all_goals obtain rfl | rfl : j = 0 ∨ j = 1 := by omega
    all_goals simp [planeRot]
  refine Runs.pure ⟨m', v, fun k => if k = 0 then z1 else z2, rfl, ?_, hv, ?_, ?_, ?_, by simpa using hz⟩
  · exact (F2.trans (F6.mono Set.subset_union_right)).trans (F'.mono Set.subset_union_right)
  · refine ((hD2.frame hDv F6 hDA).frame hDv F' hDA).congr fun k hk => ?_
    obtain rfl | rfl : k = 0 ∨ k = 1 := by omega
    all_goals simp
  · have hs : ∀ i j, i < 2 → j < 2 → Armas.symm upper a i j = if i = j then (if i = 0 then a 0 0 else a 1 1) else b := by
      intro i j hi hj
      rw [hbe]
      obtain rfl | rfl : i = 0 ∨ i = 1 := by omega
      all_goals obtain rfl | rfl : j = 0 ∨ j = 1 := by omega
      all_goals cases upper <;> simp [symm]
    intro i j hi hj
    rw [hs i 0 hi (by omega), hs i 1 hi (by omega), ev' 0 j (by omega) hj, ev' 1 j (by omega) hj, ev' i j hi hj]
    obtain rfl | rfl : i = 0 ∨ i = 1 := by omega
    all_goals obtain rfl | rfl : j = 0 ∨ j = 1 := by omega
    all_goals simp
    all_goals linarith
  · intro i j hi hj
    rw [ev' 0 i (by omega) hi, ev' 0 j (by omega) hj, ev' 1 i (by omega) hi, ev' 1 j (by omega) hj]
    obtain rfl | rfl : i = 0 ∨ i = 1 := by omega
    all_goals obtain rfl | rfl : j = 0 ∨ j = 1 := by omega
    all_goals simp
    all_goals nlinarith

example := C104_small_partial (upper := false) (m := tot fun p => p) (A := ⟨10, 3, 2, 2⟩) (D := ⟨2, 2, 2, 1⟩)
  (holds_tot (fun p => (p : ℝ)) _) (by simp [View.WF]) rfl rfl (fun k _ => rfl : HoldsV _ _ fun k => ((View.vat ⟨2, 2, 2, 1⟩ k : Nat) : ℝ)) (Or.inr rfl)
  (by simp [View.WF]) rfl (by
    rw [Set.disjoint_left]; rintro p ⟨i, j, hi, hj, rfl⟩ ⟨i', j', hi', hj', h⟩
    simp only [View.at'] at *; omega) (by norm_num [View.at'])

/-- C104 is false for `armas_eigen_sym` with a 2x2 diagonal matrix and eigenvectors wanted: what is stored are not numbers. -/
theorem C104_small_false {m : Mem ℝ} {D A : View} {a : Nat → Nat → ℝ} {d : Nat → ℝ} {upper : Bool} (hA : Holds m A a)
    (hAr : A.rows = 2) (hAc : A.cols = 2) (hD : HoldsV m D d) (hDv : D.isVec) (hDw : D.WF) (hDs : D.size = 2)
    (hb : (if upper then a 0 1 else a 1 0) = 0) : eigenSymSmall m D A upper true = .ok none := by
  have h3 : m (if upper then A.at' 0 1 else A.at' 1 0) = some 0 := by
    rw [← hb]; cases upper
    · exact hA 1 0 (by omega) (by omega)
    · exact hA 0 1 (by omega) (by omega)
  unfold eigenSymSmall
  rw [rd_ok (hA 0 0 (by omega) (by omega)), Res.ok_bind, rd_ok (hA 1 1 (by omega) (by omega)), Res.ok_bind, rd_ok h3, Res.ok_bind]
  by_cases h0 : a 0 0 ≠ 0 ∨ a 1 1 ≠ 0
  · obtain ⟨z1, z2, e⟩ := C104_diag_false _ _ h0
    rw [e]
    dsimp only
    rw [wr_ok (hD 0 (by omega)), Res.ok_bind, wr_ok (hD.write hDv hDw (k := 0) (by omega) z1 1 (by omega)), Res.ok_bind]
    rfl
  · push Not at h0
    rw [h0.1, h0.2, symEigen2x2Vec, C104_zero_false]
    rfl

/-- C104: the Wilkinson shift of the matrix `(p b; b q)` is an eigenvalue, and no other is nearer to `q`.
Missing: a multiple of the identity (false, `C104_shift_false`). -/
theorem C104_wilkinson_partial {p b q : ℝ} (h0 : p ≠ q ∨ b ≠ 0) : ∃ u, wilkinsonShift p b q = some u ∧
    (p - u) * (q - u) - b * b = 0 ∧ ∀ w, (p - w) * (q - w) - b * b = 0 → |u - q| ≤ |w - q| := by
  obtain ⟨d, hd⟩ : ∃ d, d = (p - q) / 2 := ⟨_, rfl⟩
  obtain ⟨t, ht⟩ : ∃ t, t = fhypot d b := ⟨_, rfl⟩
  have ht0 : 0 ≤ t := by rw [ht]; exact sqrt_nonneg _
  have ht2 : t ^ 2 = d ^ 2 + b ^ 2 := by
    rw [ht, fhypot, sq_sqrt (add_nonneg (mul_self_nonneg _) (mul_self_nonneg _))]; ring
  have hdt : |d| ≤ t := abs_le_of_sq_le_sq (by nlinarith [sq_nonneg b]) ht0
  have hs0 : |d| + t ≠ 0 := by
    intro h
    have t1 : |d| = 0 := by linarith [abs_nonneg d]
    have t2 : t = 0 := by linarith [abs_nonneg d]
    rw [t2, abs_eq_zero.mp t1] at ht2
    rcases h0 with h | h
    · exact h (by have := abs_eq_zero.mp t1; linarith)
    · exact h (by nlinarith)
  have hx : b / (|d| + t) * b = t - |d| := by
    rw [div_mul_eq_mul_div, div_eq_iff hs0]
    have := sq_abs d
    linear_combination -ht2 + this
  unfold wilkinsonShift
  simp only
  rw [← hd, ← ht, qdiv_pos hs0]
  simp only [Option.bind_eq_bind, Option.bind_some, Option.pure_def]
  rw [hx, abs_of_nonneg (by linarith : 0 ≤ t - |d|)]
  have hpq : p = q + 2 * d := by rw [hd]; ring
  refine ⟨_, rfl, ?_, ?_⟩
  · split
    · rename_i h
      rw [abs_of_neg h, hpq]; linear_combination ht2
    · rename_i h
      rw [abs_of_nonneg (not_lt.mp h), hpq]; linear_combination ht2
  · intro w hw
    have hw2 : (w - q - d) ^ 2 = t ^ 2 := by rw [ht2]; rw [hpq] at hw; linear_combination hw
    have e1 : |(q - if d < 0 then -(t - |d|) else t - |d|) - q| = t - |d| := by
      split
      · rw [show q - -(t - |d|) - q = t - |d| by ring, abs_of_nonneg (by linarith)]
      · rw [show q - (t - |d|) - q = -(t - |d|) by ring, abs_neg, abs_of_nonneg (by linarith)]
    rw [e1]
    have h3 : |w - q - d| = t := by rw [← abs_of_nonneg ht0]; exact (sq_eq_sq_iff_abs_eq_abs _ _).mp hw2
    have := abs_sub (w - q) d
    linarith

example := C104_wilkinson_partial (p := 3) (b := 1) (q := 3) (Or.inr one_ne_zero)

/-- C104 is false for the shift of a multiple of the identity: `0/0` is computed. -/
theorem C104_shift_false (p : ℝ) : wilkinsonShift p 0 p = none := by
  simp [wilkinsonShift, qdiv, fhypot]

/-- C105: in exact arithmetic `armas_qdroots` gives the roots of `a x^2 - 2 b x + c` if they are real and `a`, `b` are not zero, the larger (by absolute
value) first.  Missing: `b = 0` (false, `C105_zero_false`), complex roots (false, `C105_complex_false`), the value returned for coincident roots (false,
`C105_coincident_false`), rounding except for the discriminant. -/
theorem C105_roots_partial {a b c : ℝ} (ha : a ≠ 0) (hb : b ≠ 0) (hd : 0 ≤ b * b - a * c) :
    ∃ x1 x2, qdroots a b c = some (0, x1, x2) ∧ (∀ x, a * x ^ 2 - 2 * b * x + c = a * ((x - x1) * (x - x2))) ∧ |x2| ≤ |x1| := by
  obtain ⟨r, hr⟩ : ∃ r, r = √(discr a b c) := ⟨_, rfl⟩
  have hr0 : 0 ≤ r := by rw [hr]; exact sqrt_nonneg _
  have hr2 : r ^ 2 = b * b - a * c := by rw [hr]; exact sq_sqrt hd
  obtain ⟨s, hs⟩ : ∃ s, s = r * ((if b < 0 then -1 else 1) + (if b = 0 then 1 else 0)) + b := ⟨_, rfl⟩
  have hsa : |s| = r + |b| := by
    rw [hs, if_neg hb, add_zero]
    split
    · rename_i h
      rw [abs_of_neg h, abs_of_neg (by linarith)]; ring
    · rename_i h
      rw [abs_of_nonneg (not_lt.mp h), abs_of_nonneg (by linarith [not_lt.mp h])]; ring
  have hsb : (s - b) ^ 2 = r ^ 2 := by
    rw [hs, if_neg hb, add_zero]; split <;> ring
  have hs0 : s ≠ 0 := by
    intro h; rw [h, abs_zero] at hsa
    have := abs_pos.mpr hb
    linarith
  unfold qdroots
  simp only
  rw [if_neg (show ¬ discr a b c < 0 from not_lt.mpr hd), ← hr, ← hs, qdiv_pos ha, qdiv_pos hs0]
  refine ⟨s / a, c / s, rfl, fun x => ?_, ?_⟩
  · field_simp
    linear_combination x * (hsb + hr2)
  · rw [abs_div, abs_div, div_le_div_iff₀ (abs_pos.mpr hs0) (abs_pos.mpr ha), ← abs_mul, hsa]
    have e : c * a = b ^ 2 - r ^ 2 := by linear_combination hr2
    rw [e, abs_le]
    have := sq_abs b
    constructor <;> nlinarith [abs_nonneg b, mul_nonneg hr0 (abs_nonneg b), sq_nonneg r, sq_nonneg (|b|)]

example := C105_roots_partial (a := 1) (b := -2) (c := 3) one_ne_zero (by norm_num) (by norm_num)

/-- C105 is false without linear term: the values for `a x^2 + c = 0` are twice and half of the roots. -/
theorem C105_zero_false {a c : ℝ} (h : a * c < 0) : ∃ x1 x2, qdroots a 0 c = some (0, x1, x2) ∧ a * x1 ^ 2 + c ≠ 0 ∧ a * x2 ^ 2 + c ≠ 0 := by
  have ha : a ≠ 0 := by rintro rfl; simp at h
  have hc : c ≠ 0 := by rintro rfl; simp at h
  have e : discr a 0 c = -(a * c) := by unfold discr; ring
  have hr : 0 < √(-(a * c)) := sqrt_pos.mpr (by linarith)
  have hr2 : √(-(a * c)) ^ 2 = -(a * c) := sq_sqrt (by linarith)
  unfold qdroots
  simp only
  rw [e, if_neg (by linarith)]
  simp only [lt_irrefl, if_false, if_true, add_zero]
  rw [qdiv_pos ha, qdiv_pos (by positivity)]
  refine ⟨_, _, rfl, ?_, ?_⟩
  · have : a * (√(-(a * c)) * (1 + 1) / a) ^ 2 + c = -3 * c := by
      rw [div_pow, mul_pow, hr2]; field_simp; ring
    rw [this]; simpa using hc
  · have : a * (c / (√(-(a * c)) * (1 + 1))) ^ 2 + c = 3 / 4 * c := by
      rw [div_pow, mul_pow, hr2]; field_simp; ring
    rw [this]; simpa using hc

example := C105_zero_false (a := 1) (c := -1) (by norm_num)

/-- C105 is false for complex roots: for `x^2 - 2x + 2` with the roots `1 ± i` the values are -1/2 and 1/2. -/
theorem C105_complex_false : qdroots 1 1 2 = some (1, -1 / 2, 1 / 2) := by
  unfold qdroots discr
  norm_num [qdiv]

/-- C105 is false for coincident roots: 0 is returned, not another value as documented. -/
theorem C105_coincident_false : qdroots 1 1 1 = some (0, 1, 1) := by
  unfold qdroots discr
  norm_num [qdiv]

private theorem fl_int (n : ℤ) (p : Nat) (h : |n| < 2 ^ p) : Fl p n := ⟨n, 0, h, by simp⟩

/-- C105: the discriminant computed with fused operations in precision `p`: an error of about two roundings of the exact value, plus a
term of second order in the rounding error.  Missing: the version without fused operations. -/
theorem C105_discriminant_partial {p : Nat} (hp : 0 < p) {rn : ℚ → ℚ} (R : Nearest p rn) {a b c : ℚ} (ha : Fl p a) (hb : Fl p b) (hc : Fl p c) :
    |discrFma rn a b c - (b * b - a * c)| ≤
      (2 * uround p + uround p ^ 2) * |b * b - a * c| + 2 * uround p ^ 2 * (1 + uround p) * (b * b + |a * c|) := by
  obtain ⟨-, e1⟩ := C56_twoprod_fma hp R hb hb
  obtain ⟨-, e2⟩ := C56_twoprod_fma hp R ha hc
  unfold twoprodFma at e1 e2
  simp only at e1 e2
  unfold discrFma
  simp only
  have hu : 0 ≤ uround p := by unfold uround; positivity
  have r1 := R.rel hp (b * b)
  have r2 := R.rel hp (a * c)
  generalize rn (b * b) = P at *
  generalize rn (a * c) = Q at *
  generalize rn (b * b - P) = dP at *
  generalize rn (a * c - Q) = dQ at *
  have s1 := R.rel hp (P - Q)
  have s2 := R.rel hp (dP - dQ)
  have s3 := R.rel hp (rn (P - Q) + rn (dP - dQ))
  generalize rn (P - Q) = x at *
  generalize rn (dP - dQ) = y at *
  generalize rn (x + y) = z at *
  generalize uround p = u at *
  have hD : b * b - a * c = (P - Q) + (dP - dQ) := by linarith
  have hN : |dP - dQ| ≤ u * (b * b + |a * c|) := by
    have t1 : |dP| ≤ u * (b * b) := by
      rw [← abs_of_nonneg (mul_self_nonneg b), abs_sub_comm] at r1
      rw [show dP = |b * b| - P by rw [abs_of_nonneg (mul_self_nonneg b)]; linarith]
      rw [abs_abs] at r1
      simpa [abs_of_nonneg (mul_self_nonneg b)] using r1
    have t2 : |dQ| ≤ u * |a * c| := by
      rw [abs_sub_comm] at r2
      rw [show dQ = a * c - Q by linarith]; exact r2
    have := abs_sub dP dQ
    nlinarith
  generalize |a * c| = n at *
  generalize b * b + n = N at *
  rw [hD]
  have k1 : |P - Q| ≤ |P - Q + (dP - dQ)| + |dP - dQ| := by
    have := abs_sub (P - Q + (dP - dQ)) (dP - dQ)
    rwa [add_sub_cancel_right] at this
  generalize hDD : P - Q + (dP - dQ) = D at *
  have k2 : |x + y - D| ≤ u * |P - Q| + u * |dP - dQ| := by
    rw [← hDD, show x + y - (P - Q + (dP - dQ)) = (x - (P - Q)) + (y - (dP - dQ)) by ring]
    exact (abs_add_le _ _).trans (add_le_add s1 s2)
  have k3 : |x + y| ≤ |D| + |x + y - D| := by
    have := abs_add_le D (x + y - D)
    rwa [add_sub_cancel] at this
  have k4 : |z - D| ≤ |z - (x + y)| + |x + y - D| := by
    have := abs_add_le (z - (x + y)) (x + y - D)
    rwa [sub_add_sub_cancel] at this
  have k5 : |x + y - D| ≤ u * |D| + 2 * u * (u * N) := by nlinarith
  have k6 : u * |x + y| ≤ u * (|D| + (u * |D| + 2 * u * (u * N))) := mul_le_mul_of_nonneg_left (by linarith) hu
  nlinarith

example := C105_discriminant_partial (p := 53) (by norm_num) (rne_nearest (by norm_num)) (fl_int 94906265 53 (by norm_num))
  (fl_int 94906267 53 (by norm_num)) (fl_int 94906269 53 (by norm_num))

/-- C106: the shift of the Golub-Kahan-Reinsch iteration: in exact arithmetic the smaller eigenvalue of the matrix `(f f + e e, f g; f g, g g + h h)`.
Missing: the Golub-Kahan shift is the eigenvalue nearer to the last element (false, `C106_shift_false`). -/
theorem C106_shift_partial {e f g h : ℝ} (h0 : e ≠ 0 ∨ f ≠ 0 ∨ g ≠ 0 ∨ h ≠ 0) : ∃ u v, bsvdShift e f g h = some u ∧
    IsEig (f * f + e * e) (g * f) (h * h + g * g) u v ∧ 0 ≤ u ∧ u ≤ v := by
  have hT : 0 < (f * f + e * e + (h * h + g * g)) / 2 := by
    have := mul_self_nonneg e; have := mul_self_nonneg f; have := mul_self_nonneg g; have := mul_self_nonneg h
    rcases h0 with h' | h' | h' | h' <;> have := mul_self_pos.mpr h' <;> linarith
  obtain ⟨a, ha⟩ : ∃ a, a = f * f + e * e := ⟨_, rfl⟩
  obtain ⟨c, hc⟩ : ∃ c, c = h * h + g * g := ⟨_, rfl⟩
  obtain ⟨b, hb⟩ : ∃ b, b = g * f := ⟨_, rfl⟩
  unfold bsvdShift
  simp only
  rw [← ha, ← hc] at hT
  rw [← ha, ← hc, ← hb]
  have hdet : 0 ≤ a * c - b * b := by
    rw [ha, hc, hb]
    nlinarith [mul_self_nonneg (f * h), mul_self_nonneg (e * h), mul_self_nonneg (e * g)]
  obtain ⟨x1, x2, e1, h1, h2⟩ := C105_roots_partial (a := 1) (b := (a + c) / 2) (c := a * c - b * b) one_ne_zero hT.ne'
    (by nlinarith [sq_nonneg (a - c), sq_nonneg b])
  rw [e1]
  have q0 := h1 0
  have q1 := h1 1
  have hprod : x1 * x2 = a * c - b * b := by linarith
  have hsum : x1 + x2 = a + c := by linarith
  have hpos : 0 ≤ x1 ∧ 0 ≤ x2 := by
    constructor
    · by_contra hn
      push Not at hn
      have : x2 ≤ 0 := by
        by_contra h'
        push Not at h'
        nlinarith
      linarith
    · by_contra hn
      push Not at hn
      have : x1 ≤ 0 := by
        by_contra h'
        push Not at h'
        nlinarith
      linarith
  rw [abs_of_nonneg hpos.1, abs_of_nonneg hpos.2] at h2
  refine ⟨x2, x1, ?_, fun x => ?_, hpos.2, h2⟩
  · simp only [Option.bind_eq_bind, Option.bind_some, Option.pure_def, abs_of_nonneg hpos.1, abs_of_nonneg hpos.2]
    rw [if_neg (by linarith)]
  · linear_combination x * hsum - hprod

example := C106_shift_partial (e := 1) (f := 2) (g := 3) (h := 4) (Or.inl one_ne_zero)

/-- C106 is false: for `e = 1`, `f = g = 0`, `h = 2` the eigenvalues are 1 and 4 and the last element is 4, but the shift is 1. -/
theorem C106_shift_false : bsvdShift 1 0 0 2 = some 1 := by
  have hs : √(9 / 4 : ℝ) = 3 / 2 := by
    rw [show (9 / 4 : ℝ) = (3 / 2) ^ 2 by norm_num, sqrt_sq (by norm_num)]
  have hd : discr 1 ((0 * 0 + 1 * 1 + (2 * 2 + 0 * 0)) / 2) ((0 * 0 + 1 * 1) * (2 * 2 + 0 * 0) - 0 * 0 * (0 * 0)) = 9 / 4 := by
    unfold discr; norm_num
  unfold bsvdShift qdroots
  simp only [hd, hs]
  norm_num [qdiv]

end Armas.Props
