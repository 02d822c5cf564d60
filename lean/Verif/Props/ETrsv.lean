import Verif.ETrsvRun
import Verif.EftDiv

/-!
# Property C87: the extended-precision triangular solve

`u = 1 / 2 ^ p` is the unit roundoff and `gr u k = (1 + u) ^ k - 1`, about `k u`.
-/

namespace Armas.Props

open Armas Finset

/-- The product and the quotient of the build: with fused multiply-add in any precision, or those of the
generic header in double precision (`src/include/eft.h`, `src/include/x86_64/eftops.h`). -/
def BuildD (p : Nat) (rn : ℚ → ℚ) (tp td : ℚ → ℚ → ℚ × ℚ) : Prop :=
  tp = twoprodFma rn ∧ td = twodivFma rn ∨
    p = 53 ∧ tp = twoprod rn fact64 ∧ td = twodivBase rn fact64

variable {p : Nat} {rn : ℚ → ℚ} {tp td : ℚ → ℚ → ℚ × ℚ}

private theorem BuildD.prod (hp : 0 < p) (R : Nearest p rn) (b : BuildD p rn tp td) :
    ProdOk p rn tp := by
  rcases b with ⟨rfl, _⟩ | ⟨rfl, rfl, _⟩
  · exact fun a b ha hb => R.twoprodFma_exact hp ha hb
  · exact fun a b ha hb => R.twoprod_exact (s := 27) (by norm_num) (by norm_num) (by norm_num) ha hb

private theorem BuildD.quot (hp : 0 < p) (R : Nearest p rn) (b : BuildD p rn tp td) :
    DivOk p rn td := by
  rcases b with ⟨_, rfl⟩ | ⟨rfl, _, rfl⟩
  · intro a b ha hb h0
    obtain ⟨h1, h2⟩ := R.twodivFma_spec hp ha hb h0
    exact Prod.ext h1 h2
  · intro a b ha hb h0
    obtain ⟨h1, h2⟩ := R.twodivBase_spec (s := 27) (by norm_num) (by norm_num) (by norm_num) ha hb h0
    exact Prod.ext h1 h2

/-- The index the solve starts with. -/
def firstIdx (fl : Flags) (N : Nat) : Nat := if fl.upper = fl.transA then 0 else N - 1

private theorem sum_tri_fwd {T : Nat → Nat → ℚ} {N i : Nat} (hi : i < N) (h0 : ∀ j, i < j → T i j = 0)
    (f : Nat → ℚ) : ∑ j ∈ range N, T i j * f j = ∑ k ∈ range i, T i k * f k + T i i * f i := by
  rw [← sum_range_succ (fun k => T i k * f k), ← sum_range_add_sum_Ico _ (show i + 1 ≤ N by omega)]
  rw [sum_eq_zero (s := Ico (i + 1) N) (fun j hj => by rw [h0 j (by have := mem_Ico.1 hj; omega), zero_mul]),
    add_zero]

private theorem sum_tri_bwd {T : Nat → Nat → ℚ} {N i : Nat} (hi : i < N) (h0 : ∀ j, j < i → T i j = 0)
    (f : Nat → ℚ) : ∑ j ∈ range N, T i j * f j =
      ∑ k ∈ range (N - 1 - i), T i (i + 1 + k) * f (i + 1 + k) + T i i * f i := by
  rw [← sum_range_add_sum_Ico _ (show i ≤ N by omega),
    sum_eq_zero (s := range i) (fun j hj => by rw [h0 j (mem_range.1 hj), zero_mul]), zero_add,
    sum_eq_sum_Ico_succ_bot hi, sum_Ico_eq_sum_range, add_comm, show N - (i + 1) = N - 1 - i by omega]

/-- What the solve establishes. -/
def SolvedExt (p N : Nat) (T : Nat → Nat → ℚ) (alpha : ℚ) (b x dx : Nat → ℚ) : Prop :=
  ∀ i, i < N → |dx i| ≤ 4 * uround p * |x i| ∧
    |∑ j ∈ range N, T i j * (x j + dx j) - alpha * b i| ≤
      2 * gr (uround p) (N + 18) ^ 2 * (|alpha * b i| + ∑ j ∈ range N, |T i j| * |x j|)

private theorem unsafe_spec (hp : 6 ≤ p) (R : Nearest p rn) (B : BuildD p rn tp td) {m : Mem ℚ}
    {X dX A : View} {a : Nat → Nat → ℚ} {N : Nat} (H : EArgs m X dX A a N) {b d : Nat → ℚ}
    {alpha : ℚ} {fl : Flags} (hN : 0 < N) (hb : HoldsV m X b) (hd : HoldsV m dX d)
    (h0 : d (firstIdx fl N) = 0) (hul : fl.lower = !fl.upper)
    (fa : ∀ i j, i < N → j < N → Fl p (a i j)) (fb : ∀ i, i < N → Fl p (b i)) (fal : Fl p alpha)
    (hne : fl.unit = false → ∀ i, i < N → a i i ≠ 0) :
    Runs (extMvsolveTrmUnsafe rn tp td m X dX alpha A fl) (fun m' => ∃ x dx,
      ESt m X dX x dx m' ∧ SolvedExt p N (opTri fl a) alpha b x dx) := by
  have P := B.prod (by omega) R
  have D := B.quot (by omega) R
  have hT : ∀ i, opTri fl a i i = if fl.unit then 1 else a i i := opTri_diag fl a
  have fwd : ∀ m', (∀ i j, i < j → opTri fl a i j = 0) →
      EFwd p N m X dX (opTri fl a) alpha b N m' → ∃ x dx,
      ESt m X dX x dx m' ∧ SolvedExt p N (opTri fl a) alpha b x dx := by
    rintro m' hz ⟨v, d', h1, _, h3⟩
    refine ⟨v, d', h1, fun i hi => ⟨(h3 i hi).small, ?_⟩⟩
    have := (h3 i hi).res
    rw [sum_tri_fwd hi (hz i), sum_tri_fwd (T := fun i j => |opTri fl a i j|) hi
      (fun j hj => by rw [hz i j hj, abs_zero]), ← add_assoc]
    exact this
  have bwd : ∀ m', (∀ i j, j < i → opTri fl a i j = 0) →
      EBwd p N m X dX (opTri fl a) alpha b 0 m' → ∃ x dx,
      ESt m X dX x dx m' ∧ SolvedExt p N (opTri fl a) alpha b x dx := by
    rintro m' hz ⟨v, d', h1, _, h3⟩
    refine ⟨v, d', h1, fun i hi => ⟨(h3 i (by omega) hi).small, ?_⟩⟩
    have := (h3 i (by omega) hi).res
    rw [sum_tri_bwd hi (hz i), sum_tri_bwd (T := fun i j => |opTri fl a i j|) hi
      (fun j hj => by rw [hz i j hj, abs_zero]), ← add_assoc]
    exact this
  obtain ⟨lower, upper, unit, left, right, transA, transB, absA, absB⟩ := fl
  dsimp only at *
  subst hul
  have hc := H.cols
  cases transA <;> cases upper
  · -- lower
    have hz : ∀ i j, i < j → opTri ⟨!false, false, unit, left, right, false, transB, absA, absB⟩ a i j = 0 := by
      intro i j h
      simp [opTri, opA, trm, h.ne, h.ne', h, h.le]
    refine Runs.mono ?_ (fun m' => fwd m' hz)
    change Runs (etrsvLl rn tp td m X dX A alpha unit) _
    unfold etrsvLl
    rw [hc]
    have hv : ∀ i k, k < i → opTri ⟨!false, false, unit, left, right, false, transB, absA, absB⟩ a i k = a i k := by
      intro i k h
      simp [opTri, opA, trm, h.ne, h.ne', h, h.le]
    refine etrsvFwd_spec hp R P D H hb hd h0 hN hT hne (fun _ i hi => fa i i hi hi) fb fal
      (fun i j hj hi => ?_) (fun i => A.sub i 0 1 i) (fun i k hk hi => ⟨i, k, hi, by omega, ?_, ?_⟩)
    · rw [hv i j hj]; exact fa i j hi (by omega)
    · simp [View.vat, View.inc, View.sub, View.at']
    · rw [hv i k hk]
  · -- upper
    have hz : ∀ i j, j < i → opTri ⟨!true, true, unit, left, right, false, transB, absA, absB⟩ a i j = 0 := by
      intro i j h
      simp [opTri, opA, trm, h.ne, h.ne', h, h.le]
    refine Runs.mono ?_ (fun m' => bwd m' hz)
    change Runs (etrsvLu rn tp td m X dX A alpha unit) _
    unfold etrsvLu
    rw [hc, if_neg (by omega)]
    have hv : ∀ i k, i < k → opTri ⟨!true, true, unit, left, right, false, transB, absA, absB⟩ a i k = a i k := by
      intro i k h
      simp [opTri, opA, trm, h.ne, h.ne', h, h.le]
    refine etrsvBwd_spec hp R P D H hb hd h0 hN hT hne (fun _ i hi => fa i i hi hi) fb fal
      (fun i j hj hi => ?_) (fun i => A.sub i (i + 1) 1 (N - 1 - i))
      (fun i k hk => ⟨i, i + 1 + k, by omega, by omega, ?_, ?_⟩) true
    · rw [hv i j hj]; exact fa i j (by omega) hi
    · simp [View.vat, View.inc, View.sub, View.at']; ring
    · rw [hv i _ (by omega)]
  · -- lower, transposed
    have hz : ∀ i j, j < i → opTri ⟨!false, false, unit, left, right, true, transB, absA, absB⟩ a i j = 0 := by
      intro i j h
      simp [opTri, opA, trm, h.ne, h.ne', h, h.le]
    refine Runs.mono ?_ (fun m' => bwd m' hz)
    change Runs (etrsvLlt rn tp td m X dX A alpha unit) _
    unfold etrsvLlt
    rw [hc, if_neg (by omega)]
    have hv : ∀ i k, i < k → opTri ⟨!false, false, unit, left, right, true, transB, absA, absB⟩ a i k = a k i := by
      intro i k h
      simp [opTri, opA, trm, h.ne, h.ne', h, h.le]
    refine etrsvBwd_spec hp R P D H hb hd h0 hN hT hne (fun _ i hi => fa i i hi hi) fb fal
      (fun i j hj hi => ?_) (fun i => A.sub (i + 1) i (N - 1 - i) i)
      (fun i k hk => ⟨i + 1 + k, i, by omega, by omega, ?_, ?_⟩) false
    · rw [hv i j hj]; exact fa j i hi (by omega)
    · change A.base + i * A.step + (i + 1) + k * (if N - 1 - i = 1 then A.step else 1) =
        A.base + (i + 1 + k) + i * A.step
      by_cases hh : N - 1 - i = 1
      · have : k = 0 := by omega
        rw [if_pos hh, this]; ring
      · rw [if_neg hh]; ring
    · rw [hv i _ (by omega)]
  · -- upper, transposed
    have hz : ∀ i j, i < j → opTri ⟨!true, true, unit, left, right, true, transB, absA, absB⟩ a i j = 0 := by
      intro i j h
      simp [opTri, opA, trm, h.ne, h.ne', h, h.le]
    refine Runs.mono ?_ (fun m' => fwd m' hz)
    change Runs (etrsvLut rn tp td m X dX A alpha unit) _
    unfold etrsvLut
    rw [hc]
    have hv : ∀ i k, k < i → opTri ⟨!true, true, unit, left, right, true, transB, absA, absB⟩ a i k = a k i := by
      intro i k h
      simp [opTri, opA, trm, h.ne, h.ne', h, h.le]
    refine etrsvFwd_spec hp R P D H hb hd h0 hN hT hne (fun _ i hi => fa i i hi hi) fb fal
      (fun i j hj hi => ?_) (fun i => A.sub 0 i i 1) (fun i k hk hi => ⟨k, i, by omega, hi, ?_, ?_⟩)
    · rw [hv i j hj]; exact fa j i (by omega) hi
    · change A.base + i * A.step + 0 + k * (if i = 1 then A.step else 1) = A.base + k + i * A.step
      by_cases hh : i = 1
      · have : k = 0 := by omega
        rw [if_pos hh, this]; ring
      · rw [if_neg hh]; ring
    · rw [hv i k hk]

/-- Operands of a call: a square matrix, a vector of its size and a workspace, in separate memory. -/
structure TrsvExtArgs (p : Nat) (m : Mem ℚ) (X A : View) (a : Nat → Nat → ℚ) (b : Nat → ℚ) (alpha : ℚ)
    (unit : Bool) (N : Nat) : Prop where
  pos : 0 < N
  rows : A.rows = N
  cols : A.cols = N
  vec : X.isVec
  wf : X.WF
  size : X.size = N
  hA : Holds m A a
  hX : HoldsV m X b
  disj : Disjoint A.foot X.foot
  fa : ∀ i j, i < N → j < N → Fl p (a i j)
  fb : ∀ i, i < N → Fl p (b i)
  fal : Fl p alpha
  diag : unit = false → ∀ i, i < N → a i i ≠ 0

private theorem wview {w N : Nat} (hN : 0 < N) : (⟨w, N, N, 1⟩ : View).isVec ∧
    (⟨w, N, N, 1⟩ : View).WF ∧ (⟨w, N, N, 1⟩ : View).size = N ∧
    (∀ k, k < N → (⟨w, N, N, 1⟩ : View).vat k = w + k) ∧
    (∀ q, q ∈ (⟨w, N, N, 1⟩ : View).foot ↔ w ≤ q ∧ q < w + N) := by
  refine ⟨by simp [View.isVec], .inl le_rfl, by simp [View.size], fun k hk => ?_, fun q => ?_⟩
  · simp only [View.vat, View.inc]
    by_cases h : N = 1
    · have : k = 0 := by omega
      rw [if_pos h, this, Nat.zero_mul]
    · rw [if_neg h, Nat.mul_one]
  · constructor
    · rintro ⟨i, j, hi, hj, rfl⟩
      have hj : j < 1 := hj
      have hi : i < N := hi
      have : j = 0 := by omega
      subst this
      simp [View.at']; omega
    · rintro ⟨h1, h2⟩
      exact ⟨q - w, 0, show q - w < N by omega, Nat.one_pos, by simp [View.at']; omega⟩

/-- C87: `armas_ext_mvsolve_trm_w` with a workspace whose element `firstIdx` is zero returns `x` such that,
with a correction `dx` of relative size `4u`, every equation of the triangular system holds up to second
order in the unit roundoff: the accuracy of a solve with twice the digits. -/
theorem C87_trsv_partial (hp : 6 ≤ p) (R : Nearest p rn) (B : BuildD p rn tp td) {m : Mem ℚ} {X A : View}
    {a : Nat → Nat → ℚ} {b : Nat → ℚ} {alpha : ℚ} {fl : Flags} {N w n : Nat}
    (H : TrsvExtArgs p m X A a b alpha fl.unit N) (hul : fl.lower = !fl.upper) (hn : N ≤ n)
    (hW : ∀ k, k < N → ∃ z, m (w + k) = some z) (hW0 : m (w + firstIdx fl N) = some 0)
    (dX : ∀ k, k < N → w + k ∉ X.foot) (dA : ∀ k, k < N → w + k ∉ A.foot) :
    ∃ m' x dx, extMvsolveTrmW rn tp td m X alpha A fl (some (w, some n)) = .ok (0, 0, m') ∧
      HoldsV m' X x ∧ SolvedExt p N (opTri fl a) alpha b x dx ∧
      (∀ q, q ∉ X.foot → ¬ (w ≤ q ∧ q < w + N) → m' q = m q) := by
  obtain ⟨h1, h2, h3, h4, h5⟩ := wview (w := w) H.pos
  choose! d hd using hW
  have hf : firstIdx fl N < N := by have := H.pos; unfold firstIdx; split <;> omega
  have h0 : d (firstIdx fl N) = 0 := by
    have := hd _ hf
    rw [hW0] at this
    exact (Option.some.inj this).symm
  have HE : EArgs m X ⟨w, N, N, 1⟩ A a N := by
    refine ⟨H.rows, H.cols, H.hA, H.vec, H.wf, H.size, h1, h2, h3, ?_, H.disj, ?_⟩
    · refine Set.disjoint_right.mpr fun q hq => ?_
      have := (h5 q).1 hq
      have e : q = w + (q - w) := by omega
      rw [e]; exact dX _ (by omega)
    · refine Set.disjoint_right.mpr fun q hq => ?_
      have := (h5 q).1 hq
      have e : q = w + (q - w) := by omega
      rw [e]; exact dA _ (by omega)
  have hD : HoldsV m ⟨w, N, N, 1⟩ d := fun k hk => by
    rw [h3] at hk
    rw [h4 k hk]; exact hd k hk
  obtain ⟨m', e, x, dx, g1, g2⟩ := unsafe_spec hp R B HE H.pos H.hX hD h0 hul H.fa H.fb H.fal H.diag
  refine ⟨m', x, dx, ?_, g1.hX, g2, fun q hq hq' => g1.frame q ?_⟩
  · unfold extMvsolveTrmW
    dsimp only
    rw [if_neg (not_not.mpr H.vec), if_neg (by rw [H.cols, H.rows, H.size]; simp), H.size,
      if_neg (by omega), H.cols, e]
    rfl
  · rintro (h | h)
    · exact hq h
    · exact hq' ((h5 q).1 h)

private def dm (w : Option ℚ) : Mem ℚ := fun q =>
  if q < 4 then some ((q : ℚ) + 1) else if q < 6 then some 3 else if q < 8 then w else none

private theorem fln (n : ℕ) (h : n < 2 ^ 53) : Fl 53 (n : ℚ) :=
  ⟨n, 0, by rw [abs_of_nonneg (by positivity)]; exact_mod_cast h, by simp⟩

/-- A 2x2 matrix at 0, a vector at 4. -/
private theorem dargs (w : Option ℚ) (unit : Bool) :
    TrsvExtArgs 53 (dm w) ⟨4, 2, 2, 1⟩ ⟨0, 2, 2, 2⟩ (fun i j => ((i + 2 * j + 1 : ℕ) : ℚ)) (fun _ => 3) 1
      unit 2 where
  pos := by norm_num
  rows := rfl
  cols := rfl
  vec := by decide
  wf := .inl (by decide)
  size := rfl
  hA := fun i j hi hj => by
    have hi : i < 2 := hi
    have hj : j < 2 := hj
    have e : View.at' ⟨0, 2, 2, 2⟩ i j = i + 2 * j := by simp [View.at']; ring
    rw [e]; unfold dm
    rw [if_pos (by omega)]; push_cast; rfl
  hX := fun k hk => by
    have hk : k < 2 * 1 := hk
    have e : View.vat ⟨4, 2, 2, 1⟩ k = 4 + k := by simp [View.vat, View.inc]
    rw [e]; unfold dm
    rw [if_neg (by omega), if_pos (by omega)]
  disj := by
    refine Set.disjoint_left.mpr ?_
    rintro q ⟨i, j, hi, hj, rfl⟩ ⟨k, l, hk, hl, e⟩
    simp only [View.at'] at *
    omega
  fa := fun i j hi hj => fln _ (by omega)
  fb := fun i _ => by exact_mod_cast fln 3 (by norm_num)
  fal := by exact_mod_cast fln 1 (by norm_num)
  diag := fun _ i _ => by positivity

private theorem dm_disj (w : Option ℚ) : (∀ k, k < 2 → 6 + k ∉ (⟨4, 2, 2, 1⟩ : View).foot) ∧
    (∀ k, k < 2 → 6 + k ∉ (⟨0, 2, 2, 2⟩ : View).foot) := by
  constructor
  all_goals
    rintro k hk ⟨i, j, hi, hj, e⟩
    simp only [View.at'] at *
    omega

example : ∃ m' x dx, extMvsolveTrmW (rne 53) (twoprodFma (rne 53)) (twodivFma (rne 53)) (dm (some 0))
    ⟨4, 2, 2, 1⟩ 1 ⟨0, 2, 2, 2⟩ {upper := true} (some (6, some 2)) = .ok (0, 0, m') ∧
    HoldsV m' ⟨4, 2, 2, 1⟩ x ∧
    SolvedExt 53 2 (opTri {upper := true} fun i j => ((i + 2 * j + 1 : ℕ) : ℚ)) 1 (fun _ => 3) x dx ∧
    (∀ q, q ∉ (⟨4, 2, 2, 1⟩ : View).foot → ¬ (6 ≤ q ∧ q < 6 + 2) → m' q = dm (some 0) q) :=
  C87_trsv_partial (by norm_num) (rne_nearest (by norm_num)) (.inl ⟨rfl, rfl⟩) (dargs (some 0) false) rfl
    le_rfl (fun k hk => ⟨0, by unfold dm; rw [if_neg (by omega), if_neg (by omega), if_pos (by omega)]⟩)
    (by unfold dm; norm_num [firstIdx]) (dm_disj (some 0)).1 (dm_disj (some 0)).2

/-- C87: `armas_ext_mvsolve_trm` allocates the workspace with `calloc`, so the hypothesis on its contents
holds; `w` is the address it gets. -/
theorem C87_trsv_alloc (hp : 6 ≤ p) (R : Nearest p rn) (B : BuildD p rn tp td) {m : Mem ℚ} {X A : View}
    {a : Nat → Nat → ℚ} {b : Nat → ℚ} {alpha : ℚ} {fl : Flags} {N w : Nat}
    (H : TrsvExtArgs p m X A a b alpha fl.unit N) (hul : fl.lower = !fl.upper)
    (hW : ∀ k, k < N → m (w + k) = none) :
    ∃ m' x dx, extMvsolveTrm rn tp td m X alpha A fl (some w) = .ok (0, m') ∧
      HoldsV m' X x ∧ SolvedExt p N (opTri fl a) alpha b x dx ∧ Frame X.foot m m' := by
  have dX : ∀ k, k < N → w + k ∉ X.foot := by
    intro k hk hm
    rw [View.foot_vec H.vec] at hm
    obtain ⟨l, hl, e2⟩ := hm
    have := H.hX l hl
    rw [← e2, hW k hk] at this
    cases this
  have dA : ∀ k, k < N → w + k ∉ A.foot := by
    rintro k hk ⟨i, j, hi, hj, e⟩
    have := H.hA i j hi hj
    rw [← e, hW k hk] at this
    cases this
  have hc : ∀ q, ¬ (w ≤ q ∧ q < w + N) → callocAt m w N q = m q := fun q hq => if_neg hq
  have hcX : ∀ q, q ∈ X.foot → callocAt m w N q = m q := fun q hq => hc q fun h => by
    have e : q = w + (q - w) := by omega
    rw [e] at hq; exact dX _ (by omega) hq
  have hcA : ∀ q, q ∈ A.foot → callocAt m w N q = m q := fun q hq => hc q fun h => by
    have e : q = w + (q - w) := by omega
    rw [e] at hq; exact dA _ (by omega) hq
  have H' : TrsvExtArgs p (callocAt m w N) X A a b alpha fl.unit N :=
    { H with
      hA := fun i j hi hj => by rw [hcA _ (View.at_mem_foot hi hj)]; exact H.hA i j hi hj
      hX := fun k hk => by rw [hcX _ (View.vat_mem_foot H.vec hk)]; exact H.hX k hk }
  have hz : ∀ k, k < N → callocAt m w N (w + k) = some 0 := fun k hk => if_pos (by omega)
  have hf : firstIdx fl N < N := by have := H.pos; unfold firstIdx; split <;> omega
  obtain ⟨m', x, dx, e, g1, g2, g3⟩ := C87_trsv_partial hp R B H' hul le_rfl (fun k hk => ⟨0, hz k hk⟩)
    (hz _ hf) dX dA
  refine ⟨freeAt m' w N, x, dx, ?_, ?_, g2, ?_⟩
  · unfold extMvsolveTrm
    dsimp only
    rw [H.cols, if_neg (by have := H.pos; omega), e]
    rfl
  · intro k hk
    have hq := View.vat_mem_foot H.vec hk
    unfold freeAt
    rw [if_neg fun h => by
      have e : X.vat k = w + (X.vat k - w) := by omega
      rw [e] at hq; exact dX _ (by omega) hq]
    exact g1 k hk
  · intro q hq
    unfold freeAt
    by_cases h : w ≤ q ∧ q < w + N
    · rw [if_pos h]
      have e : q = w + (q - w) := by omega
      rw [e, hW _ (by omega)]
    · rw [if_neg h, g3 q hq h, hc q h]

example : ∃ m' x dx, extMvsolveTrm (rne 53) (twoprod (rne 53) fact64) (twodivBase (rne 53) fact64)
    (dm none) ⟨4, 2, 2, 1⟩ 1 ⟨0, 2, 2, 2⟩ {lower := true, transA := true, unit := true} (some 6) =
      .ok (0, m') ∧
    HoldsV m' ⟨4, 2, 2, 1⟩ x ∧
    SolvedExt 53 2 (opTri {lower := true, transA := true, unit := true}
      fun i j => ((i + 2 * j + 1 : ℕ) : ℚ)) 1 (fun _ => 3) x dx ∧
    Frame (⟨4, 2, 2, 1⟩ : View).foot (dm none) m' :=
  C87_trsv_alloc (by norm_num) (rne_nearest (by norm_num)) (.inr ⟨rfl, rfl, rfl⟩) (dargs none true) rfl
    (fun k hk => by unfold dm; rw [if_neg (by omega), if_neg (by omega), if_pos (by omega)])

/-- C87: refused calls leave the memory unchanged; a call with an empty workspace asks for its size. -/
theorem C87_errors {m : Mem ℚ} {X A : View} {alpha : ℚ} {fl : Flags} {wb : Option (Nat × Option Nat)} :
    (¬ X.isVec → extMvsolveTrmW rn tp td m X alpha A fl wb = .ok (-2, 0, m)) ∧
    (X.isVec → A.cols ≠ X.size ∨ A.rows ≠ A.cols →
      extMvsolveTrmW rn tp td m X alpha A fl wb = .ok (-1, 0, m)) ∧
    (X.isVec → A.cols = X.size → A.rows = A.cols →
      (∀ w, wb = some (w, none) → extMvsolveTrmW rn tp td m X alpha A fl wb = .ok (0, X.size, m)) ∧
      (∀ w n, wb = some (w, some n) → n < X.size →
        extMvsolveTrmW rn tp td m X alpha A fl wb = .ok (-8, 0, m)) ∧
      (wb = none → 0 < X.size → extMvsolveTrmW rn tp td m X alpha A fl wb = .ok (-8, 0, m))) := by
  refine ⟨fun h => ?_, fun h h' => ?_, fun h h1 h2 => ⟨?_, ?_, ?_⟩⟩
  · unfold extMvsolveTrmW; rw [if_pos h]; rfl
  · unfold extMvsolveTrmW
    rw [if_neg (not_not.mpr h), if_pos (h'.imp id Ne.symm)]; rfl
  · rintro w rfl
    unfold extMvsolveTrmW
    rw [if_neg (not_not.mpr h), if_neg (by simp [h1, h2])]; rfl
  · rintro w n rfl hn
    unfold extMvsolveTrmW
    dsimp only
    rw [if_neg (not_not.mpr h), if_neg (by simp [h1, h2]), if_pos hn]; rfl
  · rintro rfl hn
    unfold extMvsolveTrmW
    dsimp only
    rw [if_neg (not_not.mpr h), if_neg (by simp [h1, h2]), if_neg (by omega)]; rfl

example : extMvsolveTrmW (rne 53) (twoprodFma (rne 53)) (twodivFma (rne 53)) (dm none) ⟨4, 2, 2, 1⟩ 1
    ⟨0, 2, 2, 2⟩ {upper := true} (some (6, some 1)) = .ok (-8, 0, dm none) :=
  (C87_errors.2.2 (by decide) rfl rfl).2.1 6 1 rfl (by decide)

/-- C87 is false for a workspace with other contents: the solve of `1 x = 1` with a workspace whose first
element is 1, as an earlier call may have left it, returns `x = 2`.  The unknown handled before the loop takes
its correction from the uninitialised workspace (`src/eblas/trsv_ext.c:52,110,167,226`). -/
theorem C87_workspace_false (R : Nearest 53 rn) (B : BuildD 53 rn tp td) {m : Mem ℚ}
    (hA : m 0 = some 1) (hX : m 1 = some 1) (hW : m 2 = some 1) :
    ∃ m', extMvsolveTrmW rn tp td m ⟨1, 1, 1, 1⟩ 1 ⟨0, 1, 1, 1⟩ {lower := true} (some (2, some 1)) =
      .ok (0, 0, m') ∧ m' 1 = some 2 := by
  have f0 := fl_zero 53
  have f1 : Fl 53 (1 : ℚ) := by exact_mod_cast fln 1 (by norm_num)
  have f2 : Fl 53 (2 : ℚ) := by exact_mod_cast fln 2 (by norm_num)
  have fm : Fl 53 (-1 : ℚ) := f1.neg
  have P := B.prod (by norm_num) R 1 1 f1 f1
  have D := B.quot (by norm_num) R 1 1 f1 f1 one_ne_zero
  have t : tp 1 1 = (1, 0) := by
    have h1 : (tp 1 1).1 = 1 := by rw [P.1, mul_one, R.exact f1]
    refine Prod.ext h1 ?_
    have := P.2
    rw [h1] at this
    change (tp 1 1).2 = 0
    linarith
  have q : td 1 1 = (1, 0) := by rw [D, div_one, R.exact f1, sub_self, R.exact f0]
  have fs : fastsum rn 1 1 = (2, 0) := by
    unfold fastsum
    norm_num [R.exact f2, R.exact fm, R.exact f0]
  have dv : etrsvDiv rn td 1 1 1 = (2, 0) := by
    unfold etrsvDiv
    rw [q]
    dsimp only
    rw [div_one, R.exact f1, add_zero, R.exact f1, fs]
  refine ⟨(m.set 1 2).set 2 0, ?_, by simp [Mem.set]⟩
  have e1 : rn (0 + rn (1 * 1)) = 1 := by rw [mul_one, R.exact f1, zero_add, R.exact f1]
  have e2 : etrsvFirst rn tp td ⟨1, 1, 1, 1⟩ ⟨2, 1, 1, 1⟩ 1 ⟨0, 1, 1, 1⟩ false 0 m =
      .ok ((m.set 1 2).set 2 0) := by
    simp [etrsvFirst, etrsvStore, View.vat, View.inc, View.at', rd, wr, hA, hX, hW, t, R.exact f1, dv,
      Mem.set, Bind.bind, Res.bind, Pure.pure]
  change (do
    let m ← (do
      let m ← etrsvFirst rn tp td ⟨1, 1, 1, 1⟩ ⟨2, 1, 1, 1⟩ 1 ⟨0, 1, 1, 1⟩ false 0 m
      let (_, m) ← forUp 1 1 1 (fun i m => etrsvStep rn tp td ⟨1, 1, 1, 1⟩ ⟨2, 1, 1, 1⟩ 1 ⟨0, 1, 1, 1⟩ false
        (View.subvec ⟨1, 1, 1, 1⟩ 0 i) (View.subvec ⟨2, 1, 1, 1⟩ 0 i) (View.sub ⟨0, 1, 1, 1⟩ i 0 1 i) i m) m
      pure m)
    pure ((0 : Int), 0, m)) = _
  rw [e2]
  simp only [Bind.bind, Res.bind]
  rw [forUp_eq, if_neg (by decide)]
  rfl

example : ∃ m : Mem ℚ, m 0 = some 1 ∧ m 1 = some 1 ∧ m 2 = some 1 := ⟨fun _ => some 1, rfl, rfl, rfl⟩

/-- C87 is false for `TRANS` without `LOWER`: the `switch` sends it to the default case
(`src/eblas/trsv_ext.c:267-281`) and the matrix is not transposed, while `armas_mvsolve_trm` transposes it
(C13). -/
theorem C87_trans_default_false {m : Mem ℚ} {X dX A : View} {alpha : ℚ} {unit : Bool} :
    extMvsolveTrmUnsafe rn tp td m X dX alpha A {transA := true, unit := unit} =
      extMvsolveTrmUnsafe rn tp td m X dX alpha A {lower := true, unit := unit} := rfl

/-- C87 is false for the empty system: with a workspace the last element of the empty vector is read. -/
theorem C87_empty_false {m : Mem ℚ} {w n : Nat} :
    extMvsolveTrmW rn tp td m ⟨0, 1, 0, 1⟩ 1 ⟨0, 1, 0, 0⟩ {upper := true} (some (w, some n)) = .ub := rfl

end Armas.Props
