import Verif.ESymRun
import Verif.EBlasVec
import Verif.EftDiv
import Verif.Props.EBlas

/-!
# Properties C88-C90: extended-precision triangular and symmetric matrix-vector functions

`u = 1 / 2 ^ p` is the unit roundoff and `gr u k = (1 + u) ^ k - 1`, about `k u`.
-/

namespace Armas.Props

open Armas Finset

variable {p : Nat} {rn : ℚ → ℚ} {tp : ℚ → ℚ → ℚ × ℚ}

private theorem bprod (hp : 0 < p) (R : Nearest p rn) (b : Build p rn tp) : ProdOk p rn tp := by
  rcases b with rfl | ⟨rfl, rfl⟩
  · exact fun a b ha hb => R.twoprodFma_exact hp ha hb
  · exact fun a b ha hb => R.twoprod_exact (s := 27) (by norm_num) (by norm_num) (by norm_num) ha hb

private theorem fln (n : ℕ) (h : n < 2 ^ 53) : Fl 53 (n : ℚ) :=
  ⟨n, 0, by rw [abs_of_nonneg (by positivity)]; exact_mod_cast h, by simp⟩

/-- What the triangular product establishes: `z` is `alpha T x`, `T` an `N`x`N` matrix, each element to
almost full precision but for a term of second order in the unit roundoff. -/
def TrmvExt (p N : Nat) (T : Nat → Nat → ℚ) (alpha : ℚ) (x z : Nat → ℚ) : Prop :=
  ∀ i, i < N → |z i - alpha * ∑ j ∈ range N, T i j * x j| ≤
    gr (uround p) 2 * |alpha * ∑ j ∈ range N, T i j * x j| +
    gr (uround p) (N + 3) * gr (uround p) (N + 2) * (|alpha| * ∑ j ∈ range N, |T i j * x j|)

private theorem sum_lo {T : Nat → Nat → ℚ} {N i : Nat} {unit : Bool} (hi : i < N)
    (h0 : ∀ j, i < j → T i j = 0) (hd : unit = true → T i i = 1) (x c : Nat → ℚ)
    (hc : ∀ j, j < i + (1 - if unit then 1 else 0) → c j = T i j) :
    trowT unit c x 0 (i + (1 - if unit then 1 else 0)) i = ∑ j ∈ range N, T i j * x j ∧
    trowS unit c x 0 (i + (1 - if unit then 1 else 0)) i = ∑ j ∈ range N, |T i j * x j| := by
  have e : ∀ f : ℚ → ℚ, f 0 = 0 → ∑ j ∈ range N, f (T i j * x j) =
      ∑ j ∈ range i, f (T i j * x j) + f (T i i * x i) := by
    intro f hf
    rw [← sum_range_succ (fun k => f (T i k * x k)), ← sum_range_add_sum_Ico _ (show i + 1 ≤ N by omega),
      sum_eq_zero (s := Ico (i + 1) N) (fun j hj => by
        rw [h0 j (by have := mem_Ico.1 hj; omega), zero_mul, hf]), add_zero]
  have e1 := e id rfl
  have e2 := e (fun t => |t|) abs_zero
  simp only [id] at e1
  rw [e1, e2]
  unfold trowT trowS
  cases unit with
  | true =>
    have k1 : ∑ j ∈ range i, c j * x j = ∑ j ∈ range i, T i j * x j :=
      sum_congr rfl (fun j hj => by rw [hc j (by have := mem_range.1 hj; simpa using this)])
    have k2 : ∑ j ∈ range i, |c j * x j| = ∑ j ∈ range i, |T i j * x j| :=
      sum_congr rfl (fun j hj => by rw [hc j (by have := mem_range.1 hj; simpa using this)])
    simp only [if_true, Nat.sub_self, Nat.add_zero, ← range_eq_Ico]
    rw [k1, k2, hd rfl, one_mul]
    exact ⟨add_comm _ _, add_comm _ _⟩
  | false =>
    have k1 : ∑ j ∈ range (i + 1), c j * x j = ∑ j ∈ range (i + 1), T i j * x j :=
      sum_congr rfl (fun j hj => by rw [hc j (by have := mem_range.1 hj; simpa using this)])
    have k2 : ∑ j ∈ range (i + 1), |c j * x j| = ∑ j ∈ range (i + 1), |T i j * x j| :=
      sum_congr rfl (fun j hj => by rw [hc j (by have := mem_range.1 hj; simpa using this)])
    simp only [Bool.false_eq_true, if_false, Nat.sub_zero, ← range_eq_Ico]
    rw [k1, k2, sum_range_succ, sum_range_succ, zero_add, zero_add]
    exact ⟨rfl, rfl⟩

private theorem sum_hi {T : Nat → Nat → ℚ} {N i : Nat} {unit : Bool} (hi : i < N)
    (h0 : ∀ j, j < i → T i j = 0) (hd : unit = true → T i i = 1) (x c : Nat → ℚ)
    (hc : ∀ j, i + (if unit then 1 else 0) ≤ j → j < N → c j = T i j) :
    trowT unit c x (i + if unit then 1 else 0) N i = ∑ j ∈ range N, T i j * x j ∧
    trowS unit c x (i + if unit then 1 else 0) N i = ∑ j ∈ range N, |T i j * x j| := by
  have e : ∀ f : ℚ → ℚ, f 0 = 0 → ∑ j ∈ range N, f (T i j * x j) =
      f (T i i * x i) + ∑ j ∈ Ico (i + 1) N, f (T i j * x j) := by
    intro f hf
    rw [← sum_range_add_sum_Ico _ (show i ≤ N by omega),
      sum_eq_zero (s := range i) (fun j hj => by rw [h0 j (mem_range.1 hj), zero_mul, hf]), zero_add,
      sum_eq_sum_Ico_succ_bot hi]
  have e1 := e id rfl
  have e2 := e (fun t => |t|) abs_zero
  simp only [id] at e1
  rw [e1, e2]
  unfold trowT trowS
  cases unit with
  | true =>
    have k1 : ∑ j ∈ Ico (i + 1) N, c j * x j = ∑ j ∈ Ico (i + 1) N, T i j * x j :=
      sum_congr rfl (fun j hj => by
        rw [hc j (by have := (mem_Ico.1 hj).1; simpa using this) (mem_Ico.1 hj).2])
    have k2 : ∑ j ∈ Ico (i + 1) N, |c j * x j| = ∑ j ∈ Ico (i + 1) N, |T i j * x j| :=
      sum_congr rfl (fun j hj => by
        rw [hc j (by have := (mem_Ico.1 hj).1; simpa using this) (mem_Ico.1 hj).2])
    simp only [if_true]
    rw [k1, k2, hd rfl, one_mul]
    exact ⟨rfl, rfl⟩
  | false =>
    have k1 : ∑ j ∈ Ico i N, c j * x j = ∑ j ∈ Ico i N, T i j * x j :=
      sum_congr rfl (fun j hj => by
        rw [hc j (by have := (mem_Ico.1 hj).1; simpa using this) (mem_Ico.1 hj).2])
    have k2 : ∑ j ∈ Ico i N, |c j * x j| = ∑ j ∈ Ico i N, |T i j * x j| :=
      sum_congr rfl (fun j hj => by
        rw [hc j (by have := (mem_Ico.1 hj).1; simpa using this) (mem_Ico.1 hj).2])
    simp only [Bool.false_eq_true, if_false, Nat.add_zero]
    rw [k1, k2, sum_eq_sum_Ico_succ_bot hi, sum_eq_sum_Ico_succ_bot hi, zero_add, zero_add]
    exact ⟨rfl, rfl⟩

/-- Operands of a call: a square matrix and a vector of its size in separate memory. -/
structure MvExtArgs (p : Nat) (m : Mem ℚ) (X A : View) (a : Nat → Nat → ℚ) (x : Nat → ℚ) (alpha : ℚ)
    (N : Nat) : Prop where
  pos : 0 < N
  rows : A.rows = N
  cols : A.cols = N
  vec : X.isVec
  wf : X.WF
  size : X.size = N
  hA : Holds m A a
  hX : HoldsV m X x
  disj : Disjoint A.foot X.foot
  fa : ∀ i j, i < N → j < N → Fl p (a i j)
  fx : ∀ i, i < N → Fl p (x i)
  fal : Fl p alpha

/-- C88: `armas_ext_mvmult_trm` replaces `x` with `alpha op(T) x`, `T` the triangle of `A` selected by the
flags, to twice the working precision but for two roundings of the result.  Partial: exactly one of `LOWER`
and `UPPER` is set, the vector is apart from the matrix, no overflow or underflow. -/
theorem C88_trmv_partial (hp : 0 < p) (R : Nearest p rn) (B : Build p rn tp) {m : Mem ℚ} {X A : View}
    {a : Nat → Nat → ℚ} {x : Nat → ℚ} {alpha : ℚ} {fl : Flags} {N : Nat}
    (H : MvExtArgs p m X A a x alpha N) (hul : fl.lower = !fl.upper) :
    ∃ m' z, extMvmultTrm rn tp m X alpha A fl = .ok (0, m') ∧ HoldsV m' X z ∧
      TrmvExt p N (opTri fl a) alpha x z ∧ Frame X.foot m m' := by
  have P := bprod hp R B
  have cell : ∀ i j, i < N → j < N → m (A.at' i j) = some (a i j) ∧ A.at' i j ∉ X.foot ∧ Fl p (a i j) :=
    fun i j hi hj => ⟨H.hA i j (by rw [H.rows]; exact hi) (by rw [H.cols]; exact hj),
      Set.disjoint_left.mp H.disj (View.at_mem_foot (by rw [H.rows]; exact hi) (by rw [H.cols]; exact hj)),
      H.fa i j hi hj⟩
  have key : Runs (extMvmultTrmUnsafe rn tp m X alpha A fl) (fun m' => ∃ z, XSt m X z m' ∧
      TrmvExt p N (opTri fl a) alpha x z) := by
    have hdiag : fl.unit = true → ∀ i, opTri fl a i i = 1 := fun h i => by rw [opTri_diag, if_pos h]
    obtain ⟨lower, upper, unit, left, right, transA, transB, absA, absB⟩ := fl
    dsimp only at *
    subst hul
    have hn := H.size
    cases transA <;> cases upper
    · -- lower
      have hz : ∀ i j, i < j → opTri ⟨!false, false, unit, left, right, false, transB, absA, absB⟩ a i j = 0 := by
        intro i j h
        simp [opTri, opA, trm, h.ne, h.ne', h, h.le]
      have hv : ∀ i j, j < i + (1 - if unit then 1 else 0) → a i j =
          opTri ⟨!false, false, unit, left, right, false, transB, absA, absB⟩ a i j := by
        intro i j h
        rcases Nat.lt_or_ge j i with h' | h'
        · simp [opTri, opA, trm, h'.ne, h'.ne', h', h'.le]
        · cases unit
          · have : j = i := by simp at h; omega
            subst this; simp [opTri, opA, trm]
          · simp at h; omega
      unfold extMvmultTrmUnsafe
      simp only [hn]
      refine Runs.mono (etrmv_down hp R P H.vec H.wf hn H.hX (c := a) (fun i hi => by split <;> omega)
        (fun i j hi hj => cell i j hi (by split at hj <;> omega)) H.fx H.fal) ?_
      rintro m' ⟨z, h1, h2⟩
      refine ⟨z, h1, fun i hi => ?_⟩
      obtain ⟨s1, s2⟩ := sum_lo hi (hz i) (fun h => hdiag h i) x (a i) (hv i)
      have := h2 i hi
      rw [s1, s2] at this
      exact this
    · -- upper
      have hz : ∀ i j, j < i → opTri ⟨!true, true, unit, left, right, false, transB, absA, absB⟩ a i j = 0 := by
        intro i j h
        simp [opTri, opA, trm, h.ne, h.ne', h, h.le]
      have hv : ∀ i j, i + (if unit then 1 else 0) ≤ j → j < N → a i j =
          opTri ⟨!true, true, unit, left, right, false, transB, absA, absB⟩ a i j := by
        intro i j h _
        rcases Nat.lt_or_ge i j with h' | h'
        · simp [opTri, opA, trm, h'.ne, h'.ne', h', h'.le]
        · cases unit
          · have : j = i := by simp at h; omega
            subst this; simp [opTri, opA, trm]
          · simp at h; omega
      unfold extMvmultTrmUnsafe
      simp only [hn, Bool.not_true]
      refine Runs.mono (etrmv_up hp R P H.vec H.wf hn H.hX (c := a) (fun i hi => by split <;> omega)
        (fun i j hi hj hj' => cell i j hi hj') H.fx H.fal) ?_
      rintro m' ⟨z, h1, h2⟩
      refine ⟨z, h1, fun i hi => ?_⟩
      obtain ⟨s1, s2⟩ := sum_hi hi (hz i) (fun h => hdiag h i) x (a i) (hv i)
      have := h2 i hi
      rw [s1, s2] at this
      exact this
    · -- lower, transposed
      have hz : ∀ i j, j < i → opTri ⟨!false, false, unit, left, right, true, transB, absA, absB⟩ a i j = 0 := by
        intro i j h
        simp [opTri, opA, trm, h.ne, h.ne', h, h.le]
      have hv : ∀ i j, i + (if unit then 1 else 0) ≤ j → j < N → a j i =
          opTri ⟨!false, false, unit, left, right, true, transB, absA, absB⟩ a i j := by
        intro i j h _
        rcases Nat.lt_or_ge i j with h' | h'
        · simp [opTri, opA, trm, h'.ne, h'.ne', h', h'.le]
        · cases unit
          · have : j = i := by simp at h; omega
            subst this; simp [opTri, opA, trm]
          · simp at h; omega
      unfold extMvmultTrmUnsafe
      simp only [hn, Bool.not_false]
      refine Runs.mono (etrmv_up hp R P H.vec H.wf hn H.hX (c := fun i j => a j i)
        (fun i hi => by split <;> omega) (fun i j hi hj hj' => cell j i hj' hi) H.fx H.fal) ?_
      rintro m' ⟨z, h1, h2⟩
      refine ⟨z, h1, fun i hi => ?_⟩
      obtain ⟨s1, s2⟩ := sum_hi hi (hz i) (fun h => hdiag h i) x (fun j => a j i) (hv i)
      have := h2 i hi
      rw [s1, s2] at this
      exact this
    · -- upper, transposed
      have hz : ∀ i j, i < j → opTri ⟨!true, true, unit, left, right, true, transB, absA, absB⟩ a i j = 0 := by
        intro i j h
        simp [opTri, opA, trm, h.ne, h.ne', h, h.le]
      have hv : ∀ i j, j < i + (1 - if unit then 1 else 0) → a j i =
          opTri ⟨!true, true, unit, left, right, true, transB, absA, absB⟩ a i j := by
        intro i j h
        rcases Nat.lt_or_ge j i with h' | h'
        · simp [opTri, opA, trm, h'.ne, h'.ne', h', h'.le]
        · cases unit
          · have : j = i := by simp at h; omega
            subst this; simp [opTri, opA, trm]
          · simp at h; omega
      unfold extMvmultTrmUnsafe
      simp only [hn, Bool.not_true]
      refine Runs.mono (etrmv_down hp R P H.vec H.wf hn H.hX (c := fun i j => a j i)
        (fun i hi => by split <;> omega)
        (fun i j hi hj => cell j i (by split at hj <;> omega) hi) H.fx H.fal) ?_
      rintro m' ⟨z, h1, h2⟩
      refine ⟨z, h1, fun i hi => ?_⟩
      obtain ⟨s1, s2⟩ := sum_lo hi (hz i) (fun h => hdiag h i) x (fun j => a j i) (hv i)
      have := h2 i hi
      rw [s1, s2] at this
      exact this
  obtain ⟨m', e, z, h1, h2⟩ := key
  refine ⟨m', z, ?_, h1.hX, h2, h1.frame⟩
  have h3 := Nat.mul_pos H.pos H.pos
  have h4 := H.pos
  unfold extMvmultTrm
  rw [if_neg (by rw [H.rows, H.cols, H.size]; omega), if_neg (not_not.mpr H.vec),
    if_neg (by rw [H.cols, H.rows, H.size]; simp), e]
  rfl

private def em : Mem ℚ := fun q =>
  if q < 4 then some ((q : ℚ) + 1) else if q < 6 then some 3 else if q < 8 then some 5 else none

/-- A 2x2 matrix at 0, vectors at 4 and at 6. -/
private theorem eargs : MvExtArgs 53 em ⟨4, 2, 2, 1⟩ ⟨0, 2, 2, 2⟩ (fun i j => ((i + 2 * j + 1 : ℕ) : ℚ))
    (fun _ => 3) 7 2 where
  pos := by norm_num
  rows := rfl
  cols := rfl
  vec := by decide
  wf := .inl (by decide)
  size := rfl
  hA := fun i j hi hj => by
    have hi : i < 2 := hi
    have hj : j < 2 := hj
    have e : View.at' ⟨0, 2, 2, 2⟩ i j = i + 2 * j := by simp [View.at']; ring
    rw [e]; unfold em
    rw [if_pos (by omega)]; push_cast; rfl
  hX := fun k hk => by
    have hk : k < 2 * 1 := hk
    have e : View.vat ⟨4, 2, 2, 1⟩ k = 4 + k := by simp [View.vat, View.inc]
    rw [e]; unfold em
    rw [if_neg (by omega), if_pos (by omega)]
  disj := by
    refine Set.disjoint_left.mpr ?_
    rintro q ⟨i, j, hi, hj, rfl⟩ ⟨k, l, hk, hl, e⟩
    simp only [View.at'] at *
    omega
  fa := fun i j hi hj => fln _ (by omega)
  fx := fun i _ => by exact_mod_cast fln 3 (by norm_num)
  fal := by exact_mod_cast fln 7 (by norm_num)

private theorem eY : HoldsV em ⟨6, 2, 2, 1⟩ (fun _ => 5) := fun k hk => by
  have hk : k < 2 * 1 := hk
  have e : View.vat ⟨6, 2, 2, 1⟩ k = 6 + k := by simp [View.vat, View.inc]
  rw [e]; unfold em
  rw [if_neg (by omega), if_neg (by omega), if_pos (by omega)]

private theorem eYA : Disjoint (⟨0, 2, 2, 2⟩ : View).foot (⟨6, 2, 2, 1⟩ : View).foot := by
  refine Set.disjoint_left.mpr ?_
  rintro q ⟨i, j, hi, hj, rfl⟩ ⟨k, l, hk, hl, e⟩
  simp only [View.at'] at *
  omega

private theorem eYX : Disjoint (⟨4, 2, 2, 1⟩ : View).foot (⟨6, 2, 2, 1⟩ : View).foot := by
  refine Set.disjoint_left.mpr ?_
  rintro q ⟨i, j, hi, hj, rfl⟩ ⟨k, l, hk, hl, e⟩
  simp only [View.at'] at *
  omega

example : ∃ m' z, extMvmultTrm (rne 53) (twoprod (rne 53) fact64) em ⟨4, 2, 2, 1⟩ 7 ⟨0, 2, 2, 2⟩
      {upper := true, transA := true, unit := true} = .ok (0, m') ∧ HoldsV m' ⟨4, 2, 2, 1⟩ z ∧
    TrmvExt 53 2 (opTri {upper := true, transA := true, unit := true}
      fun i j => ((i + 2 * j + 1 : ℕ) : ℚ)) 7 (fun _ => 3) z ∧
    Frame (⟨4, 2, 2, 1⟩ : View).foot em m' :=
  C88_trmv_partial (by norm_num) (rne_nearest (by norm_num)) (.inr ⟨rfl, rfl⟩) eargs rfl

/-- C88: refused and empty calls leave the memory unchanged. -/
theorem C88_errors {m : Mem ℚ} {X A : View} {alpha : ℚ} {fl : Flags} :
    (A.rows = 0 ∨ A.cols = 0 ∨ X.size = 0 → extMvmultTrm rn tp m X alpha A fl = .ok (0, m)) ∧
    (0 < A.rows → 0 < A.cols → 0 < X.size →
      (¬ X.isVec → extMvmultTrm rn tp m X alpha A fl = .ok (-2, m)) ∧
      (X.isVec → A.cols ≠ X.size ∨ A.rows ≠ A.cols → extMvmultTrm rn tp m X alpha A fl = .ok (-1, m))) := by
  unfold extMvmultTrm
  refine ⟨fun h => ?_, fun h1 h2 h3 => ?_⟩
  · rw [if_pos (by rcases h with h | h | h <;> simp [h])]; rfl
  · have := Nat.mul_pos h1 h2
    rw [if_neg (by omega)]
    exact ⟨fun h => by rw [if_pos h]; rfl,
      fun h h' => by rw [if_neg (not_not.mpr h), if_pos h']; rfl⟩

example : extMvmultTrm (rne 53) (twoprodFma (rne 53)) em ⟨4, 2, 2, 1⟩ 7 ⟨0, 2, 2, 1⟩ {upper := true} =
    .ok (-1, em) :=
  (C88_errors.2 (by decide) (by decide) (by decide)).2 (by decide) (.inl (by decide))

/-- Contents of a cell after a call that ended. -/
private def cellOf (r : Res (Int × Mem ℚ)) (q : Nat) : Option (Int × Option ℚ) :=
  match r with
  | .ok (e, m) => some (e, m q)
  | _ => none

private theorem of_cell {r : Res (Int × Mem ℚ)} {q : Nat} {e : Int} {v : ℚ}
    (h : cellOf r q = some (e, some v)) : ∃ m', r = .ok (e, m') ∧ m' q = some v := by
  unfold cellOf at h
  split at h
  · rename_i e' m'
    simp only [Option.some.injEq, Prod.mk.injEq] at h
    obtain ⟨rfl, h⟩ := h
    exact ⟨m', rfl, h⟩
  · cases h

/-- C88 is false of the flag `ABS`: "X = alpha |A| |X| if ARMAS_ABS set" (`src/eblas/trmv_ext.c:220`), but no
loop looks at it (`src/eblas/trmv_ext.c:37-212`): `|-1| |1|` gives `-1`. -/
theorem C88_abs_false : ∃ m', extMvmultTrm (rne 53) (twoprodFma (rne 53))
      (fun q => if q = 0 then some (-1) else if q = 1 then some 1 else none) ⟨1, 1, 1, 1⟩ 1 ⟨0, 1, 1, 1⟩
      {lower := true, absA := true, absB := true} = .ok (0, m') ∧ m' 1 = some (-1) :=
  of_cell (by decide +kernel)

/-- C88 is false when neither `LOWER` nor `UPPER` is given together with `TRANS`: the default case is the
lower triangle, not transposed (`src/eblas/trmv_ext.c:206-209`): with `A = [1 3; 2 4]`, `x = (3, 3)` the first
element is 21 and not `7 (1*3 + 2*3)`. -/
theorem C88_trans_default_false : ∃ m', extMvmultTrm (rne 53) (twoprodFma (rne 53)) em ⟨4, 2, 2, 1⟩ 7
    ⟨0, 2, 2, 2⟩ {transA := true} = .ok (0, m') ∧ m' 4 = some 21 :=
  of_cell (by decide +kernel)

/-- C89: `armas_ext_mvmult_sym` computes `beta y + alpha A x` for a symmetric matrix stored in one triangle.
The product `A x` is accumulated with twice the working precision; then each element has four roundings of
the two terms.  Partial: `x` and the matrix are apart from `y`, no overflow or underflow. -/
theorem C89_symv_partial (hp : 0 < p) (R : Nearest p rn) (B : Build p rn tp) {m : Mem ℚ} {X Y A : View}
    {a : Nat → Nat → ℚ} {x y : Nat → ℚ} {alpha beta : ℚ} {fl : Flags} {N : Nat}
    (H : MvExtArgs p m X A a x alpha N) (vY : Y.isVec) (wY : Y.WF) (nY : Y.size = N) (hY : HoldsV m Y y)
    (dA : Disjoint A.foot Y.foot) (dX : Disjoint X.foot Y.foot) (fy : ∀ i, i < N → Fl p (y i))
    (fbe : Fl p beta) :
    ∃ m' z, extMvmultSym rn tp m beta Y alpha A X fl = .ok (0, m') ∧ HoldsV m' Y z ∧ Frame Y.foot m m' ∧
      ∀ i, i < N → |z i - (beta * y i + alpha * ∑ j ∈ range N, symm (!fl.lower) a i j * x j)| ≤
        gr (uround p) 4 * (|beta * y i| + |alpha * ∑ j ∈ range N, symm (!fl.lower) a i j * x j|) +
        gr (uround p) (N + 5) * gr (uround p) (N + 1) *
          (|alpha| * ∑ j ∈ range N, |symm (!fl.lower) a i j * x j|) := by
  obtain ⟨m', e, z, h1, h2⟩ := extMvmultSymUnsafe_spec (s := symm (!fl.lower) a) (fl := fl) hp R (bprod hp R B)
    H.rows H.cols H.size nY H.vec vY wY H.hA H.hX hY dA dX H.fa H.fx fy H.fal fbe
    (fun i j h _ => by
      unfold symm
      cases fl.lower
      · simp [Nat.not_le.mpr h]
      · simp [h.le])
    (fun i j h _ => by
      unfold symm
      cases fl.lower
      · simp [h]
      · rcases Nat.eq_or_lt_of_le h with h' | h'
        · subst h'; simp
        · simp [Nat.not_le.mpr h'])
  refine ⟨m', z, ?_, h1.hX, h1.frame, h2⟩
  have h3 := Nat.mul_pos H.pos H.pos
  have h4 := H.pos
  unfold extMvmultSym
  rw [if_neg (by rw [H.rows, H.cols, H.size, nY]; omega), if_neg (not_not.mpr H.vec),
    if_neg (not_not.mpr vY), if_neg (by rw [H.cols, H.rows, H.size, nY]; simp), e]
  rfl

example : ∃ m' z, extMvmultSym (rne 53) (twoprodFma (rne 53)) em 2 ⟨6, 2, 2, 1⟩ 7 ⟨0, 2, 2, 2⟩
      ⟨4, 2, 2, 1⟩ {lower := true} = .ok (0, m') ∧ HoldsV m' ⟨6, 2, 2, 1⟩ z ∧
    Frame (⟨6, 2, 2, 1⟩ : View).foot em m' ∧
    ∀ i, i < 2 → |z i - (2 * 5 + 7 * ∑ j ∈ range 2, symm false (fun i j => ((i + 2 * j + 1 : ℕ) : ℚ)) i j * 3)| ≤
      gr (uround 53) 4 * (|2 * 5| +
        |7 * ∑ j ∈ range 2, symm false (fun i j => ((i + 2 * j + 1 : ℕ) : ℚ)) i j * 3|) +
      gr (uround 53) (2 + 5) * gr (uround 53) (2 + 1) *
        (|7| * ∑ j ∈ range 2, |symm false (fun i j => ((i + 2 * j + 1 : ℕ) : ℚ)) i j * 3|) :=
  C89_symv_partial (y := fun _ => 5) (fl := {lower := true}) (by norm_num) (rne_nearest (by norm_num)) (.inl rfl)
    eargs (by decide) (.inl (by decide)) rfl eY eYA eYX (fun i _ => by exact_mod_cast fln 5 (by norm_num))
    (by exact_mod_cast fln 2 (by norm_num))

private def sm : Mem ℚ := fun q =>
  if q = 0 then some 1 else if q = 1 then some (1 / 2 ^ 30) else if q = 2 then some (1 / 2 ^ 30)
  else if q = 3 then some 0 else if q = 4 then some 1 else if q = 5 then some (1 / 2 ^ 30)
  else if q < 8 then some (-1) else none

/-- C89: twice the working precision is false of the result.  With `A = [1 e; e 0]`, `x = (1, e)`, `y = (-1, -1)`,
`e = 2^-30`, the first element of `y + A x` is `2^-60`, computed exactly by the pair of the accumulator, but
the pair is rounded to one number before `y` is added (`src/eblas/symv_ext.c:82-89`) and the result is 0. -/
theorem C89_doubled_false : ∃ m', extMvmultSym (rne 53) (twoprodFma (rne 53)) sm 1 ⟨6, 2, 2, 1⟩ 1
    ⟨0, 2, 2, 2⟩ ⟨4, 2, 2, 1⟩ {lower := true} = .ok (0, m') ∧ m' 6 = some 0 :=
  of_cell (by decide +kernel)

/-- C90: `armas_ext_mvupdate2_sym` adds `alpha (x y' + y x')` to `beta A` in the upper triangle when `UPPER` is
set, to first order in the unit roundoff, and changes nothing else.  Partial: `x`, `y` have the size of the
matrix and are apart from it; `LOWER` is not set. -/
theorem C90_syr2_partial (hp : 0 < p) (R : Nearest p rn) (B : Build p rn tp) {m : Mem ℚ} {X Y A : View}
    {a : Nat → Nat → ℚ} {x y : Nat → ℚ} {alpha beta : ℚ} {fl : Flags} {N : Nat}
    (H : MvExtArgs p m X A a x alpha N) (wA : A.WF) (vY : Y.isVec) (nY : Y.size = N) (hY : HoldsV m Y y)
    (dY : Disjoint Y.foot A.foot) (fy : ∀ i, i < N → Fl p (y i)) (fbe : Fl p beta) :
    ∃ m' z, extMvupdate2Sym rn tp m beta A alpha X Y {fl with upper := true, lower := false} = .ok (0, m') ∧
      Holds m' A z ∧ Frame A.foot m m' ∧ (∀ i j, j < i → z i j = a i j) ∧
      ∀ i j, i ≤ j → j < N →
        |z i j - (beta * a i j + alpha * (x i * y j) + alpha * (x j * y i))| ≤
          uround p * |beta * a i j + alpha * (x i * y j) + alpha * (x j * y i)| +
          uround p * (1 + uround p) ^ 2 * |alpha * (x j * y i)| +
          gr (uround p) 7 * gr (uround p) 4 *
            (|beta * a i j| + |alpha * (x i * y j)| + |alpha * (x j * y i)|) := by
  obtain ⟨m', e, h⟩ := extMvupdate2SymUnsafe_spec rn tp alpha beta {fl with upper := true, lower := false}
    H.rows H.cols H.size nY wA H.vec vY H.hA H.hX hY H.disj.symm dY
  refine ⟨m', _, ?_, h.holds, h.frame, fun i j hij => if_neg (by omega), fun i j hij hj => ?_⟩
  · have h3 := Nat.mul_pos H.pos H.pos
    have h4 := H.pos
    unfold extMvupdate2Sym
    rw [if_neg (by rw [H.rows, H.cols, H.size, nY]; omega), if_neg (not_not.mpr H.vec),
      if_neg (not_not.mpr vY), if_neg (by rw [H.cols, H.rows, H.size, nY]; simp), e]
    rfl
  · beta_reduce
    rw [if_pos hij]
    exact esyr2Val_err hp R (bprod hp R B) fbe (H.fa i j (by omega) hj) H.fal (H.fx i (by omega)) (fy j hj)
      (H.fx j hj) (fy i (by omega))

example : ∃ m' z, extMvupdate2Sym (rne 53) (twoprodFma (rne 53)) em 2 ⟨0, 2, 2, 2⟩ 7 ⟨4, 2, 2, 1⟩
      ⟨6, 2, 2, 1⟩ {upper := true} = .ok (0, m') ∧
    Holds m' ⟨0, 2, 2, 2⟩ z ∧ Frame (⟨0, 2, 2, 2⟩ : View).foot em m' ∧
    (∀ i j, j < i → z i j = ((i + 2 * j + 1 : ℕ) : ℚ)) ∧
    ∀ i j, i ≤ j → j < 2 →
      |z i j - (2 * ((i + 2 * j + 1 : ℕ) : ℚ) + 7 * (3 * 5) + 7 * (3 * 5))| ≤
        uround 53 * |2 * ((i + 2 * j + 1 : ℕ) : ℚ) + 7 * (3 * 5) + 7 * (3 * 5)| +
        uround 53 * (1 + uround 53) ^ 2 * |7 * (3 * 5)| +
        gr (uround 53) 7 * gr (uround 53) 4 *
          (|2 * ((i + 2 * j + 1 : ℕ) : ℚ)| + |7 * (3 * 5)| + |7 * (3 * 5)|) :=
  C90_syr2_partial (y := fun _ => 5) (fl := {}) (by norm_num) (rne_nearest (by norm_num)) (.inl rfl) eargs
    (.inl (by decide)) (by decide) rfl eY eYA.symm (fun i _ => by exact_mod_cast fln 5 (by norm_num))
    (by exact_mod_cast fln 2 (by norm_num))

/-- C90 is false of `LOWER`: the loop runs over the rows `0 ... j` of column `j`, the elements of the upper
triangle (`src/eblas/syr2_ext.c:71-72`), whatever the operands: the lower triangle keeps its old values and the
upper triangle, which may not be written, gets the update. -/
theorem C90_lower_false {m : Mem ℚ} {X Y A : View} {a : Nat → Nat → ℚ} {x y : Nat → ℚ} {alpha beta : ℚ}
    {fl : Flags} {N : Nat} (H : MvExtArgs p m X A a x alpha N) (wA : A.WF) (vY : Y.isVec) (nY : Y.size = N)
    (hY : HoldsV m Y y) (dY : Disjoint Y.foot A.foot) :
    ∃ m', extMvupdate2Sym rn tp m beta A alpha X Y {fl with lower := true} = .ok (0, m') ∧
      (∀ i j, j < i → i < N → m' (A.at' i j) = m (A.at' i j)) ∧
      ∀ i j, i ≤ j → j < N →
        m' (A.at' i j) = some (esyr2Val rn tp beta (a i j) alpha (x i) (y j) (x j) (y i)) := by
  obtain ⟨m', e, h⟩ := extMvupdate2SymUnsafe_spec rn tp alpha beta {fl with lower := true}
    H.rows H.cols H.size nY wA H.vec vY H.hA H.hX hY H.disj.symm dY
  have hr := H.rows
  have hc := H.cols
  refine ⟨m', ?_, fun i j hij hi => ?_, fun i j hij hj => h.new (by omega) (by omega) hij⟩
  · have h3 := Nat.mul_pos H.pos H.pos
    have h4 := H.pos
    unfold extMvupdate2Sym
    rw [if_neg (by rw [H.rows, H.cols, H.size, nY]; omega), if_neg (not_not.mpr H.vec),
      if_neg (not_not.mpr vY), if_neg (by rw [H.cols, H.rows, H.size, nY]; simp), e]
    rfl
  · rw [h.old (by omega) (by omega) (by omega), H.hA i j (by omega) (by omega)]

example : ∃ m', extMvupdate2Sym (rne 53) (twoprodFma (rne 53)) em 2 ⟨0, 2, 2, 2⟩ 7 ⟨4, 2, 2, 1⟩
      ⟨6, 2, 2, 1⟩ {lower := true} = .ok (0, m') ∧
    (∀ i j, j < i → i < 2 → m' (View.at' ⟨0, 2, 2, 2⟩ i j) = em (View.at' ⟨0, 2, 2, 2⟩ i j)) ∧
    ∀ i j, i ≤ j → j < 2 → m' (View.at' ⟨0, 2, 2, 2⟩ i j) =
      some (esyr2Val (rne 53) (twoprodFma (rne 53)) 2 ((i + 2 * j + 1 : ℕ) : ℚ) 7 3 5 3 5) :=
  C90_lower_false (fl := {}) (y := fun _ => 5) eargs (.inl (by decide)) (by decide) rfl eY eYA.symm

/-- C90: the accuracy of the extended precision is false.  With `x = y' = 1 + e`, `y = 1`, `alpha = 1 + e`,
`A = -2 (1 + 2e)`, `e = 2^-30`, the exact update is `2 e^2` and the computed one `e^2`: the low part of the
second product with `alpha` is stored in `c1` and not used (`src/eblas/syr2_ext.c:53-57,84-88`). -/
theorem C90_accuracy_false : ∃ m', extMvupdate2Sym (rne 53) (twoprodFma (rne 53))
      (fun q => if q = 0 then some (-2 * (1 + 1 / 2 ^ 29)) else if q = 1 then some (1 + 1 / 2 ^ 30)
        else if q = 2 then some 1 else none) 1 ⟨0, 1, 1, 1⟩ (1 + 1 / 2 ^ 30) ⟨1, 1, 1, 1⟩ ⟨2, 1, 1, 1⟩
      {upper := true} = .ok (0, m') ∧ m' 0 = some (1 / 2 ^ 60) :=
  of_cell (by decide +kernel)

/-- C90: a vector shorter than the matrix is accepted, since only the sizes of the two vectors are compared
(`src/eblas/syr2_ext.c:149-152`), and read beyond its end. -/
theorem C90_size_false : extMvupdate2Sym (rne 53) (twoprodFma (rne 53))
      (fun q => if q < 4 ∨ q = 10 ∨ q = 20 then some 1 else none) 1 ⟨0, 2, 2, 2⟩ 1 ⟨10, 1, 1, 1⟩
      ⟨20, 1, 1, 1⟩ {upper := true} = .ub := by
  rfl

/-- C90: `armas_ext_mvupdate_sym` is right for a matrix of one element.  Partial: for larger matrices see
`C90_syr_bounds_false`. -/
theorem C90_syr_one_partial (hp : 5 ≤ p) (R : Nearest p rn) (B : Build p rn tp) {m : Mem ℚ} {s t qa qx : Nat}
    {a x alpha beta : ℚ} {fl : Flags} (hA : m qa = some a) (hX : m qx = some x)
    (fa : Fl p a) (fx : Fl p x) (fal : Fl p alpha) (fbe : Fl p beta) (hq : qx ≠ qa) :
    ∃ z, extMvupdateSym rn tp m beta ⟨qa, s, 1, 1⟩ alpha ⟨qx, t, 1, 1⟩ fl = .ok (0, m.set qa z) ∧
      |z - (a * beta + x * (alpha * x))| ≤ 3 * uround p * |a * beta + x * (alpha * x)| +
        30 * uround p ^ 2 * (|a * beta| + |x * (alpha * x)|) := by
  have P := bprod (by omega) R B
  obtain ⟨f1, e1, e2⟩ := prod_err (by omega) R P fal fx
  refine ⟨axpbyDxVal rn tp beta x (tp alpha x).1 (tp alpha x).2 a, ?_, ?_⟩
  · have h0 : (⟨qx, t, 1, 1⟩ : View).vat 0 = qx := by simp [View.vat]
    have h1 : ((⟨qa, s, 1, 1⟩ : View).sub 0 0 1 1).vat 0 = qa := by simp [View.vat, View.sub]
    have h2 : (⟨qx, t, 1, 1⟩ : View).size = 1 := rfl
    unfold extMvupdateSym extMvupdateTrmUnsafe extAxpbyDxUnsafe
    rw [if_neg (by simp [View.size]), if_neg (by simp [View.isVec]), if_neg (by simp [View.size])]
    have e : ∀ (body : Nat → Mem ℚ → Res (Mem ℚ)) (m : Mem ℚ), forUp 0 1 1 body m =
        (do let m ← body 0 m; pure (1, m)) := by
      intro body m
      rw [forUp_eq]
      simp only [Nat.zero_lt_one, if_true]
      congr 1
    simp only [e, h2, h0, Nat.sub_zero]
    split_ifs <;>
    · simp only [rd, hX, h1, hA, wr, bind, Res.bind, pure]
  · have he := axpbyDxVal_err (tp := tp) (dx := (tp alpha x).2) (by omega) R P fbe fx f1 fa (by
      rw [e1, abs_mul, abs_mul, mul_comm |x|]
      have := mul_le_mul_of_nonneg_right e2 (abs_nonneg x)
      linarith)
    rw [e1] at he
    exact he

example : ∃ z, extMvupdateSym (rne 53) (twoprodFma (rne 53)) em 2 ⟨0, 1, 1, 1⟩ 7 ⟨4, 1, 1, 1⟩ {upper := true} =
      .ok (0, em.set 0 z) ∧
    |z - (1 * 2 + 3 * (7 * 3))| ≤ 3 * uround 53 * |1 * 2 + 3 * (7 * 3)| +
        30 * uround 53 ^ 2 * (|1 * 2| + |3 * (7 * 3)|) :=
  C90_syr_one_partial (by norm_num) (rne_nearest (by norm_num)) (.inl rfl) (by simp [em]) (by simp [em])
    (by exact_mod_cast fln 1 (by norm_num)) (by exact_mod_cast fln 3 (by norm_num))
    (by exact_mod_cast fln 7 (by norm_num)) (by exact_mod_cast fln 2 (by norm_num)) (by norm_num)

/-- C90 is false of `armas_ext_mvupdate_sym` for larger matrices: the vector handed to
`armas_ext_axpby_dx_unsafe` is the whole of `x` and not its part from the diagonal on
(`src/eblas/syr_ext.c:44-61`), so the update of the last column of a 2x2 matrix writes past its end. -/
theorem C90_syr_bounds_false (fl : Bool) : extMvupdateSym (rne 53) (twoprodFma (rne 53))
      (fun q => if q < 4 then some 1 else if 8 ≤ q ∧ q < 10 then some ((q : ℚ) - 6) else none)
      1 ⟨0, 2, 2, 2⟩ 1 ⟨8, 2, 2, 1⟩ {lower := fl, upper := !fl} = .ub := by
  cases fl <;> rfl

/-- C90 is false of `armas_ext_mvupdate_sym` also where the memory goes on: with `x = (2, 3)` and the matrix of
ones the diagonal element `A(1,1)` becomes `1 + 3*2` and not `1 + 3*3`, and a cell that is not part of
the matrix changes. -/
theorem C90_syr_value_false : ∃ m', extMvupdateSym (rne 53) (twoprodFma (rne 53))
      (fun q => if q < 8 then some 1 else if q < 10 then some ((q : ℚ) - 6) else none)
      1 ⟨0, 3, 2, 2⟩ 1 ⟨8, 2, 2, 1⟩ {lower := true} = .ok (0, m') ∧ m' 4 = some 7 ∧ m' 7 = some 10 := by
  obtain ⟨m1, e1, h1⟩ := of_cell (r := extMvupdateSym (rne 53) (twoprodFma (rne 53))
      (fun q => if q < 8 then some 1 else if q < 10 then some ((q : ℚ) - 6) else none)
      1 ⟨0, 3, 2, 2⟩ 1 ⟨8, 2, 2, 1⟩ {lower := true}) (q := 4) (e := 0) (v := 7) (by decide +kernel)
  obtain ⟨m2, e2, h2⟩ := of_cell (r := extMvupdateSym (rne 53) (twoprodFma (rne 53))
      (fun q => if q < 8 then some 1 else if q < 10 then some ((q : ℚ) - 6) else none)
      1 ⟨0, 3, 2, 2⟩ 1 ⟨8, 2, 2, 1⟩ {lower := true}) (q := 7) (e := 0) (v := 10) (by decide +kernel)
  have : m1 = m2 := by
    have := e1.symm.trans e2
    simpa using this
  exact ⟨m1, e1, h1, this ▸ h2⟩

end Armas.Props
