import Verif.SparseMvLemmas

/-!
# The eight sparse triangular solvers
-/

namespace Armas

open Finset

variable {α : Type} [Field α] {A : Sp α} {n N : Nat} {f : Nat → Ent α} {j D b : Nat} {m : Mem α} {x : Nat → α}

theorem ptr_lo (H : Compressed A.ptr A.ix A.v n n N f) (hj : j < n) : A.ptr j = some (pst f N j) := H.ptr j (by omega)

theorem ptr_hi (H : Compressed A.ptr A.ix A.v n n N f) (hj : j < n) : A.ptr (j + 1) = some (pst f N (j + 1)) := H.ptr (j + 1) hj

/-! ## Steps by elimination -/

/-- Result of an elimination step. -/
def elimStep (N : Nat) (f : Nat → Ent α) (unit : Bool) (T : Finset Nat) (x : Nat → α) (j : Nat) : Nat → α :=
  elim N f T (Function.update x j (x j / dg N f unit j)) j

theorem cscUnStep_spec (H : Compressed A.ptr A.ix A.v n n N f) (S : SortedDiag n N f) (hD : DiagAt N f j D) (hx : VecAt m b n x)
    (hj : j < n) (unit : Bool) :
    Runs (cscUnStep A b unit j m) (fun m' => VecAt m' b n (elimStep N f unit (range j) x j) ∧ Frame (rng b n) m m') := by
  unfold cscUnStep
  refine Runs.rd_bind (ptr_hi H hj) ?_
  rw [skipDown_spec H S hD (le_refl _) (hD.seg H).2, Res.ok_bind]
  refine Runs.bind (divAt_spec H S hD hx hj unit) fun m1 ⟨h1, h2⟩ => Runs.rd_bind (ptr_lo H hj) ?_
  refine Runs.bind (axpyLoop_below H S hD h1 hj) fun r hr => ?_
  exact Runs.pure ⟨hr.1, h2.trans hr.2⟩

theorem csrLtStep_spec (H : Compressed A.ptr A.ix A.v n n N f) (S : SortedDiag n N f) (hD : DiagAt N f j D) (hx : VecAt m b n x)
    (hj : j < n) (unit : Bool) :
    Runs (csrLtStep A b unit j m) (fun m' => VecAt m' b n (elimStep N f unit (range j) x j) ∧ Frame (rng b n) m m') := by
  unfold csrLtStep
  refine Runs.rd_bind (ptr_hi H hj) ?_
  rw [skipDown_spec H S hD (le_refl _) (hD.seg H).2, Res.ok_bind]
  refine Runs.bind (divAt_spec H S hD hx hj unit) fun m1 ⟨h1, h2⟩ => Runs.rd_bind (ptr_lo H hj) ?_
  exact (axpyDown_below H S hD h1 hj).mono fun m' h => ⟨h.1, h2.trans h.2⟩

theorem scan_lo (H : Compressed A.ptr A.ix A.v n n N f) (S : SortedDiag n N f) (hD : DiagAt N f j D) (hN : A.nnz = N) :
    skipUp A.ix j (A.nnz - pst f N j) (pst f N j) = .ok D :=
  skipUp_spec H S hD (le_refl _) (hD.seg H).1 (by have := (hD.seg H).1; have := hD.lt; omega)

theorem cscLnStep_spec (H : Compressed A.ptr A.ix A.v n n N f) (S : SortedDiag n N f) (hN : A.nnz = N) (hD : DiagAt N f j D)
    (hx : VecAt m b n x) (hj : j < n) (unit : Bool) :
    Runs (cscLnStep A b unit j m) (fun m' => VecAt m' b n (elimStep N f unit (Ico (j + 1) n) x j) ∧ Frame (rng b n) m m') := by
  unfold cscLnStep
  refine Runs.rd_bind (ptr_lo H hj) ?_
  rw [scan_lo H S hD hN, Res.ok_bind]
  refine Runs.bind (divAt_spec H S hD hx hj unit) fun m1 ⟨h1, h2⟩ => Runs.rd_bind (ptr_hi H hj) ?_
  refine Runs.bind (axpyLoop_above H S hD h1 hj) fun r hr => ?_
  exact Runs.pure ⟨hr.1, h2.trans hr.2⟩

theorem csrUtStep_spec (H : Compressed A.ptr A.ix A.v n n N f) (S : SortedDiag n N f) (hN : A.nnz = N) (hD : DiagAt N f j D)
    (hx : VecAt m b n x) (hj : j < n) (unit : Bool) :
    Runs (csrUtStep A b unit j m) (fun m' => VecAt m' b n (elimStep N f unit (Ico (j + 1) n) x j) ∧ Frame (rng b n) m m') := by
  unfold csrUtStep
  refine Runs.rd_bind (ptr_lo H hj) ?_
  rw [scan_lo H S hD hN, Res.ok_bind]
  refine Runs.rd_bind (H.ix D hD.lt) ?_
  have h := divAt_spec H S hD hx hj unit
  rw [hD.min]
  refine Runs.bind (P := fun m' => VecAt m' b n (Function.update x j (x j / dg N f unit j)) ∧ Frame (rng b n) m m') ?_ fun m1 ⟨h1, h2⟩ =>
    Runs.rd_bind (ptr_hi H hj) ?_
  · unfold csrUtDiv
    cases unit with
    | true => simpa [divAt] using h
    | false => simpa using h
  · refine Runs.bind (axpyLoop_above H S hD h1 hj) fun r hr => ?_
    exact Runs.pure ⟨hr.1, h2.trans hr.2⟩

/-! ## Steps by substitution -/

theorem dotDown_spec (H : Compressed A.ptr A.ix A.v n n N f) (S : SortedDiag n N f) (hD : DiagAt N f j D) (hx : VecAt m b n x)
    {q : Nat} (h1 : D < q) (h2 : q ≤ pst f N (j + 1)) {xk : α} (hk : xk = ∑ p ∈ Ico q (pst f N (j + 1)), (f p).2.2 * x (f p).2.1) :
    dotDown A b j (pst f N j) m q xk = .ok (D + 1, ∑ m ∈ Ico (j + 1) n, dense N f j m * x m) := by
  induction q generalizing xk with
  | zero => omega
  | succ q ih =>
    have hq : q < N := lt_of_lt_of_le h2 (H.ptr_le _)
    unfold dotDown
    rw [if_pos (le_trans (hD.seg H).1 (by omega)), rd_ok (H.ix q hq), Res.ok_bind]
    by_cases c : D = q
    · subst c
      rw [hD.min, if_neg (lt_irrefl _), ← sum_above H S hD, hk]; rfl
    · have hm := (H.mem_seg hq).mp ⟨le_trans (hD.seg H).1 (by omega), h2⟩
      rw [if_pos ((hD.above S hq hm).mp (by omega)), rd_ok (H.v q hq), Res.ok_bind, rd_ok (hx _ (H.minor q hq)), Res.ok_bind]
      refine ih (by omega) (by omega) ?_
      rw [hk, sum_eq_sum_Ico_succ_bot h2, add_comm]

theorem csrUnStep_spec (H : Compressed A.ptr A.ix A.v n n N f) (S : SortedDiag n N f) (hD : DiagAt N f j D) (hx : VecAt m b n x)
    (hj : j < n) (unit : Bool) :
    Runs (csrUnStep A b unit j m) (fun m' => VecAt m' b n (solveFor N f unit (Ico (j + 1) n) x j) ∧ Frame (rng b n) m m') := by
  unfold csrUnStep
  refine Runs.rd_bind (ptr_hi H hj) (Runs.rd_bind (ptr_lo H hj) ?_)
  rw [dotDown_spec H S hD hx (hD.seg H).2 (le_refl _) (by simp), Res.ok_bind]
  dsimp only
  refine Runs.rd_bind (hx j hj) ?_
  unfold solveFor dg
  cases unit with
  | true =>
    simp only [if_true, div_one]
    exact Runs.wr (hx j hj) ⟨hx.set j _, (Frame.refl _ _).setR hj _⟩
  | false =>
    simp only [Bool.false_eq_true, if_false, Nat.add_one_ne_zero, Nat.add_sub_cancel]
    refine Runs.rd_bind (H.v D hD.lt) (Runs.wr (hx j hj) ⟨?_, (Frame.refl _ _).setR hj _⟩)
    rw [dense_diag S hD]
    exact hx.set j _

theorem dotUp_spec (H : Compressed A.ptr A.ix A.v n n N f) (S : SortedDiag n N f) (hD : DiagAt N f j D) (hx : VecAt m b n x)
    {q g : Nat} (h1 : pst f N j ≤ q) (h2 : q ≤ D) (hg1 : D ≤ q + g) {xk : α}
    (hk : xk = ∑ p ∈ Ico (pst f N j) q, (f p).2.2 * x (f p).2.1) :
    dotUp A b j m g q xk = .ok (D, ∑ m ∈ range j, dense N f j m * x m) := by
  induction g generalizing q xk with
  | zero =>
    have : q = D := by omega
    subst this
    rw [← sum_below H S hD, ← hk]; rfl
  | succ g ih =>
    unfold dotUp
    have hq : q < N := lt_of_le_of_lt h2 hD.lt
    rw [rd_ok (H.ix q hq), Res.ok_bind]
    by_cases c : q = D
    · subst c
      rw [hD.min, if_neg (lt_irrefl _), ← sum_below H S hD, ← hk]; rfl
    · have hm := (H.mem_seg hq).mp ⟨h1, lt_of_le_of_lt h2 (hD.seg H).2⟩
      rw [if_pos ((hD.below S hq hm).mp (by omega)), rd_ok (H.v q hq), Res.ok_bind, rd_ok (hx _ (H.minor q hq)), Res.ok_bind]
      refine ih (by omega) (by omega) (by omega) ?_
      rw [hk, sum_Ico_succ_top h1]

theorem cscUtStep_spec (H : Compressed A.ptr A.ix A.v n n N f) (S : SortedDiag n N f) (hD : DiagAt N f j D) (hx : VecAt m b n x)
    (hj : j < n) (unit : Bool) :
    Runs (cscUtStep A b unit j m) (fun m' => VecAt m' b n (solveFor N f unit (range j) x j) ∧ Frame (rng b n) m m') := by
  unfold cscUtStep
  have hs := hD.seg H
  refine Runs.rd_bind (ptr_lo H hj) (Runs.rd_bind (ptr_hi H hj) ?_)
  rw [dotUp_spec H S hD hx (le_refl _) hs.1 (by omega) (by simp), Res.ok_bind]
  dsimp only
  refine Runs.rd_bind (hx j hj) ?_
  unfold solveFor dg
  cases unit with
  | true =>
    simp only [if_true, div_one]
    exact Runs.wr (hx j hj) ⟨hx.set j _, (Frame.refl _ _).setR hj _⟩
  | false =>
    simp only [Bool.false_eq_true, if_false]
    refine Runs.rd_bind (H.v D hD.lt) (Runs.wr (hx j hj) ⟨?_, (Frame.refl _ _).setR hj _⟩)
    rw [dense_diag S hD]
    exact hx.set j _

theorem subUp_spec (H : Compressed A.ptr A.ix A.v n n N f) (S : SortedDiag n N f) (hD : DiagAt N f j D) (hj : j < n) {m' : Mem α}
    {q g : Nat} (h1 : pst f N j ≤ q) (h2 : q ≤ D) (hg1 : D ≤ q + g)
    (hx : VecAt m' b n (Function.update x j (x j - ∑ p ∈ Ico (pst f N j) q, (f p).2.2 * x (f p).2.1))) (hf : Frame (rng b n) m m') :
    Runs (subUp A b j g q m') (fun r => r.1 = D ∧ VecAt r.2 b n (Function.update x j (x j - ∑ m ∈ range j, dense N f j m * x m)) ∧
      Frame (rng b n) m r.2) := by
  induction g generalizing q m' with
  | zero =>
    have : q = D := by omega
    subst this
    rw [sum_below H S hD] at hx
    exact Runs.pure ⟨rfl, hx, hf⟩
  | succ g ih =>
    unfold subUp
    have hq : q < N := lt_of_le_of_lt h2 hD.lt
    rw [rd_ok (H.ix q hq), Res.ok_bind]
    by_cases c : q = D
    · subst c
      rw [sum_below H S hD] at hx
      rw [hD.min, if_neg (lt_irrefl _)]
      exact Runs.pure ⟨rfl, hx, hf⟩
    · have hm := (H.mem_seg hq).mp ⟨h1, lt_of_le_of_lt h2 (hD.seg H).2⟩
      have hlt := (hD.below S hq hm).mp (by omega)
      rw [if_pos hlt]
      refine Runs.rd_bind (hx j hj) (Runs.rd_bind (H.v q hq) (Runs.rd_bind (hx _ (H.minor q hq)) (Runs.wr_bind (hx j hj) ?_)))
      refine ih (by omega) (by omega) (by omega) ((hx.set j _).congr fun k _ => ?_) (hf.setR hj _)
      rw [Function.update_self, Function.update_idem, Function.update_of_ne (a := (f q).2.1) (by omega), sum_Ico_succ_top h1, sub_sub]

theorem divSolve (unit : Bool) (T : Finset Nat) : Function.update (Function.update x j (x j - ∑ m ∈ T, dense N f j m * x m)) j
    (Function.update x j (x j - ∑ m ∈ T, dense N f j m * x m) j / dg N f unit j) = solveFor N f unit T x j := by
  rw [Function.update_self, Function.update_idem]; rfl

theorem csrLnStep_spec (H : Compressed A.ptr A.ix A.v n n N f) (S : SortedDiag n N f) (hD : DiagAt N f j D) (hx : VecAt m b n x)
    (hj : j < n) (unit : Bool) :
    Runs (csrLnStep A b unit j m) (fun m' => VecAt m' b n (solveFor N f unit (range j) x j) ∧ Frame (rng b n) m m') := by
  unfold csrLnStep
  have hs := hD.seg H
  refine Runs.rd_bind (ptr_lo H hj) (Runs.rd_bind (ptr_hi H hj) ?_)
  refine Runs.bind (subUp_spec (m := m) (x := x) H S hD hj (le_refl _) hs.1 (by omega) (hx.congr fun k _ => by simp) (Frame.refl _ _)) ?_
  rintro ⟨p, m1⟩ ⟨rfl, h1, h2⟩
  refine (divAt_spec H S hD h1 hj unit).mono fun m' h => ⟨?_, h2.trans h.2⟩
  rw [← divSolve]; exact h.1

theorem cscLtStep_spec (H : Compressed A.ptr A.ix A.v n n N f) (S : SortedDiag n N f) (hN : A.nnz = N) (hD : DiagAt N f j D)
    (hx : VecAt m b n x) (hj : j < n) (unit : Bool) :
    Runs (cscLtStep A b unit j m) (fun m' => VecAt m' b n (solveFor N f unit (Ico (j + 1) n) x j) ∧ Frame (rng b n) m m') := by
  unfold cscLtStep
  have hs := hD.seg H
  refine Runs.rd_bind (ptr_lo H hj) ?_
  rw [scan_lo H S hD hN, Res.ok_bind]
  refine Runs.rd_bind (ptr_hi H hj) ?_
  refine Runs.bind (P := fun r : Nat × Mem α => VecAt r.2 b n (Function.update x j (x j - ∑ m ∈ Ico (j + 1) n, dense N f j m * x m)) ∧
      Frame (rng b n) m r.2) ?_ ?_
  · refine Runs.forUp1 (fun q m' => VecAt m' b n (Function.update x j (x j - ∑ p ∈ Ico (D + 1) q, (f p).2.2 * x (f p).2.1)) ∧
      Frame (rng b n) m m') hs.2 ⟨hx.congr fun k _ => by simp, Frame.refl _ _⟩ ?_ (fun m' h => by rw [sum_above H S hD] at h; exact h)
    rintro q m' h1 h2 ⟨k1, k2⟩
    have hq : q < N := lt_of_lt_of_le h2 (H.ptr_le _)
    have hm := (H.mem_seg hq).mp ⟨le_trans hs.1 (by omega), h2⟩
    have hlt := (hD.above S hq hm).mp (by omega)
    refine Runs.rd_bind (k1 j hj) (Runs.rd_bind (H.v q hq) (Runs.rd_bind (H.ix q hq) (Runs.rd_bind (k1 _ (H.minor q hq))
      (Runs.wr (k1 j hj) ⟨(k1.set j _).congr fun k _ => ?_, k2.setR hj _⟩))))
    rw [Function.update_self, Function.update_idem, Function.update_of_ne (a := (f q).2.1) (by omega), sum_Ico_succ_top h1, sub_sub]
  · rintro ⟨p, m1⟩ ⟨h1, h2⟩
    refine (divAt_spec H S hD h1 hj unit).mono fun m' h => ⟨?_, h2.trans h.2⟩
    rw [← divSolve]; exact h.1

/-! ## All steps -/

/-- Equation `k` with coefficients `M k m`, unknowns in `T` and the diagonal. -/
def Eqn (M : Nat → Nat → α) (dv : Nat → α) (T : Finset Nat) (x bv : Nat → α) (k : Nat) : Prop :=
  x k * dv k + ∑ m ∈ T, M k m * x m = bv k

variable {M : Nat → Nat → α} {dv bv : Nat → α} {unit : Bool}

theorem Eqn.congr {T : Finset Nat} {y : Nat → α} {k : Nat} (h : Eqn M dv T x bv k) (e0 : y k = x k) (e : ∀ m ∈ T, y m = x m) :
    Eqn M dv T y bv k := by
  unfold Eqn at *
  rw [e0, ← h]
  congr 1
  exact sum_congr rfl fun m hm => by rw [e m hm]

theorem Eqn.of_solve {T : Finset Nat} (hT : j ∉ T) (hd : dg N f unit j ≠ 0) (hb : x j = bv j) :
    Eqn (dense N f) (dg N f unit) T (solveFor N f unit T x j) bv j := by
  unfold Eqn solveFor
  rw [Function.update_self, div_mul_cancel₀ _ hd]
  have e : ∀ c : α, ∑ m ∈ T, dense N f j m * Function.update x j c m = ∑ m ∈ T, dense N f j m * x m := fun c =>
    sum_congr rfl fun m hm => by
      rw [Function.update_of_ne]
      rintro rfl; exact hT hm
  rw [e, hb]; ring

theorem solveFor_ne {T : Finset Nat} {k : Nat} (h : k ≠ j) : solveFor N f unit T x j k = x k := Function.update_of_ne h _ _

theorem solveUp_step (hd : dg N f unit j ≠ 0)
    (h : (∀ k, k < j → k < n → Eqn (dense N f) (dg N f unit) (range k) x bv k) ∧ ∀ k, j ≤ k → k < n → x k = bv k) (hj : j < n) :
    (∀ k, k < j + 1 → k < n → Eqn (dense N f) (dg N f unit) (range k) (solveFor N f unit (range j) x j) bv k) ∧
      ∀ k, j + 1 ≤ k → k < n → solveFor N f unit (range j) x j k = bv k := by
  constructor
  · intro k hk hn
    by_cases c : k = j
    · subst c; exact Eqn.of_solve (by simp) hd (h.2 k (le_refl _) hn)
    · refine (h.1 k (by omega) hn).congr (solveFor_ne c) fun m hm => solveFor_ne ?_
      rw [mem_range] at hm; omega
  · intro k hk hn
    rw [solveFor_ne (by omega)]; exact h.2 k (by omega) hn

theorem solveDown_step (hd : dg N f unit j ≠ 0)
    (h : (∀ k, j + 1 ≤ k → k < n → Eqn (dense N f) (dg N f unit) (Ico (k + 1) n) x bv k) ∧ ∀ k, k < j + 1 → k < n → x k = bv k) (hj : j < n) :
    (∀ k, j ≤ k → k < n → Eqn (dense N f) (dg N f unit) (Ico (k + 1) n) (solveFor N f unit (Ico (j + 1) n) x j) bv k) ∧
      ∀ k, k < j → k < n → solveFor N f unit (Ico (j + 1) n) x j k = bv k := by
  constructor
  · intro k hk hn
    by_cases c : k = j
    · subst c; exact Eqn.of_solve (by simp) hd (h.2 k (by omega) hn)
    · refine (h.1 k (by omega) hn).congr (solveFor_ne c) fun m hm => solveFor_ne ?_
      rw [mem_Ico] at hm; omega
  · intro k hk hn
    rw [solveFor_ne (by omega)]; exact h.2 k (by omega) hn

theorem elimStep_self {T : Finset Nat} (hT : j ∉ T) : elimStep N f unit T x j j = x j / dg N f unit j := by
  unfold elimStep elim
  rw [if_neg hT, Function.update_self]

theorem elimStep_in {T : Finset Nat} (hT : j ∉ T) {k : Nat} (hk : k ∈ T) :
    elimStep N f unit T x j k = x k - dense N f j k * (x j / dg N f unit j) := by
  have hne : k ≠ j := by rintro rfl; exact hT hk
  unfold elimStep elim
  rw [if_pos hk, Function.update_self, Function.update_of_ne hne]

theorem elimStep_out {T : Finset Nat} {k : Nat} (hne : k ≠ j) (hk : k ∉ T) : elimStep N f unit T x j k = x k := by
  unfold elimStep elim
  rw [if_neg hk, Function.update_of_ne hne]

theorem elimUp_step (hd : dg N f unit j ≠ 0)
    (h : (∀ k, k < j → k < n → Eqn (fun a b => dense N f b a) (dg N f unit) (range k) x bv k) ∧
      ∀ k, j ≤ k → k < n → x k + ∑ m ∈ range j, dense N f m k * x m = bv k) (hj : j < n) :
    (∀ k, k < j + 1 → k < n → Eqn (fun a b => dense N f b a) (dg N f unit) (range k) (elimStep N f unit (Ico (j + 1) n) x j) bv k) ∧
      ∀ k, j + 1 ≤ k → k < n → elimStep N f unit (Ico (j + 1) n) x j k +
        ∑ m ∈ range (j + 1), dense N f m k * elimStep N f unit (Ico (j + 1) n) x j m = bv k := by
  have hs := elimStep_self (N := N) (f := f) (unit := unit) (x := x) (j := j) (T := Ico (j + 1) n) (by simp)
  have ho : ∀ m ∈ range j, elimStep N f unit (Ico (j + 1) n) x j m = x m := fun m hm => by
    rw [mem_range] at hm
    exact elimStep_out (by omega) (by simp; omega)
  constructor
  · intro k hk hn
    by_cases c : k = j
    · subst c
      unfold Eqn
      rw [hs, div_mul_cancel₀ _ hd, ← h.2 k (le_refl _) hn]
      congr 1
      exact sum_congr rfl fun m hm => by rw [ho m hm]
    · refine (h.1 k (by omega) hn).congr (ho k (by rw [mem_range]; omega)) fun m hm => ho m ?_
      rw [mem_range] at hm ⊢; omega
  · intro k hk hn
    rw [elimStep_in (by simp) (by rw [mem_Ico]; omega), sum_range_succ, hs, ← h.2 k (by omega) hn,
      sum_congr rfl (g := fun m => dense N f m k * x m) fun m hm => by rw [ho m hm]]
    ring

theorem elimDown_step (hd : dg N f unit j ≠ 0)
    (h : (∀ k, j + 1 ≤ k → k < n → Eqn (fun a b => dense N f b a) (dg N f unit) (Ico (k + 1) n) x bv k) ∧
      ∀ k, k < j + 1 → k < n → x k + ∑ m ∈ Ico (j + 1) n, dense N f m k * x m = bv k) (hj : j < n) :
    (∀ k, j ≤ k → k < n → Eqn (fun a b => dense N f b a) (dg N f unit) (Ico (k + 1) n) (elimStep N f unit (range j) x j) bv k) ∧
      ∀ k, k < j → k < n → elimStep N f unit (range j) x j k +
        ∑ m ∈ Ico j n, dense N f m k * elimStep N f unit (range j) x j m = bv k := by
  have hs := elimStep_self (N := N) (f := f) (unit := unit) (x := x) (j := j) (T := range j) (by simp)
  have ho : ∀ m ∈ Ico (j + 1) n, elimStep N f unit (range j) x j m = x m := fun m hm => by
    rw [mem_Ico] at hm
    exact elimStep_out (by omega) (by simp; omega)
  constructor
  · intro k hk hn
    by_cases c : k = j
    · subst c
      unfold Eqn
      rw [hs, div_mul_cancel₀ _ hd, ← h.2 k (by omega) hn]
      congr 1
      exact sum_congr rfl fun m hm => by rw [ho m hm]
    · refine (h.1 k (by omega) hn).congr (ho k (by rw [mem_Ico]; omega)) fun m hm => ho m ?_
      rw [mem_Ico] at hm ⊢; omega
  · intro k hk hn
    rw [elimStep_in (by simp) (by rw [mem_range]; omega), sum_eq_sum_Ico_succ_bot hj, hs, ← h.2 k (by omega) hn,
      sum_congr rfl (g := fun m => dense N f m k * x m) fun m hm => by rw [ho m hm]]
    ring

/-- All hypotheses on the matrix: square, compressed, sorted, with stored diagonal. -/
structure TriMat (A : Sp α) (n N : Nat) (f : Nat → Ent α) (unit : Bool) : Prop where
  comp : Compressed A.ptr A.ix A.v n n N f
  nnz : A.nnz = N
  sd : SortedDiag n N f
  dg : ∀ j, j < n → dg N f unit j ≠ 0

theorem TriMat.diagAt (T : TriMat A n N f unit) (hj : j < n) : ∃ D, DiagAt N f j D := by
  obtain ⟨D, h1, h2, h3⟩ := T.sd.diag j hj
  exact ⟨D, h1, h2, h3⟩

/-- Result of a solver: the vector `x` in the cells satisfies the equations. -/
def Solved (m : Mem α) (b n : Nat) (E : (Nat → α) → Nat → Prop) (m' : Mem α) : Prop :=
  ∃ x, VecAt m' b n x ∧ (∀ k, k < n → E x k) ∧ Frame (rng b n) m m'

theorem solveUp_loop (T : TriMat A n N f unit) {step : Nat → Mem α → Res (Mem α)}
    (hs : ∀ j D (m : Mem α) x, DiagAt N f j D → j < n → VecAt m b n x →
      Runs (step j m) (fun m' => VecAt m' b n (solveFor N f unit (range j) x j) ∧ Frame (rng b n) m m')) (hx : VecAt m b n bv)
    {s : Nat} (hsn : s ≤ n) {m1 : Mem α} (h0 : ∃ x, VecAt m1 b n x ∧ Frame (rng b n) m m1 ∧
      (∀ k, k < s → k < n → Eqn (dense N f) (dg N f unit) (range k) x bv k) ∧ ∀ k, s ≤ k → k < n → x k = bv k) :
    Runs (forUp s n 1 step m1) (fun r => Solved m b n (fun x k => Eqn (dense N f) (dg N f unit) (range k) x bv k) r.2) := by
  refine Runs.forUp1 (fun j m' => ∃ x, VecAt m' b n x ∧ Frame (rng b n) m m' ∧
      (∀ k, k < j → k < n → Eqn (dense N f) (dg N f unit) (range k) x bv k) ∧ ∀ k, j ≤ k → k < n → x k = bv k) hsn h0 ?_ ?_
  · rintro j m' - hj ⟨x, h1, h2, h3⟩
    obtain ⟨D, hD⟩ := T.diagAt hj
    exact (hs j D m' x hD hj h1).mono fun m2 h => ⟨_, h.1, h2.trans h.2, solveUp_step (T.dg j hj) h3 hj⟩
  · rintro m' ⟨x, h1, h2, h3, -⟩
    exact ⟨x, h1, fun k hk => h3 k hk hk, h2⟩

theorem solveDown_loop (T : TriMat A n N f unit) {step : Nat → Mem α → Res (Mem α)}
    (hs : ∀ j D (m : Mem α) x, DiagAt N f j D → j < n → VecAt m b n x →
      Runs (step j m) (fun m' => VecAt m' b n (solveFor N f unit (Ico (j + 1) n) x j) ∧ Frame (rng b n) m m')) (hx : VecAt m b n bv)
    {s : Nat} (hsn : s ≤ n) {m1 : Mem α} (h0 : ∃ x, VecAt m1 b n x ∧ Frame (rng b n) m m1 ∧
      (∀ k, s ≤ k → k < n → Eqn (dense N f) (dg N f unit) (Ico (k + 1) n) x bv k) ∧ ∀ k, k < s → k < n → x k = bv k) :
    Runs (forDown s step m1) (Solved m b n (fun x k => Eqn (dense N f) (dg N f unit) (Ico (k + 1) n) x bv k)) := by
  refine Runs.forDown (fun j m' => ∃ x, VecAt m' b n x ∧ Frame (rng b n) m m' ∧
      (∀ k, j ≤ k → k < n → Eqn (dense N f) (dg N f unit) (Ico (k + 1) n) x bv k) ∧ ∀ k, k < j → k < n → x k = bv k) h0 ?_ ?_
  · rintro j m' hj ⟨x, h1, h2, h3⟩
    have hj : j < n := by omega
    obtain ⟨D, hD⟩ := T.diagAt hj
    exact (hs j D m' x hD hj h1).mono fun m2 h => ⟨_, h.1, h2.trans h.2, solveDown_step (T.dg j hj) h3 hj⟩
  · rintro m' ⟨x, h1, h2, h3, -⟩
    exact ⟨x, h1, fun k hk => h3 k (Nat.zero_le _) hk, h2⟩

theorem elimUp_loop (T : TriMat A n N f unit) {step : Nat → Mem α → Res (Mem α)}
    (hs : ∀ j D (m : Mem α) x, DiagAt N f j D → j < n → VecAt m b n x →
      Runs (step j m) (fun m' => VecAt m' b n (elimStep N f unit (Ico (j + 1) n) x j) ∧ Frame (rng b n) m m')) (hx : VecAt m b n bv) :
    Runs (forUp 0 n 1 step m) (fun r => Solved m b n (fun x k => Eqn (fun a b => dense N f b a) (dg N f unit) (range k) x bv k) r.2) := by
  refine Runs.forUp1 (fun j m' => ∃ x, VecAt m' b n x ∧ Frame (rng b n) m m' ∧
      (∀ k, k < j → k < n → Eqn (fun a b => dense N f b a) (dg N f unit) (range k) x bv k) ∧
      ∀ k, j ≤ k → k < n → x k + ∑ m ∈ range j, dense N f m k * x m = bv k) (Nat.zero_le _)
    ⟨bv, hx, Frame.refl _ _, by intros; omega, by intros; simp⟩ ?_ ?_
  · rintro j m' - hj ⟨x, h1, h2, h3⟩
    obtain ⟨D, hD⟩ := T.diagAt hj
    exact (hs j D m' x hD hj h1).mono fun m2 h => ⟨_, h.1, h2.trans h.2, elimUp_step (T.dg j hj) h3 hj⟩
  · rintro m' ⟨x, h1, h2, h3, -⟩
    exact ⟨x, h1, fun k hk => h3 k hk hk, h2⟩

theorem elimDown_loop (T : TriMat A n N f unit) {step : Nat → Mem α → Res (Mem α)}
    (hs : ∀ j D (m : Mem α) x, DiagAt N f j D → j < n → VecAt m b n x →
      Runs (step j m) (fun m' => VecAt m' b n (elimStep N f unit (range j) x j) ∧ Frame (rng b n) m m')) (hx : VecAt m b n bv) :
    Runs (forDown n step m) (Solved m b n (fun x k => Eqn (fun a b => dense N f b a) (dg N f unit) (Ico (k + 1) n) x bv k)) := by
  refine Runs.forDown (fun j m' => ∃ x, VecAt m' b n x ∧ Frame (rng b n) m m' ∧
      (∀ k, j ≤ k → k < n → Eqn (fun a b => dense N f b a) (dg N f unit) (Ico (k + 1) n) x bv k) ∧
      ∀ k, k < j → k < n → x k + ∑ m ∈ Ico j n, dense N f m k * x m = bv k)
    ⟨bv, hx, Frame.refl _ _, by intros; omega, by intros; simp⟩ ?_ ?_
  · rintro j m' hj ⟨x, h1, h2, h3⟩
    obtain ⟨D, hD⟩ := T.diagAt hj
    exact (hs j D m' x hD hj h1).mono fun m2 h => ⟨_, h.1, h2.trans h.2, elimDown_step (T.dg j hj) h3 hj⟩
  · rintro m' ⟨x, h1, h2, h3, -⟩
    exact ⟨x, h1, fun k hk => h3 k (Nat.zero_le _) hk, h2⟩

theorem cscMvsolveUn_spec (T : TriMat A n N f unit) (hc : A.cols = n) (hx : VecAt m b n bv) :
    Runs (cscMvsolveUn A b unit m) (Solved m b n (fun x k => Eqn (fun a b => dense N f b a) (dg N f unit) (Ico (k + 1) n) x bv k)) := by
  unfold cscMvsolveUn
  rw [hc]
  exact elimDown_loop T (fun j D m x hD hj h => cscUnStep_spec T.comp T.sd hD h hj unit) hx

theorem csrMvsolveLt_spec (T : TriMat A n N f unit) (hc : A.rows = n) (hx : VecAt m b n bv) :
    Runs (csrMvsolveLt A b unit m) (Solved m b n (fun x k => Eqn (fun a b => dense N f b a) (dg N f unit) (Ico (k + 1) n) x bv k)) := by
  unfold csrMvsolveLt
  rw [hc]
  exact elimDown_loop T (fun j D m x hD hj h => csrLtStep_spec T.comp T.sd hD h hj unit) hx

theorem cscMvsolveLn_spec (T : TriMat A n N f unit) (hc : A.cols = n) (hx : VecAt m b n bv) :
    Runs (cscMvsolveLn A b unit m) (Solved m b n (fun x k => Eqn (fun a b => dense N f b a) (dg N f unit) (range k) x bv k)) := by
  unfold cscMvsolveLn
  rw [hc]
  exact Runs.bind (elimUp_loop T (fun j D m x hD hj h => cscLnStep_spec T.comp T.sd T.nnz hD h hj unit) hx) fun r hr => Runs.pure hr

theorem csrMvsolveUt_spec (T : TriMat A n N f unit) (hc : A.rows = n) (hx : VecAt m b n bv) :
    Runs (csrMvsolveUt A b unit m) (Solved m b n (fun x k => Eqn (fun a b => dense N f b a) (dg N f unit) (range k) x bv k)) := by
  unfold csrMvsolveUt
  rw [hc]
  exact Runs.bind (elimUp_loop T (fun j D m x hD hj h => csrUtStep_spec T.comp T.sd T.nnz hD h hj unit) hx) fun r hr => Runs.pure hr

theorem csrMvsolveUn_spec (T : TriMat A n N f unit) (hc : A.rows = n) (hx : VecAt m b n bv) :
    Runs (csrMvsolveUn A b unit m) (Solved m b n (fun x k => Eqn (dense N f) (dg N f unit) (Ico (k + 1) n) x bv k)) := by
  unfold csrMvsolveUn
  rw [hc]
  exact solveDown_loop T (fun j D m x hD hj h => csrUnStep_spec T.comp T.sd hD h hj unit) hx (le_refl _)
    ⟨bv, hx, Frame.refl _ _, by intros; omega, by intros; rfl⟩

theorem cscMvsolveUt_spec (T : TriMat A n N f unit) (hc : A.cols = n) (hx : VecAt m b n bv) :
    Runs (cscMvsolveUt A b unit m) (Solved m b n (fun x k => Eqn (dense N f) (dg N f unit) (range k) x bv k)) := by
  unfold cscMvsolveUt
  rw [hc]
  exact Runs.bind (solveUp_loop T (fun j D m x hD hj h => cscUtStep_spec T.comp T.sd hD h hj unit) hx (Nat.zero_le _)
    ⟨bv, hx, Frame.refl _ _, by intros; omega, by intros; rfl⟩) fun r hr => Runs.pure hr

theorem csrMvsolveLn_spec (T : TriMat A n N f unit) (hc : A.rows = n) (hn : 0 < n) (hx : VecAt m b n bv) :
    Runs (csrMvsolveLn A b unit m) (Solved m b n (fun x k => Eqn (dense N f) (dg N f unit) (range k) x bv k)) := by
  unfold csrMvsolveLn
  rw [hc]
  obtain ⟨D, hD⟩ := T.diagAt hn
  have hDs : D = pst f N 0 := by
    have hs := hD.seg T.comp
    by_contra c
    have h1 : pst f N 0 < D := lt_of_le_of_ne hs.1 (fun h => c h.symm)
    have h2 : pst f N 0 < N := lt_trans h1 hD.lt
    have := (hD.below T.sd h2 ((T.comp.mem_seg h2).mp ⟨le_refl _, lt_trans h1 hs.2⟩)).mp h1
    omega
  refine Runs.bind (P := fun m' => VecAt m' b n (Function.update bv 0 (bv 0 / dg N f unit 0)) ∧ Frame (rng b n) m m') ?_ ?_
  · have h := divAt_spec T.comp T.sd hD hx hn unit
    unfold csrLnFirst
    cases unit with
    | true => simpa [divAt] using h
    | false =>
      simp only [Bool.false_eq_true, if_false]
      refine Runs.rd_bind (ptr_lo T.comp hn) ?_
      rw [← hDs]; exact h
  · rintro m1 ⟨h1, h2⟩
    have e1 : Function.update bv 0 (bv 0 / dg N f unit 0) = solveFor N f unit (range 0) bv 0 := by
      unfold solveFor; rw [range_zero, sum_empty, sub_zero]
    rw [e1] at h1
    exact Runs.bind (solveUp_loop T (fun j D m x hD hj h => csrLnStep_spec T.comp T.sd hD h hj unit) hx hn
      ⟨_, h1, h2, solveUp_step (T.dg 0 hn) ⟨by intros; omega, by intros; rfl⟩ hn⟩) fun r hr => Runs.pure hr

theorem cscMvsolveLt_spec (T : TriMat A n N f unit) (hc : A.cols = n) (hn : 0 < n) (hx : VecAt m b n bv) :
    Runs (cscMvsolveLt A b unit m) (Solved m b n (fun x k => Eqn (dense N f) (dg N f unit) (Ico (k + 1) n) x bv k)) := by
  unfold cscMvsolveLt
  rw [hc, if_neg (by omega)]
  have hl : n - 1 < n := by omega
  obtain ⟨D, hD⟩ := T.diagAt hl
  refine Runs.rd_bind (ptr_lo T.comp hl) ?_
  rw [scan_lo T.comp T.sd hD T.nnz, Res.ok_bind]
  refine Runs.bind (divAt_spec T.comp T.sd hD hx hl unit) ?_
  rintro m1 ⟨h1, h2⟩
  have e1 : Function.update bv (n - 1) (bv (n - 1) / dg N f unit (n - 1)) = solveFor N f unit (Ico (n - 1 + 1) n) bv (n - 1) := by
    unfold solveFor; rw [show n - 1 + 1 = n by omega, Ico_self, sum_empty, sub_zero]
  rw [e1] at h1
  exact solveDown_loop T (fun j D m x hD hj h => cscLtStep_spec T.comp T.sd T.nnz hD h hj unit) hx (by omega)
    ⟨_, h1, h2, solveDown_step (T.dg _ hl) ⟨by intros; omega, by intros; rfl⟩ hl⟩

end Armas
