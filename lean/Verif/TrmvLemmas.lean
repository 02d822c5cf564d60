import Verif.Tri

/-!
# Specifications of the triangular matrix-vector product

Helper lemmas about `src/blas/trmv.c`, and the specification of `mvmultUnsafe`.
-/

namespace Armas

open Finset

variable {α : Type}

/-- Elements not yet updated, as a subvector. -/
theorem UpdV.subvec_old {m0 m : Mem α} {Y : View} {f g : Nat → α} {S : Nat → Prop}
    (h : UpdV m0 Y f g S m) (hv : Y.isVec) {n len : Nat} (hn : n + len ≤ Y.size)
    (hS : ∀ k, k < len → ¬ S (n + k)) : HoldsV m (Y.subvec n len) (fun k => f (n + k)) := by
  intro k hk
  rw [View.subvec_size] at hk
  rw [View.subvec_vat hv n len hk]
  exact h.old (by omega) (hS k hk)

section Trmv

variable [CommRing α]

theorem dotUnsafe_spec {env : Env} {fuel : Nat} {m : Mem α} {X Y : View} {x y : Nat → α}
    (hX : X.isVec) (hY : Y.isVec) (hs : X.size = Y.size) (hf : Y.size < fuel)
    (hx : HoldsV m X x) (hy : HoldsV m Y y) :
    dotUnsafe env fuel m X Y = .ok (∑ k ∈ range Y.size, x k * y k) := by
  unfold dotUnsafe adotUnsafe
  by_cases h0 : env.blas1min = 0
  · rw [if_pos h0, vecDot_spec (by omega) (le_refl _) hx hy]
    simp
  · rw [if_neg h0, vecDotRec_spec (by omega) fuel Y.size hf hY hX (le_refl _) (by omega) hy hx]
    simp only [Res.ok_bind, zero_add, mul_one, Res.pure_eq]
    congr 1
    exact Finset.sum_congr rfl (fun _ _ => mul_comm _ _)

theorem mvmultUnsafe_spec [DecidableEq α] (ab : α → α) {env : Env} (hmin : env.blas2min ≠ 1)
    {fuel : Nat} {m : Mem α} {Y A X : View} {y x : Nat → α} {a : Nat → Nat → α} (beta alpha : α)
    {fl : Flags} (hfl : fl.absA = false) (hb : beta = 1 ∨ A.size ≠ 0)
    (hf : Y.size < fuel) (hv : Y.isVec) (hw : Y.WF) (hXv : X.isVec)
    (hY : A.opRows fl.transA = Y.size) (hX : A.opCols fl.transA = X.size) (hy : HoldsV m Y y)
    (hA : Holds m A a) (hx : HoldsV m X x)
    (hdA : Disjoint A.foot Y.foot) (hdX : Disjoint X.foot Y.foot) :
    Runs (mvmultUnsafe ab env fuel m beta Y alpha A X fl) (fun m' =>
      HoldsV m' Y (fun i => beta * y i + alpha * ∑ j ∈ range X.size, opA fl.transA a i j * x j) ∧
        Frame Y.foot m m') := by
  unfold mvmultUnsafe
  by_cases h0 : A.size = 0
  · rw [if_pos h0]
    refine Runs.ok ⟨?_, Frame.refl _ _⟩
    have hb : beta = 1 := hb.resolve_right (fun h => h h0)
    have hs : X.size = 0 ∨ Y.size = 0 := by
      rw [← hX, ← hY]; unfold View.opRows View.opCols
      unfold View.size at h0
      rcases Nat.mul_eq_zero.mp h0 with h | h <;> cases fl.transA <;> simp [h]
    rcases hs with hs | hs
    · refine hy.congr (fun k hk => ?_)
      rw [hs, hb]; simp
    · intro k hk; omega
  · rw [if_neg h0]
    refine Runs.bind (scaleUnsafe_vec beta hv hw hy) ?_
    rintro m1 ⟨h1, f1⟩
    refine (gemvRec_spec ab hmin alpha hfl fuel hf hv hw hXv hY hX h1 (hA.frame f1 hdA)
      (hx.frame hXv f1 hdX) hdA hdX).mono ?_
    rintro m2 ⟨h2, f2⟩
    exact ⟨h2, f1.trans f2⟩

omit [CommRing α] in
theorem trm_swap [Zero α] [One α] (u t : Bool) (a : Nat → Nat → α) (i j : Nat) :
    trm u t a j i = trm (!u) t (fun i j => a j i) i j := by
  unfold trm
  by_cases h : i = j
  · subst h; simp
  · rw [if_neg h, if_neg (fun e => h e.symm)]
    cases u <;> simp

omit [CommRing α] in
/-- Elements outside of the (transposed) triangle. -/
theorem opA_trm_zero [Zero α] [One α] {u t : Bool} (unit : Bool) (a : Nat → Nat → α) {i j : Nat}
    (h : if u = t then i < j else j < i) : opA t (trm u unit a) i j = 0 := by
  unfold opA trm
  cases u <;> cases t <;>
    simp only [reduceCtorEq, if_true, if_false, Bool.false_eq_true] at h ⊢ <;>
    rw [if_neg (by omega), if_neg (by omega)]

omit [CommRing α] in
/-- Elements strictly inside of the (transposed) triangle. -/
theorem opA_trm_off [Zero α] [One α] {u t : Bool} (unit : Bool) (a : Nat → Nat → α) {i j : Nat}
    (h : if u = t then j < i else i < j) : opA t (trm u unit a) i j = opA t a i j := by
  unfold opA trm
  cases u <;> cases t <;>
    simp only [reduceCtorEq, if_true, if_false, Bool.false_eq_true] at h ⊢ <;>
    rw [if_neg (by omega), if_pos (by omega)]

theorem trm_sum_upper (unit : Bool) (a : Nat → Nat → α) (x : Nat → α) {i n : Nat} (hi : i < n) :
    ∑ j ∈ range n, trm true unit a i j * x j
      = if unit then x i + ∑ k ∈ range (n - i - 1), a i (i + 1 + k) * x (i + 1 + k)
        else ∑ k ∈ range (n - i), a i (i + k) * x (i + k) := by
  have h0 : ∑ j ∈ range i, trm true unit a i j * x j = 0 :=
    Finset.sum_eq_zero (fun j hj => by
      have := Finset.mem_range.mp hj
      unfold trm; rw [if_neg (by omega), if_neg (by simp; omega), zero_mul])
  rw [sum_split _ (le_of_lt hi), h0, zero_add]
  cases unit with
  | true =>
    obtain ⟨d, hd⟩ : ∃ d, n - i = d + 1 := ⟨n - i - 1, by omega⟩
    rw [hd, Finset.sum_range_succ']
    simp only [if_true, Nat.add_sub_cancel]
    rw [add_comm]
    congr 1
    · simp [trm]
    · refine Finset.sum_congr rfl (fun k _ => ?_)
      rw [show i + (k + 1) = i + 1 + k by omega]
      unfold trm; rw [if_neg (by omega), if_pos (by simp; omega)]
  | false =>
    simp only [Bool.false_eq_true, if_false]
    refine Finset.sum_congr rfl (fun k _ => ?_)
    unfold trm
    by_cases hk : k = 0
    · subst hk; simp
    · rw [if_neg (by omega), if_pos (by simp; omega)]

theorem trm_sum_lower (unit : Bool) (a : Nat → Nat → α) (x : Nat → α) {i n : Nat} (hi : i < n) :
    ∑ j ∈ range n, trm false unit a i j * x j
      = if unit then x i + ∑ k ∈ range i, a i k * x k
        else ∑ k ∈ range (i + 1), a i k * x k := by
  have h0 : ∑ k ∈ range (n - (i + 1)), trm false unit a i (i + 1 + k) * x (i + 1 + k) = 0 :=
    Finset.sum_eq_zero (fun j hj => by
      unfold trm; rw [if_neg (by omega), if_neg (by simp; omega), zero_mul])
  rw [sum_split _ (show i + 1 ≤ n by omega), h0, add_zero, Finset.sum_range_succ]
  have h1 : ∑ k ∈ range i, trm false unit a i k * x k = ∑ k ∈ range i, a i k * x k :=
    Finset.sum_congr rfl (fun k hk => by
      have := Finset.mem_range.mp hk
      unfold trm; rw [if_neg (by omega), if_pos (by simp; omega)])
  rw [h1]
  cases unit with
  | true => simp [trm, add_comm]
  | false => simp [trm, Finset.sum_range_succ]

/-- Result of the triangular product. -/
def trmvVal (alpha : α) (fl : Flags) (a : Nat → Nat → α) (x : Nat → α) (n i : Nat) : α :=
  alpha * ∑ j ∈ range n, opA fl.transA (trm fl.upper fl.unit a) i j * x j

theorem trmvStep_spec {env : Env} {fuel : Nat} {m0 m : Mem α} {X P Q : View} {x g p q : Nat → α}
    {S : Nat → Prop} {alpha : α} {unit : Bool} {i : Nat} (hv : X.isVec) (hw : X.WF)
    (h : UpdV m0 X x g S m) (hi : i < X.size) (hS : ¬ S i) (hP : P.isVec) (hQ : Q.isVec)
    (hs : P.size = Q.size) (hf : Q.size < fuel) (hp : HoldsV m P p) (hq : HoldsV m Q q)
    (hg : g i = alpha * (if unit then x i + ∑ k ∈ range Q.size, p k * q k
      else ∑ k ∈ range Q.size, p k * q k)) :
    Runs (trmvStep env fuel X alpha unit P Q i m) (UpdV m0 X x g (fun l => S l ∨ l = i)) := by
  unfold trmvStep
  have h1 := h.old hi hS
  refine Runs.rd_bind h1 ?_
  rw [dotUnsafe_spec hP hQ hs hf hp hq]
  exact Runs.wr h1 (h.set hv hw hi hg.symm)

theorem trmvUnb_spec {env : Env} {fuel : Nat} {m : Mem α} {X A : View} {x : Nat → α}
    {a : Nat → Nat → α} (alpha : α) {fl : Flags} (hfl : fl.lower = !fl.upper)
    (hv : X.isVec) (hw : X.WF) (hr : A.rows = X.size) (hc : A.cols = X.size) (hf : X.size < fuel)
    (hx : HoldsV m X x) (hA : HoldsOn m A (InTri fl.upper fl.unit) a)
    (hd : Disjoint (A.footOn (InTri fl.upper fl.unit)) X.foot) :
    Runs (trmvUnb env fuel m X alpha A fl) (fun m' =>
      HoldsV m' X (trmvVal alpha fl a x X.size) ∧ Frame X.foot m m') := by
  have hA' : ∀ {S m' g}, UpdV m X x g S m' → HoldsOn m' A (InTri fl.upper fl.unit) a :=
    fun h => hA.frame h.frame hd
  have hu1 : fl.unitN ≤ 1 := by unfold Flags.unitN; split <;> omega
  unfold trmvUnb
  cases hup : fl.upper <;> cases htr : fl.transA <;> simp only [hup, Bool.not_true, Bool.not_false] at hfl <;>
    simp only [hfl] <;> simp only [hup] at hA'
  · -- lower
    unfold trmvLl
    refine Runs.forDown (fun i m' => UpdV m X x (trmvVal alpha fl a x X.size) (fun l => i ≤ l) m')
      ((UpdV.init hx _).congr (fun k hk => by simp; omega)) ?_ (fun m' h =>
        ⟨h.all (by intros; omega), h.frame⟩)
    intro i m' hi h
    refine (trmvStep_spec hv hw h (by omega) (by omega) (View.subvec_isVec _ _ _) (Or.inl rfl) ?_ ?_
      (h.subvec_old hv ?_ ?_) ((hA' h).row (by omega) ?_ ?_) ?_).mono
      (fun m'' h => h.congr (fun k hk => ?_))
    · rw [View.subvec_size, View.sub_row_size]
    · rw [View.sub_row_size]; omega
    · omega
    · intro k hk; omega
    · omega
    · intro j hj; unfold Flags.unitN at hj; unfold InTri; cases hu : fl.unit <;> simp [hu] at hj ⊢ <;> omega
    · unfold trmvVal Flags.unitN
      rw [View.sub_row_size]
      simp only [htr, hup, opA, Bool.false_eq_true, if_false, trm_sum_lower _ _ _ (show i < X.size by omega),
        Nat.zero_add]
      cases hu : fl.unit <;> simp [mul_comm]
    · omega
  · -- lower, transposed
    unfold trmvLlt
    refine Runs.bind (Runs.forUp1
      (fun i m' => UpdV m X x (trmvVal alpha fl a x X.size) (fun l => l < i) m') (Nat.zero_le _)
      (UpdV.init_lt hx _) ?_ (Q := fun r => HoldsV r.2 X (trmvVal alpha fl a x X.size) ∧
        Frame X.foot m r.2) (fun m' h => ⟨h.done (by omega), h.frame⟩)) (fun p hp => Runs.pure hp)
    intro i m' _ hi h
    refine (trmvStep_spec hv hw h (by omega) (by omega) (Or.inr rfl) (View.subvec_isVec _ _ _) ?_ ?_
      ((hA' h).col ?_ (by omega) ?_) (h.subvec_old hv ?_ ?_) ?_).mono
      (fun m'' h => h.congr (fun k hk => ?_))
    · rw [View.subvec_size, View.sub_col_size]
    · rw [View.subvec_size]; omega
    · omega
    · intro j hj; unfold Flags.unitN at hj ⊢; unfold InTri; cases hu : fl.unit <;> simp [hu] at hj ⊢ <;> omega
    · omega
    · intro k hk; omega
    · unfold trmvVal Flags.unitN
      rw [View.subvec_size]
      simp only [htr, hup, opA, if_true, trm_swap false, Bool.not_false,
        trm_sum_upper _ _ _ (show i < X.size by omega), hc]
      cases hu : fl.unit <;> simp
    · omega
  · -- upper
    unfold trmvLu
    refine Runs.bind (Runs.forUp1
      (fun i m' => UpdV m X x (trmvVal alpha fl a x X.size) (fun l => l < i) m') (Nat.zero_le _)
      (UpdV.init_lt hx _) ?_ (Q := fun r => HoldsV r.2 X (trmvVal alpha fl a x X.size) ∧
        Frame X.foot m r.2) (fun m' h => ⟨h.done (by omega), h.frame⟩)) (fun p hp => Runs.pure hp)
    intro i m' _ hi h
    refine (trmvStep_spec hv hw h (by omega) (by omega) (Or.inl rfl) (View.subvec_isVec _ _ _) ?_ ?_
      ((hA' h).row (by omega) ?_ ?_) (h.subvec_old hv ?_ ?_) ?_).mono
      (fun m'' h => h.congr (fun k hk => ?_))
    · rw [View.subvec_size, View.sub_row_size]
    · rw [View.subvec_size]; omega
    · omega
    · intro j hj; unfold Flags.unitN at hj ⊢; unfold InTri; cases hu : fl.unit <;> simp [hu] at hj ⊢ <;> omega
    · omega
    · intro k hk; omega
    · unfold trmvVal Flags.unitN
      rw [View.subvec_size]
      simp only [htr, hup, opA, Bool.false_eq_true, if_false,
        trm_sum_upper _ _ _ (show i < X.size by omega), hc]
      cases hu : fl.unit <;> simp
    · omega
  · -- upper, transposed
    unfold trmvLut
    refine Runs.forDown (fun i m' => UpdV m X x (trmvVal alpha fl a x X.size) (fun l => i ≤ l) m')
      ((UpdV.init hx _).congr (fun k hk => by simp; omega)) ?_ (fun m' h =>
        ⟨h.all (by intros; omega), h.frame⟩)
    intro i m' hi h
    refine (trmvStep_spec hv hw h (by omega) (by omega) (View.subvec_isVec _ _ _) (Or.inr rfl) ?_ ?_
      (h.subvec_old hv ?_ ?_) ((hA' h).col ?_ (by omega) ?_) ?_).mono
      (fun m'' h => h.congr (fun k hk => ?_))
    · rw [View.subvec_size, View.sub_col_size]
    · rw [View.sub_col_size]; omega
    · omega
    · intro k hk; omega
    · omega
    · intro j hj; unfold Flags.unitN at hj; unfold InTri; cases hu : fl.unit <;> simp [hu] at hj ⊢ <;> omega
    · unfold trmvVal Flags.unitN
      rw [View.sub_col_size]
      simp only [htr, hup, opA, if_true, trm_swap true, Bool.not_true, trm_sum_lower _ _ _ (show i < X.size by omega),
        Nat.zero_add]
      cases hu : fl.unit <;> simp [mul_comm]
    · omega

/-- Joining of two solved parts: an effectively upper triangular product. -/
theorem trmvVal_upper (alpha : α) {fl : Flags} (a : Nat → Nat → α) (x : Nat → α) {n n1 n2 : Nat}
    (hn : n1 + n2 = n) (ht : fl.upper = !fl.transA) (k : Nat) :
    trmvVal alpha fl a x n k = if k < n1 then
        1 * trmvVal alpha fl a x n1 k + alpha * ∑ j ∈ range n2,
          opA fl.transA (trm fl.upper fl.unit a) k (n1 + j) * x (n1 + j)
      else trmvVal alpha fl (fun i j => a (n1 + i) (n1 + j)) (fun k => x (n1 + k)) n2 (k - n1) := by
  unfold trmvVal
  rw [sum_split _ (show n1 ≤ n by omega), show n - n1 = n2 by omega]
  by_cases hk : k < n1
  · rw [if_pos hk]; ring
  · rw [if_neg hk]
    have h0 : ∑ j ∈ range n1, opA fl.transA (trm fl.upper fl.unit a) k j * x j = 0 := by
      refine Finset.sum_eq_zero (fun j hj => ?_)
      have := Finset.mem_range.mp hj
      rw [opA_trm_zero _ _ (by rw [if_neg (by rw [ht]; cases fl.transA <;> simp)]; omega), zero_mul]
    rw [h0, zero_add]
    congr 1
    refine Finset.sum_congr rfl (fun j _ => ?_)
    have e : k = n1 + (k - n1) := by omega
    congr 1
    unfold opA
    cases fl.transA <;> simp only [trm_shift, if_true, if_false, Bool.false_eq_true, ← e]

/-- Joining of two solved parts: an effectively lower triangular product. -/
theorem trmvVal_lower (alpha : α) {fl : Flags} (a : Nat → Nat → α) (x : Nat → α) {n n1 n2 : Nat}
    (hn : n1 + n2 = n) (ht : fl.upper = fl.transA) (k : Nat) :
    trmvVal alpha fl a x n k = if k < n1 then trmvVal alpha fl a x n1 k
      else 1 * trmvVal alpha fl (fun i j => a (n1 + i) (n1 + j)) (fun k => x (n1 + k)) n2 (k - n1) +
        alpha * ∑ j ∈ range n1, opA fl.transA (trm fl.upper fl.unit a) k j * x j := by
  unfold trmvVal
  rw [sum_split _ (show n1 ≤ n by omega), show n - n1 = n2 by omega]
  by_cases hk : k < n1
  · rw [if_pos hk]
    have h0 : ∑ j ∈ range n2, opA fl.transA (trm fl.upper fl.unit a) k (n1 + j) * x (n1 + j) = 0 := by
      refine Finset.sum_eq_zero (fun j hj => ?_)
      rw [opA_trm_zero _ _ (by rw [if_pos ht]; omega), zero_mul]
    rw [h0, add_zero]
  · rw [if_neg hk]
    have h0 : ∑ j ∈ range n2, opA fl.transA (trm fl.upper fl.unit a) k (n1 + j) * x (n1 + j)
        = ∑ j ∈ range n2, opA fl.transA (trm fl.upper fl.unit fun i j => a (n1 + i) (n1 + j)) (k - n1) j
          * x (n1 + j) := by
      refine Finset.sum_congr rfl (fun j _ => ?_)
      have e : k = n1 + (k - n1) := by omega
      congr 1
      unfold opA
      cases fl.transA <;> simp only [trm_shift, if_true, if_false, Bool.false_eq_true, ← e]
    rw [h0]; ring

theorem trmvFwdRec_spec [DecidableEq α] (ab : α → α) {env : Env} (hmin : 2 ≤ env.blas2min) (alpha : α)
    {fl : Flags} (hfl : fl.lower = !fl.upper) (ht : fl.upper = !fl.transA) :
    ∀ (fuel : Nat) {m : Mem α} {X A : View} {x : Nat → α} {a : Nat → Nat → α},
      X.isVec → X.WF → A.WF → A.rows = X.size → A.cols = X.size → X.size + 1 < fuel →
      HoldsV m X x → HoldsOn m A (InTri fl.upper fl.unit) a →
      Disjoint (A.footOn (InTri fl.upper fl.unit)) X.foot →
      Runs (trmvFwdRec ab env alpha fl fuel m X A) (fun m' =>
        HoldsV m' X (trmvVal alpha fl a x X.size) ∧ Frame X.foot m m') := by
  intro fuel
  induction fuel with
  | zero => intro m X A x a _ _ _ _ _ h; omega
  | succ fuel ih =>
    intro m X A x a hv hw hAw hr hc hf hx hA hd
    rw [trmvFwdRec]
    by_cases c : A.cols < env.blas2min
    · rw [if_pos c]
      exact trmvUnb_spec alpha hfl hv hw hr hc (by omega) hx hA hd
    rw [if_neg c]
    obtain ⟨n1, hn1⟩ : ∃ n, n = A.rows / 2 := ⟨_, rfl⟩
    obtain ⟨n2, hn2⟩ : ∃ n, n = A.rows - n1 := ⟨_, rfl⟩
    have ex : vecPartTop X (A.rows / 2) = (X.subvec 0 n1, X.subvec n1 n2) := by
      rw [vecPartTop_eq (by omega), ← hn1, ← hr, ← hn2]
    simp only [ex, partition2x2]
    simp only [hc, ← hr]
    simp only [← hn1, ← hn2]
    have d12 : Disjoint (X.subvec n1 n2).foot (X.subvec 0 n1).foot :=
      View.subvec_disj hv hw (by omega) (by omega) (by omega)
    have f1 : (X.subvec 0 n1).foot ⊆ X.foot := View.subvec_foot hv (by omega)
    have f2 : (X.subvec n1 n2).foot ⊆ X.foot := View.subvec_foot hv (by omega)
    -- leading block
    have hA1 : HoldsOn m (A.sub 0 0 n1 n1) (InTri fl.upper fl.unit) (fun i j => a (0 + i) (0 + j)) :=
      hA.sub (by omega) (by omega) (fun i j _ _ h => by rwa [inTri_shift])
    have g1 : (A.sub 0 0 n1 n1).footOn (InTri fl.upper fl.unit) ⊆ A.footOn (InTri fl.upper fl.unit) :=
      View.footOn_sub (by omega) (by omega) (fun i j _ _ h => by rwa [inTri_shift])
    have g2 : (A.sub n1 n1 n2 n2).footOn (InTri fl.upper fl.unit) ⊆ A.footOn (InTri fl.upper fl.unit) :=
      View.footOn_sub (by omega) (by omega) (fun i j _ _ h => by rwa [inTri_shift])
    refine Runs.bind (ih (X := X.subvec 0 n1) (A := A.sub 0 0 n1 n1) (View.subvec_isVec _ _ _)
      (hw.subvec hv (by omega)) (hAw.sub (by omega) (by omega)) (by simp [View.subvec_size]) (by simp [View.subvec_size])
      (by rw [View.subvec_size]; omega) (hx.subvec hv (by omega)) hA1 (hd.mono g1 f1)) ?_
    rintro m1 ⟨h1, r1⟩
    have hAm1 := hA.frame (r1.mono f1) hd
    have hx2 := (hx.subvec (n := n1) (len := n2) hv (by omega)).frame (View.subvec_isVec _ _ _) r1 d12
    simp only [View.subvec_size] at h1
    -- off-diagonal block
    refine Runs.bind (P := fun m' => HoldsV m' (X.subvec 0 n1) (fun k =>
        1 * trmvVal alpha fl a x n1 k + alpha * ∑ j ∈ range n2,
          opA fl.transA (trm fl.upper fl.unit a) k (n1 + j) * x (n1 + j)) ∧
        Frame (X.subvec 0 n1).foot m1 m') ?_ ?_
    · simp only [Nat.zero_add] at h1
      cases hup : fl.upper with
      | true =>
        have htr : fl.transA = false := by cases h : fl.transA <;> simp [hup, h] at ht ⊢
        have hin : ∀ i j, i < n1 → j < n2 → InTri fl.upper fl.unit (0 + i) (n1 + j) := by
          intro i j hi hj; unfold InTri; rw [hup]; cases fl.unit <;> simp <;> omega
        simp only [if_true]
        refine (mvmultUnsafe_spec ab (by omega) 1 alpha (fl := {}) rfl (Or.inl rfl)
          (Y := X.subvec 0 n1) (X := X.subvec n1 n2) (A := A.sub 0 n1 n1 n2)
          (by rw [View.subvec_size]; omega) (View.subvec_isVec _ _ _)
          (hw.subvec hv (by omega)) (View.subvec_isVec _ _ _) (by simp [View.opRows, View.subvec_size])
          (by simp [View.opCols, View.subvec_size]) h1 (hAm1.block (by omega) (by omega) hin) hx2
          (hd.mono (View.foot_sub_footOn (by omega) (by omega) hin) f1) d12).mono ?_
        rintro m2 ⟨h2, r2⟩
        refine ⟨h2.congr (fun k hk => ?_), r2⟩
        rw [View.subvec_size] at hk ⊢
        congr 2
        refine Finset.sum_congr rfl (fun j _ => ?_)
        rw [hup] at ht
        rw [opA_trm_off _ _ (by rw [htr]; simp; omega), htr]
        simp [opA]
      | false =>
        have htr : fl.transA = true := by cases h : fl.transA <;> simp [hup, h] at ht ⊢
        have hin : ∀ i j, i < n2 → j < n1 → InTri fl.upper fl.unit (n1 + i) (0 + j) := by
          intro i j hi hj; unfold InTri; rw [hup]; cases fl.unit <;> simp <;> omega
        simp only [if_false, Bool.false_eq_true]
        refine (mvmultUnsafe_spec ab (by omega) 1 alpha (fl := {transA := true}) rfl (Or.inl rfl)
          (Y := X.subvec 0 n1) (X := X.subvec n1 n2) (A := A.sub n1 0 n2 n1)
          (by rw [View.subvec_size]; omega) (View.subvec_isVec _ _ _)
          (hw.subvec hv (by omega)) (View.subvec_isVec _ _ _) (by simp [View.opRows, View.subvec_size])
          (by simp [View.opCols, View.subvec_size]) h1 (hAm1.block (by omega) (by omega) hin) hx2
          (hd.mono (View.foot_sub_footOn (by omega) (by omega) hin) f1) d12).mono ?_
        rintro m2 ⟨h2, r2⟩
        refine ⟨h2.congr (fun k hk => ?_), r2⟩
        rw [View.subvec_size] at hk ⊢
        congr 2
        refine Finset.sum_congr rfl (fun j _ => ?_)
        rw [hup] at ht
        rw [opA_trm_off _ _ (by rw [htr]; simp; omega), htr]
        simp [opA]
    rintro m2 ⟨h2, r2⟩
    have hAm2 := hA.frame ((r1.trans r2).mono f1) hd
    have hA2 : HoldsOn m2 (A.sub n1 n1 n2 n2) (InTri fl.upper fl.unit)
        (fun i j => a (n1 + i) (n1 + j)) :=
      hAm2.sub (by omega) (by omega) (fun i j _ _ h => by rwa [inTri_shift])
    refine (ih (X := X.subvec n1 n2) (A := A.sub n1 n1 n2 n2) (View.subvec_isVec _ _ _)
      (hw.subvec hv (by omega)) (hAw.sub (by omega) (by omega)) (by simp [View.subvec_size]) (by simp [View.subvec_size])
      (by rw [View.subvec_size]; omega) (hx2.frame (View.subvec_isVec _ _ _) r2 d12) hA2
      (hd.mono g2 f2)).mono ?_
    rintro m3 ⟨h3, r3⟩
    refine ⟨(HoldsV.join hv (by omega) (h2.frame (View.subvec_isVec _ _ _) r3 d12.symm) h3).congr
      (fun k hk => ?_), ((r1.trans r2).mono f1).trans (r3.mono f2)⟩
    rw [trmvVal_upper alpha a x (show n1 + n2 = A.rows by omega) ht k, View.subvec_size]

theorem trmvBwdRec_spec [DecidableEq α] (ab : α → α) {env : Env} (hmin : 2 ≤ env.blas2min) (alpha : α)
    {fl : Flags} (hfl : fl.lower = !fl.upper) (ht : fl.upper = fl.transA) :
    ∀ (fuel : Nat) {m : Mem α} {X A : View} {x : Nat → α} {a : Nat → Nat → α},
      X.isVec → X.WF → A.WF → A.rows = X.size → A.cols = X.size → X.size + 1 < fuel →
      HoldsV m X x → HoldsOn m A (InTri fl.upper fl.unit) a →
      Disjoint (A.footOn (InTri fl.upper fl.unit)) X.foot →
      Runs (trmvBwdRec ab env alpha fl fuel m X A) (fun m' =>
        HoldsV m' X (trmvVal alpha fl a x X.size) ∧ Frame X.foot m m') := by
  intro fuel
  induction fuel with
  | zero => intro m X A x a _ _ _ _ _ h; omega
  | succ fuel ih =>
    intro m X A x a hv hw hAw hr hc hf hx hA hd
    rw [trmvBwdRec]
    by_cases c : A.cols < env.blas2min
    · rw [if_pos c]
      exact trmvUnb_spec alpha hfl hv hw hr hc (by omega) hx hA hd
    rw [if_neg c]
    obtain ⟨n1, hn1⟩ : ∃ n, n = A.rows / 2 := ⟨_, rfl⟩
    obtain ⟨n2, hn2⟩ : ∃ n, n = A.rows - n1 := ⟨_, rfl⟩
    have ex : vecPartTop X (A.rows / 2) = (X.subvec 0 n1, X.subvec n1 n2) := by
      rw [vecPartTop_eq (by omega), ← hn1, ← hr, ← hn2]
    simp only [ex, partition2x2]
    simp only [hc, ← hr]
    simp only [← hn1, ← hn2]
    have d12 : Disjoint (X.subvec n1 n2).foot (X.subvec 0 n1).foot :=
      View.subvec_disj hv hw (by omega) (by omega) (by omega)
    have f1 : (X.subvec 0 n1).foot ⊆ X.foot := View.subvec_foot hv (by omega)
    have f2 : (X.subvec n1 n2).foot ⊆ X.foot := View.subvec_foot hv (by omega)
    have hA2 : HoldsOn m (A.sub n1 n1 n2 n2) (InTri fl.upper fl.unit)
        (fun i j => a (n1 + i) (n1 + j)) :=
      hA.sub (by omega) (by omega) (fun i j _ _ h => by rwa [inTri_shift])
    have g1 : (A.sub 0 0 n1 n1).footOn (InTri fl.upper fl.unit) ⊆ A.footOn (InTri fl.upper fl.unit) :=
      View.footOn_sub (by omega) (by omega) (fun i j _ _ h => by rwa [inTri_shift])
    have g2 : (A.sub n1 n1 n2 n2).footOn (InTri fl.upper fl.unit) ⊆ A.footOn (InTri fl.upper fl.unit) :=
      View.footOn_sub (by omega) (by omega) (fun i j _ _ h => by rwa [inTri_shift])
    refine Runs.bind (ih (X := X.subvec n1 n2) (A := A.sub n1 n1 n2 n2) (View.subvec_isVec _ _ _)
      (hw.subvec hv (by omega)) (hAw.sub (by omega) (by omega)) (by simp [View.subvec_size]) (by simp [View.subvec_size])
      (by rw [View.subvec_size]; omega) (hx.subvec hv (by omega)) hA2 (hd.mono g2 f2)) ?_
    rintro m1 ⟨h1, r1⟩
    have hAm1 := hA.frame (r1.mono f2) hd
    have hx1 := (hx.subvec (n := 0) (len := n1) hv (by omega)).frame (View.subvec_isVec _ _ _) r1 d12.symm
    simp only [View.subvec_size] at h1
    simp only [Nat.zero_add] at hx1
    refine Runs.bind (P := fun m' => HoldsV m' (X.subvec n1 n2) (fun k =>
        1 * trmvVal alpha fl (fun i j => a (n1 + i) (n1 + j)) (fun k => x (n1 + k)) n2 k +
        alpha * ∑ j ∈ range n1, opA fl.transA (trm fl.upper fl.unit a) (n1 + k) j * x j) ∧
        Frame (X.subvec n1 n2).foot m1 m') ?_ ?_
    · cases hup : fl.upper with
      | true =>
        have htr : fl.transA = true := by rw [← ht, hup]
        have hin : ∀ i j, i < n1 → j < n2 → InTri fl.upper fl.unit (0 + i) (n1 + j) := by
          intro i j hi hj; unfold InTri; rw [hup]; cases fl.unit <;> simp <;> omega
        simp only [if_true]
        refine (mvmultUnsafe_spec ab (by omega) 1 alpha (fl := {transA := true}) rfl (Or.inl rfl)
          (Y := X.subvec n1 n2) (X := X.subvec 0 n1) (A := A.sub 0 n1 n1 n2)
          (by rw [View.subvec_size]; omega) (View.subvec_isVec _ _ _)
          (hw.subvec hv (by omega)) (View.subvec_isVec _ _ _) (by simp [View.opRows, View.subvec_size])
          (by simp [View.opCols, View.subvec_size]) h1 (hAm1.block (by omega) (by omega) hin) hx1
          (hd.mono (View.foot_sub_footOn (by omega) (by omega) hin) f2) d12.symm).mono ?_
        rintro m2 ⟨h2, r2⟩
        refine ⟨h2.congr (fun k hk => ?_), r2⟩
        rw [View.subvec_size] at hk ⊢
        congr 2
        refine Finset.sum_congr rfl (fun j hj => ?_)
        have := Finset.mem_range.mp hj
        rw [hup] at ht
        rw [opA_trm_off _ _ (by rw [htr]; simp; omega), htr]
        simp [opA]
      | false =>
        have htr : fl.transA = false := by rw [← ht, hup]
        have hin : ∀ i j, i < n2 → j < n1 → InTri fl.upper fl.unit (n1 + i) (0 + j) := by
          intro i j hi hj; unfold InTri; rw [hup]; cases fl.unit <;> simp <;> omega
        simp only [if_false, Bool.false_eq_true]
        refine (mvmultUnsafe_spec ab (by omega) 1 alpha (fl := {}) rfl (Or.inl rfl)
          (Y := X.subvec n1 n2) (X := X.subvec 0 n1) (A := A.sub n1 0 n2 n1)
          (by rw [View.subvec_size]; omega) (View.subvec_isVec _ _ _)
          (hw.subvec hv (by omega)) (View.subvec_isVec _ _ _) (by simp [View.opRows, View.subvec_size])
          (by simp [View.opCols, View.subvec_size]) h1 (hAm1.block (by omega) (by omega) hin) hx1
          (hd.mono (View.foot_sub_footOn (by omega) (by omega) hin) f2) d12.symm).mono ?_
        rintro m2 ⟨h2, r2⟩
        refine ⟨h2.congr (fun k hk => ?_), r2⟩
        rw [View.subvec_size] at hk ⊢
        congr 2
        refine Finset.sum_congr rfl (fun j hj => ?_)
        have := Finset.mem_range.mp hj
        rw [hup] at ht
        rw [opA_trm_off _ _ (by rw [htr]; simp; omega), htr]
        simp [opA]
    rintro m2 ⟨h2, r2⟩
    have hAm2 := hA.frame ((r1.trans r2).mono f2) hd
    have hA1 : HoldsOn m2 (A.sub 0 0 n1 n1) (InTri fl.upper fl.unit)
        (fun i j => a (0 + i) (0 + j)) :=
      hAm2.sub (by omega) (by omega) (fun i j _ _ h => by rwa [inTri_shift])
    simp only [Nat.zero_add] at hA1
    refine (ih (X := X.subvec 0 n1) (A := A.sub 0 0 n1 n1) (View.subvec_isVec _ _ _)
      (hw.subvec hv (by omega)) (hAw.sub (by omega) (by omega)) (by simp [View.subvec_size]) (by simp [View.subvec_size])
      (by rw [View.subvec_size]; omega) (hx1.frame (View.subvec_isVec _ _ _) r2 d12.symm) hA1
      (hd.mono g1 f1)).mono ?_
    rintro m3 ⟨h3, r3⟩
    refine ⟨(HoldsV.join hv (by omega) h3 (h2.frame (View.subvec_isVec _ _ _) r3 d12)).congr
      (fun k hk => ?_), ((r1.trans r2).mono f2).trans (r3.mono f1)⟩
    rw [trmvVal_lower alpha a x (show n1 + n2 = A.rows by omega) ht k, View.subvec_size]
    by_cases hk1 : k < n1
    · rw [if_pos hk1, if_pos hk1]
    · rw [if_neg hk1, if_neg hk1, show n1 + (k - n1) = k by omega]

theorem Flags.trFwd_eq {fl : Flags} (hfl : fl.lower = !fl.upper) :
    fl.trFwd = true ↔ fl.upper = !fl.transA := by
  unfold Flags.trFwd
  rw [hfl]
  cases fl.upper <;> cases fl.transA <;> simp

theorem mvmultTrmUnsafe_spec [DecidableEq α] (ab : α → α) {env : Env} (hmin : env.blas2min ≠ 1)
    (alpha : α) {fl : Flags} (hfl : fl.lower = !fl.upper) {fuel : Nat} {m : Mem α} {X A : View}
    {x : Nat → α} {a : Nat → Nat → α} (hv : X.isVec) (hw : X.WF) (hAw : A.WF)
    (hr : A.rows = X.size) (hc : A.cols = X.size) (hf : X.size + 1 < fuel)
    (hx : HoldsV m X x) (hA : HoldsOn m A (InTri fl.upper fl.unit) a)
    (hd : Disjoint (A.footOn (InTri fl.upper fl.unit)) X.foot) :
    Runs (mvmultTrmUnsafe ab env fuel m X alpha A fl) (fun m' =>
      HoldsV m' X (trmvVal alpha fl a x X.size) ∧ Frame X.foot m m') := by
  unfold mvmultTrmUnsafe
  by_cases c : A.cols < env.blas2min ∨ env.blas2min = 0
  · rw [if_pos c]
    exact trmvUnb_spec alpha hfl hv hw hr hc (by omega) hx hA hd
  rw [if_neg c]
  by_cases hF : fl.trFwd = true
  · rw [if_pos hF]
    exact trmvFwdRec_spec ab (by omega) alpha hfl ((Flags.trFwd_eq hfl).mp hF) fuel hv hw hAw hr hc hf
      hx hA hd
  · rw [if_neg hF]
    refine trmvBwdRec_spec ab (by omega) alpha hfl ?_ fuel hv hw hAw hr hc hf hx hA hd
    rw [Flags.trFwd_eq hfl] at hF
    revert hF; cases fl.upper <;> cases fl.transA <;> simp

end Trmv

end Armas
