import Verif.TrmvLemmas

/-!
# Specifications of the triangular solve with a vector

Helper lemmas about `src/blas/trsv.c`.
-/

namespace Armas

open Finset

variable {α : Type} [Field α]

/-- Element `(i, j)` of `op(T)`, `T` the triangle selected by the flags. -/
def opTri (fl : Flags) (a : Nat → Nat → α) (i j : Nat) : α :=
  opA fl.transA (trm fl.upper fl.unit a) i j

theorem opTri_diag (fl : Flags) (a : Nat → Nat → α) (i : Nat) :
    opTri fl a i i = if fl.unit then 1 else a i i := by
  unfold opTri opA trm; cases fl.transA <;> simp

theorem opTri_shift (fl : Flags) (a : Nat → Nat → α) (n i j : Nat) :
    opTri fl (fun i j => a (n + i) (n + j)) i j = opTri fl a (n + i) (n + j) := by
  unfold opTri opA; cases fl.transA <;> simp [trm_shift]

/-- First `i` unknowns found (forward substitution). -/
structure FwdInv (m0 : Mem α) (X : View) (x : Nat → α) (T : Nat → Nat → α) (alpha : α) (i : Nat)
    (z : Nat → α) (m : Mem α) : Prop where
  hold : HoldsV m X (fun k => if k < i then z k else x k)
  frame : Frame X.foot m0 m
  eqn : ∀ k, k < i → ∑ j ∈ range k, T k j * z j + T k k * z k = alpha * x k

/-- Unknowns from `i` on found (backward substitution). -/
structure BwdInv (m0 : Mem α) (X : View) (x : Nat → α) (T : Nat → Nat → α) (alpha : α) (n i : Nat)
    (z : Nat → α) (m : Mem α) : Prop where
  hold : HoldsV m X (fun k => if i ≤ k then z k else x k)
  frame : Frame X.foot m0 m
  eqn : ∀ k, i ≤ k → k < n →
    ∑ l ∈ range (n - 1 - k), T k (k + 1 + l) * z (k + 1 + l) + T k k * z k = alpha * x k

theorem FwdInv.step {m0 m : Mem α} {X : View} {x z : Nat → α} {T : Nat → Nat → α} {alpha : α} {i : Nat}
    (h : FwdInv m0 X x T alpha i z m) (hv : X.isVec) (hw : X.WF) (hi : i < X.size) {v : α}
    (hval : ∑ j ∈ range i, T i j * z j + T i i * v = alpha * x i) :
    FwdInv m0 X x T alpha (i + 1) (fun k => if k = i then v else z k) (m.set (X.vat i) v) := by
  refine ⟨(h.hold.write hv hw hi v).congr (fun k hk => ?_),
    h.frame.trans (Frame.set (View.vat_mem_foot hv hi) _), fun k hk => ?_⟩
  · by_cases e : k = i
    · simp [e]
    · by_cases e2 : k < i
      · simp [e, e2, show k < i + 1 by omega]
      · simp [e, e2, show ¬ k < i + 1 by omega]
  · have hs : ∑ j ∈ range k, T k j * (if j = i then v else z j) = ∑ j ∈ range k, T k j * z j :=
      Finset.sum_congr rfl (fun j hj => by
        have := Finset.mem_range.mp hj
        rw [if_neg (by omega)])
    rw [hs]
    by_cases e : k = i
    · subst e; simpa using hval
    · rw [if_neg e]; exact h.eqn k (by omega)

theorem BwdInv.step {m0 m : Mem α} {X : View} {x z : Nat → α} {T : Nat → Nat → α} {alpha : α}
    {n i : Nat} (h : BwdInv m0 X x T alpha n (i + 1) z m) (hv : X.isVec) (hw : X.WF) (hi : i < X.size)
    {v : α}
    (hval : ∑ l ∈ range (n - 1 - i), T i (i + 1 + l) * z (i + 1 + l) + T i i * v = alpha * x i) :
    BwdInv m0 X x T alpha n i (fun k => if k = i then v else z k) (m.set (X.vat i) v) := by
  refine ⟨(h.hold.write hv hw hi v).congr (fun k hk => ?_),
    h.frame.trans (Frame.set (View.vat_mem_foot hv hi) _), fun k hk hkn => ?_⟩
  · by_cases e : k = i
    · simp [e]
    · by_cases e2 : i ≤ k
      · simp [e, e2, show i + 1 ≤ k by omega]
      · simp [e, e2, show ¬ i + 1 ≤ k by omega]
  · have hs : ∑ l ∈ range (n - 1 - k), T k (k + 1 + l) * (if k + 1 + l = i then v else z (k + 1 + l))
        = ∑ l ∈ range (n - 1 - k), T k (k + 1 + l) * z (k + 1 + l) :=
      Finset.sum_congr rfl (fun j hj => by rw [if_neg (by omega)])
    rw [hs]
    by_cases e : k = i
    · subst e; simpa using hval
    · rw [if_neg e]; exact h.eqn k (by omega) hkn

theorem FwdInv.done {m0 m : Mem α} {X : View} {x z : Nat → α} {T : Nat → Nat → α} {alpha : α} {n : Nat}
    (h : FwdInv m0 X x T alpha n z m) (hn : n = X.size) (hT : ∀ k j, k < j → T k j = 0) :
    HoldsV m X z ∧ (∀ k, k < n → ∑ j ∈ range n, T k j * z j = alpha * x k) ∧ Frame X.foot m0 m := by
  refine ⟨h.hold.congr (fun k hk => by simp; omega), fun k hk => ?_, h.frame⟩
  rw [← h.eqn k hk, sum_split _ (show k + 1 ≤ n by omega), Finset.sum_range_succ]
  rw [Finset.sum_eq_zero (s := range (n - (k + 1))) (fun j _ => by rw [hT _ _ (by omega), zero_mul])]
  ring

theorem BwdInv.done {m0 m : Mem α} {X : View} {x z : Nat → α} {T : Nat → Nat → α} {alpha : α} {n : Nat}
    (h : BwdInv m0 X x T alpha n 0 z m) (hT : ∀ k j, j < k → T k j = 0) :
    HoldsV m X z ∧ (∀ k, k < n → ∑ j ∈ range n, T k j * z j = alpha * x k) ∧ Frame X.foot m0 m := by
  refine ⟨h.hold.congr (fun k hk => by simp), fun k hk => ?_, h.frame⟩
  rw [← h.eqn k (by omega) hk, sum_split _ (show k + 1 ≤ n by omega), Finset.sum_range_succ]
  rw [Finset.sum_eq_zero (s := range k) (fun j hj => by
    rw [hT _ _ (Finset.mem_range.mp hj), zero_mul])]
  rw [show n - (k + 1) = n - 1 - k by omega]
  ring

theorem trsvStore_spec {m : Mem α} {X A : View} {w : Nat → α} {a : Nat → Nat → α} {fl : Flags} {i : Nat}
    {v : α} {Q : Mem α → Prop} (hi : i < X.size) (hr : i < A.rows) (hc : i < A.cols)
    (hX : HoldsV m X w) (hA : HoldsOn m A (InTri fl.upper fl.unit) a)
    (hQ : Q (m.set (X.vat i) (v / opTri fl a i i))) :
    Runs (trsvStore X A fl.unit i v m) Q := by
  unfold trsvStore
  rw [opTri_diag] at hQ
  cases hu : fl.unit with
  | true =>
    simp only [hu, if_true, div_one] at hQ ⊢
    exact Runs.wr (hX i hi) hQ
  | false =>
    simp only [hu, if_false, Bool.false_eq_true] at hQ ⊢
    have := hA i i hr hc (by unfold InTri; rw [hu]; cases fl.upper <;> simp)
    rw [rd_ok this]
    exact Runs.wr (hX i hi) hQ

variable {env : Env} {fuel : Nat} {m : Mem α} {X A : View} {x : Nat → α} {a : Nat → Nat → α}

theorem trsv_fwd_step {m0 m : Mem α} {alpha : α} {fl : Flags} {i : Nat} {z : Nat → α} {a0 x0 : View} {p : Nat → α}
    (hv : X.isVec) (hw : X.WF) (hr : A.rows = X.size) (hc : A.cols = X.size)
    (hf : X.size < fuel) (hi : i < X.size) (hnz : opTri fl a i i ≠ 0)
    (hA : HoldsOn m0 A (InTri fl.upper fl.unit) a)
    (hd : Disjoint (A.footOn (InTri fl.upper fl.unit)) X.foot)
    (h : FwdInv m0 X x (opTri fl a) alpha i z m) (ha0 : a0.isVec) (hs : a0.size = i)
    (hx0 : x0 = X.subvec 0 i) (hp : HoldsV m a0 p) (hpe : ∀ k, k < i → p k = opTri fl a i k) :
    Runs (trsvStep env fuel X alpha A fl.unit a0 x0 i m) (fun m' =>
      ∃ z, FwdInv m0 X x (opTri fl a) alpha (i + 1) z m') := by
  subst hx0
  unfold trsvStep
  have hxi : m (X.vat i) = some (x i) := by simpa using h.hold i hi
  refine Runs.rd_bind hxi ?_
  have hq : HoldsV m (X.subvec 0 i) z := by
    refine (h.hold.subvec (n := 0) (len := i) hv (by omega)).congr (fun k hk => ?_)
    rw [View.subvec_size] at hk
    simp [hk]
  rw [dotUnsafe_spec ha0 (View.subvec_isVec _ _ _) (by rw [hs, View.subvec_size])
    (by rw [View.subvec_size]; omega) hp hq]
  refine trsvStore_spec hi (by omega) (by omega) h.hold (hA.frame h.frame hd) ?_
  refine ⟨_, h.step hv hw hi ?_⟩
  rw [View.subvec_size, mul_div_cancel₀ _ hnz]
  have e : ∑ k ∈ range i, p k * z k = ∑ k ∈ range i, opTri fl a i k * z k :=
    Finset.sum_congr rfl (fun k hk => by rw [hpe k (Finset.mem_range.mp hk)])
  rw [e]; ring

theorem trsv_bwd_step {m0 m : Mem α} {alpha : α} {fl : Flags} {i : Nat} {z : Nat → α} {a0 x0 : View} {p : Nat → α}
    (hv : X.isVec) (hw : X.WF) (hr : A.rows = X.size) (hc : A.cols = X.size)
    (hf : X.size < fuel) (hi : i < X.size) (hnz : opTri fl a i i ≠ 0)
    (hA : HoldsOn m0 A (InTri fl.upper fl.unit) a)
    (hd : Disjoint (A.footOn (InTri fl.upper fl.unit)) X.foot)
    (h : BwdInv m0 X x (opTri fl a) alpha X.size (i + 1) z m) (ha0 : a0.isVec)
    (hs : a0.size = X.size - 1 - i)
    (hx0 : x0 = X.subvec (i + 1) (X.size - 1 - i)) (hp : HoldsV m a0 p)
    (hpe : ∀ k, k < X.size - 1 - i → p k = opTri fl a i (i + 1 + k)) :
    Runs (trsvStep env fuel X alpha A fl.unit a0 x0 i m) (fun m' =>
      ∃ z, BwdInv m0 X x (opTri fl a) alpha X.size i z m') := by
  subst hx0
  unfold trsvStep
  have hxi : m (X.vat i) = some (x i) := by simpa using h.hold i hi
  refine Runs.rd_bind hxi ?_
  have hq : HoldsV m (X.subvec (i + 1) (X.size - 1 - i)) (fun k => z (i + 1 + k)) := by
    refine (h.hold.subvec (n := i + 1) (len := X.size - 1 - i) hv (by omega)).congr (fun k hk => ?_)
    simp
  rw [dotUnsafe_spec ha0 (View.subvec_isVec _ _ _) (by rw [hs, View.subvec_size])
    (by rw [View.subvec_size]; omega) hp hq]
  refine trsvStore_spec hi (by omega) (by omega) h.hold (hA.frame h.frame hd) ?_
  refine ⟨_, h.step hv hw hi ?_⟩
  rw [View.subvec_size, mul_div_cancel₀ _ hnz]
  have e : ∑ k ∈ range (X.size - 1 - i), p k * z (i + 1 + k)
      = ∑ k ∈ range (X.size - 1 - i), opTri fl a i (i + 1 + k) * z (i + 1 + k) :=
    Finset.sum_congr rfl (fun k hk => by rw [hpe k (Finset.mem_range.mp hk)])
  rw [e]; ring

theorem trsvUnb_spec (alpha : α) {fl : Flags} (hfl : fl.lower = !fl.upper)
    (hv : X.isVec) (hw : X.WF) (hr : A.rows = X.size) (hc : A.cols = X.size) (h0 : 0 < X.size)
    (hf : X.size < fuel)
    (hx : HoldsV m X x) (hA : HoldsOn m A (InTri fl.upper fl.unit) a)
    (hd : Disjoint (A.footOn (InTri fl.upper fl.unit)) X.foot)
    (hnz : ∀ i, i < X.size → opTri fl a i i ≠ 0) :
    Runs (trsvUnb env fuel m X alpha A fl) (fun m' => ∃ z, HoldsV m' X z ∧
      (∀ k, k < X.size → ∑ j ∈ range X.size, opTri fl a k j * z j = alpha * x k) ∧
      Frame X.foot m m') := by
  have first : Runs (trsvFirst X alpha A fl.unit 0 m)
      (fun m' => ∃ z, FwdInv m X x (opTri fl a) alpha 1 z m') := by
    have h : FwdInv m X x (opTri fl a) alpha 0 x m :=
      ⟨hx.congr (by simp), Frame.refl _ _, by intros; omega⟩
    unfold trsvFirst
    refine Runs.rd_bind (hx 0 h0) ?_
    refine trsvStore_spec h0 (by omega) (by omega) hx hA ⟨_, h.step hv hw h0 ?_⟩
    rw [mul_div_cancel₀ _ (hnz 0 h0)]; simp
  have last : Runs (trsvFirst X alpha A fl.unit (X.size - 1) m)
      (fun m' => ∃ z, BwdInv m X x (opTri fl a) alpha X.size (X.size - 1) z m') := by
    have h : BwdInv m X x (opTri fl a) alpha X.size (X.size - 1 + 1) x m :=
      ⟨hx.congr (by simp), Frame.refl _ _, by intros; omega⟩
    unfold trsvFirst
    refine Runs.rd_bind (hx _ (by omega)) ?_
    refine trsvStore_spec (by omega) (by omega) (by omega) hx hA
      ⟨_, h.step hv hw (by omega) ?_⟩
    rw [mul_div_cancel₀ _ (hnz _ (by omega))]; simp
  unfold trsvUnb
  cases hup : fl.upper <;> cases htr : fl.transA <;> simp only [hup, Bool.not_true, Bool.not_false] at hfl <;>
    simp only [hfl]
  · -- lower
    unfold trsvLl
    refine Runs.bind first (fun m1 h1 => ?_)
    refine Runs.bind (Runs.forUp1 (fun i m' => ∃ z, FwdInv m X x (opTri fl a) alpha i z m') (by omega)
      h1 ?_ (Q := fun p => ∃ z, FwdInv m X x (opTri fl a) alpha X.size z p.2) (fun m' h => hc ▸ h)) ?_
    · rintro i m' - hi ⟨z, h⟩
      refine trsv_fwd_step hv hw hr hc hf (by omega) (hnz i (by omega)) hA hd h (Or.inl rfl)
        (View.sub_row_size _ _ _ _) rfl ((hA.frame h.frame hd).row (by omega) (by omega) ?_) ?_
      · intro j hj; unfold InTri; rw [hup]; cases fl.unit <;> simp <;> omega
      · intro k hk
        unfold opTri; rw [opA_trm_off _ _ (by rw [hup, htr]; simpa using hk)]
        simp [opA, htr]
    · rintro ⟨_, m'⟩ ⟨z, h⟩
      refine Runs.pure ⟨z, h.done rfl ?_⟩
      intro k j hj
      exact opA_trm_zero _ _ (by rw [hup, htr]; simpa using hj)
  · -- lower, transposed
    unfold trsvLlt
    rw [if_neg (by omega), hc]
    refine Runs.bind last (fun m1 h1 => ?_)
    refine Runs.forDown (fun i m' => ∃ z, BwdInv m X x (opTri fl a) alpha X.size i z m') h1 ?_ ?_
    · rintro i m' hi ⟨z, h⟩
      refine trsv_bwd_step hv hw hr hc hf (by omega) (hnz i (by omega)) hA hd h (Or.inr rfl)
        (View.sub_col_size _ _ _ _) rfl ((hA.frame h.frame hd).col (by omega) (by omega) ?_) ?_
      · intro j hj; unfold InTri; rw [hup]; cases fl.unit <;> simp <;> omega
      · intro k hk
        unfold opTri; rw [opA_trm_off _ _ (by rw [hup, htr]; simp; omega)]
        simp [opA, htr]
    · rintro m' ⟨z, h⟩
      refine ⟨z, h.done ?_⟩
      intro k j hj
      exact opA_trm_zero _ _ (by rw [hup, htr]; simpa using hj)
  · -- upper
    unfold trsvLu
    rw [if_neg (by omega), hc]
    refine Runs.bind last (fun m1 h1 => ?_)
    refine Runs.forDown (fun i m' => ∃ z, BwdInv m X x (opTri fl a) alpha X.size i z m') h1 ?_ ?_
    · rintro i m' hi ⟨z, h⟩
      refine trsv_bwd_step hv hw hr hc hf (by omega) (hnz i (by omega)) hA hd h (Or.inl rfl)
        (View.sub_row_size _ _ _ _) rfl ((hA.frame h.frame hd).row (by omega) (by omega) ?_) ?_
      · intro j hj; unfold InTri; rw [hup]; cases fl.unit <;> simp <;> omega
      · intro k hk
        unfold opTri; rw [opA_trm_off _ _ (by rw [hup, htr]; simp; omega)]
        simp [opA, htr]
    · rintro m' ⟨z, h⟩
      refine ⟨z, h.done ?_⟩
      intro k j hj
      exact opA_trm_zero _ _ (by rw [hup, htr]; simpa using hj)
  · -- upper, transposed
    unfold trsvLut
    refine Runs.bind first (fun m1 h1 => ?_)
    refine Runs.bind (Runs.forUp1 (fun i m' => ∃ z, FwdInv m X x (opTri fl a) alpha i z m') (by omega)
      h1 ?_ (Q := fun p => ∃ z, FwdInv m X x (opTri fl a) alpha X.size z p.2) (fun m' h => hc ▸ h)) ?_
    · rintro i m' - hi ⟨z, h⟩
      refine trsv_fwd_step hv hw hr hc hf (by omega) (hnz i (by omega)) hA hd h (Or.inr rfl)
        (View.sub_col_size _ _ _ _) rfl ((hA.frame h.frame hd).col (by omega) (by omega) ?_) ?_
      · intro j hj; unfold InTri; rw [hup]; cases fl.unit <;> simp <;> omega
      · intro k hk
        unfold opTri; rw [opA_trm_off _ _ (by rw [hup, htr]; simpa using hk)]
        simp [opA, htr]
    · rintro ⟨_, m'⟩ ⟨z, h⟩
      refine Runs.pure ⟨z, h.done rfl ?_⟩
      intro k j hj
      exact opA_trm_zero _ _ (by rw [hup, htr]; simpa using hj)

theorem trsvFwdRec_spec [DecidableEq α] (ab : α → α) {env : Env} (hmin : 2 ≤ env.blas2min)
    {fl : Flags} (hfl : fl.lower = !fl.upper) (ht : fl.upper = fl.transA) :
    ∀ (fuel : Nat) {m : Mem α} {X A : View} {x : Nat → α} {a : Nat → Nat → α} (alpha : α),
      X.isVec → X.WF → A.WF → A.rows = X.size → A.cols = X.size → 0 < X.size → X.size + 1 < fuel →
      HoldsV m X x → HoldsOn m A (InTri fl.upper fl.unit) a →
      Disjoint (A.footOn (InTri fl.upper fl.unit)) X.foot →
      (∀ i, i < X.size → opTri fl a i i ≠ 0) →
      Runs (trsvFwdRec ab env fl fuel m X alpha A) (fun m' => ∃ z, HoldsV m' X z ∧
        (∀ k, k < X.size → ∑ j ∈ range X.size, opTri fl a k j * z j = alpha * x k) ∧
        Frame X.foot m m') := by
  intro fuel
  induction fuel with
  | zero => intro m X A x a alpha _ _ _ _ _ _ h; omega
  | succ fuel ih =>
    intro m X A x a alpha hv hw hAw hr hc h0 hf hx hA hd hnz
    rw [trsvFwdRec]
    by_cases c : A.cols < env.blas2min
    · rw [if_pos c]
      exact trsvUnb_spec alpha hfl hv hw hr hc h0 (by omega) hx hA hd hnz
    rw [if_neg c]
    obtain ⟨n1, hn1⟩ : ∃ n, n = A.rows / 2 := ⟨_, rfl⟩
    obtain ⟨n2, hn2⟩ : ∃ n, n = A.rows - n1 := ⟨_, rfl⟩
    have ex : vecPartTop X (A.rows / 2) = (X.subvec 0 n1, X.subvec n1 n2) := by
      rw [vecPartTop_eq (by omega), ← hn1, ← hr, ← hn2]
    simp only [ex, partition2x2]
    simp only [hc, ← hr]
    simp only [← hn1, ← hn2]
    have d12 : Disjoint (X.subvec n1 n2).foot (X.subvec 0 n1).foot :=
      View.subvec_disj hv hw (by omega) (by omega) (by omega)
    have f1 : (X.subvec 0 n1).foot ⊆ X.foot := View.subvec_foot hv (by omega)
    have f2 : (X.subvec n1 n2).foot ⊆ X.foot := View.subvec_foot hv (by omega)
    have g1 : (A.sub 0 0 n1 n1).footOn (InTri fl.upper fl.unit) ⊆ A.footOn (InTri fl.upper fl.unit) :=
      View.footOn_sub (by omega) (by omega) (fun i j _ _ h => by rwa [inTri_shift])
    have g2 : (A.sub n1 n1 n2 n2).footOn (InTri fl.upper fl.unit) ⊆ A.footOn (InTri fl.upper fl.unit) :=
      View.footOn_sub (by omega) (by omega) (fun i j _ _ h => by rwa [inTri_shift])
    have k1 : ∀ {m'}, HoldsOn m' A (InTri fl.upper fl.unit) a →
        HoldsOn m' (A.sub 0 0 n1 n1) (InTri fl.upper fl.unit) (fun i j => a (0 + i) (0 + j)) :=
      fun h => h.sub (by omega) (by omega) (fun i j _ _ h => by rwa [inTri_shift])
    have k2 : ∀ {m'}, HoldsOn m' A (InTri fl.upper fl.unit) a →
        HoldsOn m' (A.sub n1 n1 n2 n2) (InTri fl.upper fl.unit) (fun i j => a (n1 + i) (n1 + j)) :=
      fun h => h.sub (by omega) (by omega) (fun i j _ _ h => by rwa [inTri_shift])
    refine Runs.bind (ih (X := X.subvec 0 n1) (A := A.sub 0 0 n1 n1) alpha
      (View.subvec_isVec _ _ _) (hw.subvec hv (by omega)) (hAw.sub (by omega) (by omega))
      (by simp [View.subvec_size]) (by simp [View.subvec_size]) (by rw [View.subvec_size]; omega)
      (by rw [View.subvec_size]; omega) (hx.subvec hv (by omega)) (k1 hA) (hd.mono g1 f1)
      (fun i hi => by
        rw [View.subvec_size] at hi; rw [opTri_shift]; exact hnz _ (by omega))) ?_
    rintro m1 ⟨z1, h1, e1, r1⟩
    have hAm1 := hA.frame (r1.mono f1) hd
    have hx2 := (hx.subvec (n := n1) (len := n2) hv (by omega)).frame (View.subvec_isVec _ _ _) r1 d12
    simp only [View.subvec_size, opTri_shift] at e1
    refine Runs.bind (P := fun m' => HoldsV m' (X.subvec n1 n2) (fun k =>
        alpha * x (n1 + k) + (-1) * ∑ j ∈ range n1, opTri fl a (n1 + k) (0 + j) * z1 j) ∧
        Frame (X.subvec n1 n2).foot m1 m') ?_ ?_
    · cases hup : fl.upper with
      | true =>
        have htr : fl.transA = true := by cases h : fl.transA <;> simp [hup, h] at ht ⊢
        have hin : ∀ i j, i < n1 → j < n2 → InTri fl.upper fl.unit (0 + i) (n1 + j) := by
          intro i j hi hj; unfold InTri; rw [hup]; cases fl.unit <;> simp <;> omega
        simp only [if_true]
        refine (mvmultUnsafe_spec ab (by omega) alpha (-1) (fl := {transA := true}) rfl (Or.inr ?_)
          (Y := X.subvec n1 n2) (X := X.subvec 0 n1) (A := A.sub 0 n1 n1 n2)
          (by rw [View.subvec_size]; omega) (View.subvec_isVec _ _ _)
          (hw.subvec hv (by omega)) (View.subvec_isVec _ _ _) (by simp [View.opRows, View.subvec_size])
          (by simp [View.opCols, View.subvec_size]) hx2 (hAm1.block (by omega) (by omega) hin) h1
          (hd.mono (View.foot_sub_footOn (by omega) (by omega) hin) f2) d12.symm).mono ?_
        · have : 0 < n1 * n2 := Nat.mul_pos (by omega) (by omega)
          have : 0 < n2 * n1 := Nat.mul_pos (by omega) (by omega)
          simp only [View.size, View.sub_rows, View.sub_cols]; omega
        rintro m2 ⟨h2, r2⟩
        refine ⟨h2.congr (fun k hk => ?_), r2⟩
        rw [View.subvec_size] at hk ⊢
        congr 2
        refine Finset.sum_congr rfl (fun j hj => ?_)
        have := Finset.mem_range.mp hj
        unfold opTri
        rw [opA_trm_off _ _ (by rw [hup, htr]; simp; omega), htr]
        simp [opA]
      | false =>
        have htr : fl.transA = false := by cases h : fl.transA <;> simp [hup, h] at ht ⊢
        have hin : ∀ i j, i < n2 → j < n1 → InTri fl.upper fl.unit (n1 + i) (0 + j) := by
          intro i j hi hj; unfold InTri; rw [hup]; cases fl.unit <;> simp <;> omega
        simp only [if_false, Bool.false_eq_true]
        refine (mvmultUnsafe_spec ab (by omega) alpha (-1) (fl := {}) rfl (Or.inr ?_)
          (Y := X.subvec n1 n2) (X := X.subvec 0 n1) (A := A.sub n1 0 n2 n1)
          (by rw [View.subvec_size]; omega) (View.subvec_isVec _ _ _)
          (hw.subvec hv (by omega)) (View.subvec_isVec _ _ _) (by simp [View.opRows, View.subvec_size])
          (by simp [View.opCols, View.subvec_size]) hx2 (hAm1.block (by omega) (by omega) hin) h1
          (hd.mono (View.foot_sub_footOn (by omega) (by omega) hin) f2) d12.symm).mono ?_
        · have : 0 < n1 * n2 := Nat.mul_pos (by omega) (by omega)
          have : 0 < n2 * n1 := Nat.mul_pos (by omega) (by omega)
          simp only [View.size, View.sub_rows, View.sub_cols]; omega
        rintro m2 ⟨h2, r2⟩
        refine ⟨h2.congr (fun k hk => ?_), r2⟩
        rw [View.subvec_size] at hk ⊢
        congr 2
        refine Finset.sum_congr rfl (fun j hj => ?_)
        have := Finset.mem_range.mp hj
        unfold opTri
        rw [opA_trm_off _ _ (by rw [hup, htr]; simp; omega), htr]
        simp [opA]
    rintro m2 ⟨h2, r2⟩
    have hAm2 := hAm1.frame (r2.mono f2) hd
    refine (ih (X := X.subvec n1 n2) (A := A.sub n1 n1 n2 n2) 1
      (View.subvec_isVec _ _ _) (hw.subvec hv (by omega)) (hAw.sub (by omega) (by omega))
      (by simp [View.subvec_size]) (by simp [View.subvec_size]) (by rw [View.subvec_size]; omega)
      (by rw [View.subvec_size]; omega) h2 (k2 hAm2) (hd.mono g2 f2)
      (fun i hi => by
        rw [View.subvec_size] at hi; rw [opTri_shift]; exact hnz _ (by omega))).mono ?_
    rintro m3 ⟨z2, h3, e3, r3⟩
    simp only [View.subvec_size, opTri_shift] at e3
    have h1' := (h1.frame (View.subvec_isVec _ _ _) r2 d12.symm).frame (View.subvec_isVec _ _ _) r3 d12.symm
    refine ⟨fun k => if k < n1 then z1 k else z2 (k - n1), HoldsV.join hv (by omega) h1' h3,
      fun k hk => ?_, (r1.mono f1).trans ((r2.trans r3).mono f2)⟩
    rw [sum_split _ (show n1 ≤ A.rows by omega), ← hn2]
    have s1 : ∑ j ∈ range n1, opTri fl a k j * (if j < n1 then z1 j else z2 (j - n1))
        = ∑ j ∈ range n1, opTri fl a k j * z1 j :=
      Finset.sum_congr rfl (fun j hj => by rw [if_pos (Finset.mem_range.mp hj)])
    have s2 : ∑ j ∈ range n2, opTri fl a k (n1 + j) * (if n1 + j < n1 then z1 (n1 + j)
        else z2 (n1 + j - n1)) = ∑ j ∈ range n2, opTri fl a k (n1 + j) * z2 j :=
      Finset.sum_congr rfl (fun j _ => by rw [if_neg (by omega), Nat.add_sub_cancel_left])
    rw [s1, s2]
    simp only [Nat.zero_add] at e1 e3
    by_cases hk1 : k < n1
    · rw [e1 k hk1, Finset.sum_eq_zero, add_zero]
      intro j _
      unfold opTri
      rw [opA_trm_zero _ _ (by rw [if_pos ht]; omega), zero_mul]
    · have := e3 (k - n1) (by omega)
      rw [show n1 + (k - n1) = k by omega] at this
      rw [this]; ring

theorem trsvBwdRec_spec [DecidableEq α] (ab : α → α) {env : Env} (hmin : 2 ≤ env.blas2min)
    {fl : Flags} (hfl : fl.lower = !fl.upper) (ht : fl.upper = !fl.transA) :
    ∀ (fuel : Nat) {m : Mem α} {X A : View} {x : Nat → α} {a : Nat → Nat → α} (alpha : α),
      X.isVec → X.WF → A.WF → A.rows = X.size → A.cols = X.size → 0 < X.size → X.size + 1 < fuel →
      HoldsV m X x → HoldsOn m A (InTri fl.upper fl.unit) a →
      Disjoint (A.footOn (InTri fl.upper fl.unit)) X.foot →
      (∀ i, i < X.size → opTri fl a i i ≠ 0) →
      Runs (trsvBwdRec ab env fl fuel m X alpha A) (fun m' => ∃ z, HoldsV m' X z ∧
        (∀ k, k < X.size → ∑ j ∈ range X.size, opTri fl a k j * z j = alpha * x k) ∧
        Frame X.foot m m') := by
  intro fuel
  induction fuel with
  | zero => intro m X A x a alpha _ _ _ _ _ _ h; omega
  | succ fuel ih =>
    intro m X A x a alpha hv hw hAw hr hc h0 hf hx hA hd hnz
    rw [trsvBwdRec]
    by_cases c : A.cols < env.blas2min
    · rw [if_pos c]
      exact trsvUnb_spec alpha hfl hv hw hr hc h0 (by omega) hx hA hd hnz
    rw [if_neg c]
    obtain ⟨n1, hn1⟩ : ∃ n, n = A.rows / 2 := ⟨_, rfl⟩
    obtain ⟨n2, hn2⟩ : ∃ n, n = A.rows - n1 := ⟨_, rfl⟩
    have ex : vecPartTop X (A.rows / 2) = (X.subvec 0 n1, X.subvec n1 n2) := by
      rw [vecPartTop_eq (by omega), ← hn1, ← hr, ← hn2]
    simp only [ex, partition2x2]
    simp only [hc, ← hr]
    simp only [← hn1, ← hn2]
    have d12 : Disjoint (X.subvec n1 n2).foot (X.subvec 0 n1).foot :=
      View.subvec_disj hv hw (by omega) (by omega) (by omega)
    have f1 : (X.subvec 0 n1).foot ⊆ X.foot := View.subvec_foot hv (by omega)
    have f2 : (X.subvec n1 n2).foot ⊆ X.foot := View.subvec_foot hv (by omega)
    have g1 : (A.sub 0 0 n1 n1).footOn (InTri fl.upper fl.unit) ⊆ A.footOn (InTri fl.upper fl.unit) :=
      View.footOn_sub (by omega) (by omega) (fun i j _ _ h => by rwa [inTri_shift])
    have g2 : (A.sub n1 n1 n2 n2).footOn (InTri fl.upper fl.unit) ⊆ A.footOn (InTri fl.upper fl.unit) :=
      View.footOn_sub (by omega) (by omega) (fun i j _ _ h => by rwa [inTri_shift])
    have k1 : ∀ {m'}, HoldsOn m' A (InTri fl.upper fl.unit) a →
        HoldsOn m' (A.sub 0 0 n1 n1) (InTri fl.upper fl.unit) (fun i j => a (0 + i) (0 + j)) :=
      fun h => h.sub (by omega) (by omega) (fun i j _ _ h => by rwa [inTri_shift])
    have k2 : ∀ {m'}, HoldsOn m' A (InTri fl.upper fl.unit) a →
        HoldsOn m' (A.sub n1 n1 n2 n2) (InTri fl.upper fl.unit) (fun i j => a (n1 + i) (n1 + j)) :=
      fun h => h.sub (by omega) (by omega) (fun i j _ _ h => by rwa [inTri_shift])
    refine Runs.bind (ih (X := X.subvec n1 n2) (A := A.sub n1 n1 n2 n2) alpha
      (View.subvec_isVec _ _ _) (hw.subvec hv (by omega)) (hAw.sub (by omega) (by omega))
      (by simp [View.subvec_size]) (by simp [View.subvec_size]) (by rw [View.subvec_size]; omega)
      (by rw [View.subvec_size]; omega) (hx.subvec hv (by omega)) (k2 hA) (hd.mono g2 f2)
      (fun i hi => by
        rw [View.subvec_size] at hi; rw [opTri_shift]; exact hnz _ (by omega))) ?_
    rintro m1 ⟨z1, h1, e1, r1⟩
    have hAm1 := hA.frame (r1.mono f2) hd
    have hx2 := (hx.subvec (n := 0) (len := n1) hv (by omega)).frame (View.subvec_isVec _ _ _) r1 d12.symm
    simp only [View.subvec_size, opTri_shift] at e1
    refine Runs.bind (P := fun m' => HoldsV m' (X.subvec 0 n1) (fun k =>
        alpha * x (0 + k) + (-1) * ∑ j ∈ range n2, opTri fl a (0 + k) (n1 + j) * z1 j) ∧
        Frame (X.subvec 0 n1).foot m1 m') ?_ ?_
    · cases hup : fl.upper with
      | true =>
        have htr : fl.transA = false := by cases h : fl.transA <;> simp [hup, h] at ht ⊢
        have hin : ∀ i j, i < n1 → j < n2 → InTri fl.upper fl.unit (0 + i) (n1 + j) := by
          intro i j hi hj; unfold InTri; rw [hup]; cases fl.unit <;> simp <;> omega
        simp only [if_true]
        refine (mvmultUnsafe_spec ab (by omega) alpha (-1) (fl := {}) rfl (Or.inr ?_)
          (Y := X.subvec 0 n1) (X := X.subvec n1 n2) (A := A.sub 0 n1 n1 n2)
          (by rw [View.subvec_size]; omega) (View.subvec_isVec _ _ _)
          (hw.subvec hv (by omega)) (View.subvec_isVec _ _ _) (by simp [View.opRows, View.subvec_size])
          (by simp [View.opCols, View.subvec_size]) hx2 (hAm1.block (by omega) (by omega) hin) h1
          (hd.mono (View.foot_sub_footOn (by omega) (by omega) hin) f1) d12).mono ?_
        · have : 0 < n1 * n2 := Nat.mul_pos (by omega) (by omega)
          have : 0 < n2 * n1 := Nat.mul_pos (by omega) (by omega)
          simp only [View.size, View.sub_rows, View.sub_cols]; omega
        rintro m2 ⟨h2, r2⟩
        refine ⟨h2.congr (fun k hk => ?_), r2⟩
        rw [View.subvec_size] at hk ⊢
        congr 2
        refine Finset.sum_congr rfl (fun j hj => ?_)
        have := Finset.mem_range.mp hj
        unfold opTri
        rw [opA_trm_off _ _ (by rw [hup, htr]; simp; omega), htr]
        simp [opA]
      | false =>
        have htr : fl.transA = true := by cases h : fl.transA <;> simp [hup, h] at ht ⊢
        have hin : ∀ i j, i < n2 → j < n1 → InTri fl.upper fl.unit (n1 + i) (0 + j) := by
          intro i j hi hj; unfold InTri; rw [hup]; cases fl.unit <;> simp <;> omega
        simp only [if_false, Bool.false_eq_true]
        refine (mvmultUnsafe_spec ab (by omega) alpha (-1) (fl := {transA := true}) rfl (Or.inr ?_)
          (Y := X.subvec 0 n1) (X := X.subvec n1 n2) (A := A.sub n1 0 n2 n1)
          (by rw [View.subvec_size]; omega) (View.subvec_isVec _ _ _)
          (hw.subvec hv (by omega)) (View.subvec_isVec _ _ _) (by simp [View.opRows, View.subvec_size])
          (by simp [View.opCols, View.subvec_size]) hx2 (hAm1.block (by omega) (by omega) hin) h1
          (hd.mono (View.foot_sub_footOn (by omega) (by omega) hin) f1) d12).mono ?_
        · have : 0 < n1 * n2 := Nat.mul_pos (by omega) (by omega)
          have : 0 < n2 * n1 := Nat.mul_pos (by omega) (by omega)
          simp only [View.size, View.sub_rows, View.sub_cols]; omega
        rintro m2 ⟨h2, r2⟩
        refine ⟨h2.congr (fun k hk => ?_), r2⟩
        rw [View.subvec_size] at hk ⊢
        congr 2
        refine Finset.sum_congr rfl (fun j hj => ?_)
        have := Finset.mem_range.mp hj
        unfold opTri
        rw [opA_trm_off _ _ (by rw [hup, htr]; simp; omega), htr]
        simp [opA]
    rintro m2 ⟨h2, r2⟩
    have hAm2 := hAm1.frame (r2.mono f1) hd
    refine (ih (X := X.subvec 0 n1) (A := A.sub 0 0 n1 n1) 1
      (View.subvec_isVec _ _ _) (hw.subvec hv (by omega)) (hAw.sub (by omega) (by omega))
      (by simp [View.subvec_size]) (by simp [View.subvec_size]) (by rw [View.subvec_size]; omega)
      (by rw [View.subvec_size]; omega) h2 (k1 hAm2) (hd.mono g1 f1)
      (fun i hi => by
        rw [View.subvec_size] at hi; rw [opTri_shift]; exact hnz _ (by omega))).mono ?_
    rintro m3 ⟨z2, h3, e3, r3⟩
    simp only [View.subvec_size, opTri_shift] at e3
    have h1' := (h1.frame (View.subvec_isVec _ _ _) r2 d12).frame (View.subvec_isVec _ _ _) r3 d12
    refine ⟨fun k => if k < n1 then z2 k else z1 (k - n1), HoldsV.join hv (by omega) h3 h1',
      fun k hk => ?_, (r1.mono f2).trans ((r2.trans r3).mono f1)⟩
    rw [sum_split _ (show n1 ≤ A.rows by omega), ← hn2]
    have s1 : ∑ j ∈ range n1, opTri fl a k j * (if j < n1 then z2 j else z1 (j - n1))
        = ∑ j ∈ range n1, opTri fl a k j * z2 j :=
      Finset.sum_congr rfl (fun j hj => by rw [if_pos (Finset.mem_range.mp hj)])
    have s2 : ∑ j ∈ range n2, opTri fl a k (n1 + j) * (if n1 + j < n1 then z2 (n1 + j)
        else z1 (n1 + j - n1)) = ∑ j ∈ range n2, opTri fl a k (n1 + j) * z1 j :=
      Finset.sum_congr rfl (fun j _ => by rw [if_neg (by omega), Nat.add_sub_cancel_left])
    rw [s1, s2]
    simp only [Nat.zero_add] at e1 e3
    by_cases hk1 : k < n1
    · rw [e3 k hk1]; ring
    · have := e1 (k - n1) (by omega)
      rw [show n1 + (k - n1) = k by omega] at this
      rw [this, Finset.sum_eq_zero, zero_add]
      intro j hj
      have := Finset.mem_range.mp hj
      unfold opTri
      rw [opA_trm_zero _ _ (by rw [if_neg (by rw [ht]; cases fl.transA <;> simp)]; omega), zero_mul]

theorem mvsolveTrmUnsafe_spec [DecidableEq α] (ab : α → α) {env : Env} (hmin : env.blas2min ≠ 1)
    (alpha : α) {fl : Flags} (hfl : fl.lower = !fl.upper) {fuel : Nat} {m : Mem α} {X A : View}
    {x : Nat → α} {a : Nat → Nat → α} (hv : X.isVec) (hw : X.WF) (hAw : A.WF)
    (hr : A.rows = X.size) (hc : A.cols = X.size) (h0 : 0 < X.size) (hf : X.size + 1 < fuel)
    (hx : HoldsV m X x) (hA : HoldsOn m A (InTri fl.upper fl.unit) a)
    (hd : Disjoint (A.footOn (InTri fl.upper fl.unit)) X.foot)
    (hnz : ∀ i, i < X.size → opTri fl a i i ≠ 0) :
    Runs (mvsolveTrmUnsafe ab env fuel m X alpha A fl) (fun m' => ∃ z, HoldsV m' X z ∧
      (∀ k, k < X.size → ∑ j ∈ range X.size, opTri fl a k j * z j = alpha * x k) ∧
      Frame X.foot m m') := by
  unfold mvsolveTrmUnsafe
  by_cases c : A.cols < env.blas2min ∨ env.blas2min = 0
  · rw [if_pos c]
    exact trsvUnb_spec alpha hfl hv hw hr hc h0 (by omega) hx hA hd hnz
  rw [if_neg c]
  by_cases hF : fl.trFwd = true
  · rw [if_pos hF]
    exact trsvBwdRec_spec ab (by omega) hfl ((Flags.trFwd_eq hfl).mp hF) fuel alpha hv hw hAw hr hc h0 hf
      hx hA hd hnz
  · rw [if_neg hF]
    refine trsvFwdRec_spec ab (by omega) hfl ?_ fuel alpha hv hw hAw hr hc h0 hf hx hA hd hnz
    rw [Flags.trFwd_eq hfl] at hF
    revert hF; cases fl.upper <;> cases fl.transA <;> simp

end Armas
