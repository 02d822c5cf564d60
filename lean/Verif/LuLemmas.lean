import Verif.Lu
import Verif.PivotLemmas
import Verif.LapackLemmas
import Verif.Props.Mset
import Verif.Props.Blas2
import Verif.Props.Gemm
import Verif.Props.Blas1

/-!
# LU factorization: algebra and step lemmas for `Verif.Lu`
-/

namespace Armas

open Finset Armas.Props

variable {α : Type}

/-! ## Updating a part of a matrix -/

/-- `v` with the block at `(r, c)` replaced by `w`. -/
def paste (v : Nat → Nat → α) (r c nr nc : Nat) (w : Nat → Nat → α) (i j : Nat) : α :=
  if r ≤ i ∧ i < r + nr ∧ c ≤ j ∧ j < c + nc then w (i - r) (j - c) else v i j

theorem paste_in {v w : Nat → Nat → α} {r c nr nc i j : Nat} (h : r ≤ i ∧ i < r + nr ∧ c ≤ j ∧ j < c + nc) :
    paste v r c nr nc w i j = w (i - r) (j - c) := if_pos h

theorem paste_out {v w : Nat → Nat → α} {r c nr nc i j : Nat}
    (h : ¬ (r ≤ i ∧ i < r + nr ∧ c ≤ j ∧ j < c + nc)) : paste v r c nr nc w i j = v i j := if_neg h

theorem Holds.paste {m m' : Mem α} {A : View} {v w : Nat → Nat → α} {r c nr nc : Nat} {S : Set Nat} (hw : A.WF)
    (h : Holds m A v) (hr : r + nr ≤ A.rows) (hc : c + nc ≤ A.cols) (h' : Holds m' (A.sub r c nr nc) w)
    (f : Frame ((A.sub r c nr nc).foot ∪ S) m m') (hS : Disjoint A.foot S) :
    Holds m' A (paste v r c nr nc w) := by
  intro i j hi hj
  by_cases hc' : r ≤ i ∧ i < r + nr ∧ c ≤ j ∧ j < c + nc
  · rw [paste_in hc', ← h' (i - r) (j - c) (by rw [View.sub_rows]; omega) (by rw [View.sub_cols]; omega), View.at_sub,
      show r + (i - r) = i by omega, show c + (j - c) = j by omega]
  · rw [paste_out hc', ← h i j hi hj]
    refine f _ ?_
    rintro (⟨i', j', hi', hj', e⟩ | hs)
    · rw [View.sub_rows] at hi'
      rw [View.sub_cols] at hj'
      rw [View.at_sub] at e
      have := View.at_inj hw hi hj (by omega) (by omega) e
      omega
    · exact Set.disjoint_left.mp hS ⟨i, j, hi, hj, rfl⟩ hs

/-- Parts of a matrix. -/
theorem Holds.part {m : Mem α} {A : View} {v : Nat → Nat → α} {r c nr nc : Nat} (h : Holds m A v)
    (hr : r + nr ≤ A.rows) (hc : c + nc ≤ A.cols) :
    Holds m (A.sub r c nr nc) (fun i j => v (r + i) (c + j)) := by
  intro i j hi hj
  rw [View.sub_rows] at hi
  rw [View.sub_cols] at hj
  rw [View.at_sub]
  exact h _ _ (by omega) (by omega)

/-! ## Pivoting rows -/

theorem pivotRows_fwd {m : Mem α} {V : View} {a : Nat → Nat → α} {P : Piv} (hw : V.WF) (h : Holds m V a)
    (hn : P.n ≤ V.rows) :
    Runs (pivotLines false m V P true) (fun r => r.1 = 0 ∧
      Holds r.2 V (fun i j => a (fwdPerm V.rows P.ix P.n i) j) ∧ Frame V.foot m r.2) := by
  rw [pivotLines, if_neg (by rw [nLines]; simp; omega)]
  exact (applyPivots_fwd (col := false) hw h hn).bind (fun m' hm' => Runs.pure ⟨rfl, hm'⟩)

theorem fwdPerm_congr {N : Nat} {f g : Nat → Int} {n : Nat} (h : ∀ l, l < n → f l = g l) :
    fwdPerm N f n = fwdPerm N g n := by
  induction n with
  | zero => rfl
  | succ n ih => rw [fwdPerm, fwdPerm, ih (fun l hl => h l (by omega)), h n (by omega)]

/-- Pivots of a lower part of the matrix, taken relative to it. -/
theorem fwdPerm_shift {N k : Nat} {f g : Nat → Int} {n : Nat} (hk : k + n ≤ N)
    (hg : ∀ l, l < n → f (k + l) = g l + k ∧ 1 ≤ g l ∧ g l ≤ (N - k : Nat)) (i : Nat) :
    fwdPerm N f (k + n) i = fwdPerm N f k (if i < k then i else k + fwdPerm (N - k) g n (i - k)) := by
  induction n generalizing i with
  | zero =>
    simp only [Nat.add_zero, fwdPerm, Equiv.Perm.one_apply]
    split
    · rfl
    · congr 1; omega
  | succ n ih =>
    obtain ⟨h1, h2, h3⟩ := hg n (by omega)
    rw [show k + (n + 1) = k + n + 1 by omega, fwdPerm, Equiv.Perm.mul_apply,
      ih (by omega) (fun l hl => hg l (by omega))]
    have e : pivTau N (f (k + n)) (k + n) i =
        if i < k then i else k + pivTau (N - k) (g n) n (i - k) := by
      unfold pivTau
      simp only [show 0 < f (k + n) ∧ f (k + n) ≤ N by omega, show 0 < g n ∧ g n ≤ (N - k : Nat) by omega, and_self,
        if_true, Equiv.swap_apply_def]
      have : (f (k + n) - 1).toNat = k + (g n - 1).toNat := by omega
      rw [this]
      split_ifs <;> omega
    rw [e]
    congr 1
    rw [fwdPerm, Equiv.Perm.mul_apply]
    by_cases c : i < k
    · simp only [c, if_true]
    · simp only [c, if_false]
      rw [if_neg (by omega)]
      congr 2
      omega

/-! ## The product of the factors -/

/-- Element of the product of the unit lower and the upper triangular factor, `r` the smaller dimension. -/
def luProd [Field α] (r : Nat) (v : Nat → Nat → α) (i j : Nat) : α :=
  ∑ p ∈ range r, trm false true v i p * trm true false v p j

section algebra
variable [Field α]

theorem trmL_lt {v : Nat → Nat → α} {i p : Nat} (h : p < i) : trm false true v i p = v i p := by
  unfold trm; rw [if_neg (by omega)]; simp [h]

theorem trmL_gt {v : Nat → Nat → α} {i p : Nat} (h : i < p) : trm false true v i p = 0 := by
  unfold trm; rw [if_neg (by omega)]; simp; omega

theorem trmL_eq {v : Nat → Nat → α} {i : Nat} : trm false true v i i = 1 := by
  unfold trm; simp

theorem trmU_le {v : Nat → Nat → α} {i p : Nat} (h : i ≤ p) : trm true false v i p = v i p := by
  unfold trm
  split
  · rename_i e; simp [e]
  · simp; omega

theorem trmU_gt {v : Nat → Nat → α} {i p : Nat} (h : p < i) : trm true false v i p = 0 := by
  unfold trm; rw [if_neg (by omega)]; simp; omega

theorem trmL_congr {v w : Nat → Nat → α} {i p : Nat} (h : p < i → v i p = w i p) :
    trm false true v i p = trm false true w i p := by
  rcases Nat.lt_trichotomy i p with c | rfl | c
  · rw [trmL_gt c, trmL_gt c]
  · rw [trmL_eq, trmL_eq]
  · rw [trmL_lt c, trmL_lt c, h c]

/-- One (block) step of the left-looking factorization with pivoting: `k` columns are factored, the next `nb`
columns are brought up to date (`h2`, `h3`) and factored below (`h3`), pivoting by `τ` there and in the
first columns (`h1`). -/
theorem lu_step {N k nb : Nat} {v v' a : Nat → Nat → α} {σ τ : Nat → Nat}
    (hτ : ∀ i, i < N - k → τ i < N - k)
    (hI : ∀ i j, i < N → j < k → luProd k v i j = a (σ i) j)
    (h1 : ∀ i j, i < N → j < k → v' i j = v (if i < k then i else k + τ (i - k)) j)
    (h2 : ∀ i j, i < k → j < nb → ∑ p ∈ range k, trm false true v i p * v' p (k + j) = a (σ i) (k + j))
    (h3 : ∀ i j, i < N - k → j < nb → luProd nb (fun i j => v' (k + i) (k + j)) i j =
      a (σ (k + τ i)) (k + j) - ∑ p ∈ range k, v (k + τ i) p * v' p (k + j)) (hk : k ≤ N) :
    ∀ i j, i < N → j < k + nb → luProd (k + nb) v' i j = a (σ (if i < k then i else k + τ (i - k))) j := by
  intro i j hi hj
  have hL : ∀ p, p < k → trm false true v' i p = trm false true v (if i < k then i else k + τ (i - k)) p := by
    intro p hp
    by_cases c : i < k
    · simp only [c, if_true]
      rcases Nat.lt_trichotomy i p with h | rfl | h
      · rw [trmL_gt h, trmL_gt h]
      · rw [trmL_eq, trmL_eq]
      · rw [trmL_lt h, trmL_lt h, h1 i p hi hp, if_pos c]
    · have := hτ (i - k) (by omega)
      simp only [c, if_false]
      rw [trmL_lt (by omega), trmL_lt (by omega), h1 i p hi hp, if_neg c]
  unfold luProd
  rw [Finset.sum_range_add]
  by_cases c : j < k
  · have e2 : ∑ x ∈ range nb, trm false true v' i (k + x) * trm true false v' (k + x) j = 0 := by
      refine Finset.sum_eq_zero (fun x _ => ?_)
      rw [trmU_gt (by omega), mul_zero]
    rw [e2, add_zero, ← hI _ j (by split <;> [exact hi; (have := hτ (i - k) (by omega); omega)]) c]
    unfold luProd
    refine Finset.sum_congr rfl (fun p hp => ?_)
    have hp' := Finset.mem_range.mp hp
    rw [hL p hp']
    congr 1
    rcases Nat.lt_or_ge j p with h | h
    · rw [trmU_gt h, trmU_gt h]
    · rw [trmU_le h, trmU_le h, h1 p j (by omega) c, if_pos hp']
  · obtain ⟨j, rfl⟩ : ∃ j', j = k + j' := ⟨j - k, by omega⟩
    have eU : ∀ p, p < k → trm true false v' p (k + j) = v' p (k + j) := by
      intro p hp
      exact trmU_le (by omega)
    have e1 : ∑ x ∈ range k, trm false true v' i x * trm true false v' x (k + j) =
        ∑ x ∈ range k, trm false true v (if i < k then i else k + τ (i - k)) x * v' x (k + j) :=
      Finset.sum_congr rfl (fun p hp => by
        rw [hL p (Finset.mem_range.mp hp), eU p (Finset.mem_range.mp hp)])
    rw [e1]
    by_cases ci : i < k
    · have e2 : ∑ x ∈ range nb, trm false true v' i (k + x) * trm true false v' (k + x) (k + j) = 0 := by
        refine Finset.sum_eq_zero (fun x _ => ?_)
        rw [trmL_gt (by omega), zero_mul]
      simp only [ci, if_true]
      rw [e2, add_zero]
      exact h2 i j ci (by omega)
    · obtain ⟨i, rfl⟩ : ∃ i', i = k + i' := ⟨i - k, by omega⟩
      have hi' : i < N - k := by omega
      have e2 : ∑ x ∈ range nb, trm false true v' (k + i) (k + x) * trm true false v' (k + x) (k + j) =
          luProd nb (fun i j => v' (k + i) (k + j)) i j := by
        unfold luProd
        exact Finset.sum_congr rfl (fun x _ => by rw [trm_shift, trm_shift])
      rw [e2, h3 i j hi' (by omega)]
      simp only [ci, if_false, show k + i - k = i by omega]
      have e3 : ∀ p, p < k → trm false true v (k + τ i) p = v (k + τ i) p := by
        intro p hp
        exact trmL_lt (by omega)
      rw [Finset.sum_congr rfl (fun p hp => by rw [e3 p (Finset.mem_range.mp hp)])]
      ring

end algebra

/-! ## Small facts about the subroutines -/

theorem Holds.set_cell {m : Mem α} {A : View} {v : Nat → Nat → α} {i j : Nat} (hw : A.WF) (h : Holds m A v)
    (hi : i < A.rows) (hj : j < A.cols) (x : α) :
    Holds (m.set (A.at' i j) x) A (Armas.paste v i j 1 1 (fun _ _ => x)) ∧ Frame A.foot m (m.set (A.at' i j) x) := by
  constructor
  · intro i' j' hi' hj'
    by_cases c : i' = i ∧ j' = j
    · obtain ⟨rfl, rfl⟩ := c
      rw [paste_in (by omega), Mem.set_same]
    · rw [paste_out (by omega), Mem.set_ne, h i' j' hi' hj']
      intro e
      exact c (View.at_inj hw hi' hj' hi hj e)
  · exact Frame.set (View.at_mem_foot hi hj) x

theorem mvmult_sub [Field α] [DecidableEq α] (ab : α → α) {env : Env}
    (hmin : env.blas2min ≠ 1 ∨ env.naive = true) {fuel : Nat} {m : Mem α} {Y A X : View}
    {y x : Nat → α} {a : Nat → Nat → α} (hf : Y.size < fuel) (hv : Y.isVec) (hw : Y.WF) (hXv : X.isVec)
    (hY : A.rows = Y.size) (hX : A.cols = X.size) (hy : HoldsV m Y y) (hA : Holds m A a) (hx : HoldsV m X x)
    (hdA : Disjoint A.foot Y.foot) (hdX : Disjoint X.foot Y.foot) :
    Runs (mvmult ab env fuel m 1 Y (-1) A X {}) (fun r => r.1 = 0 ∧
      HoldsV r.2 Y (fun i => y i - ∑ j ∈ range X.size, a i j * x j) ∧ Frame Y.foot m r.2) := by
  by_cases h0 : A.size = 0
  · unfold mvmult
    rw [if_pos (Or.inl h0)]
    refine Runs.ok ⟨rfl, fun i hi => ?_, Frame.refl _ _⟩
    have : X.size = 0 := by
      rw [← hX]
      rcases mul_eq_zero.mp h0 with h | h
      · omega
      · exact h
    rw [this]; simpa using hy i hi
  · refine (C10_mvmult_partial ab hmin 1 (-1) rfl h0 hf hv hw hXv (by simpa using hY) (by simpa using hX) hy hA hx
      hdA hdX).mono ?_
    rintro r ⟨h1, h2, h3⟩
    refine ⟨h1, fun i hi => ?_, h3⟩
    rw [h2 i hi]
    congr 1
    simp only [Bool.false_eq_true, if_false]
    ring

theorem mult_sub [Field α] [DecidableEq α] (ab : α → α) {c : Cache} {m : Mem α} {C A B : View}
    {a b f : Nat → Nat → α} (hw : C.WF) (hc : c.Ready m) (hA : Holds m A a) (hB : Holds m B b) (hC : Holds m C f)
    (hdA : Disjoint A.foot c.foot) (hdB : Disjoint B.foot c.foot) (hdC : Disjoint C.foot c.foot)
    (hdAC : Disjoint A.foot C.foot) (hdBC : Disjoint B.foot C.foot) (hr : C.rows = A.rows) (hn : C.cols = B.cols)
    (hP : A.cols = B.rows) :
    Runs (mult ab m 1 C (-1) A B {} (some c)) (fun r => r.1 = 0 ∧
      Holds r.2 C (fun i j => f i j - ∑ k ∈ range A.cols, a i k * b k j) ∧
      Frame (C.foot ∪ c.foot) m r.2 ∧ c.Ready r.2) := by
  by_cases h0 : A.cols = 0
  · unfold mult
    rw [if_pos (Or.inl (by simp [View.size, h0]))]
    exact Runs.ok ⟨rfl, hC.congr (fun i j _ _ => by rw [h0]; simp), Frame.refl _ _, hc⟩
  · refine (C16_mult_partial ab 1 (-1) (fl := {}) rfl rfl hw hc hA hB hC hdA hdB hdC hdAC hdBC (by simpa using hr)
      (by simpa using hn) (P := A.cols) (by simp) (by simpa using hP) h0).mono ?_
    rintro r ⟨h1, h2, h3, h4⟩
    refine ⟨h1, h2.congr (fun i j _ _ => ?_), h3, h4⟩
    simp only [Bool.false_eq_true, if_false]
    ring

/-! ## Unblocked factorization with pivoting -/

section piv
variable [Field α] [LinearOrder α]

/-- `k` columns are factored: `P` holds the row interchanges, the other columns are as given. -/
structure LuInv (A : View) (a : Nat → Nat → α) (k : Nat) (err : Int) (m : Mem α) (P : Piv) (v : Nat → Nat → α) :
    Prop where
  hold : Holds m A v
  rest : ∀ i j, i < A.rows → k ≤ j → j < A.cols → v i j = a i j
  prod : ∀ i j, i < A.rows → j < k → luProd k v i j = a (fwdPerm A.rows P.ix k i) j
  piv : ∀ l, l < k → (l : Int) + 1 ≤ P.ix l ∧ P.ix l ≤ A.rows
  err : err = if 0 < k ∧ v (k - 1) (k - 1) = 0 then -1 else 0
  bnd : ∀ i j, i < A.rows → j < k → j < i → |v i j| ≤ 1

variable [IsStrictOrderedRing α]

theorem unblkLuStep_spec (ab : α → α) {env : Env} (hmin : env.blas2min ≠ 1 ∨ env.naive = true) {fuel : Nat}
    {m : Mem α} {A : View} {P : Piv} {a : Nat → Nat → α} {k : Nat} {err : Int} (hw : A.WF) (hkr : k < A.rows)
    (hkc : k < A.cols) (hP : k < P.n) (hf : A.rows + 1 < fuel) {v : Nat → Nat → α}
    (hI : LuInv A a k err m P v) :
    Runs (unblkLuStep ab env fuel A k (err, m, P)) (fun st => (∃ v', LuInv A a (k + 1) st.1 st.2.1 st.2.2 v') ∧
      Frame A.foot m st.2.1 ∧ st.2.2.n = P.n) := by
  obtain ⟨h0, hrest, hprod, hpiv, -, hbnd⟩ := hI
  unfold unblkLuStep
  dsimp only
  rw [show min k P.n = k by omega, show min 1 (P.n - k) = 1 by omega]
  have sf : ∀ {r c nr nc : Nat}, r + nr ≤ A.rows → c + nc ≤ A.cols → (A.sub r c nr nc).foot ⊆ A.foot :=
    fun h1 h2 => View.sub_foot h1 h2
  obtain ⟨σ, hσ⟩ : ∃ σ : Nat → Nat, σ = fun i => fwdPerm A.rows P.ix k i := ⟨_, rfl⟩
  have emp : Disjoint A.foot (∅ : Set Nat) := Set.disjoint_empty _
  -- earlier pivots
  refine (pivotRows_fwd (V := A.sub 0 k A.rows 1) (P := P.sub 0 k) (hw.sub (by omega) (by omega))
    (h0.part (by omega) (by omega)) (by simp only [Piv.sub, View.sub_rows]; omega)).bind ?_
  rintro ⟨e1, m1⟩ ⟨-, h1, f1⟩
  dsimp only at h1 f1 ⊢
  have H1 := h0.paste (S := ∅) hw (by omega) (by omega) h1 (by simpa using f1) emp
  obtain ⟨v1, hv1⟩ : ∃ v1, v1 = paste v 0 k A.rows 1 (fun i j =>
    v (0 + fwdPerm (A.sub 0 k A.rows 1).rows (P.sub 0 k).ix (P.sub 0 k).n i) (k + j)) := ⟨_, rfl⟩
  rw [← hv1] at H1
  have c1 : ∀ i, i < A.rows → v1 i k = a (σ i) k := by
    intro i hi
    rw [hv1, paste_in (by omega), hσ]
    simp only [Nat.sub_zero, Nat.sub_self, Nat.add_zero, Nat.zero_add, View.sub_rows, Piv.sub]
    exact hrest _ _ (fwdPerm_lt (by omega) hi) (le_refl _) hkc
  have o1 : ∀ i j, j ≠ k → v1 i j = v i j := fun i j hj => by rw [hv1, paste_out (by omega)]
  have F1 : Frame A.foot m m1 := f1.mono (sf (by omega) (by omega))
  clear hv1 h1 f1
  -- triangular solve
  refine (C13_mvsolve_trm_partial ab hmin 1 (fl := { left := true, lower := true, unit := true }) rfl
    (X := A.sub 0 k k 1) (A := A.sub 0 0 k k) (Or.inr rfl) (hw.sub (by omega) (by omega))
    (hw.sub (by omega) (by omega)) (by simp [View.size]) (by simp [View.size]) (by simp [View.size]; omega)
    (H1.part (by omega) (by omega)).toV_col (HoldsOn.of_holds (H1.part (by omega) (by omega)))
    ((View.sub_disj hw (by omega) (by omega) (by omega) (by omega) (by omega)).mono_left
      (View.footOn_sub_foot _ _)) (by simp)).bind ?_
  rintro ⟨e2, m2⟩ ⟨-, z, h2, hz, f2⟩
  dsimp only at h2 f2 hz ⊢
  rw [holdsV_iff (Or.inr rfl)] at h2
  have H2 := H1.paste (S := ∅) hw (by omega) (by omega) h2 (by simpa using f2) emp
  obtain ⟨v2, hv2⟩ : ∃ v2, v2 = paste v1 0 k k 1 (fun i j => z (i + j)) := ⟨_, rfl⟩
  rw [← hv2] at H2
  have c2 : ∀ i, i < k → v2 i k = z i := by
    intro i hi
    rw [hv2, paste_in (by omega)]; simp
  have c2' : ∀ i, k ≤ i → i < A.rows → v2 i k = a (σ i) k := by
    intro i hi hi'
    rw [hv2, paste_out (by omega), c1 i hi']
  have o2 : ∀ i j, j ≠ k → v2 i j = v i j := fun i j hj => by rw [hv2, paste_out (by omega), o1 i j hj]
  have F2 : Frame A.foot m m2 := F1.trans (f2.mono (sf (by omega) (by omega)))
  have hz' : ∀ i, i < k → ∑ p ∈ range k, trm false true v i p * z p = a (σ i) k := by
    intro i hi
    have := hz i (by simpa [View.size] using hi)
    simp only [View.size, View.sub_rows, View.sub_cols, mul_one, Bool.false_eq_true, if_false, one_mul,
      Nat.zero_add, Nat.add_zero] at this
    rw [← c1 i (by omega), ← this]
    refine Finset.sum_congr rfl (fun p hp => ?_)
    have := Finset.mem_range.mp hp
    congr 1
    unfold trm
    simp only [o1 i p (by omega)]
    split
    · rfl
    · rfl
  clear hv2 h2 f2 hz c1 o1 H1
  -- diagonal element
  rw [rd_ok (H2 k k hkr hkc)]
  simp only [Res.ok_bind]
  rw [C07_dot env.blas1min env.naive (Or.inl rfl) (Or.inr rfl) (by simp [View.size])
    ((H2.part (r := k) (c := 0) (nr := 1) (nc := k) (by omega) (by omega)).toV_row)
    ((H2.part (r := 0) (c := k) (nr := k) (nc := 1) (by omega) (by omega)).toV_col) fuel
    (by simp [View.size]; omega)]
  simp only [Res.ok_bind]
  rw [wr_ok (H2 k k hkr hkc)]
  simp only [Res.ok_bind]
  obtain ⟨H3, f3⟩ := H2.set_cell hw hkr hkc (v2 k k - ∑ x ∈ range (A.sub k 0 1 k).size,
    v2 (k + 0) (0 + x) * v2 (0 + x) (k + 0))
  obtain ⟨m3, hm3⟩ : ∃ m3, m3 = m2.set (A.at' k k) (v2 k k - ∑ x ∈ range (A.sub k 0 1 k).size,
    v2 (k + 0) (0 + x) * v2 (0 + x) (k + 0)) := ⟨_, rfl⟩
  rw [← hm3] at H3 f3 ⊢
  obtain ⟨v3, hv3⟩ : ∃ v3, v3 = paste v2 k k 1 1 (fun _ _ => v2 k k - ∑ x ∈ range (A.sub k 0 1 k).size,
    v2 (k + 0) (0 + x) * v2 (0 + x) (k + 0)) := ⟨_, rfl⟩
  rw [← hv3] at H3
  have c3 : ∀ i, i < k → v3 i k = z i := fun i hi => by rw [hv3, paste_out (by omega), c2 i hi]
  have d3 : v3 k k = a (σ k) k - ∑ p ∈ range k, v k p * z p := by
    rw [hv3, paste_in (by omega), c2' k (le_refl _) hkr]
    congr 1
    simp only [View.size, View.sub_rows, View.sub_cols, one_mul]
    refine Finset.sum_congr rfl (fun p hp => ?_)
    have := Finset.mem_range.mp hp
    simp only [Nat.add_zero, Nat.zero_add]
    rw [o2 _ _ (by omega), c2 p this]
  have c3' : ∀ i, k < i → i < A.rows → v3 i k = a (σ i) k :=
    fun i hi hi' => by rw [hv3, paste_out (by omega), c2' i (by omega) hi']
  have o3 : ∀ i j, j ≠ k → v3 i j = v i j := fun i j hj => by rw [hv3, paste_out (by omega), o2 i j hj]
  have F3 : Frame A.foot m m3 := F2.trans f3
  clear hv3 hm3 f3 H2 c2 c2' o2
  -- the rest of the column
  refine (mvmult_sub ab hmin (Y := A.sub (k + 1) k (A.rows - k - 1) 1) (A := A.sub (k + 1) 0 (A.rows - k - 1) k)
    (X := A.sub 0 k k 1) (by simp [View.size]; omega) (Or.inr rfl) (hw.sub (by omega) (by omega)) (Or.inr rfl)
    (by simp [View.size]) (by simp [View.size]) (H3.part (by omega) (by omega)).toV_col
    (H3.part (by omega) (by omega)) (H3.part (by omega) (by omega)).toV_col
    (View.sub_disj hw (by omega) (by omega) (by omega) (by omega) (by omega))
    (View.sub_disj hw (by omega) (by omega) (by omega) (by omega) (by omega))).bind ?_
  rintro ⟨e4, m4⟩ ⟨he4, h4, f4⟩
  dsimp only at he4 h4 f4 ⊢
  rw [holdsV_iff (Or.inr rfl)] at h4
  have H4 := H3.paste (S := ∅) hw (by omega) (by omega) h4 (by simpa using f4) emp
  obtain ⟨v4, hv4⟩ : ∃ v4, v4 = paste v3 (k + 1) k (A.rows - k - 1) 1 (fun i j => v3 (k + 1 + (i + j)) (k + 0) -
    ∑ x ∈ range (A.sub 0 k k 1).size, v3 (k + 1 + (i + j)) (0 + x) * v3 (0 + x) (k + 0)) := ⟨_, rfl⟩
  rw [← hv4] at H4
  have c4 : ∀ i, i < k → v4 i k = z i := fun i hi => by rw [hv4, paste_out (by omega), c3 i hi]
  have d4 : ∀ i, i < A.rows - k → v4 (k + i) k = a (σ (k + i)) k - ∑ p ∈ range k, v (k + i) p * z p := by
    intro i hi
    by_cases hi0 : i = 0
    · subst hi0; rw [hv4, paste_out (by omega), Nat.add_zero, d3]
    · rw [hv4, paste_in (by omega), Nat.sub_self, Nat.add_zero k,
        show k + 1 + (k + i - (k + 1) + 0) = k + i by omega, c3' _ (by omega) (by omega)]
      congr 1
      simp only [View.size, View.sub_rows, View.sub_cols, mul_one]
      refine Finset.sum_congr rfl (fun p hp => ?_)
      have := Finset.mem_range.mp hp
      simp only [Nat.zero_add]
      rw [o3 _ _ (by omega), c3 p this]
  have o4 : ∀ i j, j ≠ k → v4 i j = v i j := fun i j hj => by rw [hv4, paste_out (by omega), o3 i j hj]
  have F4 : Frame A.foot m m4 := F3.trans (f4.mono (sf (by omega) (by omega)))
  clear hv4 h4 f4 H3 c3 c3' o3 d3
  -- pivot
  refine (C08_iamax (X := A.sub k k (A.rows - k) 1) (Or.inr rfl) (by simp [View.size]; omega)
    (H4.part (by omega) (by omega)).toV_col).bind ?_
  rintro _ ⟨i0, rfl, hi0, hmax, -⟩
  simp only [View.size, View.sub_rows, View.sub_cols, mul_one, Nat.add_zero] at hi0 hmax
  obtain ⟨τ, hτ⟩ : ∃ τ : Nat → Nat, τ = fun i => fwdPerm (A.rows - k) (fun _ => (i0 : Int) + 1) 1 i := ⟨_, rfl⟩
  have hτlt : ∀ i, i < A.rows - k → τ i < A.rows - k := fun i hi => by rw [hτ]; exact fwdPerm_lt (by omega) hi
  have hτ0 : τ 0 = i0 := by
    rw [hτ]
    simp only [fwdPerm, pivTau, one_mul]
    rw [if_pos (by omega)]
    simp
  have hPset : ∀ x, P.set k x = ⟨P.n, fun l => if l = k then x else P.ix l⟩ := fun x => by
    rw [Piv.set, if_pos hP]
  rw [hPset]
  have hp1 : ∀ N i, fwdPerm N (Piv.sub ⟨P.n, fun l => if l = k then (i0 : Int) + 1 else P.ix l⟩ k 1).ix
      (Piv.sub ⟨P.n, fun l => if l = k then (i0 : Int) + 1 else P.ix l⟩ k 1).n i =
      fwdPerm N (fun _ => (i0 : Int) + 1) 1 i := by
    intro N i
    rw [show (Piv.sub ⟨P.n, fun l => if l = k then (i0 : Int) + 1 else P.ix l⟩ k 1).n = 1 from rfl,
      fwdPerm_congr (g := fun _ => (i0 : Int) + 1) (fun l hl => by
        have : l = 0 := by omega
        subst this
        simp [Piv.sub])]
  refine (pivotRows_fwd (V := A.sub k k (A.rows - k) 1) (hw.sub (by omega) (by omega))
    (H4.part (by omega) (by omega)) (by simp only [Piv.sub, View.sub_rows]; omega)).bind ?_
  rintro ⟨e5, m5⟩ ⟨-, h5, f5⟩
  dsimp only at h5 f5 ⊢
  simp only [hp1, View.sub_rows] at h5
  have H5 := H4.paste (S := ∅) hw (by omega) (by omega) h5 (by simpa using f5) emp
  obtain ⟨v5, hv5⟩ : ∃ v5, v5 = paste v4 k k (A.rows - k) 1 (fun i j =>
    v4 (k + fwdPerm (A.rows - k) (fun _ => (i0 : Int) + 1) 1 i) (k + j)) := ⟨_, rfl⟩
  rw [← hv5] at H5
  have c5 : ∀ i, i < k → v5 i k = z i := fun i hi => by rw [hv5, paste_out (by omega), c4 i hi]
  have d5 : ∀ i, i < A.rows - k → v5 (k + i) k = v4 (k + τ i) k := by
    intro i hi
    rw [hv5, paste_in (by omega), hτ]
    simp
  have o5 : ∀ i j, j ≠ k → v5 i j = v i j := fun i j hj => by rw [hv5, paste_out (by omega), o4 i j hj]
  have F5 : Frame A.foot m m5 := F4.trans (f5.mono (sf (by omega) (by omega)))
  clear hv5 h5 f5 H4 c4 o4
  have dmax : ∀ i, i < A.rows - k → |v5 (k + i) k| ≤ |v5 k k| := by
    intro i hi
    have e0 := d5 0 (by omega)
    rw [Nat.add_zero, hτ0] at e0
    rw [d5 i hi, e0]
    exact hmax _ (hτlt i hi)
  -- scaling
  rw [rd_ok (H5 k k hkr hkc)]
  simp only [Res.ok_bind]
  refine Runs.bind (P := fun r => r.1 = (if v5 k k = 0 then -1 else 0) ∧ ∃ v6, Holds r.2 A v6 ∧
    (∀ i, i < k → v6 i k = z i) ∧ v6 k k = v5 k k ∧
    (∀ i, 0 < i → i < A.rows - k → v6 (k + i) k * v5 k k = v5 (k + i) k ∧ |v6 (k + i) k| ≤ 1) ∧
    (∀ i j, j ≠ k → v6 i j = v i j) ∧ Frame A.foot m r.2) ?_ ?_
  · split
    · rename_i hx
      refine Runs.pure ⟨rfl, v5, H5, c5, rfl, fun i hi hi' => ?_, o5, F5⟩
      have := dmax i hi'
      rw [hx, abs_zero] at this
      have : v5 (k + i) k = 0 := abs_nonpos_iff.mp this
      rw [this]; simp
    · rename_i hx
      refine (scale_line (1 / v5 k k) (X := A.sub (k + 1) k (A.rows - k - 1) 1) (Or.inr rfl)
        (hw.sub (by omega) (by omega)) (H5.part (by omega) (by omega))).bind ?_
      rintro ⟨e6, m6⟩ ⟨h6, f6⟩
      dsimp only at h6 f6 ⊢
      have H6 := H5.paste (S := ∅) hw (by omega) (by omega) h6 (by simpa using f6) emp
      refine Runs.pure ⟨he4, _, H6, fun i hi => by rw [paste_out (by omega), c5 i hi],
        by rw [paste_out (by omega)], fun i hi hi' => ?_, fun i j hj => by rw [paste_out (by omega), o5 i j hj],
        F5.trans (f6.mono (sf (by omega) (by omega)))⟩
      rw [paste_in (by omega), show k + 1 + (k + i - (k + 1)) = k + i by omega, Nat.sub_self, Nat.add_zero]
      constructor
      · field_simp
      · rw [abs_mul, abs_div, abs_one, one_div, inv_mul_le_iff₀ (abs_pos.mpr hx), mul_one]
        exact dmax i hi'
  rintro ⟨e6, m6⟩ ⟨he6, v6, H6, c6, d6, g6, o6, F6⟩
  dsimp only at he6 H6 F6 ⊢
  -- pivot the factored columns
  refine (pivotRows_fwd (V := A.sub k 0 (A.rows - k) k) (hw.sub (by omega) (by omega))
    (H6.part (by omega) (by omega)) (by simp only [Piv.sub, View.sub_rows]; omega)).bind ?_
  rintro ⟨e7, m7⟩ ⟨-, h7, f7⟩
  dsimp only at h7 f7 ⊢
  simp only [hp1, View.sub_rows] at h7
  have H7 := H6.paste (S := ∅) hw (by omega) (by omega) h7 (by simpa using f7) emp
  obtain ⟨v7, hv7⟩ : ∃ v7, v7 = paste v6 k 0 (A.rows - k) k (fun i j =>
    v6 (k + fwdPerm (A.rows - k) (fun _ => (i0 : Int) + 1) 1 i) (0 + j)) := ⟨_, rfl⟩
  rw [← hv7] at H7
  have o7 : ∀ i j, k ≤ j → v7 i j = v6 i j := fun i j hj => by rw [hv7, paste_out (by omega)]
  have l7 : ∀ i j, i < A.rows → j < k → v7 i j = v (if i < k then i else k + τ (i - k)) j := by
    intro i j hi hj
    by_cases c : i < k
    · rw [hv7, paste_out (by omega), if_pos c, o6 _ _ (by omega)]
    · rw [hv7, paste_in (by omega), if_neg c, Nat.sub_zero, Nat.zero_add, o6 _ _ (by omega), hτ]
  have F7 : Frame A.foot m m7 := F6.trans (f7.mono (sf (by omega) (by omega)))
  refine Runs.pure ⟨⟨v7, H7, ?_, ?_, ?_, ?_, ?_⟩, F7, ?_⟩
  · intro i j hi hj hj'
    rw [o7 i j (by omega), o6 i j (by omega)]
    exact hrest i j hi (by omega) hj'
  · intro i j hi hj
    rw [fwdPerm_shift (N := A.rows) (k := k) (g := fun _ => (i0 : Int) + 1) (n := 1) (by omega) ?_ i]
    · rw [fwdPerm_congr (g := P.ix) (fun l hl => ?_)]
      · have key := lu_step (N := A.rows) (k := k) (nb := 1) (v := v) (v' := v7) (a := a) (σ := σ) (τ := τ) hτlt
          (fun i j hi hj => by rw [hσ]; exact hprod i j hi hj) l7 ?_ ?_ (by omega) i j hi hj
        · rw [key, hσ, hτ]
        · intro i j hi hj
          have : j = 0 := by omega
          subst this
          simp only [Nat.add_zero]
          rw [← hz' i hi]
          refine Finset.sum_congr rfl (fun p hp => ?_)
          rw [o7 _ _ (le_refl _), c6 p (Finset.mem_range.mp hp)]
        · intro i j hi hj
          have : j = 0 := by omega
          subst this
          have e1 : luProd 1 (fun i j => v7 (k + i) (k + j)) i 0 = v5 (k + i) k := by
            unfold luProd
            rw [Finset.sum_range_one, trmU_le (le_refl _)]
            simp only [Nat.add_zero]
            rcases Nat.eq_zero_or_pos i with rfl | hi'
            · rw [trmL_eq, one_mul, o7 _ _ (le_refl _), Nat.add_zero, d6]
            · rw [trmL_lt hi', Nat.add_zero, o7 _ _ (le_refl _), o7 _ _ (le_refl _), d6]
              exact (g6 i hi' hi).1
          rw [e1, d5 i hi, d4 _ (hτlt i hi), Nat.add_zero]
          congr 1
          refine Finset.sum_congr rfl (fun p hp => ?_)
          rw [o7 _ _ (le_refl _), c6 p (Finset.mem_range.mp hp)]
      · rw [Piv.set, if_pos hP]
        simp only
        rw [if_neg (by omega), if_neg (by omega)]
    · intro l hl
      have : l = 0 := by omega
      subst this
      rw [Piv.set, if_pos hP]
      simp only [Nat.add_zero, if_true]
      exact ⟨trivial, by omega, by omega⟩
  · intro l hl
    rw [Piv.set, if_pos hP]
    by_cases c : l = k
    · simp only [c, if_true]; omega
    · simp only [c, if_false]
      exact hpiv l (by omega)
  · rw [he6, Nat.add_sub_cancel, o7 _ _ (le_refl _), d6]
    simp
  · intro i j hi hj hij
    by_cases c : j = k
    · subst c
      rw [o7 _ _ (le_refl _)]
      have := (g6 (i - j) (by omega) (by omega)).2
      rwa [show j + (i - j) = i by omega] at this
    · rw [l7 i j hi (by omega)]
      refine hbnd _ _ ?_ (by omega) ?_
      · split
        · exact hi
        · have := hτlt (i - k) (by omega); omega
      · split <;> omega
  · rw [Piv.set, if_pos hP]

/-- The factorization is complete. -/
structure LuDone (A : View) (a : Nat → Nat → α) (err : Int) (m : Mem α) (P : Piv) (v : Nat → Nat → α) : Prop where
  hold : Holds m A v
  prod : ∀ i j, i < A.rows → j < A.cols →
    luProd (min A.rows A.cols) v i j = a (fwdPerm A.rows P.ix (min A.rows A.cols) i) j
  piv : ∀ l, l < min A.rows A.cols → (l : Int) + 1 ≤ P.ix l ∧ P.ix l ≤ A.rows
  err : err = if 0 < min A.rows A.cols ∧ v (min A.rows A.cols - 1) (min A.rows A.cols - 1) = 0 then -1 else 0
  bnd : ∀ i j, i < A.rows → j < min A.rows A.cols → j < i → |v i j| ≤ 1

theorem luRight_spec (ab : α → α) {env : Env} {c : Cache} (hc : Conf3 env c) {fuel : Nat} {m : Mem α} {A : View}
    {P : Piv} {a v : Nat → Nat → α} {err : Int} (hw : A.WF) (hP : P.n = min A.rows A.cols)
    (hf : 2 * A.rows + A.cols < fuel) (R : c.Ready m) (dA : Disjoint A.foot c.foot)
    (hI : LuInv A a (min A.rows A.cols) err m P v) :
    Runs (luRight ab env fuel m A P (min A.rows A.cols) (some c)) (fun m' => (∃ v', LuDone A a err m' P v') ∧
      Frame (A.foot ∪ c.foot) m m' ∧ c.Ready m') := by
  obtain ⟨h0, hrest, hprod, hpiv, herr, hbnd⟩ := hI
  unfold luRight
  split
  · rename_i hlt
    obtain ⟨r, hr⟩ : ∃ r, r = min A.rows A.cols := ⟨_, rfl⟩
    have hrr : r = A.rows := by omega
    have hrc : r < A.cols := by omega
    rw [← hr] at hP hrest hprod hpiv herr hbnd ⊢
    refine (pivotRows_fwd (V := A.sub 0 r r (A.cols - r)) (P := P) (hw.sub (by omega) (by omega))
      (h0.part (by omega) (by omega)) (by rw [View.sub_rows]; omega)).bind ?_
    rintro ⟨e1, m1⟩ ⟨-, h1, f1⟩
    dsimp only at h1 f1 ⊢
    have H1 := h0.paste (S := ∅) hw (by omega) (by omega) h1 (by simpa using f1) (Set.disjoint_empty _)
    have sf : ∀ {r c nr nc : Nat}, r + nr ≤ A.rows → c + nc ≤ A.cols → (A.sub r c nr nc).foot ⊆ A.foot :=
      fun h1 h2 => View.sub_foot h1 h2
    have d12 : Disjoint (A.sub 0 0 r r).foot (A.sub 0 r r (A.cols - r)).foot :=
      View.sub_disj hw (by omega) (by omega) (by omega) (by omega) (by omega)
    have R1 := R.frame f1 (dA.mono_left (sf (by omega) (by omega))).symm
    refine (C19_solve_trm_partial ab hc.min2 1 (c := c) (m := m1) (B := A.sub 0 r r (A.cols - r))
      (A := A.sub 0 0 r r) (fl := { left := true, unit := true, lower := true })
      ⟨by simp, rfl, rfl, hw.sub (by omega) (by omega), rfl, rfl, R1, hc.rb, h1,
        HoldsOn.of_holds ((h0.part (by omega) (by omega)).frame f1 d12),
        d12.mono_left (View.footOn_sub_foot _ _),
        (dA.mono_left (sf (by omega) (by omega))).mono_left (View.footOn_sub_foot _ _),
        dA.mono_left (sf (by omega) (by omega))⟩ rfl rfl (Or.inl rfl) (Or.inl rfl)
      (by simp only [View.sub_rows, View.sub_cols]; omega)).bind ?_
    rintro ⟨e2, m2⟩ ⟨-, ⟨X, h2, hX⟩, f2, R2⟩
    dsimp only at h2 f2 R2 ⊢
    have H2 := H1.paste hw (by omega) (by omega) h2 f2 dA
    obtain ⟨v2, hv2⟩ : ∃ v2, v2 = paste (paste v 0 r r (A.cols - r) (fun i j =>
      v (0 + fwdPerm (A.sub 0 r r (A.cols - r)).rows P.ix P.n i) (r + j))) 0 r r (A.cols - r) X := ⟨_, rfl⟩
    rw [← hv2] at H2
    have o2 : ∀ i j, j < r → v2 i j = v i j := fun i j hj => by
      rw [hv2, paste_out (by omega), paste_out (by omega)]
    refine Runs.pure ⟨⟨v2, H2, fun i j hi hj => ?_, by rw [← hr]; exact hpiv, ?_, ?_⟩, ?_, R2⟩
    · rw [← hr]
      by_cases cj : j < r
      · rw [← hprod i j hi cj]
        unfold luProd
        refine Finset.sum_congr rfl (fun p hp => ?_)
        have hp' := Finset.mem_range.mp hp
        congr 1
        · exact trmL_congr (fun _ => o2 _ _ hp')
        · unfold trm
          simp only [o2 _ _ cj]
          split
          · rename_i e; subst e; rw [o2 _ _ cj]
          · rfl
      · have e := hX i (j - r) (by rw [View.sub_rows]; omega) (by rw [View.sub_cols]; omega)
        simp only [triProd, Bool.false_eq_true, if_false, View.sub_cols, View.sub_rows, one_mul, Nat.zero_add,
          show r + (j - r) = j by omega] at e
        rw [hP, hrest _ _ (by rw [hrr]; exact fwdPerm_lt (le_refl _) hi) (by omega) hj] at e
        rw [hrr] at e ⊢
        rw [← e]
        unfold luProd
        refine Finset.sum_congr rfl (fun p hp => ?_)
        have hp' := Finset.mem_range.mp hp
        rw [trmU_le (by omega), hv2, paste_in (by omega), Nat.sub_zero, ← hrr]
        congr 1
        refine trmL_congr (fun _ => ?_)
        rw [paste_out (by omega), paste_out (by omega)]
    · rw [← hr, herr]
      by_cases h0 : 0 < r
      · rw [o2 _ _ (by omega)]
      · simp only [h0, false_and]
    · intro i j hi hj hij
      rw [← hr] at hj
      rw [o2 i j hj]; exact hbnd i j hi hj hij
    · exact (f1.mono ((sf (by omega) (by omega)).trans Set.subset_union_left)).trans
        (f2.mono (Set.union_subset_union_left _ (sf (by omega) (by omega))))
  · rename_i hlt
    refine Runs.pure ⟨⟨v, h0, fun i j hi hj => hprod i j hi (by omega), hpiv, herr, hbnd⟩, Frame.refl _ _, R⟩

theorem unblkLu_spec (ab : α → α) {env : Env} {c : Cache} (hc : Conf3 env c) {fuel : Nat} {m : Mem α} {A : View}
    {P : Piv} {a : Nat → Nat → α} (hw : A.WF) (hP : P.n = min A.rows A.cols)
    (hf : 2 * A.rows + A.cols + 1 < fuel) (R : c.Ready m) (dA : Disjoint A.foot c.foot) (h : Holds m A a) :
    Runs (unblkLu ab env fuel m A P (some c)) (fun r => (∃ v, LuDone A a r.1 r.2.1 r.2.2 v) ∧
      Frame (A.foot ∪ c.foot) m r.2.1 ∧ c.Ready r.2.1 ∧ r.2.2.n = P.n) := by
  have hmin : env.blas2min ≠ 1 ∨ env.naive = true := by
    rcases hc.min2 with h | h
    · left; omega
    · right; exact h.1
  unfold unblkLu
  refine Runs.bind (P := fun r : Nat × Int × Mem α × Piv => (∃ v, LuInv A a (min A.rows A.cols) r.2.1 r.2.2.1 r.2.2.2 v) ∧
    Frame A.foot m r.2.2.1 ∧ r.2.2.2.n = P.n) ?_ ?_
  · refine Runs.forUp1 (fun k st => (∃ v, LuInv A a k st.1 st.2.1 st.2.2 v) ∧ Frame A.foot m st.2.1 ∧ st.2.2.n = P.n)
      (Nat.zero_le _) ⟨⟨a, h, fun _ _ _ _ _ => rfl, by intros; omega, by intros; omega, by simp, by intros; omega⟩,
        Frame.refl _ _, rfl⟩ ?_ (fun st h => h)
    rintro k ⟨err, m1, P1⟩ _ hk ⟨⟨v, hv⟩, hfr, hn⟩
    dsimp only at hv hfr hn
    refine (unblkLuStep_spec ab hmin hw (by omega) (by omega) (by omega) (by omega) hv).mono ?_
    rintro st ⟨h1, h2, h3⟩
    exact ⟨h1, hfr.trans h2, h3.trans hn⟩
  rintro ⟨i, err, m1, P1⟩ ⟨⟨v, hv⟩, hfr, hn⟩
  dsimp only at hv hfr hn ⊢
  refine (luRight_spec ab hc hw (hn.trans hP) (by omega) (R.frame hfr dA.symm) dA hv).bind ?_
  rintro m2 ⟨h1, h2, h3⟩
  exact Runs.pure ⟨h1, (hfr.mono Set.subset_union_left).trans h2, h3, hn⟩

theorem blkLuStep_spec (ab : α → α) {env : Env} {c : Cache} (hc : Conf3 env c) {fuel : Nat}
    {m : Mem α} {A : View} {P : Piv} {a : Nat → Nat → α} {k lb : Nat} {err : Int} (hw : A.WF) (hkr : k < A.rows)
    (hkc : k < A.cols) (hlb : 0 < lb) (hP : P.n = min A.rows A.cols) (hf : 2 * A.rows + A.cols + 1 < fuel)
    (R : c.Ready m) (dA : Disjoint A.foot c.foot) {v : Nat → Nat → α} (hI : LuInv A a k err m P v) :
    Runs (blkLuStep ab env fuel A lb (some c) k (err, m, P)) (fun st =>
      (∃ v', LuInv A a (min (k + lb) (min A.rows A.cols)) st.1 st.2.1 st.2.2 v') ∧
      Frame (A.foot ∪ c.foot) m st.2.1 ∧ c.Ready st.2.1 ∧ st.2.2.n = P.n) := by
  obtain ⟨h0, hrest, hprod, hpiv, -, hbnd⟩ := hI
  unfold blkLuStep
  dsimp only
  obtain ⟨nb, hnb⟩ : ∃ nb, nb = min lb (min (A.rows - k) (A.cols - k)) := ⟨_, rfl⟩
  rw [← hnb, show min k P.n = k by omega, show min nb (P.n - k) = nb by omega,
    show min (k + lb) (min A.rows A.cols) = k + nb by omega]
  have hnr : k + nb ≤ A.rows := by omega
  have hnc : k + nb ≤ A.cols := by omega
  have hn1 : 0 < nb := by omega
  have sf : ∀ {r c nr nc : Nat}, r + nr ≤ A.rows → c + nc ≤ A.cols → (A.sub r c nr nc).foot ⊆ A.foot :=
    fun h1 h2 => View.sub_foot h1 h2
  have dsub : ∀ {r cc nr nc : Nat}, r + nr ≤ A.rows → cc + nc ≤ A.cols → Disjoint (A.sub r cc nr nc).foot c.foot :=
    fun h1 h2 => dA.mono_left (View.sub_foot h1 h2)
  have fr : ∀ {m m' : Mem α} {r cc nr nc : Nat}, r + nr ≤ A.rows → cc + nc ≤ A.cols →
      Frame ((A.sub r cc nr nc).foot ∪ c.foot) m m' → Frame (A.foot ∪ c.foot) m m' :=
    fun h1 h2 h => h.mono (Set.union_subset_union_left _ (View.sub_foot h1 h2))
  obtain ⟨σ, hσ⟩ : ∃ σ : Nat → Nat, σ = fun i => fwdPerm A.rows P.ix k i := ⟨_, rfl⟩
  have emp : Disjoint A.foot (∅ : Set Nat) := Set.disjoint_empty _
  -- earlier pivots
  refine (pivotRows_fwd (V := A.sub 0 k A.rows nb) (P := P.sub 0 k) (hw.sub (by omega) (by omega))
    (h0.part (by omega) (by omega)) (by simp only [Piv.sub, View.sub_rows]; omega)).bind ?_
  rintro ⟨e1, m1⟩ ⟨-, h1, f1⟩
  dsimp only at h1 f1 ⊢
  have H1 := h0.paste (S := ∅) hw (by omega) (by omega) h1 (by simpa using f1) emp
  obtain ⟨v1, hv1⟩ : ∃ v1, v1 = paste v 0 k A.rows nb (fun i j =>
    v (0 + fwdPerm (A.sub 0 k A.rows nb).rows (P.sub 0 k).ix (P.sub 0 k).n i) (k + j)) := ⟨_, rfl⟩
  rw [← hv1] at H1
  have c1 : ∀ i j, i < A.rows → j < nb → v1 i (k + j) = a (σ i) (k + j) := by
    intro i j hi hj
    rw [hv1, paste_in (by omega), hσ]
    simp only [Nat.sub_zero, Nat.zero_add, View.sub_rows, Piv.sub, show k + j - k = j by omega]
    exact hrest _ _ (fwdPerm_lt (by omega) hi) (by omega) (by omega)
  have o1 : ∀ i j, j < k ∨ k + nb ≤ j → v1 i j = v i j := fun i j hj => by rw [hv1, paste_out (by omega)]
  have F1 : Frame (A.foot ∪ c.foot) m m1 := f1.mono ((sf (by omega) (by omega)).trans Set.subset_union_left)
  have R1 : c.Ready m1 := R.frame f1 (dsub (by omega) (by omega)).symm
  clear hv1 h1 f1
  -- triangular solve
  have d12 : Disjoint (A.sub 0 0 k k).foot (A.sub 0 k k nb).foot :=
    View.sub_disj hw (by omega) (by omega) (by omega) (by omega) (by omega)
  refine (C19_solve_trm_partial ab hc.min2 1 (c := c) (m := m1) (B := A.sub 0 k k nb)
    (A := A.sub 0 0 k k) (fl := { left := true, lower := true, unit := true })
    ⟨by simp, rfl, rfl, hw.sub (by omega) (by omega), rfl, rfl, R1, hc.rb, H1.part (by omega) (by omega),
      HoldsOn.of_holds (H1.part (by omega) (by omega)),
      d12.mono_left (View.footOn_sub_foot _ _),
      (dsub (by omega) (by omega)).mono_left (View.footOn_sub_foot _ _),
      dsub (by omega) (by omega)⟩ rfl rfl (Or.inl rfl) (Or.inl rfl)
    (by simp only [View.sub_rows, View.sub_cols]; omega)).bind ?_
  rintro ⟨e2, m2⟩ ⟨-, ⟨z, h2, hz⟩, f2, R2⟩
  dsimp only at h2 f2 R2 ⊢
  have H2 := H1.paste hw (by omega) (by omega) h2 f2 dA
  obtain ⟨v2, hv2⟩ : ∃ v2, v2 = paste v1 0 k k nb z := ⟨_, rfl⟩
  rw [← hv2] at H2
  have c2 : ∀ i j, i < k → j < nb → v2 i (k + j) = z i j := by
    intro i j hi hj
    rw [hv2, paste_in (by omega), Nat.sub_zero, show k + j - k = j by omega]
  have c2' : ∀ i j, k ≤ i → i < A.rows → j < nb → v2 i (k + j) = a (σ i) (k + j) := by
    intro i j hi hi' hj
    rw [hv2, paste_out (by omega), c1 i j hi' hj]
  have o2 : ∀ i j, j < k ∨ k + nb ≤ j → v2 i j = v i j := fun i j hj => by rw [hv2, paste_out (by omega), o1 i j hj]
  have F2 := F1.trans (fr (by omega) (by omega) f2)
  have hz' : ∀ i j, i < k → j < nb → ∑ p ∈ range k, trm false true v i p * z p j = a (σ i) (k + j) := by
    intro i j hi hj
    have := hz i j (by simpa using hi) (by simpa using hj)
    simp only [triProd, View.sub_cols, Bool.false_eq_true, if_false, one_mul, Nat.zero_add] at this
    rw [← c1 i j (by omega) hj, ← this]
    refine Finset.sum_congr rfl (fun p hp => ?_)
    have := Finset.mem_range.mp hp
    congr 1
    exact trmL_congr (fun _ => (o1 i p (by omega)).symm)
  clear hv2 h2 f2 hz c1 o1 H1
  -- diagonal block
  refine (mult_sub ab (C := A.sub k k nb nb) (A := A.sub k 0 nb k) (B := A.sub 0 k k nb) (hw.sub (by omega) (by omega))
    R2 (H2.part (by omega) (by omega)) (H2.part (by omega) (by omega)) (H2.part (by omega) (by omega))
    (dsub (by omega) (by omega)) (dsub (by omega) (by omega)) (dsub (by omega) (by omega))
    (View.sub_disj hw (by omega) (by omega) (by omega) (by omega) (by omega))
    (View.sub_disj hw (by omega) (by omega) (by omega) (by omega) (by omega)) rfl rfl rfl).bind ?_
  rintro ⟨e3, m3⟩ ⟨-, h3, f3, R3⟩
  dsimp only at h3 f3 R3 ⊢
  have H3 := H2.paste hw (by omega) (by omega) h3 f3 dA
  obtain ⟨v3, hv3⟩ : ∃ v3, v3 = paste v2 k k nb nb (fun i j => v2 (k + i) (k + j) -
    ∑ x ∈ range (A.sub k 0 nb k).cols, v2 (k + i) (0 + x) * v2 (0 + x) (k + j)) := ⟨_, rfl⟩
  rw [← hv3] at H3
  have c3 : ∀ i j, i < k → j < nb → v3 i (k + j) = z i j :=
    fun i j hi hj => by rw [hv3, paste_out (by omega), c2 i j hi hj]
  have d3 : ∀ i j, i < nb → j < nb → v3 (k + i) (k + j) = a (σ (k + i)) (k + j) - ∑ p ∈ range k, v (k + i) p * z p j := by
    intro i j hi hj
    rw [hv3, paste_in (by omega), show k + i - k = i by omega, show k + j - k = j by omega,
      c2' (k + i) j (by omega) (by omega) hj]
    congr 1
    refine Finset.sum_congr rfl (fun p hp => ?_)
    have := Finset.mem_range.mp hp
    simp only [Nat.zero_add]
    rw [o2 _ _ (by omega), c2 p j this hj]
  have c3' : ∀ i j, k + nb ≤ i → i < A.rows → j < nb → v3 i (k + j) = a (σ i) (k + j) :=
    fun i j hi hi' hj => by rw [hv3, paste_out (by omega), c2' i j (by omega) hi' hj]
  have o3 : ∀ i j, j < k ∨ k + nb ≤ j → v3 i j = v i j := fun i j hj => by rw [hv3, paste_out (by omega), o2 i j hj]
  have F3 := F2.trans (fr (by omega) (by omega) f3)
  clear hv3 h3 f3 H2 c2 c2' o2
  -- block below
  refine (mult_sub ab (C := A.sub (k + nb) k (A.rows - k - nb) nb) (A := A.sub (k + nb) 0 (A.rows - k - nb) k)
    (B := A.sub 0 k k nb) (hw.sub (by omega) (by omega))
    R3 (H3.part (by omega) (by omega)) (H3.part (by omega) (by omega)) (H3.part (by omega) (by omega))
    (dsub (by omega) (by omega)) (dsub (by omega) (by omega)) (dsub (by omega) (by omega))
    (View.sub_disj hw (by omega) (by omega) (by omega) (by omega) (by omega))
    (View.sub_disj hw (by omega) (by omega) (by omega) (by omega) (by omega)) rfl rfl rfl).bind ?_
  rintro ⟨e4, m4⟩ ⟨-, h4, f4, R4⟩
  dsimp only at h4 f4 R4 ⊢
  have H4 := H3.paste hw (by omega) (by omega) h4 f4 dA
  obtain ⟨v4, hv4⟩ : ∃ v4, v4 = paste v3 (k + nb) k (A.rows - k - nb) nb (fun i j => v3 (k + nb + i) (k + j) -
    ∑ x ∈ range (A.sub (k + nb) 0 (A.rows - k - nb) k).cols, v3 (k + nb + i) (0 + x) * v3 (0 + x) (k + j)) := ⟨_, rfl⟩
  rw [← hv4] at H4
  have c4 : ∀ i j, i < k → j < nb → v4 i (k + j) = z i j :=
    fun i j hi hj => by rw [hv4, paste_out (by omega), c3 i j hi hj]
  have d4 : ∀ i j, i < A.rows - k → j < nb →
      v4 (k + i) (k + j) = a (σ (k + i)) (k + j) - ∑ p ∈ range k, v (k + i) p * z p j := by
    intro i j hi hj
    by_cases hi0 : i < nb
    · rw [hv4, paste_out (by omega), d3 i j hi0 hj]
    · rw [hv4, paste_in (by omega), show k + nb + (k + i - (k + nb)) = k + i by omega,
        show k + j - k = j by omega, c3' _ j (by omega) (by omega) hj]
      congr 1
      refine Finset.sum_congr rfl (fun p hp => ?_)
      have := Finset.mem_range.mp hp
      simp only [Nat.zero_add]
      rw [o3 _ _ (by omega), c3 p j this hj]
  have o4 : ∀ i j, j < k ∨ k + nb ≤ j → v4 i j = v i j := fun i j hj => by rw [hv4, paste_out (by omega), o3 i j hj]
  have F4 := F3.trans (fr (by omega) (by omega) f4)
  clear hv4 h4 f4 H3 c3 c3' o3 d3
  -- factor the block
  refine (unblkLu_spec ab hc (A := A.sub k k (A.rows - k) nb) (P := P.sub k nb) (hw.sub (by omega) (by omega))
    (by simp only [Piv.sub, View.sub_rows, View.sub_cols]; omega)
    (by simp only [View.sub_rows, View.sub_cols]; omega) R4 (dsub (by omega) (by omega))
    (H4.part (by omega) (by omega))).bind ?_
  rintro ⟨err', m5, p1⟩ ⟨⟨w, hw5⟩, f5, R5, hn⟩
  dsimp only at hw5 f5 R5 hn ⊢
  obtain ⟨h5, hpr, hpv, her, hbd⟩ := hw5
  simp only [View.sub_rows, View.sub_cols, show min (A.rows - k) nb = nb by omega] at hpr hpv her hbd
  have H5 := H4.paste hw (by omega) (by omega) h5 f5 dA
  obtain ⟨v5, hv5⟩ : ∃ v5, v5 = paste v4 k k (A.rows - k) nb w := ⟨_, rfl⟩
  rw [← hv5] at H5
  obtain ⟨τ, hτ⟩ : ∃ τ : Nat → Nat, τ = fun i => fwdPerm (A.rows - k) p1.ix nb i := ⟨_, rfl⟩
  have hτlt : ∀ i, i < A.rows - k → τ i < A.rows - k := fun i hi => by rw [hτ]; exact fwdPerm_lt (by omega) hi
  have c5 : ∀ i j, i < k → j < nb → v5 i (k + j) = z i j :=
    fun i j hi hj => by rw [hv5, paste_out (by omega), c4 i j hi hj]
  have d5 : ∀ i j, i < A.rows - k → j < nb → v5 (k + i) (k + j) = w i j := by
    intro i j hi hj
    rw [hv5, paste_in (by omega), show k + i - k = i by omega, show k + j - k = j by omega]
  have o5 : ∀ i j, j < k ∨ k + nb ≤ j → v5 i j = v i j := fun i j hj => by rw [hv5, paste_out (by omega), o4 i j hj]
  have F5 := F4.trans (fr (by omega) (by omega) f5)
  clear hv5 h5 f5 H4 c4 o4
  -- pivot the factored columns
  have hn' : p1.n = nb := hn
  refine (pivotRows_fwd (V := A.sub k 0 (A.rows - k) k) (hw.sub (by omega) (by omega))
    (H5.part (by omega) (by omega)) (by rw [View.sub_rows]; omega)).bind ?_
  rintro ⟨e7, m7⟩ ⟨-, h7, f7⟩
  dsimp only at h7 f7 ⊢
  simp only [hn', View.sub_rows] at h7
  have H7 := H5.paste (S := ∅) hw (by omega) (by omega) h7 (by simpa using f7) emp
  obtain ⟨v7, hv7⟩ : ∃ v7, v7 = paste v5 k 0 (A.rows - k) k (fun i j =>
    v5 (k + fwdPerm (A.rows - k) p1.ix nb i) (0 + j)) := ⟨_, rfl⟩
  rw [← hv7] at H7
  have o7 : ∀ i j, k ≤ j → v7 i j = v5 i j := fun i j hj => by rw [hv7, paste_out (by omega)]
  have l7 : ∀ i j, i < A.rows → j < k → v7 i j = v (if i < k then i else k + τ (i - k)) j := by
    intro i j hi hj
    by_cases c : i < k
    · rw [hv7, paste_out (by omega), if_pos c, o5 _ _ (by omega)]
    · rw [hv7, paste_in (by omega), if_neg c, Nat.sub_zero, Nat.zero_add, o5 _ _ (by omega), hτ]
  have F7 := F5.trans (f7.mono ((sf (by omega) (by omega)).trans Set.subset_union_left))
  have R7 : c.Ready m7 := R5.frame f7 (dsub (by omega) (by omega)).symm
  refine Runs.pure ⟨⟨v7, H7, ?_, ?_, ?_, ?_, ?_⟩, F7, R7, rfl⟩
  · intro i j hi hj hj'
    rw [o7 i j (by omega), o5 i j (by omega)]
    exact hrest i j hi (by omega) hj'
  · intro i j hi hj
    rw [fwdPerm_shift (N := A.rows) (k := k) (g := p1.ix) (n := nb) (by omega) ?_ i]
    · rw [fwdPerm_congr (g := P.ix) (fun l hl => ?_)]
      · have key := lu_step (N := A.rows) (k := k) (nb := nb) (v := v) (v' := v7) (a := a) (σ := σ) (τ := τ) hτlt
          (fun i j hi hj => by rw [hσ]; exact hprod i j hi hj) l7 ?_ ?_ (by omega) i j hi hj
        · rw [key, hσ, hτ]
        · intro i j hi hj
          rw [← hz' i j hi hj]
          refine Finset.sum_congr rfl (fun p hp => ?_)
          rw [o7 _ _ (by omega), c5 p j (Finset.mem_range.mp hp) hj]
        · intro i j hi hj
          have e1 : luProd nb (fun i j => v7 (k + i) (k + j)) i j = luProd nb w i j := by
            unfold luProd
            refine Finset.sum_congr rfl (fun p hp => ?_)
            have hp' := Finset.mem_range.mp hp
            congr 1
            · exact trmL_congr (fun _ => by rw [o7 _ _ (by omega), d5 i p hi hp'])
            · rcases Nat.lt_or_ge j p with h | h
              · rw [trmU_gt h, trmU_gt h]
              · rw [trmU_le h, trmU_le h, o7 _ _ (by omega), d5 p j (by omega) hj]
          have e2 := d4 (τ i) j (hτlt i hi) hj
          rw [hτ] at e2 ⊢
          beta_reduce at e2 ⊢
          rw [e1, hpr i j hi hj, e2]
          congr 1
          refine Finset.sum_congr rfl (fun p hp => ?_)
          rw [o7 _ _ (by omega), c5 p j (Finset.mem_range.mp hp) hj]
      · simp only [Piv.put]
        rw [if_neg (by omega)]
    · intro l hl
      simp only [Piv.put]
      rw [if_pos (by omega), show k + l - k = l by omega]
      have := hpv l hl
      exact ⟨rfl, by omega, this.2⟩
  · intro l hl
    simp only [Piv.put]
    by_cases c : l < k
    · rw [if_neg (by omega)]; exact hpiv l c
    · rw [if_pos (by omega)]
      have := hpv (l - k) (by omega)
      omega
  · have e := d5 (nb - 1) (nb - 1) (by omega) (by omega)
    rw [show k + (nb - 1) = k + nb - 1 by omega] at e
    rw [her, o7 _ _ (by omega), e]
    simp only [hn1, show 0 < k + nb by omega]
  · intro i j hi hj hij
    by_cases c : j < k
    · rw [l7 i j hi c]
      refine hbnd _ _ ?_ (by omega) ?_
      · split
        · exact hi
        · have := hτlt (i - k) (by omega); omega
      · split <;> omega
    · rw [o7 _ _ (by omega)]
      have e := d5 (i - k) (j - k) (by omega) (by omega)
      rw [show k + (i - k) = i by omega, show k + (j - k) = j by omega] at e
      rw [e]
      exact hbd _ _ (by omega) (by omega) (by omega)

theorem blkLu_spec (ab : α → α) {env : Env} {c : Cache} (hc : Conf3 env c) {fuel : Nat} {m : Mem α} {A : View}
    {P : Piv} {a : Nat → Nat → α} {lb : Nat} (hw : A.WF) (hlb : 0 < lb) (hP : P.n = min A.rows A.cols)
    (hf : 2 * A.rows + A.cols + 1 < fuel) (R : c.Ready m) (dA : Disjoint A.foot c.foot) (h : Holds m A a) :
    Runs (blkLu ab env fuel m A P lb (some c)) (fun r => (∃ v, LuDone A a r.1 r.2.1 r.2.2 v) ∧
      Frame (A.foot ∪ c.foot) m r.2.1 ∧ c.Ready r.2.1 ∧ r.2.2.n = P.n) := by
  unfold blkLu
  refine Runs.bind (P := fun r : Nat × Int × Mem α × Piv => (∃ v, LuInv A a (min A.rows A.cols) r.2.1 r.2.2.1 r.2.2.2 v) ∧
    Frame (A.foot ∪ c.foot) m r.2.2.1 ∧ c.Ready r.2.2.1 ∧ r.2.2.2.n = P.n) ?_ ?_
  · refine Runs.forUp (fun k st => (∃ v, LuInv A a (min k (min A.rows A.cols)) st.1 st.2.1 st.2.2 v) ∧
      Frame (A.foot ∪ c.foot) m st.2.1 ∧ c.Ready st.2.1 ∧ st.2.2.n = P.n)
      hlb ⟨⟨a, h, fun _ _ _ _ _ => rfl, by intros; omega, by intros; omega, by simp, by intros; omega⟩,
        Frame.refl _ _, R, rfl⟩ ?_ ?_
    · rintro k ⟨err, m1, P1⟩ _ hk ⟨⟨v, hv⟩, hfr, R1, hn⟩
      dsimp only at hv hfr hn R1
      rw [show min k (min A.rows A.cols) = k by omega] at hv
      refine (blkLuStep_spec ab hc hw (by omega) (by omega) hlb (hn.trans hP) hf R1 dA hv).mono ?_
      rintro st ⟨h1, h2, h3, h4⟩
      exact ⟨h1, hfr.trans h2, h3, h4.trans hn⟩
    · rintro k st hk _ ⟨h1, h2⟩
      rw [show min k (min A.rows A.cols) = min A.rows A.cols by omega] at h1
      exact ⟨h1, h2⟩
  rintro ⟨i, err, m1, P1⟩ ⟨⟨v, hv⟩, hfr, R1, hn⟩
  dsimp only at hv hfr hn R1 ⊢
  refine (luRight_spec ab hc hw (hn.trans hP) (by omega) R1 dA hv).bind ?_
  rintro m2 ⟨h1, h2, h3⟩
  exact Runs.pure ⟨h1, hfr.trans h2, h3, hn⟩

end piv

end Armas
