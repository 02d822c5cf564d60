import Verif.CholPvBlk
import Verif.CholPvLemmas
import Verif.Props.Blas1
import Verif.Props.Blas2
import Verif.Props.Updtrm

/-!
# Specifications of the blocked pivoted Cholesky factorization
-/

namespace Armas

open Classical Finset Props

/-! ## A block inside of the matrix -/

section pure
variable {f : Nat → Nat → ℝ}

theorem schur_map {s : Nat → Nat} {k : Nat} (h : ∀ p, p < k → s p = p) (i j : Nat) :
    schur (fun i j => f (s i) (s j)) k i j = schur f k (s i) (s j) := by
  induction k generalizing i j with
  | zero => rfl
  | succ k ih =>
    have ih' := ih (fun p hp => h p (by omega))
    rw [schur_succ, schur_succ, ih', ih', ih', ih', h k (by omega)]

/-- A permutation of the indices from `k` on. -/
def shf (k : Nat) (τ : Nat → Nat) (i : Nat) : Nat := if i < k then i else k + τ (i - k)

theorem shf_lt {k : Nat} {τ : Nat → Nat} {i : Nat} (h : i < k) : shf k τ i = i := if_pos h

theorem shf_ge {k : Nat} {τ : Nat → Nat} {i : Nat} : shf k τ (k + i) = k + τ i := by
  unfold shf; rw [if_neg (by omega), Nat.add_sub_cancel_left]

/-- The pivots `P'` are the first `k` of `P` followed by `e` pivots `Q` of the rest. -/
structure Glue (n k e : Nat) (P Q P' : Piv) : Prop where
  le : k + e ≤ n
  fst : ∀ p, p < k → P'.ix p = P.ix p
  snd : ∀ p, p < e → P'.ix (k + p) = Q.ix p + k

variable {n k e : Nat} {P Q P' : Piv} {xs : ℝ}

theorem Glue.pivM (H : Glue n k e P Q P') (hr : ∀ p, p < e → 1 ≤ Q.ix p ∧ Q.ix p ≤ (n - k : Nat)) :
    pivM n P' (k + e) f = fun i j => pivM n P k f (shf k (fwdPerm (n - k) Q.ix e) i)
      (shf k (fwdPerm (n - k) Q.ix e) j) := by
  have key : ∀ i, fwdPerm n P'.ix (k + e) i = fwdPerm n P.ix k (shf k (fwdPerm (n - k) Q.ix e) i) := by
    intro i
    rw [fwdPerm_shift H.le (fun l hl => ⟨H.snd l hl, hr l hl⟩), fwdPerm_congr (g := P.ix) (fun l hl => H.fst l hl)]
    rfl
  funext i j
  unfold Armas.pivM permM
  rw [key, key]

/-- The part from `k` on. -/
noncomputable def rest (F : Nat → Nat → ℝ) (k i j : Nat) : ℝ := schur F k (k + i) (k + j)

theorem Glue.schur_lo (H : Glue n k e P Q P') (hr : ∀ p, p < e → 1 ≤ Q.ix p ∧ Q.ix p ≤ (n - k : Nat)) {p : Nat}
    (hp : p ≤ k) (i j : Nat) : schur (Armas.pivM n P' (k + e) f) p i j =
      schur (Armas.pivM n P k f) p (shf k (fwdPerm (n - k) Q.ix e) i) (shf k (fwdPerm (n - k) Q.ix e) j) := by
  rw [H.pivM hr, schur_map (f := Armas.pivM n P k f) (fun q hq => shf_lt (by omega))]

theorem Glue.schur_hi (H : Glue n k e P Q P') (hr : ∀ p, p < e → 1 ≤ Q.ix p ∧ Q.ix p ≤ (n - k : Nat)) (p i j : Nat) :
    schur (Armas.pivM n P' (k + e) f) (k + p) (k + i) (k + j) =
      schur (Armas.pivM (n - k) Q e (rest (Armas.pivM n P k f) k)) p i j := by
  rw [← schur_shift]
  congr 1
  funext i j
  rw [H.schur_lo hr (le_refl _), shf_ge, shf_ge]
  rfl

theorem Glue.cholF_lo (H : Glue n k e P Q P') (hr : ∀ p, p < e → 1 ≤ Q.ix p ∧ Q.ix p ≤ (n - k : Nat)) {j : Nat}
    (hj : j < k) (i : Nat) : cholF (Armas.pivM n P' (k + e) f) i j =
      cholF (Armas.pivM n P k f) (shf k (fwdPerm (n - k) Q.ix e) i) j := by
  unfold cholF
  rw [H.schur_lo hr hj.le, H.schur_lo hr hj.le, shf_lt hj]

theorem Glue.cholF_hi (H : Glue n k e P Q P') (hr : ∀ p, p < e → 1 ≤ Q.ix p ∧ Q.ix p ≤ (n - k : Nat)) (i j : Nat) :
    cholF (Armas.pivM n P' (k + e) f) (k + i) (k + j) =
      cholF (Armas.pivM (n - k) Q e (rest (Armas.pivM n P k f) k)) i j := by
  unfold cholF
  rw [H.schur_hi hr, H.schur_hi hr]

theorem PivInv.rel {r : Nat} (h : PivInv n f xs Q r) : ∀ p, p < r → 1 ≤ Q.ix p ∧ Q.ix p ≤ n := by
  intro p hp
  have := h.range p hp
  omega

theorem Glue.inv (H : Glue n k e P Q P') (hP : PivInv n f xs P k)
    (hQ : PivInv (n - k) (rest (Armas.pivM n P k f) k) xs Q e) (hn : P'.n = n) : PivInv n f xs P' (k + e) := by
  have hr := hQ.rel
  have hle := H.le
  refine ⟨hn, fun p hp => ?_, fun p hp => ?_, fun p i hp hpi hi => ?_⟩
  · by_cases h : p < k
    · rw [H.fst p h]; exact hP.range p h
    · have h1 := hQ.range (p - k) (by omega)
      have h2 := H.snd (p - k) (by omega)
      rw [show k + (p - k) = p by omega] at h2
      rw [h2]; omega
  · by_cases h : p < k
    · rw [H.schur_lo hr h.le, shf_lt h]; exact hP.above p h
    · have h1 := hQ.above (p - k) (by omega)
      rwa [← H.schur_hi hr, show k + (p - k) = p by omega] at h1
  · by_cases h : p < k
    · rw [H.schur_lo hr h.le, H.schur_lo hr h.le, shf_lt h]
      by_cases h' : i < k
      · rw [shf_lt h']; exact hP.dom p i h hpi hi
      · have : fwdPerm (n - k) Q.ix e (i - k) < n - k := fwdPerm_lt (by omega) (by omega)
        refine hP.dom p _ h ?_ ?_
        · unfold shf; rw [if_neg h']; omega
        · unfold shf; rw [if_neg h']; omega
    · have h1 := hQ.dom (p - k) (i - k) (by omega) (by omega) (by omega)
      rwa [← H.schur_hi hr, ← H.schur_hi hr, show k + (p - k) = p by omega, show k + (i - k) = i by omega] at h1

theorem Glue.fin (H : Glue n k e P Q P') (hP : PivInv n f xs P k)
    (hQ : PivEnd (n - k) (rest (Armas.pivM n P k f) k) xs Q e) (hn : P'.n = n) : PivEnd n f xs P' (k + e) := by
  have hr := hQ.inv.rel
  refine ⟨H.le, H.inv hP hQ.inv hn, fun hlt => ?_⟩
  obtain ⟨i, h1, h2, h3, h4⟩ := hQ.stop (by omega)
  refine ⟨k + i, by omega, by omega, by rw [H.schur_hi hr]; exact h3, fun j hj1 hj2 => ?_⟩
  have := h4 (j - k) (by omega) (by omega)
  rwa [← H.schur_hi hr, ← H.schur_hi hr, show k + (j - k) = j by omega] at this

theorem Glue.cholV (H : Glue n k e P Q P') (hr : ∀ p, p < e → 1 ≤ Q.ix p ∧ Q.ix p ≤ (n - k : Nat)) {i j : Nat}
    (hij : j ≤ i) : cholV (Armas.pivM n P' (k + e) f) (k + e) i j = if j < k then
      cholF (Armas.pivM n P k f) (shf k (fwdPerm (n - k) Q.ix e) i) j else
      Armas.cholV (Armas.pivM (n - k) Q e (rest (Armas.pivM n P k f) k)) e (i - k) (j - k) := by
  split
  · rename_i h
    rw [Armas.cholV, if_pos (by omega), H.cholF_lo hr h]
  · rename_i h
    have h1 := H.cholF_hi (f := f) hr (i - k) (j - k)
    have h2 := H.schur_hi (f := f) hr e (i - k) (j - k)
    rw [show k + (i - k) = i by omega, show k + (j - k) = j by omega] at h1 h2
    unfold Armas.cholV
    rw [h1, h2]
    by_cases h3 : j < k + e
    · rw [if_pos h3, if_pos (by omega)]
    · rw [if_neg h3, if_neg (by omega)]

theorem Glue.cholR (H : Glue n k e P Q P') (hr : ∀ p, p < e → 1 ≤ Q.ix p ∧ Q.ix p ≤ (n - k : Nat)) {i j : Nat}
    (hij : j ≤ i) : cholR (Armas.pivM n P' (k + e) f) (k + e) i j = if j < k then
      cholF (Armas.pivM n P k f) (shf k (fwdPerm (n - k) Q.ix e) i) j else
      Armas.cholR (Armas.pivM (n - k) Q e (rest (Armas.pivM n P k f) k)) e (i - k) (j - k) := by
  split
  · rename_i h
    rw [Armas.cholR, if_pos (by omega), H.cholF_lo hr h]
  · rename_i h
    have h1 := H.cholF_hi (f := f) hr (i - k) (j - k)
    rw [show k + (i - k) = i by omega, show k + (j - k) = j by omega] at h1
    unfold Armas.cholR
    rw [h1]
    by_cases h3 : j < k + e
    · rw [if_pos h3, if_pos (by omega)]
    · rw [if_neg h3, if_neg (by omega)]

end pure

/-! ## Exchange of rows and columns -/

theorem cholpvSwap_gen {upper : Bool} {m : Mem ℝ} {A : View} {v : Nat → Nat → ℝ} {k q : Nat}
    (hs : ∀ i j, k ≤ i → k ≤ j → v i j = v j i) (hw : A.WF) (hsq : A.cols = A.rows) (hq : k + q < A.rows)
    (h : HoldsOn m A (InTri upper false) (tv upper v)) :
    Runs (cholpvSwap upper m A k q) (fun m' =>
      HoldsOn m' A (InTri upper false) (tv upper (permM (Equiv.swap k (k + q)) v)) ∧
      Frame (A.footOn (InTri upper false)) m m') := by
  unfold cholpvSwap
  by_cases h0 : q = 0
  · subst h0
    rw [if_neg (by omega)]
    refine Runs.pure ⟨?_, Frame.refl _ _⟩
    rw [Nat.add_zero, Equiv.swap_self]
    exact h
  rw [if_pos h0, hsq]
  have hfix : ∀ p, p < k → Equiv.swap k (k + q) p = p := fun p hp =>
    Equiv.swap_apply_of_ne_of_ne (by omega) (by omega)
  have u0 := UpdX.init h (tv upper (permM (Equiv.swap k (k + q)) v)) ∅
  have dF : Disjoint (A.footOn (InTri upper false)) (∅ : Set Nat) := Set.disjoint_empty _
  have es : ∀ i j, permM (Equiv.swap k (k + q)) v (k + i) (k + j) =
      v (k + Equiv.swap 0 q i) (k + Equiv.swap 0 q j) := by
    intro i j
    rw [permM, swap_shift, swap_shift]
  have el : ∀ i j, j < k → permM (Equiv.swap k (k + q)) v (k + i) j = v (k + Equiv.swap 0 q i) j := by
    intro i j hj
    rw [permM, swap_shift, hfix j hj]
  cases upper
  · simp only [Bool.false_eq_true, if_false]
    refine (bkPivotLower_spec (hw.sub (by omega) (by omega)) (by simp) (u0.part_old (r := k) (c := k)
      (nr := A.rows - k) (nc := A.rows - k) (U := InTri false false) (by omega) (by omega)
      (by simp [InTri])) (by omega) (by rw [View.sub_rows]; omega)).bind ?_
    rintro m1 ⟨h1, f1⟩
    have u1 := u0.sub hw dF (r := k) (c := k) (nr := A.rows - k) (nc := A.rows - k) (U := InTri false false)
      (by omega) (by omega) (by simp [InTri]) (m' := m1) (h1.congr (fun i j hi hj _ => by
        simp only [permSym, symm, tv, Bool.false_eq_true, if_false, es]
        split
        · rfl
        · exact hs _ _ (by omega) (by omega))) (HoldsOn.weaken_frame f1)
    refine (swapLines_spec (col := false) (hw.sub (by omega) (by omega)) (u1.block_old (r := k) (c := 0)
      (nr := A.rows - k) (nc := k) (by omega) (by omega) (by simp [InTri]; omega)) (by simp [nLines]; omega)
      (by simp [nLines]; omega)).mono ?_
    rintro m2 ⟨h2, f2⟩
    have u2 := u1.block hw dF (r := k) (c := 0) (nr := A.rows - k) (nc := k) (by omega) (by omega)
      (by simp [InTri]; omega) (m' := m2) (h2.congr (fun i j hi hj => by
        have hj' : j < k := by simpa using hj
        simp only [permLines, tv, Bool.false_eq_true, if_false, Nat.zero_add, el i j hj']
        rw [Equiv.swap_comm])) (HoldsOn.weaken_frame f2)
    refine ⟨u2.fin (fun i j hi hj ht hS => ?_), by simpa using u2.frame⟩
    simp [InTri] at ht hS
    simp only [tv, Bool.false_eq_true, if_false, permM]
    rw [hfix i (by omega), hfix j (by omega)]
  · simp only [if_true]
    refine (bkPivotUpperTop_spec (hw.sub (by omega) (by omega)) (by simp) (u0.part_old (r := k) (c := k)
      (nr := A.rows - k) (nc := A.rows - k) (U := InTri true false) (by omega) (by omega)
      (by simp [InTri])) (by omega) (by rw [View.sub_rows]; omega)).bind ?_
    rintro m1 ⟨h1, f1⟩
    have u1 := u0.sub hw dF (r := k) (c := k) (nr := A.rows - k) (nc := A.rows - k) (U := InTri true false)
      (by omega) (by omega) (by simp [InTri]) (m' := m1) (h1.congr (fun i j hi hj _ => by
        simp only [permSym, symm, tv, if_true, es]
        split
        · rfl
        · exact hs _ _ (by omega) (by omega))) (HoldsOn.weaken_frame f1)
    refine (swapLines_spec (col := true) (hw.sub (by omega) (by omega)) (u1.block_old (r := 0) (c := k)
      (nr := k) (nc := A.rows - k) (by omega) (by omega) (by simp [InTri]; omega)) (by simp [nLines]; omega)
      (by simp [nLines]; omega)).mono ?_
    rintro m2 ⟨h2, f2⟩
    have u2 := u1.block hw dF (r := 0) (c := k) (nr := k) (nc := A.rows - k) (by omega) (by omega)
      (by simp [InTri]; omega) (m' := m2) (h2.congr (fun i j hi hj => by
        have hi' : i < k := by simpa using hi
        simp only [permLines, tv, if_true, Nat.zero_add, el j i hi']
        rw [Equiv.swap_comm])) (HoldsOn.weaken_frame f2)
    refine ⟨u2.fin (fun i j hi hj ht hS => ?_), by simpa using u2.frame⟩
    simp [InTri] at ht hS
    simp only [tv, if_true, permM]
    rw [hfix i (by omega), hfix j (by omega)]

theorem runs_tag {r : Res (Mem ℝ)} {Q : Mem ℝ → Prop} (h : Runs r Q) :
    Runs (r >>= fun m => (Pure.pure ((0 : Int), m) : Res (Int × Mem ℝ))) (fun x => Q x.2) := h.bind (fun _ hm => Runs.pure hm)

/-! ## Pivots of a block applied to the part beside of it -/

theorem cholpvApply_spec {upper : Bool} {m m1 : Mem ℝ} {A : View} {F V : Nat → Nat → ℝ} {S : Set Nat} {k e : Nat}
    {P Q : Piv} (hw : A.WF) (hsq : A.cols = A.rows) (hk : k ≤ A.rows) (hQ : Q.n ≤ A.rows - k)
    (dS : Disjoint (A.footOn (InTri upper false)) S)
    (h : HoldsOn m A (InTri upper false) (tv upper (cholV F k)))
    (h1 : HoldsOn m1 (A.sub k k (A.rows - k) (A.cols - k)) (InTri upper false) (tv upper V))
    (f1 : Frame ((A.sub k k (A.rows - k) (A.cols - k)).footOn (InTri upper false) ∪ S) m m1) :
    Runs (cholpvApply upper m1 A k e P Q) (fun x =>
      x.1 = P.put k Q.n ⟨Q.n, fun l => if l < min e Q.n then Q.ix l + k else Q.ix l⟩ ∧
      HoldsOn x.2 A (InTri upper false) (tv upper (fun i j => if j < k then
        cholF F (shf k (fwdPerm (A.rows - k) Q.ix Q.n) i) j else V (i - k) (j - k))) ∧
      Frame (A.footOn (InTri upper false) ∪ S) m x.2 ∧ Frame (A.footOn (InTri upper false)) m1 x.2) := by
  unfold cholpvApply
  have u0 := UpdX.init h (tv upper (fun i j => if j < k then
        cholF F (shf k (fwdPerm (A.rows - k) Q.ix Q.n) i) j else V (i - k) (j - k))) S
  have u1 := u0.sub hw dS (r := k) (c := k) (nr := A.rows - k) (nc := A.cols - k) (U := InTri upper false)
      (by omega) (by omega) (by cases upper <;> simp [InTri]) (m' := m1) (h1.congr (fun i j hi hj _ => by
        cases upper <;> simp [tv])) f1
  cases upper
  · simp only [Bool.false_eq_true, if_false]
    have e1 := pivot_lines (m := m1) (A := A.sub k 0 (A.rows - k) k) (P := Q) (col := false) (fwd := true)
      (by simp [nLines]; omega)
    simp only [Bool.false_eq_true, if_false] at e1
    rw [e1]
    have s := applyPivots_fwd (P := Q) (col := false) (hw.sub (r := k) (c := 0) (nr := A.rows - k) (nc := k) (by omega) (by omega)) (u1.block_old (r := k) (c := 0)
      (nr := A.rows - k) (nc := k) (by omega) (by omega) (by simp [InTri]; omega)) (by simp [nLines]; omega)
    refine Runs.bind (runs_tag s) ?_
    rintro ⟨e2, m2⟩ ⟨h2, f2⟩
    dsimp only at h2 f2 ⊢
    have u2 := u1.block hw dS (r := k) (c := 0) (nr := A.rows - k) (nc := k) (by omega) (by omega)
      (by simp [InTri]; omega) (m' := m2) (h2.congr (fun i j hi hj => by
        have hj' : j < k := by simpa using hj
        simp only [permLines, tv, Bool.false_eq_true, if_false, Nat.zero_add, hj', if_true, cholV, shf_ge]
        rfl)) (HoldsOn.weaken_frame f2)
    refine Runs.pure ⟨rfl, u2.fin (fun i j hi hj ht hS => ?_), u2.frame,
      f2.mono (View.foot_sub_footOn (by omega) (by omega) (by simp [InTri]; omega))⟩
    simp [InTri] at ht hS
    simp only [tv, Bool.false_eq_true, if_false]
    rw [if_pos (by omega), cholV, if_pos (by omega), shf_lt (by omega)]
  · simp only [if_true]
    have e1 := pivot_lines (m := m1) (A := A.sub 0 k k (A.cols - k)) (P := Q) (col := true) (fwd := true)
      (by simp [nLines]; omega)
    simp only [if_true] at e1
    rw [e1]
    have s := applyPivots_fwd (P := Q) (col := true) (hw.sub (r := 0) (c := k) (nr := k) (nc := A.cols - k) (by omega) (by omega)) (u1.block_old (r := 0) (c := k)
      (nr := k) (nc := A.cols - k) (by omega) (by omega) (by simp [InTri]; omega)) (by simp [nLines]; omega)
    refine Runs.bind (runs_tag s) ?_
    rintro ⟨e2, m2⟩ ⟨h2, f2⟩
    dsimp only at h2 f2 ⊢
    have u2 := u1.block hw dS (r := 0) (c := k) (nr := k) (nc := A.cols - k) (by omega) (by omega)
      (by simp [InTri]; omega) (m' := m2) (h2.congr (fun i j hi hj => by
        have hj' : i < k := by simpa using hi
        simp only [permLines, tv, if_true, Nat.zero_add, hj', cholV, shf_ge, nLines, View.sub_cols, hsq])) (HoldsOn.weaken_frame f2)
    refine Runs.pure ⟨rfl, u2.fin (fun i j hi hj ht hS => ?_), u2.frame,
      f2.mono (View.foot_sub_footOn (by omega) (by omega) (by simp [InTri]; omega))⟩
    simp [InTri] at ht hS
    simp only [tv, if_true]
    rw [if_pos (by omega), cholV, if_pos (by omega), shf_lt (by omega)]

/-! ## Columns of a block -/

/-- Addresses of `n` consecutive elements. -/
def ival (b n : Nat) : Set Nat := {p | b ≤ p ∧ p < b + n}

/-- What the triangle holds after `k` steps on a block. -/
noncomputable def cholN (f : Nat → Nat → ℝ) (k i j : Nat) : ℝ := if j < k then cholF f i j else f i j

/-- The elements from `k` on of the diagonal after `k` steps, stored from address `b`. -/
def DHolds (m : Mem ℝ) (b n k : Nat) (d : Nat → ℝ) : Prop := ∀ i, k ≤ i → i < n → m (b + i) = some (d i)

theorem dvat {b n k i : Nat} (hi : i < n - k) :
    ((⟨b, n, n, 1⟩ : View).sub k 0 (n - k) 1).vat i = b + (k + i) := by
  unfold View.vat View.inc View.sub
  simp only [Nat.zero_mul, Nat.add_zero]
  split
  · have : i = 0 := by omega
    subst this; simp
  · simp; omega

theorem DHolds.toV {m : Mem ℝ} {b n k : Nat} {d : Nat → ℝ} (h : DHolds m b n k d) :
    HoldsV m ((⟨b, n, n, 1⟩ : View).sub k 0 (n - k) 1) (fun i => d (k + i)) := by
  intro i hi
  have hi' : i < n - k := by simpa [View.size, View.sub] using hi
  rw [dvat hi']
  exact h _ (by omega) (by omega)

theorem DHolds.frame {m m' : Mem ℝ} {b n k : Nat} {d : Nat → ℝ} {S : Set Nat} (h : DHolds m b n k d)
    (f : Frame S m m') (hd : Disjoint S (ival b n)) : DHolds m' b n k d := by
  intro i h1 h2
  rw [f _ (fun hS => Set.disjoint_left.mp hd hS ⟨by omega, by omega⟩)]
  exact h i h1 h2

/-- The `n` elements from address `b` can be accessed. -/
def AllocW (m : Mem ℝ) (b n : Nat) : Prop := ∀ i, i < n → ∃ x, m (b + i) = some x

theorem AllocW.step {m m' : Mem ℝ} {b n k : Nat} {d : Nat → ℝ} (h : AllocW m b n) (hd : DHolds m' b n k d)
    (f : Frame (ival (b + k) (n - k)) m m') : AllocW m' b n := by
  intro i hi
  by_cases c : k ≤ i
  · exact ⟨_, hd i c hi⟩
  · obtain ⟨x, hx⟩ := h i hi
    refine ⟨x, ?_⟩
    rw [f _ (fun hS => by obtain ⟨h1, _⟩ := hS; omega)]
    exact hx

theorem AllocW.frame {m m' : Mem ℝ} {b n : Nat} {S : Set Nat} (h : AllocW m b n) (f : Frame S m m')
    (hd : Disjoint S (ival b n)) : AllocW m' b n := by
  intro i hi
  obtain ⟨x, hx⟩ := h i hi
  refine ⟨x, ?_⟩
  rw [f _ (fun hS => Set.disjoint_left.mp hd hS ⟨by omega, by omega⟩)]
  exact hx

theorem AllocW.le {m : Mem ℝ} {b n n' : Nat} (h : AllocW m b n) (hn : n' ≤ n) : AllocW m b n' :=
  fun i hi => h i (by omega)

theorem AllocW.holds {m : Mem ℝ} {b n : Nat} (h : AllocW m b n) : ∃ w, DHolds m b n 0 w := by
  refine ⟨fun i => (m (b + i)).getD 0, fun i _ hi => ?_⟩
  obtain ⟨x, hx⟩ := h i hi
  simp [hx]

theorem ival_sub {b n k : Nat} (h : k ≤ n) : ival (b + k) (n - k) ⊆ ival b n := by
  rintro p ⟨h1, h2⟩
  exact ⟨by omega, by omega⟩

theorem ival_le {b n n' : Nat} (h : n' ≤ n) : ival b n' ⊆ ival b n := by
  rintro p ⟨h1, h2⟩
  exact ⟨by omega, by omega⟩

theorem updateDiag_spec {m : Mem ℝ} {b n k : Nat} {d x : Nat → ℝ} {X : View}
    (hX : X.isVec) (hXs : X.size = n - k) (h : DHolds m b n k d) (hx : HoldsV m X x)
    (hd : Disjoint X.foot (ival b n)) :
    Runs (updateDiag m ((⟨b, n, n, 1⟩ : View).sub k 0 (n - k) 1) X) (fun m' =>
      DHolds m' b n k (fun i => d i - x (i - k) * x (i - k)) ∧ Frame (ival (b + k) (n - k)) m m') := by
  unfold updateDiag
  have hsz : ((⟨b, n, n, 1⟩ : View).sub k 0 (n - k) 1).size = n - k := by simp [View.size, View.sub]
  rw [hsz]
  refine Runs.bind (P := fun x' => DHolds x'.2 b n k (fun i => d i - x (i - k) * x (i - k)) ∧ Frame (ival (b + k) (n - k)) m x'.2)
    ?_ (fun r hr => Runs.pure hr)
  refine Runs.forUp1 (fun j m' => (∀ i, k ≤ i → i < n → m' (b + i) = some (if i - k < j then
      d i - x (i - k) * x (i - k) else d i)) ∧ Frame (ival (b + k) (n - k)) m m') (Nat.zero_le _)
    ⟨fun i h1 h2 => by rw [if_neg (by omega)]; exact h i h1 h2, Frame.refl _ _⟩ ?_ ?_
  · rintro j m' - hj ⟨hm, hf⟩
    have e1 := hm (k + j) (by omega) (by omega)
    rw [if_neg (by omega), ← dvat hj] at e1
    have e2 : m' (X.vat j) = some (x j) := by
      rw [hf _ (fun hS => Set.disjoint_left.mp hd (View.vat_mem_foot hX (by omega)) (ival_sub (by omega) hS))]
      exact hx j (by omega)
    refine Runs.rd_bind e1 (Runs.rd_bind e2 (Runs.wr e1 ⟨fun i h1 h2 => ?_, ?_⟩))
    · rw [dvat hj]
      by_cases e : i = k + j
      · subst e
        rw [Mem.set_same, if_pos (by omega), show k + j - k = j by omega]
      · rw [Mem.set_ne _ _ (by omega), hm i h1 h2]
        by_cases h3 : i - k < j
        · rw [if_pos h3, if_pos (by omega)]
        · rw [if_neg h3, if_neg (by omega)]
    · intro p hp
      rw [Mem.set_ne _ _ (fun e => hp (by rw [e, dvat hj]; exact ⟨by omega, by omega⟩))]
      exact hf p hp
  · rintro m' ⟨hm, hf⟩
    refine ⟨fun i h1 h2 => ?_, hf⟩
    dsimp only
    rw [hm i h1 h2, if_pos (by omega)]

theorem ncolSwap_spec {m : Mem ℝ} {b n k q : Nat} {d : Nat → ℝ} (hq : k + q < n) (h : DHolds m b n k d) :
    Runs (ncolSwap m ((⟨b, n, n, 1⟩ : View).sub k 0 (n - k) 1) q) (fun m' =>
      DHolds m' b n k (fun i => d (Equiv.swap k (k + q) i)) ∧ Frame (ival (b + k) (n - k)) m m') := by
  unfold ncolSwap
  by_cases h0 : q = 0
  · subst h0
    rw [if_neg (by omega)]
    refine Runs.pure ⟨?_, Frame.refl _ _⟩
    rw [Nat.add_zero, Equiv.swap_self]
    exact h
  rw [if_pos h0, dvat (by omega), dvat (by omega)]
  have e1 := h (k + q) (by omega) (by omega)
  have e2 := h (k + 0) (by omega) (by omega)
  refine Runs.rd_bind e1 (Runs.rd_bind e2 (Runs.wr_bind e1 (Runs.wr (v := d (k + 0)) ?_ ⟨fun i h1 h2 => ?_, ?_⟩)))
  · rw [Mem.set_ne _ _ (by omega)]; exact e2
  · beta_reduce
    by_cases c1 : i = k
    · subst c1
      rw [show i + 0 = i by omega, Mem.set_same, Equiv.swap_apply_left]
    · rw [Mem.set_ne _ _ (by omega)]
      by_cases c2 : i = k + q
      · subst c2
        rw [Mem.set_same, Equiv.swap_apply_right, Nat.add_zero]
      · rw [Mem.set_ne _ _ (by omega), Equiv.swap_apply_of_ne_of_ne c1 c2]
        exact h i h1 h2
  · intro p hp
    rw [Mem.set_ne _ _ (fun e => hp (by rw [e]; exact ⟨by omega, by omega⟩)),
      Mem.set_ne _ _ (fun e => hp (by rw [e]; exact ⟨by omega, by omega⟩))]

theorem ncolLine_spec (ab : ℝ → ℝ) {upper : Bool} {env : Env} (hmin : env.blas2min ≠ 1 ∨ env.naive = true) {fuel : Nat}
    {m : Mem ℝ} {A : View} {F : Nat → Nat → ℝ} (hs : ∀ i j, F i j = F j i) (hw : A.WF) (hsq : A.cols = A.rows)
    (hf : A.rows < fuel) {k : Nat} (hk : k < A.rows) (hp : ∀ p, p < k → 0 < schur F p p p)
    (hy : Holds m (if upper then A.sub k (k + 1) 1 (A.rows - k - 1) else A.sub (k + 1) k (A.rows - k - 1) 1)
      (fun i j => F (k + 1 + (i + j)) k))
    (hA : Holds m (if upper then A.sub 0 (k + 1) k (A.rows - k - 1) else A.sub (k + 1) 0 (A.rows - k - 1) k)
      (tv upper (fun i j => cholF F (k + 1 + i) j)))
    (hx : Holds m (if upper then A.sub 0 k k 1 else A.sub k 0 1 k) (fun i j => cholF F k (i + j))) (s : ℝ) :
    Runs (ncolLine ab upper env fuel m A k s) (fun m' =>
      Holds m' (if upper then A.sub k (k + 1) 1 (A.rows - k - 1) else A.sub (k + 1) k (A.rows - k - 1) 1)
        (fun i j => s * schur F k (k + 1 + (i + j)) k) ∧
      Frame (if upper then A.sub k (k + 1) 1 (A.rows - k - 1) else A.sub (k + 1) k (A.rows - k - 1) 1).foot m m') := by
  unfold ncolLine ncolX
  rw [hsq]
  have hsum : ∀ i, F (k + 1 + i) k = ∑ p ∈ range k, cholF F (k + 1 + i) p * cholF F k p + schur F k (k + 1 + i) k := by
    intro i
    have := cholF_sum hs (Nat.zero_le k) hp (k + 1 + i) k
    rwa [Finset.range_eq_Ico]
  cases upper
  · simp only [Bool.false_eq_true, if_false] at *
    refine Runs.bind (P := fun r =>
        Holds r.2 (A.sub (k + 1) k (A.rows - k - 1) 1) (fun i j => schur F k (k + 1 + (i + j)) k) ∧
        Frame (A.sub (k + 1) k (A.rows - k - 1) 1).foot m r.2) ?_ ?_
    · 
      by_cases h0 : (A.sub (k + 1) 0 (A.rows - k - 1) k).size = 0
      · unfold mvmult
        rw [if_pos (Or.inl h0)]
        refine Runs.ok ⟨hy.congr (fun i j hi hj => ?_), Frame.refl _ _⟩
        simp [View.size, View.sub] at h0 hi
        have : k = 0 := by omega
        subst this
        rfl
      · refine (C10_mvmult_partial ab hmin (1 : ℝ) (-1) (fl := {}) (a := fun i j => cholF F (k + 1 + i) j)
          (y := fun i => F (k + 1 + i) k) (x := fun j => cholF F k j) rfl h0 (by simp [View.size, View.sub]; omega)
          (Or.inr rfl) (hw.sub (by omega) (by omega)) (Or.inl rfl) (by simp [View.size, View.sub])
          (by simp [View.size, View.sub]) ((holdsV_iff (Or.inr rfl)).mpr hy) hA ((holdsV_iff (Or.inl rfl)).mpr hx)
          (View.sub_disj hw (by omega) (by omega) (by omega) (by omega) (by omega))
          (View.sub_disj hw (by omega) (by omega) (by omega) (by omega) (by omega))).mono ?_
        rintro ⟨e, m1⟩ ⟨-, h1, f1⟩
        refine ⟨(holdsV_iff (f := fun i => schur F k (k + 1 + i) k) (Or.inr rfl)).mp (h1.congr (fun i hi => ?_)), f1⟩
        simp only [Bool.false_eq_true, if_false, View.size, View.sub_rows, View.sub_cols, one_mul]
        rw [hsum i]; ring
    rintro ⟨e, m1⟩ ⟨h1, f1⟩
    dsimp only at h1 f1 ⊢
    refine (scale_line s (Or.inr rfl) (hw.sub (by omega) (by omega)) h1).bind ?_
    rintro ⟨e2, m2⟩ ⟨h2, f2⟩
    exact Runs.pure ⟨h2, f1.trans f2⟩
  · simp only [if_true] at *
    refine Runs.bind (P := fun r =>
        Holds r.2 (A.sub k (k + 1) 1 (A.rows - k - 1)) (fun i j => schur F k (k + 1 + (i + j)) k) ∧
        Frame (A.sub k (k + 1) 1 (A.rows - k - 1)).foot m r.2) ?_ ?_
    · 
      by_cases h0 : (A.sub 0 (k + 1) k (A.rows - k - 1)).size = 0
      · unfold mvmult
        rw [if_pos (Or.inl h0)]
        refine Runs.ok ⟨hy.congr (fun i j hi hj => ?_), Frame.refl _ _⟩
        simp [View.size, View.sub] at h0 hj
        have : k = 0 := by omega
        subst this
        rfl
      · refine (C10_mvmult_partial ab hmin (1 : ℝ) (-1) (fl := { transA := true }) (a := fun i j => cholF F (k + 1 + j) i)
          (y := fun i => F (k + 1 + i) k) (x := fun j => cholF F k j) rfl h0 (by simp [View.size, View.sub]; omega)
          (Or.inl rfl) (hw.sub (by omega) (by omega)) (Or.inr rfl) (by simp [View.size, View.sub])
          (by simp [View.size, View.sub]) ((holdsV_iff (Or.inl rfl)).mpr hy) hA ((holdsV_iff (Or.inr rfl)).mpr hx)
          (View.sub_disj hw (by omega) (by omega) (by omega) (by omega) (by omega))
          (View.sub_disj hw (by omega) (by omega) (by omega) (by omega) (by omega))).mono ?_
        rintro ⟨e, m1⟩ ⟨-, h1, f1⟩
        refine ⟨(holdsV_iff (f := fun i => schur F k (k + 1 + i) k) (Or.inl rfl)).mp (h1.congr (fun i hi => ?_)), f1⟩
        simp only [if_true, View.size, View.sub_rows, View.sub_cols, one_mul, mul_one]
        rw [hsum i]; ring
    rintro ⟨e, m1⟩ ⟨h1, f1⟩
    dsimp only at h1 f1 ⊢
    refine (scale_line s (Or.inl rfl) (hw.sub (by omega) (by omega)) h1).bind ?_
    rintro ⟨e2, m2⟩ ⟨h2, f2⟩
    exact Runs.pure ⟨h2, f1.trans f2⟩

theorem ncolElim_spec (ab : ℝ → ℝ) {upper : Bool} {env : Env} (hmin : env.blas2min ≠ 1 ∨ env.naive = true) {fuel : Nat}
    {m : Mem ℝ} {A : View} {F : Nat → Nat → ℝ} (hs : ∀ i j, F i j = F j i) (hw : A.WF) (hsq : A.cols = A.rows)
    (hf : A.rows < fuel) {k t b : Nat} (hk : k < A.rows) (hp : ∀ p, p ≤ k → 0 < schur F p p p)
    (h : HoldsOn m A (InTri upper false) (tv upper (cholN F k)))
    (hD : DHolds m b A.rows k (fun i => schur F k i i))
    (hAl : AllocW m b A.rows) (dD : Disjoint (A.footOn (InTri upper false)) (ival b A.rows)) :
    Runs (ncolElim Real.sqrt ab upper env fuel m A ⟨b, A.rows, A.rows, 1⟩ t k) (fun m' =>
      HoldsOn m' A (InTri upper false) (tv upper (cholN F (k + 1))) ∧
      (0 < t → DHolds m' b A.rows (k + 1) (fun i => schur F (k + 1) i i)) ∧ AllocW m' b A.rows ∧
      Frame (A.footOn (InTri upper false) ∪ ival b A.rows) m m') := by
  unfold ncolElim
  have e0 : m (((⟨b, A.rows, A.rows, 1⟩ : View).sub k 0 1 1).vat 0) = some (schur F k k k) := by
    rw [show ((⟨b, A.rows, A.rows, 1⟩ : View).sub k 0 1 1).vat 0 = b + k by simp [View.vat, View.sub]]
    exact hD k (le_refl _) hk
  refine Runs.rd_bind e0 ?_
  have u0 := UpdX.init h (tv upper (cholN F (k + 1))) (ival b A.rows)
  have ht : InTri upper false k k := by simp [InTri]
  have e1 := u0.at_old hk (by omega) ht (by omega)
  refine Runs.wr_bind e1 ?_
  have u1 := u0.cell hw hk (by omega : k < A.cols) ht (x := Real.sqrt (schur F k k k)) (by
    have : cholN F (k + 1) k k = Real.sqrt (schur F k k k) := by
      unfold cholN; rw [if_pos (by omega), cholF_diag]
    cases upper <;> exact this.symm)
  dsimp only
  have hat : b + k ≠ A.at' k k := fun e => Set.disjoint_left.mp dD ⟨k, k, hk, by omega, ht, rfl⟩
    (by rw [← e]; exact ⟨by omega, by omega⟩)
  have hD1 : DHolds (m.set (A.at' k k) (Real.sqrt (schur F k k k))) b A.rows k (fun i => schur F k i i) := by
    intro i h1 h2
    rw [Mem.set_ne _ _ (fun e => Set.disjoint_left.mp dD ⟨k, k, hk, by omega, ht, rfl⟩
      (by rw [← e]; exact ⟨by omega, by omega⟩))]
    exact hD i h1 h2
  refine (ncolLine_spec ab hmin hs hw hsq hf hk (fun p hp' => hp p hp'.le) ?_ ?_ ?_ _).bind ?_
  · cases upper
    · refine (u1.block_old (r := k + 1) (c := k) (nr := A.rows - k - 1) (nc := 1) (by omega) (by omega)
        (by simp [InTri]; omega)).congr (fun i j hi hj => ?_)
      have hj' : j = 0 := by simp [View.sub] at hj; omega
      subst hj'
      simp only [tv, Bool.false_eq_true, if_false, cholN]
      rw [if_neg (by omega)]; rfl
    · refine (u1.block_old (r := k) (c := k + 1) (nr := 1) (nc := A.rows - k - 1) (by omega) (by omega)
        (by simp [InTri]; omega)).congr (fun i j hi hj => ?_)
      have hj' : i = 0 := by simp [View.sub] at hi; omega
      subst hj'
      simp only [tv, if_true, cholN, Nat.zero_add, Nat.add_zero]
      rw [if_neg (by omega)]
  · cases upper
    · refine (u1.block_old (r := k + 1) (c := 0) (nr := A.rows - k - 1) (nc := k) (by omega) (by omega)
        (by simp [InTri]; omega)).congr (fun i j hi hj => ?_)
      have hj' : j < k := by simpa [View.sub] using hj
      simp only [tv, Bool.false_eq_true, if_false, cholN, Nat.zero_add, hj', if_true]
    · refine (u1.block_old (r := 0) (c := k + 1) (nr := k) (nc := A.rows - k - 1) (by omega) (by omega)
        (by simp [InTri]; omega)).congr (fun i j hi hj => ?_)
      have hj' : i < k := by simpa [View.sub] using hi
      simp only [tv, if_true, cholN, Nat.zero_add, hj']
  · cases upper
    · refine (u1.block_old (r := k) (c := 0) (nr := 1) (nc := k) (by omega) (by omega)
        (by simp [InTri]; omega)).congr (fun i j hi hj => ?_)
      have hj' : j < k := by simpa [View.sub] using hj
      have hi' : i = 0 := by simp [View.sub] at hi; omega
      subst hi'
      simp only [tv, Bool.false_eq_true, if_false, cholN, Nat.zero_add, Nat.add_zero, hj', if_true]
    · refine (u1.block_old (r := 0) (c := k) (nr := k) (nc := 1) (by omega) (by omega)
        (by simp [InTri]; omega)).congr (fun i j hi hj => ?_)
      have hj' : i < k := by simpa [View.sub] using hi
      have hi' : j = 0 := by simp [View.sub] at hj; omega
      subst hi'
      simp only [tv, if_true, cholN, Nat.zero_add, Nat.add_zero, hj']
  · rintro m2 ⟨h2, f2⟩
    have hl : ∀ i, 1 / Real.sqrt (schur F k k k) * schur F k (k + 1 + i) k = cholF F (k + 1 + i) k := by
      intro i
      unfold cholF; ring
    have hv : (if upper then A.sub k (k + 1) 1 (A.rows - k - 1) else A.sub (k + 1) k (A.rows - k - 1) 1).isVec := by
      cases upper
      · exact Or.inr rfl
      · exact Or.inl rfl
    have hvs : (if upper then A.sub k (k + 1) 1 (A.rows - k - 1) else A.sub (k + 1) k (A.rows - k - 1) 1).size =
        A.rows - (k + 1) := by
      cases upper <;> simp [View.size, View.sub] <;> omega
    have hvf : (if upper then A.sub k (k + 1) 1 (A.rows - k - 1) else A.sub (k + 1) k (A.rows - k - 1) 1).foot ⊆
        A.footOn (InTri upper false) := by
      cases upper
      · exact View.foot_sub_footOn (by omega) (by omega) (by simp [InTri]; omega)
      · exact View.foot_sub_footOn (by omega) (by omega) (by simp [InTri]; omega)
    have u2 : HoldsOn m2 A (InTri upper false) (tv upper (cholN F (k + 1))) ∧
        Frame (A.footOn (InTri upper false) ∪ ival b A.rows) m m2 := by
      cases upper
      · have u2 := u1.block hw dD (r := k + 1) (c := k) (nr := A.rows - k - 1) (nc := 1) (by omega) (by omega)
          (by simp [InTri]; omega) (m' := m2) (h2.congr (fun i j hi hj => by
            have : j = 0 := by simp [View.sub] at hj; omega
            subst this
            simp only [tv, Bool.false_eq_true, if_false, cholN, Nat.add_zero, hl]
            rw [if_pos (by omega)])) (HoldsOn.weaken_frame f2)
        refine ⟨u2.fin (fun i j hi hj ht hS => ?_), u2.frame⟩
        simp [InTri] at ht hS
        simp only [tv, Bool.false_eq_true, if_false, cholN]
        by_cases c : j < k
        · rw [if_pos c, if_pos (by omega)]
        · rw [if_neg c, if_neg (by omega)]
      · have u2 := u1.block hw dD (r := k) (c := k + 1) (nr := 1) (nc := A.rows - k - 1) (by omega) (by omega)
          (by simp [InTri]; omega) (m' := m2) (h2.congr (fun i j hi hj => by
            have : i = 0 := by simp [View.sub] at hi; omega
            subst this
            simp only [tv, if_true, cholN, Nat.add_zero, Nat.zero_add, hl]
            rw [if_pos (by omega)])) (HoldsOn.weaken_frame f2)
        refine ⟨u2.fin (fun i j hi hj ht hS => ?_), u2.frame⟩
        simp [InTri] at ht hS
        simp only [tv, if_true, cholN]
        by_cases c : i < k
        · rw [if_pos c, if_pos (by omega)]
        · rw [if_neg c, if_neg (by omega)]
    unfold ncolX
    rw [hsq]
    have hAl2 : AllocW m2 b A.rows := by
      refine AllocW.frame (fun i hi => ?_) f2 (dD.mono_left hvf)
      obtain ⟨x, hx⟩ := hAl i hi
      refine ⟨x, ?_⟩
      rw [Mem.set_ne _ _ (fun e => Set.disjoint_left.mp dD ⟨k, k, hk, by omega, ht, rfl⟩
        (by rw [← e]; exact ⟨by omega, by omega⟩))]
      exact hx
    by_cases h0 : t > 0
    · rw [if_pos h0]
      have hD2 : DHolds m2 b A.rows (k + 1) (fun i => schur F k i i) := fun i h1 h2' =>
        (hD1.frame f2 (dD.mono_left hvf)) i (by omega) h2'
      have s := updateDiag_spec hv hvs hD2 ((holdsV_iff (f := fun i => cholF F (k + 1 + i) k) hv).mpr
        (h2.congr (fun i j _ _ => hl _))) (dD.mono_left hvf)
      rw [← Nat.sub_sub] at s
      refine s.mono ?_
      rintro m3 ⟨h3, f3⟩
      have hsub : ival (b + (k + 1)) (A.rows - (k + 1)) ⊆ ival b A.rows := ival_sub (by omega)
      refine ⟨u2.1.frame f3 (dD.mono_right hsub), fun _ i h1 h2' => ?_, hAl2.step h3 f3,
        u2.2.trans (f3.mono (hsub.trans Set.subset_union_right))⟩
      rw [h3 i h1 h2']
      beta_reduce
      rw [← cholV_step hs (hp k (le_refl _))]
      rw [show k + 1 + (i - (k + 1)) = i by omega]
      congr 1; ring
    · rw [if_neg h0]
      exact Runs.pure ⟨u2.1, fun h => absurd h h0, hAl2, u2.2⟩

theorem set_zero_gen {upper : Bool} {m : Mem ℝ} {A : View} {f v : Nat → Nat → ℝ} (hw : A.WF) (hsq : A.cols = A.rows)
    {k : Nat} (hk : k ≤ A.rows) (h : HoldsOn m A (InTri upper false) (tv upper v))
    (hv : ∀ i j, j < k → v i j = cholF f i j) :
    Runs (setElems (fun _ _ _ => 0) m (A.sub k k (A.rows - k) (A.cols - k)) (if upper then .upper else .lower) false)
      (fun r => HoldsOn r.2.1 A (InTri upper false) (tv upper (cholR f k)) ∧
        Frame (A.footOn (InTri upper false)) m r.2.1) := by
  rw [hsq]
  have u0 := UpdX.init h (tv upper (cholR f k)) ∅
  have dF : Disjoint (A.footOn (InTri upper false)) (∅ : Set Nat) := Set.disjoint_empty _
  refine (C58_set_triangle (gen := fun _ _ _ => (0 : ℝ)) (unit := false) (hw.sub (by omega) (by omega))
    (u0.part_old (r := k) (c := k) (nr := A.rows - k) (nc := A.rows - k) (U := InTri upper false) (by omega)
    (by omega) (by cases upper <;> simp [InTri]))).mono ?_
  rintro ⟨e, m1, c⟩ ⟨-, num, -, h1, f1⟩
  dsimp only at h1 f1 ⊢
  have u1 := u0.sub hw dF (r := k) (c := k) (nr := A.rows - k) (nc := A.rows - k) (U := InTri upper false)
      (by omega) (by omega) (by cases upper <;> simp [InTri]) (m' := m1) (h1.congr (fun i j hi hj _ => by
        cases upper <;> simp [tv, cholR])) (HoldsOn.weaken_frame f1)
  refine ⟨u1.fin (fun i j hi hj ht hS => ?_), by simpa using u1.frame⟩
  cases upper
  · simp [InTri] at ht hS
    simp only [tv, Bool.false_eq_true, if_false, cholR]
    rw [hv _ _ (by omega), if_pos (by omega)]
  · simp [InTri] at ht hS
    simp only [tv, if_true, cholR]
    rw [hv _ _ (by omega), if_pos (by omega)]

theorem ncolLoop_spec (ab : ℝ → ℝ) {upper : Bool} {env : Env} (hmin : env.blas2min ≠ 1 ∨ env.naive = true)
    {fuel : Nat} {A : View} {g : Nat → Nat → ℝ} (hs : ∀ i j, g i j = g j i) (hw : A.WF) (hsq : A.cols = A.rows)
    (hf : A.rows < fuel) {xs : ℝ} (h0 : 0 ≤ xs) {b : Nat}
    (dD : Disjoint (A.footOn (InTri upper false)) (ival b A.rows)) :
    ∀ {t k : Nat} {Q : Piv} {m : Mem ℝ}, k + t ≤ A.rows → k + t ≤ Q.n → PivInv A.rows g xs ⟨A.rows, Q.ix⟩ k →
    HoldsOn m A (InTri upper false) (tv upper (cholN (pivM A.rows Q k g) k)) →
    (0 < t → DHolds m b A.rows k (fun i => schur (pivM A.rows Q k g) k i i)) → AllocW m b A.rows →
    Runs (ncolLoop Real.sqrt ab upper env fuel A ⟨b, A.rows, A.rows, 1⟩ xs t k Q m) (fun x =>
      k ≤ x.1 ∧ x.1 ≤ k + t ∧ x.2.1.n = Q.n ∧ PivInv A.rows g xs ⟨A.rows, x.2.1.ix⟩ x.1 ∧
      (∀ p, p < k ∨ x.1 ≤ p → x.2.1.ix p = Q.ix p) ∧
      (x.1 = k + t → HoldsOn x.2.2 A (InTri upper false) (tv upper (cholN (pivM A.rows x.2.1 x.1 g) x.1))) ∧
      (x.1 < k + t → PivEnd A.rows g xs ⟨A.rows, x.2.1.ix⟩ x.1 ∧
        HoldsOn x.2.2 A (InTri upper false) (tv upper (cholR (pivM A.rows x.2.1 x.1 g) x.1))) ∧ AllocW x.2.2 b A.rows ∧
      Frame (A.footOn (InTri upper false) ∪ ival b A.rows) m x.2.2) := by
  intro t
  induction t with
  | zero =>
    intro k Q m hk hQ hP h _ hAl
    exact Runs.pure ⟨le_refl _, le_refl _, rfl, hP, fun _ _ => rfl, fun _ => h, fun h => absurd h (by simp), hAl,
      Frame.refl _ _⟩
  | succ t ih =>
    intro k Q m hk hQ hP h hD hAl
    unfold ncolLoop
    dsimp only
    have hD := hD (by omega)
    have hsz : ((⟨b, A.rows, A.rows, 1⟩ : View).sub k 0 (A.rows - k) 1).size = A.rows - k := by
      simp [View.size, View.sub]
    refine Runs.bind (C08_iamax (Or.inr rfl) (by rw [hsz]; omega) hD.toV) ?_
    rintro im ⟨q, rfl, hq, hmax, -⟩
    rw [hsz] at hq hmax
    simp only [Int.toNat_natCast]
    refine Runs.rd_bind (hD.toV q (by rw [hsz]; exact hq)) ?_
    by_cases hx : schur (pivM A.rows Q k g) k (k + q) (k + q) ≤ xs
    · rw [if_pos hx]
      refine (set_zero_gen (f := pivM A.rows Q k g) hw hsq (by omega) h (fun i j hj => if_pos hj)).bind ?_
      rintro ⟨e, m1, c⟩ ⟨h1, f1⟩
      refine Runs.pure ⟨le_refl _, by dsimp only; omega, rfl, hP, fun _ _ => rfl,
        fun h => absurd h (by dsimp only; omega),
        fun _ => ⟨⟨by dsimp only; omega, hP, fun _ => ⟨k + q, by dsimp only; omega, by omega, hx, fun j hj1 hj2 => ?_⟩⟩, h1⟩,
        hAl.frame f1 dD, f1.mono Set.subset_union_left⟩
      dsimp only at hj1 ⊢
      have := hmax (j - k) (by omega)
      rwa [show k + (j - k) = j by omega] at this
    · rw [if_neg hx]
      obtain ⟨hP1, eP, hpos⟩ := hP.step (q := q) h0 (by omega) (lt_of_not_ge hx) hmax
      have eS : (⟨A.rows, Q.ix⟩ : Piv).set k ((q : Int) + k + 1) = ⟨A.rows, (Q.set k ((q : Int) + k + 1)).ix⟩ := by
        unfold Piv.set
        rw [if_pos (show k < A.rows by omega), if_pos (by omega)]
      have eN : (Q.set k ((q : Int) + k + 1)).n = Q.n := by unfold Piv.set; split <;> rfl
      rw [eS] at hP1 eP hpos
      have hfix : ∀ p, p < k → Equiv.swap k (k + q) p = p := fun p hp =>
        Equiv.swap_apply_of_ne_of_ne (by omega) (by omega)
      have hsF : ∀ i j, pivM A.rows Q k g i j = pivM A.rows Q k g j i := permM_symm hs _
      change pivM A.rows (Q.set k ((q : Int) + k + 1)) (k + 1) g = permM (Equiv.swap k (k + q)) (pivM A.rows Q k g) at eP
      refine (cholpvSwap_gen (v := cholN (pivM A.rows Q k g) k) (k := k) (q := q) (fun i j hi hj => by
        unfold cholN; rw [if_neg (by omega), if_neg (by omega)]; exact hsF i j) hw hsq (by omega) h).bind ?_
      rintro m1 ⟨h1, f1⟩
      refine (ncolSwap_spec (q := q) (by omega) (hD.frame f1 dD)).bind ?_
      rintro m2 ⟨h2, f2⟩
      have f2' := f2.mono (ival_sub (by omega))
      have h1' := h1.frame f2' dD
      have hpos' : ∀ p, p ≤ k → 0 < schur (pivM A.rows (Q.set k ((q : Int) + k + 1)) (k + 1) g) p p p := by
        intro p hp
        have := hP1.above p (by omega)
        exact lt_of_le_of_lt h0 this
      refine (ncolElim_spec ab hmin (F := pivM A.rows (Q.set k ((q : Int) + k + 1)) (k + 1) g) (t := t) (b := b)
        (permM_symm hs _) hw hsq hf (by omega) hpos' ?_ ?_ ((hAl.frame f1 dD).step h2 f2) dD).bind ?_
      · refine h1'.congr (fun i j hi hj ht => ?_)
        have key : ∀ i j, j ≤ i → permM (Equiv.swap k (k + q)) (cholN (pivM A.rows Q k g) k) i j =
            cholN (pivM A.rows (Q.set k ((q : Int) + k + 1)) (k + 1) g) k i j := by
          intro i j hij
          rw [eP]
          by_cases c : j < k
          · rw [permM, hfix j c, cholN, if_pos c, cholN, if_pos c, cholF_perm (fun p hp => hfix p (by omega))]
          · have : ¬ Equiv.swap k (k + q) j < k := by
              rw [Equiv.swap_apply_def]; split_ifs <;> omega
            rw [permM, cholN, if_neg this, cholN, if_neg c]; rfl
        simp [InTri] at ht
        cases upper
        · simp at ht; exact key i j ht
        · simp at ht; exact key j i ht
      · intro i hi1 hi2
        rw [h2 i hi1 hi2, eP]
        beta_reduce
        rw [schur_perm hfix]
      · rintro m3 ⟨h3, h4, hAl3, f3⟩
        refine (ih (by omega) (by rw [eN]; omega) hP1 h3 h4 hAl3).mono ?_
        rintro ⟨r, P2, m4⟩ ⟨a1, a2, a3, a4, a5, a6, a7, a8, a9⟩
        dsimp only at a1 a2 a3 a4 a5 a6 a7 a8 a9 ⊢
        refine ⟨by omega, by omega, a3.trans eN, a4, fun p hp => ?_, fun e => a6 (by omega), fun e => a7 (by omega), a8,
          (f1.mono Set.subset_union_left).trans ((f2'.mono Set.subset_union_right).trans (f3.trans a9))⟩
        rw [a5 p (by omega)]
        unfold Piv.set
        split
        · simp only; rw [if_neg (by omega)]
        · rfl

theorem unblkCholpvNcol_spec (ab : ℝ → ℝ) {upper : Bool} {env : Env} (hmin : env.blas2min ≠ 1 ∨ env.naive = true)
    {fuel : Nat} {A : View} {g : Nat → Nat → ℝ} (hs : ∀ i j, g i j = g j i) (hw : A.WF) (hsq : A.cols = A.rows)
    (hf : A.rows < fuel) {xs : ℝ} (h0 : 0 ≤ xs) {b : Nat}
    (dD : Disjoint (A.footOn (InTri upper false)) (ival b A.rows)) {lb : Nat} {Q : Piv} {m : Mem ℝ} (hl : lb ≤ A.rows)
    (hQ : Q.n = lb) (h : HoldsOn m A (InTri upper false) (tv upper g))
    (hAl : AllocW m b A.rows) :
    Runs (unblkCholpvNcol Real.sqrt ab upper env fuel m A ⟨b, A.rows, A.rows, 1⟩ Q xs lb) (fun x =>
      x.1 ≤ lb ∧ x.2.1.n = lb ∧ PivInv A.rows g xs ⟨A.rows, x.2.1.ix⟩ x.1 ∧
      (∀ p, x.1 ≤ p → x.2.1.ix p = Q.ix p) ∧
      (x.1 = lb → HoldsOn x.2.2 A (InTri upper false) (tv upper (cholN (pivM A.rows x.2.1 x.1 g) x.1))) ∧
      (x.1 < lb → PivEnd A.rows g xs ⟨A.rows, x.2.1.ix⟩ x.1 ∧
        HoldsOn x.2.2 A (InTri upper false) (tv upper (cholR (pivM A.rows x.2.1 x.1 g) x.1))) ∧ AllocW x.2.2 b A.rows ∧
      Frame (A.footOn (InTri upper false) ∪ ival b A.rows) m x.2.2) := by
  unfold unblkCholpvNcol
  obtain ⟨w, hW⟩ := hAl.holds
  have hDg : HoldsV m (diagRow A) (fun i => g i i) := by
    intro i hi
    have hi' : i < A.rows := by simpa [View.size, diagRow, hsq] using hi
    have := h i i (by omega) (by omega) (by simp [InTri])
    beta_reduce
    rw [show g i i = tv upper g i i by unfold tv; split <;> rfl, ← this]
    congr 1
    simp [View.vat, diagRow, View.inc, View.at']
    ring
  have hsz : (diagRow A).size = A.rows := by simp [View.size, diagRow, hsq]
  have hDs : ∀ i, i < A.rows → (⟨b, A.rows, A.rows, 1⟩ : View).vat i = b + i := by
    intro i hi
    simp only [View.vat, View.inc]
    split
    · have : i = 0 := by omega
      subst this; simp
    · simp
  have hfe : (⟨b, A.rows, A.rows, 1⟩ : View).foot ⊆ ival b A.rows := by
    rintro p ⟨i, j, hi, hj, rfl⟩
    simp only at hi hj
    have : j = 0 := by omega
    subst this
    simp [View.at', ival]; omega
  have hdf : (diagRow A).foot ⊆ A.footOn (InTri upper false) := by
    rw [View.foot_vec (Or.inl rfl)]
    rintro p ⟨i, hi, rfl⟩
    rw [hsz] at hi
    refine ⟨i, i, hi, by omega, by simp [InTri], ?_⟩
    simp [View.vat, diagRow, View.inc, View.at']
    ring
  refine (C05_copy (m := m) (Y := ⟨b, A.rows, A.rows, 1⟩) (X := diagRow A) (y := w) (Or.inl (by simp)) (Or.inr rfl) (Or.inl rfl)
    (fun i hi => by
      have hi' : i < A.rows := by simpa [View.size] using hi
      rw [hDs i hi']; exact hW i (by omega) hi') hDg ((dD.mono_left hdf).mono_right hfe)).bind ?_
  rintro ⟨e, m1⟩ ⟨-, h1, f1⟩
  dsimp only at h1 f1 ⊢
  have f1' := f1.mono hfe
  refine (ncolLoop_spec ab hmin hs hw hsq hf h0 dD (t := lb) (k := 0) (Q := Q) (m := m1) (by omega) (by omega)
    ⟨rfl, by simp, by simp, by simp⟩ ?_ ?_ (fun i hi => ⟨_, by
      have := h1 i (by simpa [View.size] using hi)
      rwa [hDs i hi] at this⟩)).mono ?_
  · exact (h.frame f1' dD).congr (fun i j _ _ _ => by
      cases upper <;> simp [tv, cholN, pivM, permM, fwdPerm])
  · intro _ i _ hi
    have := h1 i (by simpa [View.size] using hi)
    rw [hDs i hi] at this
    beta_reduce at this
    rw [if_pos (by omega)] at this
    simpa [schur, pivM, permM, fwdPerm] using this
  · rintro ⟨r, P2, m4⟩ ⟨a1, a2, a3, a4, a5, a6, a7, a8, a9⟩
    dsimp only at a1 a2 a3 a4 a5 a6 a7 a8 a9 ⊢
    exact ⟨by omega, a3.trans hQ, a4, fun p hp => a5 p (Or.inr hp), fun e => a6 (by omega), fun e => a7 (by omega), a8,
      (f1'.mono Set.subset_union_right).trans a9⟩

/-! ## Blocks -/

theorem fwdPerm_stale {N e l : Nat} {ix : Nat → Int} (hel : e ≤ l) (h : ∀ p, e ≤ p → p < l → ix p ≤ 0) :
    fwdPerm N ix l = fwdPerm N ix e := by
  induction l with
  | zero => rw [show e = 0 by omega]
  | succ l ih =>
    by_cases c : e = l + 1
    · rw [c]
    · rw [fwdPerm, ih (by omega) (fun p h1 h2 => h p h1 (by omega))]
      have := h l (by omega) (by omega)
      unfold pivTau
      rw [if_neg (by omega), mul_one]

theorem put_glue {n k e l : Nat} {P Q : Piv} (hn : k + l ≤ n) (he : e ≤ l) :
    Glue n k e P Q (P.put k l ⟨l, fun p => if p < min e l then Q.ix p + k else Q.ix p⟩) := by
  refine ⟨by omega, fun p hp => ?_, fun p hp => ?_⟩
  · unfold Piv.put; simp only; rw [if_neg (by omega)]
  · unfold Piv.put
    simp only
    rw [if_pos (by omega), Nat.add_sub_cancel_left, if_pos (by omega)]

theorem put_rest {k e l : Nat} {P Q : Piv} (hQ : ∀ p, e ≤ p → Q.ix p = P.ix (k + p)) {p : Nat} (hp : k + e ≤ p) :
    (P.put k l ⟨l, fun p => if p < min e l then Q.ix p + k else Q.ix p⟩).ix p = P.ix p := by
  unfold Piv.put
  simp only
  split
  · rw [if_neg (by omega), hQ _ (by omega)]; congr 1; omega
  · rfl

theorem PivInv.glueRange {n k e : Nat} {f : Nat → Nat → ℝ} {xs : ℝ} {N : Nat} {ix : Nat → Int}
    (h : PivInv (n - k) f xs ⟨N, ix⟩ e) : ∀ p, p < e → 1 ≤ ix p ∧ ix p ≤ (n - k : Nat) := h.rel

/-- What is known when the blocked loop returns `x`: `fresh` says that the pivot vector held no pivots before. -/
structure BlkEnd (upper : Bool) (A : View) (f : Nat → Nat → ℝ) (xs : ℝ) (fresh : Prop) (P : Piv) (S : Set Nat) (m : Mem ℝ)
    (x : Nat × Piv × Mem ℝ) : Prop where
  le : x.1 ≤ A.rows
  size : x.2.1.n = A.rows
  keep : ∀ p, x.1 ≤ p → x.2.1.ix p = P.ix p
  fin : fresh ∨ x.1 = A.rows → PivEnd A.rows f xs x.2.1 x.1 ∧
    HoldsOn x.2.2 A (InTri upper false) (tv upper (cholR (pivM A.rows x.2.1 x.1 f) x.1))
  frame : Frame (A.footOn (InTri upper false) ∪ S) m x.2.2

theorem blkCholpvLoop_spec (ab : ℝ → ℝ) {upper : Bool} {env : Env} {c : Cache} (hc : Conf3 env c)
    {fuel : Nat} {A : View} {f : Nat → Nat → ℝ} (hs : ∀ i j, f i j = f j i) (hw : A.WF) (hsq : A.cols = A.rows)
    (hf : 4 * A.rows + 1 < fuel) {xs : ℝ} (h0 : 0 ≤ xs) {wb lb : Nat} (hlb : 0 < lb)
    (dW : Disjoint (A.footOn (InTri upper false)) (ival wb A.rows))
    (dAc : Disjoint (A.footOn (InTri upper false)) c.foot) (dWc : Disjoint (ival wb A.rows) c.foot)
    (hev : upper = true → ∀ q, EvenSplits env c (A.rows - q * lb) { upper := true, transA := true }) {P0 : Piv} :
    ∀ {s q k : Nat} {P : Piv} {m : Mem ℝ}, k = q * lb → k < A.rows → A.rows - k < s → PivInv A.rows f xs P k →
    (∀ p, k ≤ p → P.ix p = P0.ix p) →
    HoldsOn m A (InTri upper false) (tv upper (cholV (pivM A.rows P k f) k)) → AllocW m wb A.rows → c.Ready m →
    Runs (blkCholpvLoop Real.sqrt ab upper env fuel A wb xs lb (some c) s k P m)
      (BlkEnd upper A f xs (∀ p, p < A.rows → P0.ix p ≤ 0) P0 (ival wb A.rows ∪ c.foot) m) := by
  intro s
  induction s with
  | zero => intro q k P m _ _ h; omega
  | succ s ih =>
    intro q k P m hq hk hsteps hP hP0 h hAl R
    unfold blkCholpvLoop
    have hsF : ∀ i j, pivM A.rows P k f i j = pivM A.rows P k f j i := permM_symm hs _
    have hsg : ∀ i j, rest (pivM A.rows P k f) k i j = rest (pivM A.rows P k f) k j i :=
      fun i j => schur_symm hsF _ _ _
    have hlocal : HoldsOn m (A.sub k k (A.rows - k) (A.cols - k)) (InTri upper false)
        (tv upper (rest (pivM A.rows P k f) k)) := by
      have u0 := UpdX.init h (fun _ _ => 0) ∅
      refine (u0.part_old (r := k) (c := k) (nr := A.rows - k) (nc := A.cols - k) (U := InTri upper false) (by omega)
        (by omega) (by cases upper <;> simp [InTri])).congr (fun i j _ _ _ => ?_)
      cases upper
      · simp only [tv, Bool.false_eq_true, if_false, cholV]; rw [if_neg (by omega)]; rfl
      · simp only [tv, if_true, cholV]; rw [if_neg (by omega)]; rfl
    have hsubf : (A.sub k k (A.rows - k) (A.cols - k)).footOn (InTri upper false) ⊆ A.footOn (InTri upper false) :=
      View.footOn_sub (by omega) (by omega) (by cases upper <;> simp [InTri])
    by_cases hlt : A.rows - k > lb
    · rw [if_pos hlt]
      refine (unblkCholpvNcol_spec ab (hc.min2.elim (fun h => Or.inl (by omega)) (fun h => Or.inl h.2)) (A := A.sub k k (A.rows - k) (A.cols - k)) hsg
        (hw.sub (by omega) (by omega)) (by simp; omega) (by rw [View.sub_rows]; omega) h0 (b := wb)
        (by rw [View.sub_rows]; exact (dW.mono_left hsubf).mono_right (ival_le (by omega)))
        (lb := lb) (Q := P.sub k lb) (by rw [View.sub_rows]; omega) rfl hlocal
        (by rw [View.sub_rows]; exact hAl.le (by omega))).bind ?_
      rintro ⟨e, Q, m1⟩ ⟨b1, b2, b3, b4, b5, b6, b7, b8⟩
      rw [View.sub_rows] at b3 b5 b6 b7 b8
      dsimp only at b1 b2 b3 b4 b5 b6 b7 b8 ⊢
      obtain ⟨l, ix⟩ := Q
      dsimp only at b2
      subst b2
      have hle : k + l ≤ A.rows := by omega
      have G := put_glue (n := A.rows) (e := e) (P := P) (Q := ⟨A.rows - k, ix⟩) hle b1
      have hr := b3.rel
      have hb4 : ∀ p, e ≤ p → ix p = P.ix (k + p) := b4
      have hkeep := fun p (hp : k + e ≤ p) => put_rest (l := l) (Q := ⟨A.rows - k, ix⟩) hb4 hp
      generalize hP' : P.put k l ⟨l, fun p => if p < min e l then ix p + k else ix p⟩ = P' at *
      have hPn : P'.n = A.rows := by rw [← hP']; exact hP.size
      have hAl1 : AllocW m1 wb A.rows := by
        intro i hi
        by_cases hik : i < A.rows - k
        · exact b7 i hik
        · obtain ⟨x, hx⟩ := hAl i hi
          refine ⟨x, ?_⟩
          rw [b8 _ ?_]
          · exact hx
          · rintro (hS | ⟨hS1, hS2⟩)
            · exact Set.disjoint_left.mp dW (hsubf hS) ⟨by omega, by omega⟩
            · omega
      have f8 : Frame ((A.sub k k (A.rows - k) (A.cols - k)).footOn (InTri upper false) ∪ ival wb A.rows) m m1 :=
        b8.mono (Set.union_subset_union_right _ (ival_le (by omega)))
      by_cases he : e = l
      · have b5 := b5 he
        refine (cholpvApply_spec (S := ival wb A.rows) (Q := ⟨l, ix⟩) (P := P) (e := e) hw hsq (by omega)
          (by simp only; omega) dW h b5 f8).bind ?_
        rintro ⟨P2, m2⟩ ⟨c1, c2, c3, c4⟩
        dsimp only at c1 c2 c3 c4 ⊢
        rw [hP'] at c1
        subst c1
        subst he
        rw [if_neg (not_not.mpr rfl)]
        have hAl2 : AllocW m2 wb A.rows := hAl1.frame c4 dW
        have R2 : c.Ready m2 := R.frame c3 (Set.disjoint_union_right.mpr ⟨dAc.symm, dWc.symm⟩)
        have hI : PivInv A.rows f xs P2 (k + e) := G.inv hP b3 hPn
        have hpos : ∀ p, p < k + e → 0 < schur (pivM A.rows P2 (k + e) f) p p p := fun p hp =>
          lt_of_le_of_lt h0 (hI.above p hp)
        have hsF' : ∀ i j, pivM A.rows P2 (k + e) f i j = pivM A.rows P2 (k + e) f j i := permM_symm hs _
        have c2' : HoldsOn m2 A (InTri upper false) (tv upper (fun i j => if j < k + e then
            cholF (pivM A.rows P2 (k + e) f) i j else schur (pivM A.rows P2 (k + e) f) k i j)) := by
          refine c2.congr (fun i j hi hj ht => ?_)
          have key : ∀ i j, j ≤ i → (if j < k then cholF (pivM A.rows P k f) (shf k (fwdPerm (A.rows - k) ix e) i) j
              else cholN (pivM (A.rows - k) ⟨e, ix⟩ e (rest (pivM A.rows P k f) k)) e (i - k) (j - k)) =
              if j < k + e then cholF (pivM A.rows P2 (k + e) f) i j else schur (pivM A.rows P2 (k + e) f) k i j := by
            intro i j hij
            by_cases c1 : j < k
            · rw [if_pos c1, if_pos (by omega), G.cholF_lo hr c1]
            · have g1 := G.cholF_hi (f := f) hr (i - k) (j - k)
              have g2 := G.schur_hi (f := f) hr 0 (i - k) (j - k)
              rw [show k + (i - k) = i by omega, show k + (j - k) = j by omega] at g1 g2
              rw [if_neg c1, cholN]
              by_cases c2 : j < k + e
              · rw [if_pos (by omega), if_pos c2, g1]; rfl
              · rw [if_neg (by omega), if_neg c2]
                rw [Nat.add_zero] at g2
                rw [g2]; rfl
          simp [InTri] at ht
          cases upper
          · simp at ht; exact key i j ht
          · simp at ht; exact key j i ht
        have u0 := UpdX.init c2' (tv upper (cholV (pivM A.rows P2 (k + e) f) (k + e))) c.foot
        have hval : ∀ i j, 1 * schur (pivM A.rows P2 (k + e) f) k (k + e + i) (k + e + j) + -1 * ∑ p ∈ range e,
            cholF (pivM A.rows P2 (k + e) f) (k + e + i) (k + p) * cholF (pivM A.rows P2 (k + e) f) (k + e + j) (k + p) =
            schur (pivM A.rows P2 (k + e) f) (k + e) (k + e + i) (k + e + j) := by
          intro i j
          rw [cholF_sum hsF' (Nat.le_add_right k e) hpos, Finset.sum_Ico_eq_sum_range, Nat.add_sub_cancel_left]
          ring
        have hupd : Runs (if upper then
            updateSym ab env fuel m2 1 (A.sub (k + e) (k + e) (A.rows - k - e) (A.cols - k - e)) (-1)
              (A.sub k (k + e) e (A.cols - k - e)) { upper := true, transA := true } (some c)
          else updateSym ab env fuel m2 1 (A.sub (k + e) (k + e) (A.rows - k - e) (A.cols - k - e)) (-1)
              (A.sub (k + e) k (A.rows - k - e) e) { lower := true } (some c)) (fun r =>
              HoldsOn r.2 A (InTri upper false) (tv upper (cholV (pivM A.rows P2 (k + e) f) (k + e))) ∧
              Frame (A.footOn (InTri upper false) ∪ c.foot) m2 r.2 ∧ c.Ready r.2) := by
          rw [hsq]
          cases upper
          · simp only [Bool.false_eq_true, if_false]
            have s3 := C21_update_sym_partial ab hc.min2 (c := c) (m := m2)
              (C := A.sub (k + e) (k + e) (A.rows - k - e) (A.rows - k - e))
              (A := A.sub (k + e) k (A.rows - k - e) e) (1 : ℝ) (-1) (fl := { lower := true }) (fuel := fuel)
              (hw.sub (by omega) (by omega)) rfl rfl hlb R2
              (u0.block_old (by omega) (by omega) (by simp [InTri]; omega))
              (u0.part_old (by omega) (by omega) (by simp [InTri]))
              (dAc.mono_left (View.foot_sub_footOn (by omega) (by omega) (by simp [InTri]; omega)))
              (dAc.mono_left (View.footOn_sub (by omega) (by omega) (by simp [InTri])))
              ((View.sub_disj hw (by omega) (by omega) (by omega) (by omega) (by omega)).mono_right
                (View.footOn_sub_foot _ _)) (Or.inl rfl) (by rw [View.sub_rows]; omega)
            refine s3.mono ?_
            rintro ⟨e3, m3⟩ ⟨-, h3, f3, R3⟩
            dsimp only at h3 f3 R3 ⊢
            have u1 := u0.sub hw dAc (r := k + e) (c := k + e) (nr := A.rows - k - e) (nc := A.rows - k - e)
              (by omega) (by omega) (by simp [InTri]) (m' := m3) (h3.congr (fun i j hi hj _ => by
                simp only [tv, Bool.false_eq_true, if_false, View.sub_cols]
                rw [if_neg (by omega), cholV, if_neg (by omega), ← hval]
                congr 2
                refine Finset.sum_congr rfl (fun p hp' => ?_)
                have := Finset.mem_range.mp hp'
                rw [if_pos (by omega), if_pos (by omega)])) f3
            refine ⟨u1.fin (fun i j hi hj ht hS => ?_), u1.frame, R3⟩
            simp [InTri] at ht hS
            simp only [tv, Bool.false_eq_true, if_false, cholV]
            rw [if_pos (by omega), if_pos (by omega)]
          · simp only [if_true]
            have s3 := C21_update_sym_partial ab hc.min2 (c := c) (m := m2)
              (C := A.sub (k + e) (k + e) (A.rows - k - e) (A.rows - k - e))
              (A := A.sub k (k + e) e (A.rows - k - e)) (1 : ℝ) (-1) (fl := { upper := true, transA := true }) (fuel := fuel)
              (hw.sub (by omega) (by omega)) rfl rfl hlb R2
              (u0.block_old (by omega) (by omega) (by simp [InTri]; omega))
              (u0.part_old (by omega) (by omega) (by simp [InTri]))
              (dAc.mono_left (View.foot_sub_footOn (by omega) (by omega) (by simp [InTri]; omega)))
              (dAc.mono_left (View.footOn_sub (by omega) (by omega) (by simp [InTri])))
              ((View.sub_disj hw (by omega) (by omega) (by omega) (by omega) (by omega)).mono_right
                (View.footOn_sub_foot _ _)) (by
                  have := hev rfl (q + 1)
                  rwa [Nat.add_mul, one_mul, ← hq, ← Nat.sub_sub] at this) (by rw [View.sub_rows]; omega)
            refine s3.mono ?_
            rintro ⟨e3, m3⟩ ⟨-, h3, f3, R3⟩
            dsimp only at h3 f3 R3 ⊢
            have u1 := u0.sub hw dAc (r := k + e) (c := k + e) (nr := A.rows - k - e) (nc := A.rows - k - e)
              (by omega) (by omega) (by simp [InTri]) (m' := m3) (h3.congr (fun i j hi hj _ => by
                simp only [tv, if_true, View.sub_rows]
                rw [if_neg (by omega), cholV, if_neg (by omega), ← hval]
                congr 2
                refine Finset.sum_congr rfl (fun p hp' => ?_)
                have := Finset.mem_range.mp hp'
                rw [if_pos (by omega), if_pos (by omega), mul_comm])) f3
            refine ⟨u1.fin (fun i j hi hj ht hS => ?_), u1.frame, R3⟩
            simp [InTri] at ht hS
            simp only [tv, if_true, cholV]
            rw [if_pos (by omega), if_pos (by omega)]
        refine hupd.bind ?_
        rintro ⟨e3, m3⟩ ⟨h3, f3, R3⟩
        dsimp only at h3 f3 R3 ⊢
        refine (ih (q := q + 1) (by rw [hq]; ring) (by omega) (by omega) hI (fun p hp => by
          rw [hkeep p hp, hP0 p (by omega)]) h3 (hAl2.frame f3 (Set.disjoint_union_left.mpr ⟨dW, dWc.symm⟩)) R3).mono ?_
        rintro x ⟨x1, x2, x3, x4, x5⟩
        refine ⟨x1, x2, x3, x4, ?_⟩
        refine (c3.mono ?_).trans ((f3.mono ?_).trans x5)
        · exact Set.union_subset_union_right _ Set.subset_union_left
        · exact Set.union_subset_union_right _ Set.subset_union_right
      · have hel : e < l := by omega
        obtain ⟨b6, b6'⟩ := b6 hel
        refine (cholpvApply_spec (S := ival wb A.rows) (Q := ⟨l, ix⟩) (P := P) (e := e) hw hsq (by omega)
          (by simp only; omega) dW h b6' f8).bind ?_
        rintro ⟨P2, m2⟩ ⟨c1, c2, c3, c4⟩
        dsimp only at c1 c2 c3 c4 ⊢
        rw [hP'] at c1
        subst c1
        rw [if_pos he]
        refine Runs.pure ⟨by dsimp only; omega, hPn, fun p hp => ?_, fun hfr => ?_,
          c3.mono (Set.union_subset_union_right _ Set.subset_union_left)⟩
        · dsimp only at hp
          rw [hkeep p (by omega), hP0 p (by omega)]
        · have hfr : ∀ p, p < A.rows → P0.ix p ≤ 0 := hfr.resolve_right (by dsimp only; omega)
          dsimp only
          rw [Nat.add_comm e k]
          refine ⟨G.fin hP b6 hPn, c2.congr (fun i j hi hj ht => ?_)⟩
          rw [fwdPerm_stale (e := e) (by omega) (fun p h1 h2 => by
            rw [hb4 p h1, hP0 _ (by omega)]; exact hfr _ (by omega))]
          simp [InTri] at ht
          cases upper
          · simp at ht; exact (G.cholR hr ht).symm
          · simp at ht; exact (G.cholR hr ht).symm
    · rw [if_neg hlt, if_pos (by omega)]
      unfold unblkCholpv
      rw [View.sub_rows, View.sub_cols, hsq, min_self]
      have hB : A.sub k k (A.rows - k) (A.cols - k) = A.sub k k (A.rows - k) (A.rows - k) := by rw [hsq]
      rw [hB] at hlocal hsubf
      have hloop := cholpvLoop_spec (upper := upper) (env := env) hc.hrec (fuel := fuel) (A := A.sub k k (A.rows - k) (A.rows - k))
        hsg (hw.sub (by omega) (by omega)) (by simp) (by rw [View.sub_rows]; omega) h0 (t := A.rows - k) (k := 0)
        (P := P.sub k (P.n - k)) (m := m) (by simp) ⟨by simp [Piv.sub, hP.size], by simp, by simp, by simp⟩
        (hlocal.congr (fun i j _ _ _ => by
          cases upper <;> simp [tv, cholV, schur, pivM, permM, fwdPerm]))
      refine hloop.bind ?_
      rintro ⟨e, Q, m1⟩ ⟨-, b2, b3, b4, b5⟩
      rw [View.sub_rows] at b2 b4
      dsimp only at b2 b3 b4 b5 ⊢
      obtain ⟨l, ix⟩ := Q
      have hl : l = A.rows - k := b2.inv.size
      subst hl
      have hle : k + (A.rows - k) ≤ A.rows := by omega
      have hel := b2.le
      have G := put_glue (n := A.rows) (e := e) (P := P) (Q := ⟨A.rows - k, ix⟩) hle hel
      have hr := b2.inv.rel
      have hb4 : ∀ p, e ≤ p → ix p = P.ix (k + p) := fun p hp => b3 p (Or.inr hp)
      have hkeep := fun p (hp : k + e ≤ p) => put_rest (l := A.rows - k) (Q := ⟨A.rows - k, ix⟩) hb4 hp
      generalize hP' : P.put k (A.rows - k) ⟨A.rows - k, fun p => if p < min e (A.rows - k) then ix p + k else ix p⟩ = P' at *
      have hPn : P'.n = A.rows := by rw [← hP']; exact hP.size
      refine (cholpvApply_spec (S := ival wb A.rows) (Q := ⟨A.rows - k, ix⟩) (P := P) (e := e) hw hsq (by omega)
        (le_refl _) dW h (by rw [hB]; exact b4) (by rw [hB]; exact HoldsOn.weaken_frame b5)).bind ?_
      rintro ⟨P2, m2⟩ ⟨c1, c2, c3, c4⟩
      dsimp only at c1 c2 c3 c4 ⊢
      rw [hP'] at c1
      subst c1
      have fin : BlkEnd upper A f xs (∀ p, p < A.rows → P0.ix p ≤ 0) P0 (ival wb A.rows ∪ c.foot) m (e + k, P2, m2) := by
        refine ⟨by dsimp only; omega, hPn, fun p hp => ?_, fun hfr => ?_,
          c3.mono (Set.union_subset_union_right _ Set.subset_union_left)⟩
        · dsimp only at hp
          rw [hkeep p (by omega), hP0 p (by omega)]
        · dsimp only at hfr ⊢
          rw [Nat.add_comm e k]
          refine ⟨G.fin hP b2 hPn, c2.congr (fun i j hi hj ht => ?_)⟩
          rw [fwdPerm_stale (e := e) (by omega) (fun p h1 h2 => by
            rw [hb4 p h1, hP0 _ (by omega)]
            rcases hfr with h | h
            · exact h _ (by omega)
            · omega)]
          simp [InTri] at ht
          cases upper
          · simp at ht; exact (G.cholR hr ht).symm
          · simp at ht; exact (G.cholR hr ht).symm
      by_cases he : e = A.rows - k
      · rw [if_neg (not_not.mpr he)]
        rw [show e + k = A.rows by omega] at fin
        exact Runs.pure fin
      · rw [if_pos he]
        exact Runs.pure fin

end Armas
