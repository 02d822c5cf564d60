import Verif.ESymLemmas
import Verif.Logic

/-! # Runs of the extended-precision triangular and symmetric matrix-vector functions -/

namespace Armas
open Finset

/-- Memory while the vector `X` is overwritten. -/
structure XSt (m0 : Mem ℚ) (X : View) (v : Nat → ℚ) (m : Mem ℚ) : Prop where
  hX : HoldsV m X v
  frame : Frame X.foot m0 m

theorem XSt.put {m0 : Mem ℚ} {X : View} {v : Nat → ℚ} {m : Mem ℚ} (h : XSt m0 X v m) (vX : X.isVec)
    (wX : X.WF) {i : Nat} (hi : i < X.size) (z : ℚ) :
    XSt m0 X (fun l => if l = i then z else v l) (m.set (X.vat i) z) :=
  ⟨h.hX.write vX wX hi z, h.frame.trans (Frame.set (View.vat_mem_foot vX hi) z)⟩

/-- The exact value of an element of the triangular product, before the scaling. -/
def trowT (unit : Bool) (c x : Nat → ℚ) (lo hi i : Nat) : ℚ :=
  (if unit then x i else 0) + ∑ j ∈ Ico lo hi, c j * x j

/-- The sum of the sizes of its terms. -/
def trowS (unit : Bool) (c x : Nat → ℚ) (lo hi i : Nat) : ℚ :=
  (if unit then |x i| else 0) + ∑ j ∈ Ico lo hi, |c j * x j|

/-- The bound on an element of the product. -/
def TrowOk (p N : Nat) (alpha T S z : ℚ) : Prop :=
  |z - alpha * T| ≤ gr (uround p) 2 * |alpha * T| +
    gr (uround p) (N + 3) * gr (uround p) (N + 2) * (|alpha| * S)

section
variable {p : Nat} {rn : ℚ → ℚ} {tp : ℚ → ℚ → ℚ × ℚ} (hp : 0 < p) (R : Nearest p rn)
include hp R

theorem etrmvStep_spec (P : ProdOk p rn tp) {m0 m : Mem ℚ} {X : View} {v : Nat → ℚ} {N : Nat}
    (vX : X.isVec) (wX : X.WF) (nX : X.size = N) (h : XSt m0 X v m) {at' : Nat → Nat} {c : Nat → ℚ}
    {unit : Bool} {lo hi i : Nat} {alpha : ℚ} (hi' : i < N) (hle : lo ≤ hi) (hhi : hi ≤ N)
    (hc : ∀ j, lo ≤ j → j < hi → m0 (at' j) = some (c j) ∧ at' j ∉ X.foot ∧ Fl p (c j))
    (hx : ∀ j, lo ≤ j → j < hi → Fl p (v j)) (hxi : Fl p (v i)) (fal : Fl p alpha) :
    Runs (etrmvStep rn tp X alpha unit at' lo hi i m) (fun m' => ∃ z,
      XSt m0 X (fun l => if l = i then z else v l) m' ∧
      TrowOk p N alpha (trowT unit c v lo hi i) (trowS unit c v lo hi i) z) := by
  have hu := (uround_pos p).le
  unfold etrmvStep
  refine Runs.rd_bind (h.hX i (by omega)) ?_
  have h0 : Acc p (0 + 1) (if unit then v i else 0) (if unit then |v i| else 0)
      (if unit then v i else 0, 0) := by
    cases unit with
    | true =>
      exact ⟨hxi, 0, 0, (Sm.val (v i)).mono hu (by omega), Cr.zero hu _⟩
    | false => exact Acc.zero p _
  refine Runs.bind (edotLoop_spec (a := c) (x := v) hp R P hle h0 (fun j h1 h2 => ?_)
    (fun j h1 h2 => h.hX j (by omega)) (fun j h1 h2 => (hc j h1 h2).2.2) hx) ?_
  · obtain ⟨e1, e2, _⟩ := hc j h1 h2
    rw [h.frame _ e2, e1]
  · intro su hsu
    refine Runs.wr (h.hX i (by omega)) ⟨_, h.put vX wX (by omega) _, ?_⟩
    exact etrmvVal_err hp R P (hsu.mono (show 0 + 1 + (hi - lo) ≤ N + 1 by omega)) fal

theorem trow_congr {unit : Bool} {c x v : Nat → ℚ} {lo hi i : Nat} (hi' : v i = x i)
    (h : ∀ j, lo ≤ j → j < hi → v j = x j) :
    trowT unit c v lo hi i = trowT unit c x lo hi i ∧ trowS unit c v lo hi i = trowS unit c x lo hi i := by
  unfold trowT trowS
  have e1 : ∑ j ∈ Ico lo hi, c j * v j = ∑ j ∈ Ico lo hi, c j * x j :=
    sum_congr rfl (fun j hj => by rw [h j (mem_Ico.1 hj).1 (mem_Ico.1 hj).2])
  have e2 : ∑ j ∈ Ico lo hi, |c j * v j| = ∑ j ∈ Ico lo hi, |c j * x j| :=
    sum_congr rfl (fun j hj => by rw [h j (mem_Ico.1 hj).1 (mem_Ico.1 hj).2])
  rw [e1, e2, hi']
  exact ⟨rfl, rfl⟩

/-- The ascending loops. -/
theorem etrmv_up (P : ProdOk p rn tp) {m : Mem ℚ} {X : View} {x : Nat → ℚ} {N : Nat}
    (vX : X.isVec) (wX : X.WF) (nX : X.size = N) (hx : HoldsV m X x) {at' : Nat → Nat → Nat}
    {c : Nat → Nat → ℚ} {unit : Bool} {lo : Nat → Nat} {alpha : ℚ}
    (hlo : ∀ i, i < N → i ≤ lo i ∧ lo i ≤ N)
    (hc : ∀ i j, i < N → lo i ≤ j → j < N →
      m (at' i j) = some (c i j) ∧ at' i j ∉ X.foot ∧ Fl p (c i j))
    (fx : ∀ j, j < N → Fl p (x j)) (fal : Fl p alpha) :
    Runs (do
      let (_, m) ← forUp 0 N 1 (fun i m => etrmvStep rn tp X alpha unit (at' i) (lo i) N i m) m
      pure m) (fun m' => ∃ v, XSt m X v m' ∧ ∀ i, i < N →
        TrowOk p N alpha (trowT unit (c i) x (lo i) N i) (trowS unit (c i) x (lo i) N i) (v i)) := by
  refine Runs.bind (P := fun q : Nat × Mem ℚ => ∃ v, XSt m X v q.2 ∧ ∀ i, i < N →
        TrowOk p N alpha (trowT unit (c i) x (lo i) N i) (trowS unit (c i) x (lo i) N i) (v i))
    (Runs.forUp1 (fun i m' => ∃ v, XSt m X v m' ∧ (∀ k, k < i →
        TrowOk p N alpha (trowT unit (c k) x (lo k) N k) (trowS unit (c k) x (lo k) N k) (v k)) ∧
        ∀ k, i ≤ k → v k = x k) (by omega) ?_ ?_ ?_) ?_
  · exact ⟨x, ⟨hx, Frame.refl _ _⟩, fun k hk => by omega, fun _ _ => rfl⟩
  · rintro i m' - hi ⟨v, h1, h2, h3⟩
    obtain ⟨l1, l2⟩ := hlo i hi
    have hst := etrmvStep_spec (unit := unit) hp R P vX wX nX h1 hi l2 le_rfl (hc i · hi)
      (fun j k1 k2 => by rw [h3 j (by omega)]; exact fx j k2) (by rw [h3 i le_rfl]; exact fx i hi) fal
    refine Runs.mono hst ?_
    rintro m2 ⟨z, g1, g2⟩
    obtain ⟨e1, e2⟩ := trow_congr hp R (unit := unit) (c := c i) (h3 i le_rfl)
      (lo := lo i) (hi := N) (fun j k1 _ => h3 j (by omega))
    rw [e1, e2] at g2
    refine ⟨_, g1, fun k hk => ?_, fun k hk => ?_⟩
    · beta_reduce
      by_cases hki : k = i
      · subst hki; rw [if_pos rfl]; exact g2
      · rw [if_neg hki]; exact h2 k (by omega)
    · beta_reduce; rw [if_neg (by omega)]; exact h3 k (by omega)
  · rintro m' ⟨v, h1, h2, _⟩
    exact ⟨v, h1, h2⟩
  · rintro ⟨_, m'⟩ h
    exact Runs.pure h

/-- The descending loops. -/
theorem etrmv_down (P : ProdOk p rn tp) {m : Mem ℚ} {X : View} {x : Nat → ℚ} {N : Nat}
    (vX : X.isVec) (wX : X.WF) (nX : X.size = N) (hx : HoldsV m X x) {at' : Nat → Nat → Nat}
    {c : Nat → Nat → ℚ} {unit : Bool} {hi : Nat → Nat} {alpha : ℚ}
    (hhi : ∀ i, i < N → hi i ≤ i + 1)
    (hc : ∀ i j, i < N → j < hi i →
      m (at' i j) = some (c i j) ∧ at' i j ∉ X.foot ∧ Fl p (c i j))
    (fx : ∀ j, j < N → Fl p (x j)) (fal : Fl p alpha) :
    Runs (forDown N (fun i m => etrmvStep rn tp X alpha unit (at' i) 0 (hi i) i m) m)
      (fun m' => ∃ v, XSt m X v m' ∧ ∀ i, i < N →
        TrowOk p N alpha (trowT unit (c i) x 0 (hi i) i) (trowS unit (c i) x 0 (hi i) i) (v i)) := by
  refine Runs.forDown (fun i m' => ∃ v, XSt m X v m' ∧ (∀ k, i ≤ k → k < N →
        TrowOk p N alpha (trowT unit (c k) x 0 (hi k) k) (trowS unit (c k) x 0 (hi k) k) (v k)) ∧
        ∀ k, k < i → v k = x k) ?_ ?_ ?_
  · exact ⟨x, ⟨hx, Frame.refl _ _⟩, fun k hk _ => by omega, fun _ _ => rfl⟩
  · rintro i m' hi' ⟨v, h1, h2, h3⟩
    have l1 := hhi i hi'
    have hst := etrmvStep_spec (unit := unit) hp R P vX wX nX h1 hi' (Nat.zero_le (hi i)) (by omega)
      (fun j _ k2 => hc i j hi' k2)
      (fun j k1 k2 => by rw [h3 j (by omega)]; exact fx j (by omega))
      (by rw [h3 i (by omega)]; exact fx i hi') fal
    refine Runs.mono hst ?_
    rintro m2 ⟨z, g1, g2⟩
    obtain ⟨e1, e2⟩ := trow_congr hp R (unit := unit) (c := c i) (h3 i (by omega))
      (fun j (_ : 0 ≤ j) (k2 : j < hi i) => h3 j (by omega))
    rw [e1, e2] at g2
    refine ⟨_, g1, fun k hk hk' => ?_, fun k hk => ?_⟩
    · beta_reduce
      by_cases hki : k = i
      · subst hki; rw [if_pos rfl]; exact g2
      · rw [if_neg hki]; exact h2 k (by omega) hk'
    · beta_reduce; rw [if_neg (by omega)]; exact h3 k (by omega)
  · rintro m' ⟨v, h1, h2, _⟩
    exact ⟨v, h1, fun k hk => h2 k (by omega) hk⟩

/-- The symmetric product: `s` is the full matrix. -/
theorem extMvmultSymUnsafe_spec (P : ProdOk p rn tp) {m : Mem ℚ} {X Y A : View} {x y : Nat → ℚ}
    {a s : Nat → Nat → ℚ} {N : Nat} {alpha beta : ℚ} {fl : Flags}
    (rA : A.rows = N) (cA : A.cols = N) (nX : X.size = N) (nY : Y.size = N)
    (vX : X.isVec) (vY : Y.isVec) (wY : Y.WF)
    (hA : Holds m A a) (hX : HoldsV m X x) (hY : HoldsV m Y y)
    (dA : Disjoint A.foot Y.foot) (dX : Disjoint X.foot Y.foot)
    (fa : ∀ i j, i < N → j < N → Fl p (a i j)) (fx : ∀ j, j < N → Fl p (x j))
    (fy : ∀ j, j < N → Fl p (y j)) (fal : Fl p alpha) (fbe : Fl p beta)
    (hs1 : ∀ i j, j < i → i < N → s i j = if fl.lower then a i j else a j i)
    (hs2 : ∀ i j, i ≤ j → j < N → s i j = if fl.lower then a j i else a i j) :
    Runs (extMvmultSymUnsafe rn tp m beta Y alpha A X fl) (fun m' => ∃ v, XSt m Y v m' ∧ ∀ i, i < N →
      |v i - (beta * y i + alpha * ∑ j ∈ range N, s i j * x j)| ≤
        gr (uround p) 4 * (|beta * y i| + |alpha * ∑ j ∈ range N, s i j * x j|) +
        gr (uround p) (N + 5) * gr (uround p) (N + 1) * (|alpha| * ∑ j ∈ range N, |s i j * x j|)) := by
  unfold extMvmultSymUnsafe
  dsimp only
  rw [nY]
  refine Runs.bind (P := fun q : Nat × Mem ℚ => ∃ v, XSt m Y v q.2 ∧ ∀ i, i < N →
      |v i - (beta * y i + alpha * ∑ j ∈ range N, s i j * x j)| ≤
        gr (uround p) 4 * (|beta * y i| + |alpha * ∑ j ∈ range N, s i j * x j|) +
        gr (uround p) (N + 5) * gr (uround p) (N + 1) * (|alpha| * ∑ j ∈ range N, |s i j * x j|))
    (Runs.forUp1 (fun i m' => ∃ v, XSt m Y v m' ∧ (∀ k, k < i →
      |v k - (beta * y k + alpha * ∑ j ∈ range N, s k j * x j)| ≤
        gr (uround p) 4 * (|beta * y k| + |alpha * ∑ j ∈ range N, s k j * x j|) +
        gr (uround p) (N + 5) * gr (uround p) (N + 1) * (|alpha| * ∑ j ∈ range N, |s k j * x j|)) ∧
        ∀ k, i ≤ k → v k = y k) (by omega) ?_ ?_ ?_) ?_
  · exact ⟨y, ⟨hY, Frame.refl _ _⟩, fun k hk => by omega, fun _ _ => rfl⟩
  · rintro i m' - hi ⟨v, h1, h2, h3⟩
    have hA' := hA.frame h1.frame dA
    have hX' := hX.frame vX h1.frame dX
    have fs : ∀ j, j < N → Fl p (s i j) := by
      intro j hj
      by_cases h : j < i
      · rw [hs1 i j h hi]; split
        · exact fa i j hi hj
        · exact fa j i hj hi
      · rw [hs2 i j (by omega) hj]; split
        · exact fa j i hj hi
        · exact fa i j hi hj
    have cell : ∀ k l, k < N → l < N → m' (A.at' k l) = some (a k l) := fun k l hk hl =>
      hA' k l (by omega) (by omega)
    refine Runs.bind (edotLoop_spec (a := s i) (x := x) (k := 0) hp R P (Nat.zero_le i) (Acc.zero p 1)
      (fun j _ h => ?_) (fun j _ h => hX' j (by omega)) (fun j _ h => fs j (by omega))
      (fun j _ h => fx j (by omega))) ?_
    · rw [hs1 i j h hi]
      split
      · exact cell i j hi (by omega)
      · exact cell j i (by omega) hi
    intro ys hys
    refine Runs.bind (edotLoop_spec (a := s i) (x := x) (k := i) hp R P hi.le (hys.mono (by omega))
      (fun j h' h => ?_) (fun j _ h => hX' j (by omega)) (fun j _ h => fs j (by omega))
      (fun j _ h => fx j (by omega))) ?_
    · rw [hs2 i j h' h]
      split
      · exact cell j i h hi
      · exact cell i j hi h
    intro zs hzs
    have hv : v i = y i := h3 i le_rfl
    refine Runs.rd_bind (h1.hX i (by omega)) (Runs.wr (h1.hX i (by omega)) ?_)
    rw [hv]
    rw [zero_add, zero_add, ← range_eq_Ico, sum_range_add_sum_Ico _ hi.le, sum_range_add_sum_Ico _ hi.le]
      at hzs
    have he := esymvVal_err hp R P (hzs.mono (show i + 1 + (N - i) ≤ N + 1 by omega)) fal fbe (fy i hi)
    refine ⟨_, h1.put vY wY (by omega) _, fun k hk => ?_, fun k hk => ?_⟩
    · beta_reduce
      by_cases hki : k = i
      · subst hki; rw [if_pos rfl]; exact he
      · rw [if_neg hki]; exact h2 k (by omega)
    · beta_reduce; rw [if_neg (by omega)]; exact h3 k (by omega)
  · rintro m' ⟨v, h1, h2, _⟩
    exact ⟨v, h1, h2⟩
  · rintro ⟨_, m'⟩ h
    exact Runs.pure h

end

/-- The rank two update: whatever the flags, it changes the upper triangle. -/
theorem extMvupdate2SymUnsafe_spec (rn : ℚ → ℚ) (tp : ℚ → ℚ → ℚ × ℚ) {m : Mem ℚ} {X Y A : View}
    {x y : Nat → ℚ} {a : Nat → Nat → ℚ} {N : Nat} (alpha beta : ℚ) (fl : Flags)
    (rA : A.rows = N) (cA : A.cols = N) (nX : X.size = N) (nY : Y.size = N) (wA : A.WF)
    (vX : X.isVec) (vY : Y.isVec) (hA : Holds m A a) (hX : HoldsV m X x) (hY : HoldsV m Y y)
    (dX : Disjoint X.foot A.foot) (dY : Disjoint Y.foot A.foot) :
    Runs (extMvupdate2SymUnsafe rn tp m beta A alpha X Y fl) (Upd m A a
      (fun i j => esyr2Val rn tp beta (a i j) alpha (x i) (y j) (x j) (y i)) (fun i j => i ≤ j)) := by
  set g := fun i j => esyr2Val rn tp beta (a i j) alpha (x i) (y j) (x j) (y i)
  have step : ∀ (S : Nat → Nat → Prop) (m' : Mem ℚ) (i j : Nat), i < N → j < N → ¬ S i j →
      Upd m A a g S m' → Runs (esyr2Step rn tp beta A alpha X Y i j m')
        (Upd m A a g (fun p q => S p q ∨ (p = i ∧ q = j))) := by
    intro S m' i j hi hj hS hU
    have hX' := hU.other hX vX dX
    have hY' := hU.other hY vY dY
    have hc := hU.old (i := i) (j := j) (by omega) (by omega) hS
    unfold esyr2Step
    refine Runs.rd_bind (hX' i (by omega)) (Runs.rd_bind (hY' j (by omega)) (Runs.rd_bind
      (hX' j (by omega)) (Runs.rd_bind (hY' i (by omega)) (Runs.rd_bind hc (Runs.wr hc ?_)))))
    exact hU.set wA (by omega) (by omega) rfl
  unfold extMvupdate2SymUnsafe
  rw [rA, cA]
  refine Runs.bind (P := fun q : Nat × Mem ℚ => Upd m A a g (fun i j => i ≤ j) q.2) ?_
    (fun q hq => Runs.pure hq)
  split_ifs
  · refine Runs.forUp1 (fun i m' => Upd m A a g (fun k l => k < i ∧ k ≤ l) m') (by omega) ?_ ?_ ?_
    · exact (Upd.init hA g).congr (by intros; simp)
    · intro i m1 _ hi hU
      refine Runs.bind (P := fun q : Nat × Mem ℚ => Upd m A a g (fun k l => k < i + 1 ∧ k ≤ l) q.2)
        (Runs.forUp1 (fun j m' => Upd m A a g (fun k l => (k < i ∧ k ≤ l) ∨ (k = i ∧ i ≤ l ∧ l < j)) m')
          hi.le ?_ ?_ ?_) (fun q hq => Runs.pure hq)
      · exact hU.congr (by intros; omega)
      · intro j m2 hij hj hU2
        refine Runs.mono (step _ m2 i j hi hj (by omega) hU2) (fun m3 h3 => h3.congr ?_)
        intros; omega
      · intro m2 h
        refine h.congr ?_
        intro k l hk hl
        rw [cA] at hl
        omega
    · intro m' h
      refine h.congr ?_
      intro k l hk hl
      rw [rA] at hk
      omega
  · refine Runs.forUp1 (fun j m' => Upd m A a g (fun k l => l < j ∧ k ≤ l) m') (by omega) ?_ ?_ ?_
    · exact (Upd.init hA g).congr (by intros; simp)
    · intro j m1 _ hj hU
      refine Runs.bind (P := fun q : Nat × Mem ℚ => Upd m A a g (fun k l => l < j + 1 ∧ k ≤ l) q.2)
        (Runs.forUp1 (fun i m' => Upd m A a g (fun k l => (l < j ∧ k ≤ l) ∨ (l = j ∧ k < i)) m')
          (by omega) ?_ ?_ ?_) (fun q hq => Runs.pure hq)
      · exact hU.congr (by intros; omega)
      · intro i m2 _ hi hU2
        refine Runs.mono (step _ m2 i j (by omega) hj (by omega) hU2) (fun m3 h3 => h3.congr ?_)
        intros; omega
      · intro m2 h
        refine h.congr ?_
        intro k l hk hl
        omega
    · intro m' h
      refine h.congr ?_
      intro k l hk hl
      rw [cA] at hl
      omega

end Armas
