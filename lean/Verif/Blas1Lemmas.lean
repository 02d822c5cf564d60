import Verif.Blas1
import Mathlib.Tactic.FieldSimp
import Mathlib.Tactic.Ring
import Mathlib.Algebra.BigOperators.Intervals

/-! # Helper lemmas for BLAS level 1 -/

namespace Armas

open Finset

variable {α : Type}

section CommRing

theorem axpbyUnsafe_spec [Mul α] [Add α] {m : Mem α} {X Y : View} {x y : Nat → α} (beta alpha : α)
    (hX : X.isVec) (hY : Y.isVec) (hYw : Y.WF) (hs : Y.size ≤ X.size)
    (hx : HoldsV m X x) (hy : HoldsV m Y y) (hd : Disjoint X.foot Y.foot) :
    Runs (axpbyUnsafe m beta Y alpha X) (fun m' =>
      HoldsV m' Y (fun k => y k * beta + alpha * x k) ∧ Frame Y.foot m m') := by
  unfold axpbyUnsafe
  have hxr : ∀ {S m'}, UpdV m Y y (fun k => y k * beta + alpha * x k) S m' → HoldsV m' X x :=
    fun h => h.other hx hX hd
  refine Runs.bind (Runs.forUp
    (fun i m' => UpdV m Y y (fun k => y k * beta + alpha * x k) (fun l => l < i) m' ∧ i ≤ Y.size)
    (by omega) ⟨UpdV.init_lt hy _, by omega⟩ ?_ (Q := fun p => UpdV m Y y
      (fun k => y k * beta + alpha * x k) (fun l => l < p.1) p.2 ∧ p.1 ≤ Y.size ∧ Y.size - 3 ≤ p.1)
    (fun k st h1 _ h => ⟨h.1, h.2, h1⟩)) ?_
  · rintro j m' - hj ⟨h, -⟩
    refine Runs.rd_bind (h.old (by omega) (by omega)) ?_
    refine Runs.rd_bind (h.old (by omega) (by omega)) ?_
    refine Runs.rd_bind (h.old (by omega) (by omega)) ?_
    refine Runs.rd_bind (h.old (by omega) (by omega)) ?_
    refine Runs.rd_bind (hxr h _ (by omega)) ?_
    refine Runs.wr_bind (h.old (by omega) (by omega)) ?_
    have h := h.set_lt hY hYw (by omega) (v := y (j + 0) * beta + alpha * x (j + 0)) rfl
    refine Runs.rd_bind (hxr h _ (by omega)) ?_
    refine Runs.wr_bind (h.old (by omega) (by omega)) ?_
    have h := h.set_lt hY hYw (by omega) (v := y (j + 1) * beta + alpha * x (j + 1)) rfl
    refine Runs.rd_bind (hxr h _ (by omega)) ?_
    refine Runs.wr_bind (h.old (by omega) (by omega)) ?_
    have h := h.set_lt hY hYw (by omega) (v := y (j + 2) * beta + alpha * x (j + 2)) rfl
    refine Runs.rd_bind (hxr h _ (by omega)) ?_
    refine Runs.wr (h.old (by omega) (by omega)) ?_
    have h := h.set_lt hY hYw (by omega) (v := y (j + 3) * beta + alpha * x (j + 3)) rfl
    exact ⟨h, by omega⟩
  · rintro ⟨i, m'⟩ ⟨h, h1, h2⟩
    refine Runs.switchTail
      (fun i m' => UpdV m Y y (fun k => y k * beta + alpha * x k) (fun l => l < i) m')
      h1 h2 h ?_ (fun m' h => ⟨h.done (le_refl _), h.frame⟩)
    intro j m' _ hj h
    refine Runs.rd_bind (h.old (by omega) (by omega)) ?_
    refine Runs.rd_bind (hxr h _ (by omega)) ?_
    refine Runs.wr (h.old (by omega) (by omega)) ?_
    exact h.set_lt hY hYw (by omega) rfl

/-- The same with source and target the same vector. -/
theorem axpbyUnsafe_self_spec [Mul α] [Add α] {m : Mem α} {Y : View} {y : Nat → α} (beta alpha : α)
    (hY : Y.isVec) (hYw : Y.WF) (hy : HoldsV m Y y) :
    Runs (axpbyUnsafe m beta Y alpha Y) (fun m' =>
      HoldsV m' Y (fun k => y k * beta + alpha * y k) ∧ Frame Y.foot m m') := by
  unfold axpbyUnsafe
  refine Runs.bind (Runs.forUp
    (fun i m' => UpdV m Y y (fun k => y k * beta + alpha * y k) (fun l => l < i) m' ∧ i ≤ Y.size)
    (by omega) ⟨UpdV.init_lt hy _, by omega⟩ ?_ (Q := fun p => UpdV m Y y
      (fun k => y k * beta + alpha * y k) (fun l => l < p.1) p.2 ∧ p.1 ≤ Y.size ∧ Y.size - 3 ≤ p.1)
    (fun k st h1 _ h => ⟨h.1, h.2, h1⟩)) ?_
  · rintro j m' - hj ⟨h, -⟩
    refine Runs.rd_bind (h.old (by omega) (by omega)) ?_
    refine Runs.rd_bind (h.old (by omega) (by omega)) ?_
    refine Runs.rd_bind (h.old (by omega) (by omega)) ?_
    refine Runs.rd_bind (h.old (by omega) (by omega)) ?_
    refine Runs.rd_bind (h.old (by omega) (by omega)) ?_
    refine Runs.wr_bind (h.old (by omega) (by omega)) ?_
    have h := h.set_lt hY hYw (by omega) (v := y (j + 0) * beta + alpha * y (j + 0)) rfl
    refine Runs.rd_bind (h.old (by omega) (by omega)) ?_
    refine Runs.wr_bind (h.old (by omega) (by omega)) ?_
    have h := h.set_lt hY hYw (by omega) (v := y (j + 1) * beta + alpha * y (j + 1)) rfl
    refine Runs.rd_bind (h.old (by omega) (by omega)) ?_
    refine Runs.wr_bind (h.old (by omega) (by omega)) ?_
    have h := h.set_lt hY hYw (by omega) (v := y (j + 2) * beta + alpha * y (j + 2)) rfl
    refine Runs.rd_bind (h.old (by omega) (by omega)) ?_
    refine Runs.wr (h.old (by omega) (by omega)) ?_
    have h := h.set_lt hY hYw (by omega) (v := y (j + 3) * beta + alpha * y (j + 3)) rfl
    exact ⟨h, by omega⟩
  · rintro ⟨i, m'⟩ ⟨h, h1, h2⟩
    refine Runs.switchTail
      (fun i m' => UpdV m Y y (fun k => y k * beta + alpha * y k) (fun l => l < i) m')
      h1 h2 h ?_ (fun m' h => ⟨h.done (le_refl _), h.frame⟩)
    intro j m' _ hj h
    refine Runs.rd_bind (h.old (by omega) (by omega)) ?_
    refine Runs.rd_bind (h.old (by omega) (by omega)) ?_
    refine Runs.wr (h.old (by omega) (by omega)) ?_
    exact h.set_lt hY hYw (by omega) rfl

/-- `vec_scale` on the first `N` elements of a vector. -/
theorem vecScale_spec [Mul α] {m : Mem α} {X : View} {x : Nat → α} (alpha : α) {N : Nat}
    (hX : X.isVec) (hXw : X.WF) (hN : N ≤ X.size) (hx : HoldsV m X x) :
    Runs (vecScale m X alpha N) (fun m' =>
      HoldsV m' X (fun k => if k < N then x k * alpha else x k) ∧ Frame X.foot m m') := by
  unfold vecScale
  refine Runs.bind (Runs.forUp
    (fun i m' => UpdV m X x (fun k => x k * alpha) (fun l => l < i) m' ∧ i ≤ N)
    (by omega) ⟨UpdV.init_lt hx _, by omega⟩ ?_ (Q := fun p => UpdV m X x
      (fun k => x k * alpha) (fun l => l < p.1) p.2 ∧ p.1 ≤ N ∧ N - 3 ≤ p.1)
    (fun k st h1 _ h => ⟨h.1, h.2, h1⟩)) ?_
  · rintro j m' - hj ⟨h, -⟩
    refine Runs.rd_bind (h.old (by omega) (by omega)) ?_
    refine Runs.wr_bind (h.old (by omega) (by omega)) ?_
    have h := h.set_lt hX hXw (by omega) (v := x (j + 0) * alpha) rfl
    refine Runs.rd_bind (h.old (by omega) (by omega)) ?_
    refine Runs.wr_bind (h.old (by omega) (by omega)) ?_
    have h := h.set_lt hX hXw (by omega) (v := x (j + 1) * alpha) rfl
    refine Runs.rd_bind (h.old (by omega) (by omega)) ?_
    refine Runs.wr_bind (h.old (by omega) (by omega)) ?_
    have h := h.set_lt hX hXw (by omega) (v := x (j + 2) * alpha) rfl
    refine Runs.rd_bind (h.old (by omega) (by omega)) ?_
    refine Runs.wr (h.old (by omega) (by omega)) ?_
    have h := h.set_lt hX hXw (by omega) (v := x (j + 3) * alpha) rfl
    exact ⟨h, by omega⟩
  · rintro ⟨i, m'⟩ ⟨h, h1, h2⟩
    refine Runs.switchTail
      (fun i m' => UpdV m X x (fun k => x k * alpha) (fun l => l < i) m')
      h1 h2 h ?_ (fun m' h => ⟨?_, h.frame⟩)
    · intro j m' _ hj h
      refine Runs.rd_bind (h.old (by omega) (by omega)) ?_
      refine Runs.wr (h.old (by omega) (by omega)) ?_
      exact h.set_lt hX hXw (by omega) rfl
    · intro k hk
      rw [h.hold k hk]
      congr

theorem vectorCopy_spec {m : Mem α} {X Y : View} {x y : Nat → α} {N : Nat}
    (hX : X.isVec) (hY : Y.isVec) (hXw : X.WF) (hNx : N ≤ X.size) (hNy : N ≤ Y.size)
    (hx : HoldsV m X x) (hy : HoldsV m Y y) (hd : Disjoint Y.foot X.foot) :
    Runs (vectorCopy m X Y N) (fun m' =>
      HoldsV m' X (fun k => if k < N then y k else x k) ∧ Frame X.foot m m') := by
  unfold vectorCopy
  have hyr : ∀ {S m'}, UpdV m X x y S m' → HoldsV m' Y y := fun h => h.other hy hY hd
  refine Runs.bind (Runs.forUp
    (fun i m' => UpdV m X x y (fun l => l < i) m' ∧ i ≤ N)
    (by omega) ⟨UpdV.init_lt hx _, by omega⟩ ?_ (Q := fun p => UpdV m X x y
      (fun l => l < p.1) p.2 ∧ p.1 ≤ N ∧ N - 3 ≤ p.1)
    (fun k st h1 _ h => ⟨h.1, h.2, h1⟩)) ?_
  · rintro j m' - hj ⟨h, -⟩
    refine Runs.rd_bind (hyr h _ (by omega)) ?_
    refine Runs.rd_bind (hyr h _ (by omega)) ?_
    refine Runs.rd_bind (hyr h _ (by omega)) ?_
    refine Runs.rd_bind (hyr h _ (by omega)) ?_
    refine Runs.wr_bind (h.old (by omega) (by omega)) ?_
    have h := h.set_lt hX hXw (by omega) (v := y (j + 0)) rfl
    refine Runs.wr_bind (h.old (by omega) (by omega)) ?_
    have h := h.set_lt hX hXw (by omega) (v := y (j + 1)) rfl
    refine Runs.wr_bind (h.old (by omega) (by omega)) ?_
    have h := h.set_lt hX hXw (by omega) (v := y (j + 2)) rfl
    refine Runs.wr (h.old (by omega) (by omega)) ?_
    have h := h.set_lt hX hXw (by omega) (v := y (j + 3)) rfl
    exact ⟨h, by omega⟩
  · rintro ⟨i, m'⟩ ⟨h, h1, h2⟩
    refine Runs.switchTail
      (fun i m' => UpdV m X x y (fun l => l < i) m')
      h1 h2 h ?_ (fun m' h => ⟨?_, h.frame⟩)
    · intro j m' _ hj h
      refine Runs.rd_bind (hyr h _ (by omega)) ?_
      refine Runs.wr (h.old (by omega) (by omega)) ?_
      exact h.set_lt hX hXw (by omega) rfl
    · intro k hk
      rw [h.hold k hk]
      congr

/-- Invariant of the swap loop: elements below `i` are exchanged. -/
structure SwapInv (m0 : Mem α) (X Y : View) (x y : Nat → α) (i j : Nat) (m : Mem α) : Prop where
  hx : ∀ k, k < X.size → m (X.vat k) = some (if k < i then y k else x k)
  hy : ∀ k, k < Y.size → m (Y.vat k) = some (if k < j then x k else y k)
  frame : Frame (X.foot ∪ Y.foot) m0 m

theorem SwapInv.setX {m0 m : Mem α} {X Y : View} {x y : Nat → α} {i j : Nat}
    (h : SwapInv m0 X Y x y i j m) (hX : X.isVec) (hXw : X.WF) (hY : Y.isVec)
    (hd : Disjoint X.foot Y.foot) (hi : i < X.size) :
    SwapInv m0 X Y x y (i + 1) j (m.set (X.vat i) (y i)) := by
  refine ⟨fun k hk => ?_, fun k hk => ?_,
    h.frame.trans (Frame.set (Or.inl (View.vat_mem_foot hX hi)) _)⟩
  · by_cases e : k = i
    · subst e; simp
    · rw [Mem.set_ne _ _ (fun e' => e (View.vat_inj hX hXw hk hi e')), h.hx k hk]
      have : k < i ↔ k < i + 1 := by omega
      simp only [this]
  · rw [Mem.set_ne _ _ (fun e' => ?_), h.hy k hk]
    exact Set.disjoint_left.mp hd (View.vat_mem_foot hX hi) (e' ▸ View.vat_mem_foot hY hk)

theorem SwapInv.setY {m0 m : Mem α} {X Y : View} {x y : Nat → α} {i j : Nat}
    (h : SwapInv m0 X Y x y i j m) (hX : X.isVec) (hY : Y.isVec) (hYw : Y.WF)
    (hd : Disjoint X.foot Y.foot) (hj : j < Y.size) :
    SwapInv m0 X Y x y i (j + 1) (m.set (Y.vat j) (x j)) := by
  refine ⟨fun k hk => ?_, fun k hk => ?_,
    h.frame.trans (Frame.set (Or.inr (View.vat_mem_foot hY hj)) _)⟩
  · rw [Mem.set_ne _ _ (fun e' => ?_), h.hx k hk]
    exact Set.disjoint_left.mp hd (View.vat_mem_foot hX hk) (e' ▸ View.vat_mem_foot hY hj)
  · by_cases e : k = j
    · subst e; simp
    · rw [Mem.set_ne _ _ (fun e' => e (View.vat_inj hY hYw hk hj e')), h.hy k hk]
      have : k < j ↔ k < j + 1 := by omega
      simp only [this]

theorem SwapInv.oldX {m0 m : Mem α} {X Y : View} {x y : Nat → α} {i j k : Nat}
    (h : SwapInv m0 X Y x y i j m) (hk : k < X.size) (hki : i ≤ k) : m (X.vat k) = some (x k) := by
  rw [h.hx k hk, if_neg (by omega)]

theorem SwapInv.oldY {m0 m : Mem α} {X Y : View} {x y : Nat → α} {i j k : Nat}
    (h : SwapInv m0 X Y x y i j m) (hk : k < Y.size) (hkj : j ≤ k) : m (Y.vat k) = some (y k) := by
  rw [h.hy k hk, if_neg (by omega)]

theorem vecSwap_spec {m : Mem α} {X Y : View} {x y : Nat → α} (hX : X.isVec) (hY : Y.isVec)
    (hXw : X.WF) (hYw : Y.WF) (hs : X.size = Y.size) (hx : HoldsV m X x) (hy : HoldsV m Y y)
    (hd : Disjoint X.foot Y.foot) :
    Runs (vecSwap m X Y X.size) (fun m' =>
      HoldsV m' X y ∧ HoldsV m' Y x ∧ Frame (X.foot ∪ Y.foot) m m') := by
  unfold vecSwap
  refine Runs.bind (Runs.forUp
    (fun i m' => SwapInv m X Y x y i i m' ∧ i ≤ X.size)
    (by omega) ⟨⟨fun k hk => by simpa using hx k hk, fun k hk => by simpa using hy k hk,
      Frame.refl _ _⟩, by omega⟩ ?_
    (Q := fun p => SwapInv m X Y x y p.1 p.1 p.2 ∧ p.1 ≤ X.size ∧ X.size - 3 ≤ p.1)
    (fun k st h1 _ h => ⟨h.1, h.2, h1⟩)) ?_
  · rintro j m' - hj ⟨h, -⟩
    refine Runs.rd_bind (h.oldY (by omega) (by omega)) ?_
    refine Runs.rd_bind (h.oldY (by omega) (by omega)) ?_
    refine Runs.rd_bind (h.oldY (by omega) (by omega)) ?_
    refine Runs.rd_bind (h.oldY (by omega) (by omega)) ?_
    refine Runs.rd_bind (h.oldX (by omega) (by omega)) ?_
    refine Runs.rd_bind (h.oldX (by omega) (by omega)) ?_
    refine Runs.rd_bind (h.oldX (by omega) (by omega)) ?_
    refine Runs.rd_bind (h.oldX (by omega) (by omega)) ?_
    refine Runs.wr_bind (h.oldX (by omega) (by omega)) ?_
    have h := h.setX hX hXw hY hd (by omega)
    refine Runs.wr_bind (h.oldX (by omega) (by omega)) ?_
    have h := h.setX hX hXw hY hd (by omega)
    refine Runs.wr_bind (h.oldX (by omega) (by omega)) ?_
    have h := h.setX hX hXw hY hd (by omega)
    refine Runs.wr_bind (h.oldX (by omega) (by omega)) ?_
    have h := h.setX hX hXw hY hd (by omega)
    refine Runs.wr_bind (h.oldY (by omega) (by omega)) ?_
    have h := h.setY hX hY hYw hd (by omega)
    refine Runs.wr_bind (h.oldY (by omega) (by omega)) ?_
    have h := h.setY hX hY hYw hd (by omega)
    refine Runs.wr_bind (h.oldY (by omega) (by omega)) ?_
    have h := h.setY hX hY hYw hd (by omega)
    refine Runs.wr (h.oldY (by omega) (by omega)) ?_
    have h := h.setY hX hY hYw hd (by omega)
    exact ⟨h, by omega⟩
  · rintro ⟨i, m'⟩ ⟨h, h1, h2⟩
    refine Runs.switchTail (fun i m' => SwapInv m X Y x y i i m') h1 h2 h ?_
      (fun m' h => ⟨fun k hk => ?_, fun k hk => ?_, h.frame⟩)
    · intro j m' _ hj h
      refine Runs.rd_bind (h.oldY (by omega) (by omega)) ?_
      refine Runs.rd_bind (h.oldX (by omega) (by omega)) ?_
      refine Runs.wr_bind (h.oldY (by omega) (by omega)) ?_
      have h := h.setY hX hY hYw hd (by omega)
      refine Runs.wr (h.oldX (by omega) (by omega)) ?_
      exact h.setX hX hXw hY hd (by omega)
    · rw [h.hx k hk, if_pos hk]
    · rw [h.hy k hk, if_pos (by omega)]

/-! ### Matrix copies -/

/-- `Upd` for a loop over rows of column `j` of `V` (elements before (i,j) in column order done). -/
theorem memcpy_col {m0 m : Mem α} {D S : View} {a b : Nat → Nat → α} {j : Nat} {P : Nat → Nat → Prop}
    (hD : D.WF) (hj : j < D.cols) (hR : D.rows ≤ S.rows) (hC : D.cols ≤ S.cols)
    (hP : ∀ i, i < D.rows → ¬ P i j)
    (h : Upd m0 D a b P m) (hS : Holds m0 S b) (hd : Disjoint S.foot D.foot) :
    Runs (memcpyElems m (D.at' 0 j) (S.at' 0 j) D.rows)
      (Upd m0 D a b (fun p q => P p q ∨ q = j)) := by
  unfold memcpyElems
  have hno : ¬ (0 < D.rows ∧ S.at' 0 j < D.at' 0 j + D.rows ∧ D.at' 0 j < S.at' 0 j + D.rows) := by
    rintro ⟨h0, h1, h2⟩
    simp only [View.at'] at h1 h2
    rcases Nat.lt_or_ge (S.base + 0 + j * S.step) (D.base + 0 + j * D.step) with hlt | hge
    · refine Set.disjoint_left.mp hd ⟨D.base + j * D.step - (S.base + j * S.step), j, by omega,
        by omega, rfl⟩ ?_
      refine ⟨0, j, h0, hj, ?_⟩
      simp only [View.at']; omega
    · refine Set.disjoint_left.mp hd ⟨0, j, by omega, by omega, rfl⟩ ?_
      refine ⟨S.base + j * S.step - (D.base + j * D.step), j, by omega, hj, ?_⟩
      simp only [View.at']; omega
  rw [if_neg hno]
  refine Runs.bind (Runs.forUp1 (fun i m' => Upd m0 D a b (fun p q => P p q ∨ (q = j ∧ p < i)) m')
    (by omega) (h.congr (by intro p q _ _; simp)) ?_
    (Q := fun p => Upd m0 D a b (fun p q => P p q ∨ q = j) p.2) ?_) (fun p hp => Runs.pure hp)
  · intro i m' _ hi h
    have e1 : S.at' 0 j + i = S.at' i j := by simp only [View.at']; omega
    have e2 : D.at' 0 j + i = D.at' i j := by simp only [View.at']; omega
    rw [e1, e2]
    refine Runs.rd_bind (h.otherM hS hd i j (by omega) (by omega)) ?_
    refine Runs.wr (h.old hi hj (by have := hP i hi; simp [this])) ?_
    refine (h.set hD hi hj rfl).congr (fun p q _ _ => ?_)
    constructor
    · rintro ((h | h) | h)
      · exact Or.inl h
      · exact Or.inr ⟨h.1, by omega⟩
      · exact Or.inr ⟨h.2, by omega⟩
    · rintro (h | h)
      · exact Or.inl (Or.inl h)
      · by_cases e : p = i
        · exact Or.inr ⟨e, h.1⟩
        · exact Or.inl (Or.inr ⟨h.1, by omega⟩)
  · intro m' h
    refine h.congr (fun p q hp _ => ?_)
    constructor
    · rintro (h | h)
      · exact Or.inl h
      · exact Or.inr h.1
    · rintro (h | h)
      · exact Or.inl h
      · exact Or.inr ⟨h, hp⟩

theorem copyPlain_spec {m : Mem α} {D S : View} {a b : Nat → Nat → α}
    (hD : D.WF) (hR : D.rows ≤ S.rows) (hC : D.cols ≤ S.cols)
    (hA : Holds m D a) (hS : Holds m S b) (hd : Disjoint S.foot D.foot) :
    Runs (copyPlain m D S D.rows D.cols) (fun m' => Holds m' D b ∧ Frame D.foot m m') := by
  unfold copyPlain
  refine Runs.bind (Runs.forUp1 (fun j m' => Upd m D a b (fun _ q => q < j) m')
    (by omega) ((Upd.init hA b).congr (by simp)) ?_
    (Q := fun p => Holds p.2 D b ∧ Frame D.foot m p.2)
    (fun m' h => ⟨h.all (fun _ _ _ hj => hj), h.frame⟩)) (fun p hp => Runs.pure hp)
  intro j m' _ hj h
  refine (memcpy_col hD hj hR hC (by simp) h hS hd).mono (fun m'' h => h.congr ?_)
  intro p q _ _; omega

/-- Row `j` of `D` receives column `j` of `S`. -/
theorem copyTrans1x4_spec {m : Mem α} {D S : View} {a b : Nat → Nat → α}
    (hD : D.WF) (hR : D.cols ≤ S.rows) (hC : D.rows ≤ S.cols)
    (hA : Holds m D a) (hS : Holds m S b) (hd : Disjoint S.foot D.foot) :
    Runs (copyTrans1x4 m D S D.cols D.rows)
      (fun m' => Holds m' D (fun i j => b j i) ∧ Frame D.foot m m') := by
  unfold copyTrans1x4
  have hs : ∀ {P m'}, Upd m D a (fun i j => b j i) P m' → Holds m' S b := fun h => h.otherM hS hd
  refine Runs.bind (Runs.forUp1 (fun j m' => Upd m D a (fun i j => b j i) (fun p _ => p < j) m')
    (by omega) ((Upd.init hA _).congr (by simp)) ?_
    (Q := fun p => Holds p.2 D (fun i j => b j i) ∧ Frame D.foot m p.2)
    (fun m' h => ⟨h.all (fun _ _ hi _ => hi), h.frame⟩)) (fun p hp => Runs.pure hp)
  intro j m' _ hj h
  have step : ∀ {i m'}, i < D.cols →
      Upd m D a (fun i j => b j i) (fun p q => p < j ∨ (p = j ∧ q < i)) m' →
      Upd m D a (fun i j => b j i) (fun p q => p < j ∨ (p = j ∧ q < i + 1))
        (m'.set (D.at' j i) (b i j)) := by
    intro i m' hi h
    refine (h.set hD hj hi rfl).congr (fun p q _ _ => ?_)
    bomega
  refine Runs.bind (Runs.forUp
    (fun i m' => Upd m D a (fun i j => b j i) (fun p q => p < j ∨ (p = j ∧ q < i)) m' ∧ i ≤ D.cols)
    (by omega) ⟨h.congr (by simp), by omega⟩ ?_ (Q := fun p => Upd m D a (fun i j => b j i)
      (fun p' q => p' < j ∨ (p' = j ∧ q < p.1)) p.2 ∧ p.1 ≤ D.cols ∧ D.cols - 3 ≤ p.1)
    (fun k st h1 _ h => ⟨h.1, h.2, h1⟩)) ?_
  · rintro i m' - hi ⟨h, -⟩
    refine Runs.rd_bind (hs h _ _ (by omega) (by omega)) ?_
    refine Runs.wr_bind (h.old hj (by omega) (by bomega)) ?_
    have h := step (by omega) h
    refine Runs.rd_bind (hs h _ _ (by omega) (by omega)) ?_
    refine Runs.wr_bind (h.old hj (by omega) (by bomega)) ?_
    have h := step (by omega) h
    refine Runs.rd_bind (hs h _ _ (by omega) (by omega)) ?_
    refine Runs.wr_bind (h.old hj (by omega) (by bomega)) ?_
    have h := step (by omega) h
    refine Runs.rd_bind (hs h _ _ (by omega) (by omega)) ?_
    refine Runs.wr (h.old hj (by omega) (by bomega)) ?_
    exact ⟨step (by omega) h, by omega⟩
  · rintro ⟨i, m'⟩ ⟨h, h1, h2⟩
    refine Runs.switchTail (fun i m' => Upd m D a (fun i j => b j i)
      (fun p q => p < j ∨ (p = j ∧ q < i)) m') h1 h2 h ?_
      (fun m' h => h.congr (fun p q _ _ => by omega))
    intro i m' _ hi h
    refine Runs.rd_bind (hs h _ _ (by omega) (by omega)) ?_
    refine Runs.wr (h.old hj (by omega) (by bomega)) ?_
    exact step hi h

theorem copyTrans4x1_spec {m : Mem α} {D S : View} {a b : Nat → Nat → α}
    (hD : D.WF) (hR : D.cols ≤ S.rows) (hC : D.rows ≤ S.cols)
    (hA : Holds m D a) (hS : Holds m S b) (hd : Disjoint S.foot D.foot) :
    Runs (copyTrans4x1 m D S D.cols D.rows)
      (fun m' => Holds m' D (fun i j => b j i) ∧ Frame D.foot m m') := by
  unfold copyTrans4x1
  have hs : ∀ {P m'}, Upd m D a (fun i j => b j i) P m' → Holds m' S b := fun h => h.otherM hS hd
  refine Runs.bind (Runs.forUp
    (fun j m' => Upd m D a (fun i j => b j i) (fun p _ => p < j) m' ∧ j ≤ D.rows)
    (by omega) ⟨(Upd.init hA _).congr (by simp), by omega⟩ ?_ (Q := fun p => Upd m D a
      (fun i j => b j i) (fun p' _ => p' < p.1) p.2 ∧ p.1 ≤ D.rows)
    (fun k st h1 _ h => ⟨h.1, h.2⟩)) ?_
  · rintro j m' - hj ⟨h, -⟩
    have step : ∀ {i k m'}, i < D.cols → k < 4 →
        Upd m D a (fun i j => b j i)
          (fun p q => p < j ∨ (p < j + 4 ∧ q < i) ∨ (p < j + k ∧ q ≤ i)) m' →
        Upd m D a (fun i j => b j i)
          (fun p q => p < j ∨ (p < j + 4 ∧ q < i) ∨ (p < j + (k + 1) ∧ q ≤ i))
          (m'.set (D.at' (j + k) i) (b i (j + k))) := by
      intro i k m' hi hk h
      refine (h.set hD (by omega) hi rfl).congr (fun p q _ _ => ?_)
      bomega
    refine Runs.bind (Runs.forUp1
      (fun i m' => Upd m D a (fun i j => b j i) (fun p q => p < j ∨ (p < j + 4 ∧ q < i)) m')
      (by omega) (h.congr (by simp)) ?_ (Q := fun p => Upd m D a (fun i j => b j i)
        (fun p' _ => p' < j + 4) p.2) (fun m' h => h.congr (fun p q _ _ => by omega)))
      (fun p hp => Runs.pure ⟨hp, by omega⟩)
    intro i m' _ hi h
    have h : Upd m D a (fun i j => b j i)
          (fun p q => p < j ∨ (p < j + 4 ∧ q < i) ∨ (p < j + 0 ∧ q ≤ i)) m' :=
      h.congr (fun p q _ _ => by omega)
    refine Runs.rd_bind (hs h _ _ (by omega) (by omega)) ?_
    refine Runs.wr_bind (h.old (by omega) hi (by bomega)) ?_
    have h := step hi (by omega) h
    refine Runs.rd_bind (hs h _ _ (by omega) (by omega)) ?_
    refine Runs.wr_bind (h.old (by omega) hi (by bomega)) ?_
    have h := step hi (by omega) h
    refine Runs.rd_bind (hs h _ _ (by omega) (by omega)) ?_
    refine Runs.wr_bind (h.old (by omega) hi (by bomega)) ?_
    have h := step hi (by omega) h
    refine Runs.rd_bind (hs h _ _ (by omega) (by omega)) ?_
    refine Runs.wr (h.old (by omega) hi (by bomega)) ?_
    have h := step hi (by omega) h
    exact h.congr (fun p q _ _ => by omega)
  · rintro ⟨j, m'⟩ ⟨h, h1⟩
    dsimp only at h h1 ⊢
    by_cases e : j = D.rows
    · rw [if_pos e]
      exact Runs.pure ⟨h.all (fun i _ hi _ => by omega), h.frame⟩
    · rw [if_neg e]
      have hDs : (D.sub j 0 (D.rows - j) D.cols).WF := hD.sub (by omega) (by omega)
      refine (copyTrans1x4_spec (D := D.sub j 0 (D.rows - j) D.cols)
        (S := S.sub 0 j D.cols (D.rows - j)) hDs (le_refl _) (le_refl _)
        (h.block_old (by omega) (by omega) (by intro i k _ _; omega))
        ((hs h).sub (by omega) (by omega))
        (hd.mono (View.sub_foot (by omega) (by omega)) (View.sub_foot (by omega) (by omega)))).mono ?_
      rintro m'' ⟨h2, h3⟩
      have h4 := h.block hD (by omega) (by omega) (h2.congr ?_) h3
      · exact ⟨h4.all (fun i k hi hk => by bomega), h4.frame⟩
      · intro i k _ _
        simp

/-- `blk_scale` multiplies every element by `beta`. -/
theorem blkScale_spec [CommRing α] [DecidableEq α] {m : Mem α} {X : View} {a : Nat → Nat → α} (beta : α)
    (hX : X.WF) (hA : Holds m X a) :
    Runs (blkScale m X beta X.rows X.cols)
      (fun m' => Holds m' X (fun i j => a i j * beta) ∧ Frame X.foot m m') := by
  unfold blkScale
  by_cases b1 : beta = 1
  · rw [if_pos b1]
    exact Runs.ok ⟨hA.congr (by intros; simp [b1]), Frame.refl _ _⟩
  rw [if_neg b1]
  have step4 : ∀ {i j k m'}, i < X.rows → j < X.cols - 3 → k < 4 →
        Upd m X a (fun i j => a i j * beta)
          (fun p q => q < j ∨ (q < j + 4 ∧ p < i) ∨ (q < j + k ∧ p ≤ i)) m' →
        Upd m X a (fun i j => a i j * beta)
          (fun p q => q < j ∨ (q < j + 4 ∧ p < i) ∨ (q < j + (k + 1) ∧ p ≤ i))
          (m'.set (X.at' i (j + k)) (a i (j + k) * beta)) := by
    intro i j k m' hi hj hk h
    refine (h.set hX hi (by omega) rfl).congr (fun p q _ _ => ?_)
    bomega
  have step1 : ∀ {i j m'}, i < X.rows → j < X.cols →
        Upd m X a (fun i j => a i j * beta) (fun p q => q < j ∨ (q = j ∧ p < i)) m' →
        Upd m X a (fun i j => a i j * beta) (fun p q => q < j ∨ (q = j ∧ p < i + 1))
          (m'.set (X.at' i j) (a i j * beta)) := by
    intro i j m' hi hj h
    refine (h.set hX hi (by omega) rfl).congr (fun p q _ _ => ?_)
    bomega
  by_cases b0 : beta = 0
  · rw [if_pos b0]
    have hz : ∀ v : α, (0 : α) = v * beta := by intro v; rw [b0, mul_zero]
    refine Runs.bind (Runs.forUp
      (fun j m' => Upd m X a (fun i j => a i j * beta) (fun _ q => q < j) m' ∧ j ≤ X.cols)
      (by omega) ⟨(Upd.init hA _).congr (by simp), by omega⟩ ?_ (Q := fun p => Upd m X a
        (fun i j => a i j * beta) (fun _ q => q < p.1) p.2 ∧ p.1 ≤ X.cols)
      (fun k st h1 _ h => ⟨h.1, h.2⟩)) ?_
    · rintro j m' - hj ⟨h, -⟩
      refine Runs.bind (Runs.forUp1
        (fun i m' => Upd m X a (fun i j => a i j * beta) (fun p q => q < j ∨ (q < j + 4 ∧ p < i)) m')
        (by omega) (h.congr (by simp)) ?_ (Q := fun p => Upd m X a (fun i j => a i j * beta)
          (fun _ q => q < j + 4) p.2) (fun m' h => h.congr (fun p q _ _ => by omega)))
        (fun p hp => Runs.pure ⟨hp, by omega⟩)
      intro i m' _ hi h
      have h : Upd m X a (fun i j => a i j * beta)
            (fun p q => q < j ∨ (q < j + 4 ∧ p < i) ∨ (q < j + 0 ∧ p ≤ i)) m' :=
        h.congr (fun p q _ _ => by omega)
      refine Runs.wr_bind (h.old hi (by omega) (by bomega)) ?_
      have h := step4 hi hj (by omega) h
      rw [← hz] at h
      refine Runs.wr_bind (h.old hi (by omega) (by bomega)) ?_
      have h := step4 hi hj (by omega) h
      rw [← hz] at h
      refine Runs.wr_bind (h.old hi (by omega) (by bomega)) ?_
      have h := step4 hi hj (by omega) h
      rw [← hz] at h
      refine Runs.wr (h.old hi (by omega) (by bomega)) ?_
      have h := step4 hi hj (by omega) h
      rw [← hz] at h
      exact h.congr (fun p q _ _ => by omega)
    · rintro ⟨j0, m'⟩ ⟨h, h1⟩
      dsimp only at h h1 ⊢
      refine Runs.bind (Runs.forUp1
        (fun j m' => Upd m X a (fun i j => a i j * beta) (fun _ q => q < j) m') h1 h ?_
        (Q := fun p => Holds p.2 X (fun i j => a i j * beta) ∧ Frame X.foot m p.2)
        (fun m' h => ⟨h.all (fun _ _ _ hj => hj), h.frame⟩)) (fun p hp => Runs.pure hp)
      intro j m' _ hj h
      refine Runs.bind (Runs.forUp1
        (fun i m' => Upd m X a (fun i j => a i j * beta) (fun p q => q < j ∨ (q = j ∧ p < i)) m')
        (by omega) (h.congr (by simp)) ?_ (Q := fun p => Upd m X a (fun i j => a i j * beta)
          (fun _ q => q < j + 1) p.2) (fun m' h => h.congr (fun p q _ _ => by omega)))
        (fun p hp => Runs.pure hp)
      intro i m' _ hi h
      refine Runs.wr (h.old hi hj (by bomega)) ?_
      rw [hz (a i j)]
      exact step1 hi hj h
  · rw [if_neg b0]
    refine Runs.bind (Runs.forUp
      (fun j m' => Upd m X a (fun i j => a i j * beta) (fun _ q => q < j) m' ∧ j ≤ X.cols)
      (by omega) ⟨(Upd.init hA _).congr (by simp), by omega⟩ ?_ (Q := fun p => Upd m X a
        (fun i j => a i j * beta) (fun _ q => q < p.1) p.2 ∧ p.1 ≤ X.cols)
      (fun k st h1 _ h => ⟨h.1, h.2⟩)) ?_
    · rintro j m' - hj ⟨h, -⟩
      refine Runs.bind (Runs.forUp1
        (fun i m' => Upd m X a (fun i j => a i j * beta) (fun p q => q < j ∨ (q < j + 4 ∧ p < i)) m')
        (by omega) (h.congr (by simp)) ?_ (Q := fun p => Upd m X a (fun i j => a i j * beta)
          (fun _ q => q < j + 4) p.2) (fun m' h => h.congr (fun p q _ _ => by omega)))
        (fun p hp => Runs.pure ⟨hp, by omega⟩)
      intro i m' _ hi h
      have h : Upd m X a (fun i j => a i j * beta)
            (fun p q => q < j ∨ (q < j + 4 ∧ p < i) ∨ (q < j + 0 ∧ p ≤ i)) m' :=
        h.congr (fun p q _ _ => by omega)
      refine Runs.rd_bind (h.old hi (by omega) (by bomega)) ?_
      refine Runs.wr_bind (h.old hi (by omega) (by bomega)) ?_
      have h := step4 hi hj (by omega) h
      refine Runs.rd_bind (h.old hi (by omega) (by bomega)) ?_
      refine Runs.wr_bind (h.old hi (by omega) (by bomega)) ?_
      have h := step4 hi hj (by omega) h
      refine Runs.rd_bind (h.old hi (by omega) (by bomega)) ?_
      refine Runs.wr_bind (h.old hi (by omega) (by bomega)) ?_
      have h := step4 hi hj (by omega) h
      refine Runs.rd_bind (h.old hi (by omega) (by bomega)) ?_
      refine Runs.wr (h.old hi (by omega) (by bomega)) ?_
      have h := step4 hi hj (by omega) h
      exact h.congr (fun p q _ _ => by omega)
    · rintro ⟨j0, m'⟩ ⟨h, h1⟩
      dsimp only at h h1 ⊢
      refine Runs.bind (Runs.forUp1
        (fun j m' => Upd m X a (fun i j => a i j * beta) (fun _ q => q < j) m') h1 h ?_
        (Q := fun p => Holds p.2 X (fun i j => a i j * beta) ∧ Frame X.foot m p.2)
        (fun m' h => ⟨h.all (fun _ _ _ hj => hj), h.frame⟩)) (fun p hp => Runs.pure hp)
      intro j m' _ hj h
      refine Runs.bind (Runs.forUp1
        (fun i m' => Upd m X a (fun i j => a i j * beta) (fun p q => q < j ∨ (q = j ∧ p < i)) m')
        (by omega) (h.congr (by simp)) ?_ (Q := fun p => Upd m X a (fun i j => a i j * beta)
          (fun _ q => q < j + 1) p.2) (fun m' h => h.congr (fun p q _ _ => by omega)))
        (fun p hp => Runs.pure hp)
      intro i m' _ hi h
      refine Runs.rd_bind (h.old hi hj (by bomega)) ?_
      refine Runs.wr (h.old hi hj (by bomega)) ?_
      exact step1 hi hj h

theorem sum_range_add4 [AddCommMonoid α] (f : Nat → α) (i : Nat) :
    ∑ k ∈ range (i + 4), f k
      = ∑ k ∈ range i, f k + f (i + 0) + f (i + 1) + f (i + 2) + f (i + 3) := by
  rw [sum_range_succ, sum_range_succ, sum_range_succ, sum_range_succ]; rfl

theorem vecDot_spec [CommRing α] {m : Mem α} {X Y : View} {x y : Nat → α} {N : Nat}
    (hNx : N ≤ X.size) (hNy : N ≤ Y.size) (hx : HoldsV m X x) (hy : HoldsV m Y y) :
    vecDot m X Y N = .ok (∑ k ∈ range N, x k * y k) := by
  have key : Runs (vecDot m X Y N) (fun v => v = ∑ k ∈ range N, x k * y k) := by
    unfold vecDot
    refine Runs.bind (Runs.forUp
      (fun i (c : α × α × α × α) => c.1 + c.2.1 + c.2.2.1 + c.2.2.2 = ∑ k ∈ range i, x k * y k ∧
        i ≤ N) (by omega) ⟨by simp, by omega⟩ ?_
      (Q := fun p => p.2.1 + p.2.2.1 + p.2.2.2.1 + p.2.2.2.2 = ∑ k ∈ range p.1, x k * y k ∧
        p.1 ≤ N ∧ N - 3 ≤ p.1) (fun k st h1 _ h => ⟨h.1, h.2, h1⟩)) ?_
    · rintro j ⟨c0, c1, c2, c3⟩ - hj ⟨h, -⟩
      refine Runs.rd_bind (hx _ (by omega)) ?_
      refine Runs.rd_bind (hx _ (by omega)) ?_
      refine Runs.rd_bind (hx _ (by omega)) ?_
      refine Runs.rd_bind (hx _ (by omega)) ?_
      refine Runs.rd_bind (hy _ (by omega)) ?_
      refine Runs.rd_bind (hy _ (by omega)) ?_
      refine Runs.rd_bind (hy _ (by omega)) ?_
      refine Runs.rd_bind (hy _ (by omega)) ?_
      refine Runs.pure ⟨?_, by omega⟩
      rw [sum_range_add4, ← h]
      ring
    · rintro ⟨i, c0, c1, c2, c3⟩ ⟨h, h1, h2⟩
      simp only at h h1 h2 ⊢
      have h4 : N - i = 0 ∨ N - i = 1 ∨ N - i = 2 ∨ N - i = 3 := by omega
      rcases h4 with e | e | e | e
      · have : N = i := by omega
        rw [e]; subst this
        exact Runs.pure h
      · have : N = i + 1 := by omega
        rw [e]; subst this
        refine Runs.rd_bind (hx _ (by omega)) ?_
        refine Runs.rd_bind (hy _ (by omega)) ?_
        refine Runs.pure ?_
        rw [sum_range_succ, ← h]; ring
      · have : N = i + 2 := by omega
        rw [e]; subst this
        refine Runs.rd_bind (hx _ (by omega)) ?_
        refine Runs.rd_bind (hy _ (by omega)) ?_
        refine Runs.rd_bind (hx _ (by omega)) ?_
        refine Runs.rd_bind (hy _ (by omega)) ?_
        refine Runs.pure ?_
        rw [sum_range_succ, sum_range_succ, ← h]; ring
      · have : N = i + 3 := by omega
        rw [e]; subst this
        refine Runs.rd_bind (hx _ (by omega)) ?_
        refine Runs.rd_bind (hy _ (by omega)) ?_
        refine Runs.rd_bind (hx _ (by omega)) ?_
        refine Runs.rd_bind (hy _ (by omega)) ?_
        refine Runs.rd_bind (hx _ (by omega)) ?_
        refine Runs.rd_bind (hy _ (by omega)) ?_
        refine Runs.pure ?_
        rw [sum_range_succ, sum_range_succ, sum_range_succ, ← h]; ring
  obtain ⟨v, e, rfl⟩ := key
  exact e

theorem sum_split [AddCommMonoid α] (f : Nat → α) {n a : Nat} (h : a ≤ n) :
    ∑ k ∈ range n, f k = ∑ k ∈ range a, f k + ∑ k ∈ range (n - a), f (a + k) := by
  obtain ⟨b, rfl⟩ := Nat.exists_eq_add_of_le h
  rw [sum_range_add, Nat.add_sub_cancel_left]

theorem vecDotRec_spec [CommRing α] {m : Mem α} {minv : Nat} (hmin : 0 < minv) :
    ∀ (fuel n : Nat) {X Y : View} {x y : Nat → α}, n < fuel → X.isVec → Y.isVec →
      n ≤ X.size → n ≤ Y.size → HoldsV m X x → HoldsV m Y y →
      vecDotRec m minv fuel X Y n = .ok (∑ k ∈ range n, x k * y k) := by
  intro fuel
  induction fuel with
  | zero => intro n X Y x y h; omega
  | succ fuel ih =>
    intro n X Y x y hf hXv hYv hX hY hx hy
    have sx : ∀ (a b : Nat), a + b ≤ n → HoldsV m (X.subvec a b) (fun k => x (a + k)) :=
      fun a b h => hx.subvec hXv (by omega)
    have sy : ∀ (a b : Nat), a + b ≤ n → HoldsV m (Y.subvec a b) (fun k => y (a + k)) :=
      fun a b h => hy.subvec hYv (by omega)
    have dd : ∀ (a b : Nat), a + b ≤ n → vecDot m (X.subvec a b) (Y.subvec a b) b
        = .ok (∑ k ∈ range b, x (a + k) * y (a + k)) := fun a b h =>
      vecDot_spec (by rw [View.subvec_size]) (by rw [View.subvec_size]) (sx a b h) (sy a b h)
    rw [vecDotRec]
    by_cases c1 : n < minv
    · rw [if_pos c1]; exact vecDot_spec hX hY hx hy
    rw [if_neg c1]
    have t2 : ∑ k ∈ range n, x k * y k = ∑ k ∈ range (n / 2), x (0 + k) * y (0 + k)
        + ∑ k ∈ range (n - n / 2), x (n / 2 + k) * y (n / 2 + k) := by
      rw [sum_split _ (show n / 2 ≤ n by omega)]; simp
    have t4 : ∑ k ∈ range n, x k * y k = ∑ k ∈ range (n / 4), x (0 + k) * y (0 + k)
        + ∑ k ∈ range (n / 2 - n / 4), x (n / 4 + k) * y (n / 4 + k)
        + ∑ k ∈ range (n / 4), x (n / 2 + k) * y (n / 2 + k)
        + ∑ k ∈ range (n - n / 2 - n / 4), x (n / 2 + n / 4 + k) * y (n / 2 + n / 4 + k) := by
      rw [t2]
      simp only [Nat.zero_add]
      rw [sum_split (n := n / 2) _ (show n / 4 ≤ n / 2 by omega),
        sum_split (n := n - n / 2) _ (show n / 4 ≤ n - n / 2 by omega)]
      simp only [add_assoc]
    by_cases c2 : n / 2 < minv
    · rw [if_pos c2, dd _ _ (by omega), dd _ _ (by omega), t2]; rfl
    rw [if_neg c2]
    by_cases c3 : n / 4 < minv
    · rw [if_pos c3, dd _ _ (by omega), dd _ _ (by omega), dd _ _ (by omega), dd _ _ (by omega), t4]
      rfl
    rw [if_neg c3]
    have rr : ∀ (a b : Nat), a + b ≤ n → b < fuel →
        vecDotRec m minv fuel (X.subvec a b) (Y.subvec a b) b
          = .ok (∑ k ∈ range b, x (a + k) * y (a + k)) := fun a b h hb =>
      ih b hb (X.subvec_isVec a b) (Y.subvec_isVec a b) (by rw [View.subvec_size])
        (by rw [View.subvec_size]) (sx a b h) (sy a b h)
    rw [rr _ _ (by omega) (by omega), rr _ _ (by omega) (by omega), rr _ _ (by omega) (by omega),
      rr _ _ (by omega) (by omega), t4]
    rfl

end CommRing

section Ordered

variable [Field α] [LinearOrder α]

theorem vecAsum_spec {m : Mem α} {X : View} {x : Nat → α} {N : Nat}
    (hNx : N ≤ X.size) (hx : HoldsV m X x) :
    vecAsum m X N = .ok (∑ k ∈ range N, |x k|) := by
  have key : Runs (vecAsum m X N) (fun v => v = ∑ k ∈ range N, |x k|) := by
    unfold vecAsum
    refine Runs.bind (Runs.forUp
      (fun i (c : α × α × α × α) => c.1 + c.2.1 + c.2.2.1 + c.2.2.2 = ∑ k ∈ range i, |x k| ∧
        i ≤ N) (by omega) ⟨by simp, by omega⟩ ?_
      (Q := fun p => p.2.1 + p.2.2.1 + p.2.2.2.1 + p.2.2.2.2 = ∑ k ∈ range p.1, |x k| ∧
        p.1 ≤ N ∧ N - 3 ≤ p.1) (fun k st h1 _ h => ⟨h.1, h.2, h1⟩)) ?_
    · rintro j ⟨c0, c1, c2, c3⟩ - hj ⟨h, -⟩
      refine Runs.rd_bind (hx _ (by omega)) ?_
      refine Runs.rd_bind (hx _ (by omega)) ?_
      refine Runs.rd_bind (hx _ (by omega)) ?_
      refine Runs.rd_bind (hx _ (by omega)) ?_
      refine Runs.pure ⟨?_, by omega⟩
      rw [sum_range_add4, ← h]
      ring
    · rintro ⟨i, c0, c1, c2, c3⟩ ⟨h, h1, h2⟩
      simp only at h h1 h2 ⊢
      have h4 : N - i = 0 ∨ N - i = 1 ∨ N - i = 2 ∨ N - i = 3 := by omega
      rcases h4 with e | e | e | e
      · have : N = i := by omega
        rw [e]; subst this
        exact Runs.pure h
      · have : N = i + 1 := by omega
        rw [e]; subst this
        refine Runs.rd_bind (hx _ (by omega)) ?_
        refine Runs.pure ?_
        rw [sum_range_succ, ← h]; ring
      · have : N = i + 2 := by omega
        rw [e]; subst this
        refine Runs.rd_bind (hx _ (by omega)) ?_
        refine Runs.rd_bind (hx _ (by omega)) ?_
        refine Runs.pure ?_
        rw [sum_range_succ, sum_range_succ, ← h]; ring
      · have : N = i + 3 := by omega
        rw [e]; subst this
        refine Runs.rd_bind (hx _ (by omega)) ?_
        refine Runs.rd_bind (hx _ (by omega)) ?_
        refine Runs.rd_bind (hx _ (by omega)) ?_
        refine Runs.pure ?_
        rw [sum_range_succ, sum_range_succ, sum_range_succ, ← h]; ring
  obtain ⟨v, e, rfl⟩ := key
  exact e

theorem vecAsumRec_spec {m : Mem α} {minv : Nat} (hmin : 0 < minv) :
    ∀ (fuel n : Nat) {X : View} {x : Nat → α}, n < fuel → X.isVec → n ≤ X.size → HoldsV m X x →
      vecAsumRec m minv fuel X n = .ok (∑ k ∈ range n, |x k|) := by
  intro fuel
  induction fuel with
  | zero => intro n X x h; omega
  | succ fuel ih =>
    intro n X x hf hXv hX hx
    have sx : ∀ (a b : Nat), a + b ≤ n → HoldsV m (X.subvec a b) (fun k => x (a + k)) :=
      fun a b h => hx.subvec hXv (by omega)
    have dd : ∀ (a b : Nat), a + b ≤ n → vecAsum m (X.subvec a b) b
        = .ok (∑ k ∈ range b, |x (a + k)|) := fun a b h =>
      vecAsum_spec (by rw [View.subvec_size]) (sx a b h)
    rw [vecAsumRec]
    by_cases c1 : n < minv
    · rw [if_pos c1]; exact vecAsum_spec hX hx
    rw [if_neg c1]
    have t2 : ∑ k ∈ range n, |x k| = ∑ k ∈ range (n / 2), |x (0 + k)|
        + ∑ k ∈ range (n - n / 2), |x (n / 2 + k)| := by
      rw [sum_split _ (show n / 2 ≤ n by omega)]; simp
    have t4 : ∑ k ∈ range n, |x k| = ∑ k ∈ range (n / 4), |x (0 + k)|
        + ∑ k ∈ range (n / 2 - n / 4), |x (n / 4 + k)|
        + ∑ k ∈ range (n / 4), |x (n / 2 + k)|
        + ∑ k ∈ range (n - n / 2 - n / 4), |x (n / 2 + n / 4 + k)| := by
      rw [t2]
      simp only [Nat.zero_add]
      rw [sum_split (n := n / 2) _ (show n / 4 ≤ n / 2 by omega),
        sum_split (n := n - n / 2) _ (show n / 4 ≤ n - n / 2 by omega)]
      simp only [add_assoc]
    by_cases c2 : n / 2 < minv
    · rw [if_pos c2, dd _ _ (by omega), dd _ _ (by omega), t2]; rfl
    rw [if_neg c2]
    by_cases c3 : n / 4 < minv
    · rw [if_pos c3, dd _ _ (by omega), dd _ _ (by omega), dd _ _ (by omega), dd _ _ (by omega), t4]
      rfl
    rw [if_neg c3]
    have rr : ∀ (a b : Nat), a + b ≤ n → b < fuel →
        vecAsumRec m minv fuel (X.subvec a b) b
          = .ok (∑ k ∈ range b, |x (a + k)|) := fun a b h hb =>
      ih b hb (X.subvec_isVec a b) (by rw [View.subvec_size]) (sx a b h)
    rw [rr _ _ (by omega) (by omega), rr _ _ (by omega) (by omega), rr _ _ (by omega) (by omega),
      rr _ _ (by omega) (by omega), t4]
    rfl

theorem vecAsumKahan_spec {m : Mem α} {X : View} {x : Nat → α} {N : Nat}
    (hNx : N ≤ X.size) (hx : HoldsV m X x) :
    vecAsumKahan m X N = .ok (∑ k ∈ range N, |x k|) := by
  have key : Runs (vecAsumKahan m X N) (fun v => v = ∑ k ∈ range N, |x k|) := by
    unfold vecAsumKahan
    refine Runs.bind (Runs.forUp
      (fun i (c : (α × α) × (α × α)) => c.1.1 + c.2.1 = ∑ k ∈ range i, |x k| ∧
        c.1.2 = 0 ∧ c.2.2 = 0 ∧ i ≤ N) (by omega) ⟨by simp, rfl, rfl, by omega⟩ ?_
      (Q := fun p => p.2.1.1 + p.2.2.1 = ∑ k ∈ range p.1, |x k| ∧
        p.2.1.2 = 0 ∧ p.1 ≤ N ∧ N - 1 ≤ p.1) (fun k st h1 _ h => ⟨h.1, h.2.1, h.2.2.2, h1⟩)) ?_
    · rintro j ⟨⟨s0, c0⟩, s1, c1⟩ - hj ⟨h, h0, h1, -⟩
      simp only at h h0 h1
      subst h0; subst h1
      refine Runs.rd_bind (hx _ (by omega)) ?_
      refine Runs.rd_bind (hx _ (by omega)) ?_
      refine Runs.pure ⟨?_, ?_, ?_, by omega⟩
      · simp only [kahanStep]
        rw [sum_range_succ, sum_range_succ, ← h, Nat.add_zero]; ring
      · simp only [kahanStep]; ring
      · simp only [kahanStep]; ring
    · rintro ⟨i, ⟨s0, c0⟩, s1, c1⟩ ⟨h, h0, h1, h2⟩
      simp only at h h0 h1 h2 ⊢
      subst h0
      split
      · rename_i e; subst e; exact Runs.pure h
      · have : N = i + 1 := by omega
        subst this
        refine Runs.rd_bind (hx _ (by omega)) ?_
        refine Runs.pure ?_
        simp only [kahanStep]
        rw [sum_range_succ, ← h]; ring
  obtain ⟨v, e, rfl⟩ := key
  exact e

variable [IsStrictOrderedRing α]

/-- First index of maximal absolute value. -/
theorem vecIamax2_spec {m : Mem α} {X : View} {x : Nat → α} {N : Nat} (hN : N ≤ X.size) (h0 : 0 < N)
    (hx : HoldsV m X x) :
    Runs (vecIamax2 m X N) (fun i => i < N ∧ (∀ k, k < N → |x k| ≤ |x i|) ∧
      ∀ k, k < i → |x k| < |x i|) := by
  unfold vecIamax2
  by_cases h1 : N ≤ 1
  · rw [if_pos h1]
    refine Runs.ok ⟨h0, fun k hk => ?_, fun k hk => by omega⟩
    have : k = 0 := by omega
    rw [this]
  rw [if_neg h1]
  refine Runs.bind (Runs.forUp1
    (fun i (st : Nat × α) => st.1 < N ∧ (∀ k, k < i → |x k| ≤ st.2) ∧
      (∀ k, k < st.1 → |x k| < st.2) ∧ ((st.2 = 0 ∧ st.1 = 0) ∨ st.2 = |x st.1|))
    (by omega) ⟨h0, by intro k hk; omega, by intro k hk; simp at hk, Or.inl ⟨rfl, rfl⟩⟩ ?_
    (Q := fun p => p.2.1 < N ∧ (∀ k, k < N → |x k| ≤ |x p.2.1|) ∧
      ∀ k, k < p.2.1 → |x k| < |x p.2.1|) ?_) (fun p hp => Runs.pure hp)
  · rintro i ⟨ix, mx⟩ _ hi ⟨h1, h2, h3, h4⟩
    dsimp only at h1 h2 h3 h4 ⊢
    refine Runs.rd_bind (hx i (by omega)) ?_
    by_cases c : |x i| > mx
    · rw [if_pos c]
      refine Runs.pure ⟨hi, fun k hk => ?_, fun k hk => ?_, Or.inr rfl⟩
      · dsimp only
        by_cases e : k = i
        · rw [e]
        · exact le_trans (h2 k (by omega)) (le_of_lt c)
      · exact lt_of_le_of_lt (h2 k hk) c
    · rw [if_neg c]
      refine Runs.pure ⟨h1, fun k hk => ?_, h3, h4⟩
      dsimp only
      by_cases e : k = i
      · rw [e]; exact not_lt.mp c
      · exact h2 k (by omega)
  · rintro ⟨ix, mx⟩ ⟨h1, h2, h3, h4⟩
    dsimp only at h1 h2 h3 h4 ⊢
    rcases h4 with ⟨h4, h5⟩ | h4
    · refine ⟨h1, fun k hk => ?_, fun k hk => by omega⟩
      exact le_trans (h2 k hk) (h4 ▸ abs_nonneg _)
    · rw [← h4]; exact ⟨h1, h2, h3⟩

omit [IsStrictOrderedRing α] in
/-- `vec_iamin2` reads offset `1 + (i-1)*inc`, which is element `i` exactly when `inc = 1`. -/
theorem vecIamin2_spec {m : Mem α} {X : View} {x : Nat → α} {N : Nat} (hN : N ≤ X.size) (h0 : 0 < N)
    (hinc : X.inc = 1) (hx : HoldsV m X x) :
    Runs (vecIamin2 m X N) (fun i => i < N ∧ (∀ k, k < N → |x i| ≤ |x k|) ∧
      ∀ k, k < i → |x i| < |x k|) := by
  unfold vecIamin2
  by_cases h1 : N ≤ 1
  · rw [if_pos h1]
    refine Runs.ok ⟨h0, fun k hk => ?_, fun k hk => by omega⟩
    have : k = 0 := by omega
    rw [this]
  rw [if_neg h1]
  have e0 : X.base = X.vat 0 := by simp [View.vat]
  refine Runs.rd_bind (v := x 0) (by rw [e0]; exact hx 0 (by omega)) ?_
  refine Runs.bind (Runs.forUp1
    (fun i (st : Nat × α) => st.1 < i ∧ (∀ k, k < i → st.2 ≤ |x k|) ∧
      (∀ k, k < st.1 → st.2 < |x k|) ∧ st.2 = |x st.1|)
    (by omega) ⟨Nat.one_pos, ?_, by intro k hk; simp at hk, rfl⟩ ?_
    (Q := fun p => p.2.1 < N ∧ (∀ k, k < N → |x p.2.1| ≤ |x k|) ∧
      ∀ k, k < p.2.1 → |x p.2.1| < |x k|) ?_) (fun p hp => Runs.pure hp)
  · intro k hk
    have : k = 0 := by omega
    rw [this]
  · rintro i ⟨ix, mn⟩ hi1 hi ⟨h1, h2, h3, h4⟩
    dsimp only at h1 h2 h3 h4 ⊢
    have e : X.base + (1 + (i - 1) * X.inc) = X.vat i := by
      simp only [View.vat, hinc]; omega
    rw [e]
    refine Runs.rd_bind (hx i (by omega)) ?_
    by_cases c : |x i| < mn
    · rw [if_pos c]
      refine Runs.pure ⟨by bomega, fun k hk => ?_, fun k hk => ?_, rfl⟩
      · dsimp only
        by_cases e : k = i
        · rw [e]
        · exact le_trans (le_of_lt c) (h2 k (by omega))
      · exact lt_of_lt_of_le c (h2 k hk)
    · rw [if_neg c]
      refine Runs.pure ⟨by bomega, fun k hk => ?_, h3, h4⟩
      dsimp only
      by_cases e : k = i
      · rw [e]; exact not_lt.mp c
      · exact h2 k (by omega)
  · rintro ⟨ix, mx⟩ ⟨h1, h2, h3, h4⟩
    dsimp only at h1 h2 h3 h4 ⊢
    rw [← h4]; exact ⟨h1, h2, h3⟩

/-- Scaled sum of squares: the loop keeps `scale² * ssq = Σ x²`. -/
theorem nrm2_spec {m : Mem α} {X : View} {x : Nat → α} (sqrt : α → α) (hX : X.isVec)
    (hsq : ∀ v, 0 ≤ v → 0 ≤ sqrt v ∧ sqrt v * sqrt v = v) (hx : HoldsV m X x) :
    Runs (nrm2 sqrt m X) (fun v => 0 ≤ v ∧ v * v = ∑ k ∈ range X.size, x k * x k) := by
  unfold nrm2
  have hv : ¬ (X.cols ≠ 1 ∧ X.rows ≠ 1) := by
    rcases hX with h | h
    · exact fun h' => h'.2 h
    · exact fun h' => h'.1 h
  rw [if_neg hv]
  by_cases h0 : X.size = 0
  · rw [if_pos h0, h0]; exact Runs.ok (by simp)
  rw [if_neg h0]
  by_cases h1 : X.size = 1
  · rw [if_pos h1, h1]
    have e0 : X.base = X.vat 0 := by simp [View.vat]
    refine Runs.rd_bind (v := x 0) (by rw [e0]; exact hx 0 (by omega)) ?_
    exact Runs.pure ⟨abs_nonneg _, by simp [abs_mul_abs_self]⟩
  rw [if_neg h1]
  refine Runs.bind (Runs.forUp1
    (fun i (st : α × α) => 0 ≤ st.1 ∧ 0 ≤ st.2 ∧
      st.1 * st.1 * st.2 = ∑ k ∈ range i, x k * x k ∧ (∀ k, k < i → |x k| ≤ st.1))
    (by omega) ⟨le_refl _, zero_le_one, by simp, by intro k hk; omega⟩ ?_
    (Q := fun p => 0 ≤ p.2.1 ∧ 0 ≤ p.2.2 ∧
      p.2.1 * p.2.1 * p.2.2 = ∑ k ∈ range X.size, x k * x k)
    (fun st h => ⟨h.1, h.2.1, h.2.2.1⟩)) ?_
  · rintro i ⟨sc, sm⟩ _ hi ⟨h1, h2, h3, h4⟩
    dsimp only at h1 h2 h3 h4 ⊢
    refine Runs.rd_bind (hx i (by omega)) ?_
    by_cases hz : x i = 0
    · rw [if_neg (not_not.mpr hz)]
      refine Runs.pure ⟨h1, h2, ?_, fun k hk => ?_⟩
      · rw [sum_range_succ, ← h3, hz]; ring
      · dsimp only
        by_cases e : k = i
        · rw [e, hz, abs_zero]; exact h1
        · exact h4 k (by omega)
    · rw [if_pos hz]
      have ha : 0 < |x i| := abs_pos.mpr hz
      have hane : |x i| ≠ 0 := ne_of_gt ha
      have hxx : x i * x i = |x i| * |x i| := (abs_mul_abs_self _).symm
      by_cases c : |x i| > sc
      · simp only [if_pos c]
        refine Runs.pure ⟨le_of_lt ha, ?_, ?_, fun k hk => ?_⟩
        · dsimp only
          exact add_nonneg zero_le_one (mul_nonneg h2 (mul_self_nonneg _))
        · dsimp only
          rw [sum_range_succ, ← h3, hxx]
          field_simp
          ring
        · dsimp only
          by_cases e : k = i
          · rw [e]
          · exact le_trans (h4 k (by omega)) (le_of_lt c)
      · simp only [if_neg c]
        have hsc : 0 < sc := lt_of_lt_of_le ha (not_lt.mp c)
        have hscne : sc ≠ 0 := ne_of_gt hsc
        refine Runs.pure ⟨h1, ?_, ?_, fun k hk => ?_⟩
        · dsimp only
          exact add_nonneg h2 (mul_self_nonneg _)
        · dsimp only
          rw [sum_range_succ, ← h3, hxx]
          field_simp
        · dsimp only
          by_cases e : k = i
          · rw [e]; exact not_lt.mp c
          · exact h4 k (by omega)
  · rintro ⟨i, sc, sm⟩ ⟨h1, h2, h3⟩
    dsimp only at h1 h2 h3 ⊢
    obtain ⟨q1, q2⟩ := hsq sm h2
    refine Runs.pure ⟨mul_nonneg h1 q1, ?_⟩
    rw [← h3]
    calc sc * sqrt sm * (sc * sqrt sm) = sc * sc * (sqrt sm * sqrt sm) := by ring
      _ = _ := by rw [q2]

end Ordered

end Armas
