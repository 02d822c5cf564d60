import Verif.GemvLemmas

/-!
# Specifications of the rank-1 update

Helper lemmas about `gerUnb`, `gerRec` (`src/blas/ger.c`).
-/

namespace Armas

open Finset

variable {α : Type}

section Ger

variable [CommRing α]

/-- Value of element `(i, j)` after the rank-1 update. -/
def gerVal (beta alpha : α) (a : Nat → Nat → α) (x y : Nat → α) (i j : Nat) : α :=
  beta * a i j + alpha * (x i * y j)

theorem gerElem_spec {m0 m : Mem α} {A X : View} {a : Nat → Nat → α} {x y : Nat → α}
    {beta alpha : α} {S : Nat → Nat → Prop} {i j p : Nat} (hw : A.WF)
    (h : Upd m0 A a (gerVal beta alpha a x y) S m) (hXv : X.isVec) (hx : HoldsV m0 X x)
    (hd : Disjoint X.foot A.foot) (hi : i < A.rows) (hj : j < A.cols) (hiX : i < X.size)
    (hS : ¬ S i j) (hp : p + i = A.at' i j) {y0 : α} (hy : y0 = alpha * y j) :
    Runs (gerElem beta p X y0 i m)
      (Upd m0 A a (gerVal beta alpha a x y) (fun k l => S k l ∨ (k = i ∧ l = j))) := by
  unfold gerElem
  have h1 := h.old hi hj hS
  rw [hp]
  refine Runs.rd_bind h1 ?_
  refine Runs.rd_bind (h.other hx hXv hd i hiX) ?_
  refine Runs.wr h1 (h.set hw hi hj ?_)
  subst hy; unfold gerVal; ring

theorem update4axpy_spec {m : Mem α} {A X Y : View} {a : Nat → Nat → α} {x y : Nat → α}
    (beta alpha : α) (hw : A.WF) (hc : A.cols = 4) (hXv : X.isVec)
    (hX : X.size = A.rows) (hY : Y.size = 4) (hA : Holds m A a) (hx : HoldsV m X x)
    (hy : HoldsV m Y y) (hdX : Disjoint X.foot A.foot) :
    Runs (update4axpy m beta A alpha X Y A.rows)
      (fun m' => Holds m' A (gerVal beta alpha a x y) ∧ Frame A.foot m m') := by
  unfold update4axpy
  refine Runs.rd_bind (hy 0 (by omega)) ?_
  refine Runs.rd_bind (hy 1 (by omega)) ?_
  refine Runs.rd_bind (hy 2 (by omega)) ?_
  refine Runs.rd_bind (hy 3 (by omega)) ?_
  obtain ⟨g, hg⟩ : ∃ g, g = gerVal beta alpha a x y := ⟨_, rfl⟩
  have ea : ∀ i c : Nat, A.base + c * A.step + i = A.at' i c := by intro i c; unfold View.at'; ring
  have row : ∀ i m', i < A.rows → Upd m A a g (fun k _ => k < i) m' → Runs (do
      let m ← gerElem beta (A.base + 0 * A.step) X (alpha * y 0) i m'
      let m ← gerElem beta (A.base + 1 * A.step) X (alpha * y 1) i m
      let m ← gerElem beta (A.base + 2 * A.step) X (alpha * y 2) i m
      gerElem beta (A.base + 3 * A.step) X (alpha * y 3) i m)
      (Upd m A a g (fun k _ => k < i + 1)) := by
    intro i m' hi h
    subst hg
    refine Runs.bind (gerElem_spec hw h hXv hx hdX hi (by omega) (by omega) (by omega) (ea i 0) rfl)
      (fun m' h => ?_)
    refine Runs.bind (gerElem_spec (j := 1) hw h hXv hx hdX hi (by omega) (by omega) (by omega)
      (ea i 1) rfl) (fun m' h => ?_)
    refine Runs.bind (gerElem_spec (j := 2) hw h hXv hx hdX hi (by omega) (by omega) (by omega)
      (ea i 2) rfl) (fun m' h => ?_)
    refine (gerElem_spec (j := 3) hw h hXv hx hdX hi (by omega) (by omega) (by omega)
      (ea i 3) rfl).mono (fun m' h => h.congr (fun k l hk hl => ?_))
    omega
  refine Runs.bind (Runs.forUp (fun i m' => Upd m A a g (fun k _ => k < i) m' ∧ i ≤ A.rows)
    (by omega) ⟨(Upd.init hA g).congr (by simp), by omega⟩ ?_
    (Q := fun p => Upd m A a g (fun k _ => k < p.1) p.2 ∧ p.1 ≤ A.rows ∧ A.rows - 3 ≤ p.1)
    (fun k st h1 _ h => ⟨h.1, h.2, h1⟩)) ?_
  · rintro j m' - hj ⟨h, -⟩
    refine Runs.bind (row _ _ (by omega) h) (fun m' h => ?_)
    refine Runs.bind (row _ _ (by omega) h) (fun m' h => ?_)
    refine Runs.bind (row _ _ (by omega) h) (fun m' h => ?_)
    exact (row _ _ (by omega) h).mono (fun m' h => ⟨h, by omega⟩)
  · rintro ⟨i, m'⟩ ⟨h, h1, h2⟩
    refine Runs.switchTail (fun i m' => Upd m A a g (fun k _ => k < i) m') h1 h2 h
      (fun j m' _ hj h => row j m' hj h) (fun m' h => ⟨?_, h.frame⟩)
    rw [← hg]
    exact h.all (fun i j hi hj => hi)

theorem update1axpy_spec {m : Mem α} {A X Y : View} {a : Nat → Nat → α} {x y : Nat → α}
    (beta alpha : α) (hw : A.WF) (hc : A.cols = 1) (hXv : X.isVec)
    (hX : X.size = A.rows) (hY : Y.size = 1) (hA : Holds m A a) (hx : HoldsV m X x)
    (hy : HoldsV m Y y) (hdX : Disjoint X.foot A.foot) :
    Runs (update1axpy m beta A alpha X Y A.rows)
      (fun m' => Holds m' A (gerVal beta alpha a x y) ∧ Frame A.foot m m') := by
  unfold update1axpy
  refine Runs.rd_bind (hy 0 (by omega)) ?_
  obtain ⟨g, hg⟩ : ∃ g, g = gerVal beta alpha a x y := ⟨_, rfl⟩
  have row : ∀ i m', i < A.rows → Upd m A a g (fun k _ => k < i) m' →
      Runs (gerElem beta A.base X (alpha * y 0) i m') (Upd m A a g (fun k _ => k < i + 1)) := by
    intro i m' hi h
    subst hg
    refine (gerElem_spec (j := 0) hw h hXv hx hdX hi (by omega) (by omega) (by omega)
      (by unfold View.at'; ring) rfl).mono (fun m' h => h.congr (fun k l hk hl => ?_))
    omega
  refine Runs.bind (Runs.forUp (fun i m' => Upd m A a g (fun k _ => k < i) m' ∧ i ≤ A.rows)
    (by omega) ⟨(Upd.init hA g).congr (by simp), by omega⟩ ?_
    (Q := fun p => Upd m A a g (fun k _ => k < p.1) p.2 ∧ p.1 ≤ A.rows ∧ A.rows - 3 ≤ p.1)
    (fun k st h1 _ h => ⟨h.1, h.2, h1⟩)) ?_
  · rintro j m' - hj ⟨h, -⟩
    refine Runs.bind (row _ _ (by omega) h) (fun m' h => ?_)
    refine Runs.bind (row _ _ (by omega) h) (fun m' h => ?_)
    refine Runs.bind (row _ _ (by omega) h) (fun m' h => ?_)
    exact (row _ _ (by omega) h).mono (fun m' h => ⟨h, by omega⟩)
  · rintro ⟨i, m'⟩ ⟨h, h1, h2⟩
    refine Runs.switchTail (fun i m' => Upd m A a g (fun k _ => k < i) m') h1 h2 h
      (fun j m' _ hj h => row j m' hj h) (fun m' h => ⟨?_, h.frame⟩)
    rw [← hg]
    exact h.all (fun i j hi hj => hi)

theorem gerUnb_spec {m : Mem α} {A X Y : View} {a : Nat → Nat → α} {x y : Nat → α}
    (beta alpha : α) (hw : A.WF) (hXv : X.isVec) (hYv : Y.isVec)
    (hX : X.size = A.rows) (hY : Y.size = A.cols) (hA : Holds m A a) (hx : HoldsV m X x)
    (hy : HoldsV m Y y) (hdX : Disjoint X.foot A.foot) (hdY : Disjoint Y.foot A.foot) :
    Runs (gerUnb m beta A alpha X Y)
      (fun m' => Holds m' A (gerVal beta alpha a x y) ∧ Frame A.foot m m') := by
  unfold gerUnb
  obtain ⟨g, hg⟩ : ∃ g, g = gerVal beta alpha a x y := ⟨_, rfl⟩
  rw [← hg]
  refine Runs.bind (Runs.forUp (fun j m' => Upd m A a g (fun _ l => l < j) m' ∧ j ≤ A.cols)
    (by omega) ⟨(Upd.init hA g).congr (by simp), by omega⟩ ?_
    (Q := fun p => Upd m A a g (fun _ l => l < p.1) p.2 ∧ p.1 ≤ A.cols)
    (fun k st h1 _ h => ⟨h.1, h.2⟩)) ?_
  · rintro j m' - hj ⟨h, -⟩
    refine (update4axpy_spec (A := A.sub 0 j A.rows 4) beta alpha (hw.sub (by omega) (by omega)) rfl hXv hX (View.subvec_size _ _ _)
      (h.block_old (by omega) (by omega) (by omega)) (h.other hx hXv hdX)
      ((h.other hy hYv hdY).subvec hYv (by omega))
      (hdX.mono_right (View.sub_foot (by omega) (by omega)))).mono ?_
    rintro m'' ⟨h1, hf⟩
    refine ⟨(h.block hw (by omega) (by omega) (h1.congr (fun i l _ _ => ?_)) hf).congr ?_, by omega⟩
    · subst hg; simp [gerVal]
    · intro k l hk hl; omega
  · rintro ⟨j, m'⟩ ⟨h, h1⟩
    dsimp only at h h1 ⊢
    refine Runs.bind (Runs.forUp1 (fun j m' => Upd m A a g (fun _ l => l < j) m') h1 h ?_
      (Q := fun p => Holds p.2 A g ∧ Frame A.foot m p.2)
      (fun m' h => ⟨h.all (fun _ _ _ hj => hj), h.frame⟩)) (fun p hp => Runs.pure hp)
    intro j m' _ hj h
    refine (update1axpy_spec (A := A.sub 0 j A.rows 1) beta alpha (hw.sub (by omega) (by omega)) rfl hXv hX (View.subvec_size _ _ _)
      (h.block_old (by omega) (by omega) (by omega)) (h.other hx hXv hdX)
      ((h.other hy hYv hdY).subvec hYv (by omega))
      (hdX.mono_right (View.sub_foot (by omega) (by omega)))).mono ?_
    rintro m'' ⟨h1, hf⟩
    refine (h.block hw (by omega) (by omega) (h1.congr (fun i l _ _ => ?_)) hf).congr ?_
    · subst hg; simp [gerVal]
    · intro k l hk hl; omega

theorem gerRec_spec {minv : Nat} (hmin : 2 ≤ minv) (beta alpha : α) :
    ∀ (fuel : Nat) {m : Mem α} {A X Y : View} {a : Nat → Nat → α} {x y : Nat → α},
      A.rows < fuel → A.WF → X.isVec → Y.isVec → X.size = A.rows → Y.size = A.cols →
      Holds m A a → HoldsV m X x → HoldsV m Y y → Disjoint X.foot A.foot → Disjoint Y.foot A.foot →
      Runs (gerRec minv beta alpha fuel m A X Y)
        (fun m' => Holds m' A (gerVal beta alpha a x y) ∧ Frame A.foot m m') := by
  intro fuel
  induction fuel with
  | zero => intro m A X Y a x y h; omega
  | succ fuel ih =>
    intro m A X Y a x y hf hw hXv hYv hX hY hA hx hy hdX hdY
    rw [gerRec]
    by_cases c : A.rows < minv ∨ A.cols < minv
    · rw [if_pos c]
      exact gerUnb_spec beta alpha hw hXv hYv hX hY hA hx hy hdX hdY
    rw [if_neg c]
    obtain ⟨n1, hn1⟩ : ∃ n, n = A.rows / 2 := ⟨_, rfl⟩
    obtain ⟨n2, hn2⟩ : ∃ n, n = A.rows - n1 := ⟨_, rfl⟩
    obtain ⟨p1, hp1⟩ : ∃ n, n = A.cols / 2 := ⟨_, rfl⟩
    obtain ⟨p2, hp2⟩ : ∃ n, n = A.cols - p1 := ⟨_, rfl⟩
    have ex : vecPartTop X (A.rows / 2) = (X.subvec 0 n1, X.subvec n1 n2) := by
      rw [vecPartTop_eq (by omega), hX, ← hn1, ← hn2]
    have ey : vecPartTop Y (A.cols / 2) = (Y.subvec 0 p1, Y.subvec p1 p2) := by
      rw [vecPartTop_eq (by omega), hY, ← hp1, ← hp2]
    simp only [ey, ex, partition2x2]
    simp only [← hn1, ← hn2, ← hp1, ← hp2]
    obtain ⟨g, hg⟩ : ∃ g, g = gerVal beta alpha a x y := ⟨_, rfl⟩
    rw [← hg]
    have blk : ∀ (r nr c nc : Nat) {m' : Mem α} {S : Nat → Nat → Prop}, r + nr ≤ A.rows →
        c + nc ≤ A.cols → nr < fuel → Upd m A a g S m' →
        (∀ i j, i < nr → j < nc → ¬ S (r + i) (c + j)) →
        Runs (gerRec minv beta alpha fuel m' (A.sub r c nr nc) (X.subvec r nr) (Y.subvec c nc))
          (Upd m A a g (fun i j => S i j ∨ (r ≤ i ∧ i < r + nr ∧ c ≤ j ∧ j < c + nc))) := by
      intro r nr c nc m' S hr hc hfu h hS
      refine (ih (A := A.sub r c nr nc) (X := X.subvec r nr) (Y := Y.subvec c nc) hfu (hw.sub hr hc) (View.subvec_isVec _ _ _)
        (View.subvec_isVec _ _ _) (View.subvec_size _ _ _) (View.subvec_size _ _ _)
        (h.block_old hr hc hS) ((h.other hx hXv hdX).subvec (n := r) (len := nr) hXv (by omega))
        ((h.other hy hYv hdY).subvec (n := c) (len := nc) hYv (by omega))
        (hdX.mono (View.subvec_foot hXv (by omega)) (View.sub_foot hr hc))
        (hdY.mono (View.subvec_foot hYv (by omega)) (View.sub_foot hr hc))).mono ?_
      rintro m'' ⟨h1, hf⟩
      refine h.block hw hr hc (h1.congr (fun i l _ _ => ?_)) hf
      subst hg; simp [gerVal]
    refine Runs.bind (blk 0 n1 0 p1 (by omega) (by omega) (by omega) (S := fun i _ => i < 0) ((Upd.init hA g).congr (by simp)) (by simp))
      (fun m' h => ?_)
    refine Runs.bind (blk 0 n1 p1 p2 (by omega) (by omega) (by omega) h (by intros; bomega))
      (fun m' h => ?_)
    refine Runs.bind (blk n1 n2 0 p1 (by omega) (by omega) (by omega) h (by intros; bomega))
      (fun m' h => ?_)
    refine (blk n1 n2 p1 p2 (by omega) (by omega) (by omega) h (by intros; bomega)).mono
      (fun m' h => ⟨h.all (fun i j hi hj => ?_), h.frame⟩)
    omega

omit [CommRing α] in
/-- Threshold 0: the recursion never ends, whatever the operands. -/
theorem gerRec_diverges_zero [Mul α] [Add α] (beta alpha : α) :
    ∀ (fuel : Nat) (m : Mem α) (A X Y : View), gerRec 0 beta alpha fuel m A X Y = .diverge := by
  intro fuel
  induction fuel with
  | zero => intros; rfl
  | succ fuel ih =>
    intro m A X Y
    rw [gerRec, if_neg (by omega)]
    simp only [ih, Res.diverge_bind]

/-- Threshold 1: the recursion on a 1×1 matrix never ends. -/
theorem gerRec_diverges (beta alpha : α) :
    ∀ (fuel : Nat) {m : Mem α} {A X Y : View} {a : Nat → Nat → α} {x y : Nat → α},
      A.WF → A.rows = 1 → A.cols = 1 → X.isVec → Y.isVec → X.size = 1 → Y.size = 1 →
      Holds m A a → HoldsV m X x → HoldsV m Y y → Disjoint X.foot A.foot → Disjoint Y.foot A.foot →
      gerRec 1 beta alpha fuel m A X Y = .diverge := by
  intro fuel
  induction fuel with
  | zero => intros; rfl
  | succ fuel ih =>
    intro m A X Y a x y hw hr hc hXv hYv hX hY hA hx hy hdX hdY
    rw [gerRec, if_neg (by omega)]
    cases fuel with
    | zero => rfl
    | succ fuel =>
    have ex : vecPartTop X (A.rows / 2) = (X.subvec 0 0, X.subvec 0 1) := by
      rw [vecPartTop_eq (by omega), hX, hr]
    have ey : vecPartTop Y (A.cols / 2) = (Y.subvec 0 0, Y.subvec 0 1) := by
      rw [vecPartTop_eq (by omega), hY, hc]
    have blk : ∀ (nr nc : Nat) {m' : Mem α}, nr ≤ 1 → nc ≤ 1 → (nr = 0 ∨ nc = 0) →
        Frame A.foot m m' → (∃ z, Holds m' A z) →
        ∃ m'', gerRec 1 beta alpha (fuel + 1) m' (A.sub 0 0 nr nc) (X.subvec 0 nr) (Y.subvec 0 nc)
          = .ok m'' ∧ Frame A.foot m m'' ∧ ∃ z, Holds m'' A z := by
      intro nr nc m' h1 h2 h3 hf ⟨z, hz⟩
      obtain ⟨m'', e, h4, hf2⟩ := gerUnb_spec (m := m') (A := A.sub 0 0 nr nc) (X := X.subvec 0 nr)
        (Y := Y.subvec 0 nc) beta alpha (hw.sub (by omega) (by omega)) (View.subvec_isVec _ _ _)
        (View.subvec_isVec _ _ _) (View.subvec_size _ _ _) (View.subvec_size _ _ _)
        (hz.sub (by omega) (by omega)) ((hx.frame hXv hf hdX).subvec (n := 0) (len := nr) hXv (by omega))
        ((hy.frame hYv hf hdY).subvec (n := 0) (len := nc) hYv (by omega))
        (hdX.mono (View.subvec_foot hXv (by omega)) (View.sub_foot (by omega) (by omega)))
        (hdY.mono (View.subvec_foot hYv (by omega)) (View.sub_foot (by omega) (by omega)))
      refine ⟨m'', ?_, hf.trans (hf2.mono (View.sub_foot (by omega) (by omega))),
        ⟨_, hz.patch hw (by omega) (by omega) h4 hf2⟩⟩
      rw [gerRec, if_pos (by simp only [View.sub_rows, View.sub_cols]; omega), e]
    simp only [ex, ey, partition2x2]
    simp only [hr, hc, Nat.reduceDiv, Nat.sub_zero]
    obtain ⟨m1, e1, f1, z1⟩ := blk 0 0 (by omega) (by omega) (by omega) (Frame.refl _ _) ⟨a, hA⟩
    obtain ⟨m2, e2, f2, z2⟩ := blk 0 1 (by omega) (by omega) (by omega) f1 z1
    obtain ⟨m3, e3, f3, z3, hz3⟩ := blk 1 0 (by omega) (by omega) (by omega) f2 z2
    simp only [e1, e2, e3, Res.ok_bind]
    exact ih (hw.sub (by omega) (by omega)) rfl rfl (View.subvec_isVec _ _ _)
      (View.subvec_isVec _ _ _) (View.subvec_size _ _ _) (View.subvec_size _ _ _)
      (hz3.sub (by omega) (by omega)) ((hx.frame hXv f3 hdX).subvec (n := 0) (len := 1) hXv (by omega))
      ((hy.frame hYv f3 hdY).subvec (n := 0) (len := 1) hYv (by omega))
      (hdX.mono (View.subvec_foot hXv (by omega)) (View.sub_foot (by omega) (by omega)))
      (hdY.mono (View.subvec_foot hYv (by omega)) (View.sub_foot (by omega) (by omega)))

end Ger

end Armas
