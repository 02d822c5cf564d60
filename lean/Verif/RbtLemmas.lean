import Verif.Rbt
import Verif.RbtSpec
import Verif.QrMultLemmas
import Verif.Props.MatOps

/-!
# Random butterfly transformations: one block
-/

namespace Armas

open Finset

variable {α : Type} [CommRing α] [DecidableEq α]

/-- Cell of element `(i, j)`, of `(j, i)` for `right`. -/
def rcell (right : Bool) (A : View) (i j : Nat) : Nat := if right then A.at' j i else A.at' i j

omit [CommRing α] [DecidableEq α] in
theorem HoldsR.get {right : Bool} {m : Mem α} {A : View} {b : Nat → Nat → α} (h : HoldsR right m A b) {i j : Nat} (hi : i < rlen right A)
    (hj : j < rwid right A) : m (rcell right A i j) = some (b i j) := by
  cases right
  · exact h i j hi hj
  · exact h j i hj hi

omit [CommRing α] [DecidableEq α] in
theorem HoldsR.set {right : Bool} {m : Mem α} {A : View} {b : Nat → Nat → α} (hw : A.WF) (h : HoldsR right m A b) {i j : Nat}
    (hi : i < rlen right A) (hj : j < rwid right A) (v : α) :
    HoldsR right (m.set (rcell right A i j) v) A (fun p q => if p = i ∧ q = j then v else b p q) := by
  cases right
  · exact Holds.cell h hw hi hj v
  · refine (Holds.cell h hw hj hi v).congr fun p q _ _ => ?_
    simp only [if_true]
    by_cases c : p = j ∧ q = i
    · rw [if_pos c, if_pos ⟨c.2, c.1⟩]
    · rw [if_neg c, if_neg fun h => c ⟨h.2, h.1⟩]

omit [CommRing α] [DecidableEq α] in
theorem HoldsR.ext' {right : Bool} {m : Mem α} {C : View} {b b' : Nat → Nat → α} (h : HoldsR right m C b)
    (e : ∀ i j, i < rlen right C → b i j = b' i j) : HoldsR right m C b' := by
  refine Holds.congr h fun i j hi hj => ?_
  cases right
  · exact e i j hi
  · exact e j i hj

theorem rcell_mem {right : Bool} {A : View} {i j : Nat} (hi : i < rlen right A) (hj : j < rwid right A) : rcell right A i j ∈ A.foot := by
  cases right
  · exact View.at_mem_foot hi hj
  · exact View.at_mem_foot hj hi

/-- What one block becomes: `n` rows, `h` of them in the upper half. -/
def bOp (diff : Bool) (n h : Nat) (r : Nat → α) (a : Nat → Nat → α) (i j : Nat) : α :=
  if i < h then
    (if i + h < n then (if diff then r i * (a i j + a (i + h) j) else r i * a i j + r (i + h) * a (i + h) j) else r i * a i j)
  else (if diff then r i * (a (i - h) j - a i j) else r (i - h) * a (i - h) j - r i * a i j)

/-- The values of the scalars, apart from `A`. -/
structure RHolds (m : Mem α) (A R : View) (n : Nat) (r : Nat → α) : Prop where
  val : ∀ i, i < n → m (R.vat i) = some (r i)
  dis : ∀ i, i < n → R.vat i ∉ A.foot

omit [CommRing α] [DecidableEq α] in
theorem RHolds.frame {m m' : Mem α} {A R : View} {n : Nat} {r : Nat → α} (h : RHolds m A R n r) (F : Frame A.foot m m') : RHolds m' A R n r :=
  ⟨fun i hi => by rw [F _ (h.dis i hi)]; exact h.val i hi, h.dis⟩

/-- The first element of a pair. -/
def pOp (diff : Bool) (r0 r1 u v : α) : α := if diff then r0 * (u + v) else r0 * u + r1 * v

/-- The second element of a pair. -/
def qOp (diff : Bool) (r0 r1 u v : α) : α := if diff then r1 * (u - v) else r0 * u - r1 * v

theorem rbtPair_spec {right diff : Bool} {m : Mem α} {A R : View} {h i j : Nat} {r : Nat → α} {x : Nat → Nat → α} {u v : α} (hw : A.WF)
    (hA : HoldsR right m A x) (hR : RHolds m A R (rlen right A) r) (hh : 0 < h) (hi : i + h < rlen right A) (hj : j < rwid right A)
    (hu : x i j = u) (hv : x (i + h) j = v) :
    Runs (rbtPair right diff A R h j i m) (fun m' => HoldsR right m' A (fun p q =>
      if q = j ∧ p = i then pOp diff (r i) (r (i + h)) u v
      else if q = j ∧ p = i + h then qOp diff (r i) (r (i + h)) u v
      else x p q) ∧ Frame A.foot m m') := by
  subst hu hv
  unfold rbtPair
  dsimp only
  have h0 := hA.get (i := i) (by omega) hj
  have h1 := hA.get hi hj
  have e0 : (if right = true then A.at' j i else A.at' i j) = rcell right A i j := rfl
  have e1 : (if right = true then A.at' j (i + h) else A.at' (i + h) j) = rcell right A (i + h) j := rfl
  rw [e0, e1]
  refine Runs.rd_bind (hR.val i (by omega)) ?_
  refine Runs.rd_bind (hR.val (i + h) hi) ?_
  refine Runs.rd_bind h0 ?_
  refine Runs.rd_bind h1 ?_
  have f0 : (if diff = true then r i * (x i j + x (i + h) j) else r i * x i j + r (i + h) * x (i + h) j) =
    pOp diff (r i) (r (i + h)) (x i j) (x (i + h) j) := rfl
  have f1 : (if diff = true then r (i + h) * (x i j - x (i + h) j) else r i * x i j - r (i + h) * x (i + h) j) =
    qOp diff (r i) (r (i + h)) (x i j) (x (i + h) j) := rfl
  rw [f0, f1]
  generalize pOp diff (r i) (r (i + h)) (x i j) (x (i + h) j) = u
  generalize qOp diff (r i) (r (i + h)) (x i j) (x (i + h) j) = v
  refine Runs.wr_bind h0 ?_
  have k0 := hA.set hw (i := i) (by omega) hj u
  have k1 := k0.get hi hj
  refine Runs.wr k1 ⟨?_, ?_⟩
  · refine (k0.set hw hi hj _).ext' fun p q _ => ?_
    beta_reduce
    by_cases c : q = j
    · by_cases c1 : p = i
      · rw [if_neg (by omega), if_pos ⟨c1, c⟩, if_pos ⟨c, c1⟩]
      · by_cases c2 : p = i + h
        · rw [if_pos ⟨c2, c⟩, if_neg (by omega), if_pos ⟨c, c2⟩]
        · rw [if_neg (by omega), if_neg (by omega), if_neg (by omega), if_neg (by omega)]
    · rw [if_neg (by omega), if_neg (by omega), if_neg (by omega), if_neg (by omega)]
  · exact (Frame.set (rcell_mem (by omega) hj) _).trans (Frame.set (rcell_mem hi hj) _)

theorem rbtTail_spec {right : Bool} {m : Mem α} {A R : View} {i j : Nat} {r : Nat → α} {x : Nat → Nat → α} (hw : A.WF)
    (hA : HoldsR right m A x) (hR : RHolds m A R (rlen right A) r) (hi : i < rlen right A) (hj : j < rwid right A) :
    Runs (rbtTail right A R j i m) (fun m' => HoldsR right m' A (fun p q => if q = j ∧ p = i then r i * x i j else x p q) ∧ Frame A.foot m m') := by
  unfold rbtTail
  dsimp only
  have h0 := hA.get hi hj
  have e0 : (if right = true then A.at' j i else A.at' i j) = rcell right A i j := rfl
  rw [e0]
  refine Runs.rd_bind (hR.val i hi) ?_
  refine Runs.rd_bind h0 ?_
  refine Runs.wr h0 ⟨?_, Frame.set (rcell_mem hi hj) _⟩
  refine (hA.set hw hi hj _).ext' fun p q _ => ?_
  by_cases c : q = j ∧ p = i
  · rw [if_pos c, if_pos ⟨c.2, c.1⟩]
  · rw [if_neg c, if_neg fun h => c ⟨h.2, h.1⟩]

/-- One column (row) of a block. -/
theorem rbtPairs_spec {right diff : Bool} {m : Mem α} {A R : View} {h j : Nat} {r : Nat → α} {a x : Nat → Nat → α} (hw : A.WF)
    (hA : HoldsR right m A x) (hx : ∀ i, x i j = a i j) (hR : RHolds m A R (rlen right A) r) (hh : 0 < h) (hn : rlen right A ≤ h + h)
    (hj : j < rwid right A) :
    Runs (forUp 0 (rlen right A - h) 1 (rbtPair right diff A R h j) m) (fun s => s.1 = rlen right A - h ∧ HoldsR right s.2 A (fun p q =>
      if q = j ∧ (p + h < rlen right A ∨ h ≤ p ∧ p < rlen right A) then bOp diff (rlen right A) h r a p q else x p q) ∧ Frame A.foot m s.2) := by
  refine Runs.forUp1 (I := fun k m' => HoldsR right m' A (fun p q =>
      if q = j ∧ (p < k ∨ h ≤ p ∧ p < h + k) then bOp diff (rlen right A) h r a p q else x p q) ∧ Frame A.foot m m')
    (Nat.zero_le _) ⟨?_, Frame.refl _ _⟩ ?_ ?_
  · exact hA.ext' fun p q _ => by rw [if_neg (by omega)]
  · rintro k m1 - hk ⟨h1, F1⟩
    have hkh : k < h := by omega
    refine (rbtPair_spec (u := a k j) (v := a (k + h) j) hw h1 (hR.frame F1) hh (i := k) (by omega) hj
      (by rw [if_neg (by omega), hx]) (by rw [if_neg (by omega), hx])).mono ?_
    rintro m2 ⟨h2, F2⟩
    refine ⟨h2.ext' fun p q hp => ?_, F1.trans F2⟩
    by_cases c : q = j
    · subst c
      by_cases c1 : p = k
      · subst c1
        rw [if_pos ⟨rfl, rfl⟩, if_pos (by omega), bOp, if_pos hkh, if_pos (by omega)]
        rfl
      · rw [if_neg (by omega)]
        by_cases c2 : p = k + h
        · subst c2
          rw [if_pos ⟨rfl, rfl⟩, if_pos (by omega), bOp, if_neg (by omega), Nat.add_sub_cancel]
          rfl
        · rw [if_neg (by omega)]
          by_cases c3 : p < k ∨ h ≤ p ∧ p < h + k
          · rw [if_pos ⟨rfl, c3⟩, if_pos (by omega)]
          · rw [if_neg (by omega), if_neg (by omega)]
    · rw [if_neg (by omega), if_neg (by omega), if_neg (by omega), if_neg (by omega)]
  · rintro m1 ⟨h1, F1⟩
    refine ⟨rfl, h1.ext' fun p q hp => ?_, F1⟩
    by_cases c : q = j ∧ (p < rlen right A - h ∨ h ≤ p ∧ p < h + (rlen right A - h))
    · rw [if_pos c, if_pos (by omega)]
    · rw [if_neg c, if_neg (by omega)]

theorem rbtHalf_eq {n h : Nat} (hh : 0 < h) (hn : n ≠ 1) : rbtHalf n (2 * h) = h := by
  unfold rbtHalf
  rw [if_neg hn, if_neg (by omega)]
  omega

/-- `rbt_left`, and `rbt_right` without `ARMAS_TRANS`. -/
theorem rbtBlock_spec {right diff : Bool} {m : Mem α} {A R : View} {h : Nat} {r : Nat → α} {a : Nat → Nat → α} (hw : A.WF)
    (hA : HoldsR right m A a) (hR : RHolds m A R (rlen right A) r) (hh : 0 < h) (hn : rlen right A ≤ h + h)
    (hf : rlen right A = 1 ∨ h ≤ rlen right A) :
    Runs (rbtBlock right diff m A R (2 * h)) (fun m' => HoldsR right m' A (bOp diff (rlen right A) h r a) ∧ Frame A.foot m m') := by
  unfold rbtBlock
  have en : (if right = true then A.cols else A.rows) = rlen right A := rfl
  have ew : (if right = true then A.rows else A.cols) = rwid right A := rfl
  dsimp only
  rw [en, ew]
  obtain ⟨h', hh', e1, e2, e4, e3⟩ : ∃ h', rbtHalf (rlen right A) (2 * h) = h' ∧ 0 < h' ∧ h' ≤ rlen right A ∧ rlen right A ≤ h' + h' ∧
      ∀ p q, bOp diff (rlen right A) h' r a p q = bOp diff (rlen right A) h r a p q ∨ rlen right A ≤ p := by
    by_cases c : rlen right A = 1
    · refine ⟨1, by rw [c]; rfl, by omega, by omega, by omega, fun p q => ?_⟩
      by_cases cp : p = 0
      · subst cp
        left
        unfold bOp
        rw [if_pos (by omega), if_pos hh, if_neg (by omega), if_neg (by omega)]
      · right; omega
    · exact ⟨h, rbtHalf_eq hh c, hh, by omega, by omega, fun p q => Or.inl rfl⟩
  rw [hh']
  refine Runs.bind (P := fun s => HoldsR right s.2 A (bOp diff (rlen right A) h' r a) ∧ Frame A.foot m s.2) ?_ ?_
  · refine Runs.forUp1 (I := fun j m' => HoldsR right m' A (fun p q => if q < j then bOp diff (rlen right A) h' r a p q else a p q) ∧ Frame A.foot m m')
      (Nat.zero_le _) ⟨hA.ext' fun p q _ => by rw [if_neg (by omega)], Frame.refl _ _⟩ ?_ ?_
    · rintro j m1 - hj ⟨h1, F1⟩
      refine (rbtPairs_spec (a := a) hw h1 (fun i => by rw [if_neg (by omega)]) (hR.frame F1) e1 (by omega) hj).bind ?_
      rintro ⟨i, m2⟩ ⟨hi, h2, F2⟩
      dsimp only at hi h2 F2 ⊢
      subst hi
      have R2 := (hR.frame F1).frame F2
      refine Runs.bind (P := fun s => HoldsR right s.2 A (fun p q => if q < j + 1 then bOp diff (rlen right A) h' r a p q else a p q) ∧ Frame A.foot m s.2)
        ?_ fun s hs => Runs.pure hs
      refine Runs.forUp1 (I := fun k m' => HoldsR right m' A (fun p q => if q < j ∨ q = j ∧ (p < k ∨ h' ≤ p) then bOp diff (rlen right A) h' r a p q else a p q) ∧
        Frame A.foot m m') (by omega) ⟨h2.ext' fun p q hp => ?_, F1.trans F2⟩ ?_ ?_
      · by_cases c : q = j ∧ (p + h' < rlen right A ∨ h' ≤ p ∧ p < rlen right A)
        · rw [if_pos c, if_pos (by omega)]
        · rw [if_neg c]
          by_cases c1 : q < j
          · rw [if_pos c1, if_pos (by omega)]
          · rw [if_neg c1, if_neg (by omega)]
      · rintro k m3 hk1 hk2 ⟨h3, F3⟩
        refine (rbtTail_spec hw h3 (hR.frame F3) (i := k) (by omega) hj).mono ?_
        rintro m4 ⟨h4, F4⟩
        refine ⟨h4.ext' fun p q hp => ?_, F3.trans F4⟩
        by_cases c : q = j ∧ p = k
        · obtain ⟨rfl, rfl⟩ := c
          rw [if_pos ⟨rfl, rfl⟩, if_neg (by omega), if_pos (by omega), bOp, if_pos hk2, if_neg (by omega)]
        · rw [if_neg c]
          by_cases c1 : q < j ∨ q = j ∧ (p < k ∨ h' ≤ p)
          · rw [if_pos c1, if_pos (by omega)]
          · rw [if_neg c1, if_neg (by omega)]
      · rintro m3 ⟨h3, F3⟩
        refine ⟨h3.ext' fun p q hp => ?_, F3⟩
        by_cases c : q < j + 1
        · rw [if_pos c, if_pos (by omega)]
        · rw [if_neg c, if_neg (by omega)]
    · rintro m1 ⟨h1, F1⟩
      refine ⟨?_, F1⟩
      cases right
      · exact Holds.congr h1 fun i j hi hj => by simp only [Bool.false_eq_true, if_false]; exact if_pos hj
      · exact Holds.congr h1 fun i j hi hj => by simp only [if_true]; exact if_pos hi
  · rintro ⟨j, m1⟩ ⟨h1, F1⟩
    exact Runs.pure ⟨h1.ext' fun p q hp => (e3 p q).resolve_right (by omega), F1⟩

/-- `rbt_right` with `ARMAS_TRANS` on a block of full size. -/
theorem rbtRightT_spec {m : Mem α} {A R : View} {h : Nat} {r : Nat → α} {a : Nat → Nat → α} (hw : A.WF)
    (hA : HoldsR true m A a) (hR : RHolds m A R A.cols r) (hh : 0 < h) (hn : A.cols = h + h)
    (h0 : 0 < A.rows) :
    Runs (rbtRightT m A R (2 * h)) (fun m' => HoldsR true m' A (bOp false A.cols h r a) ∧ Frame A.foot m m') := by
  unfold rbtRightT
  dsimp only
  rw [rbtHalf_eq hh (by omega)]
  refine Runs.bind (P := fun s => HoldsR true s.2.2 A (bOp false A.cols h r a) ∧ Frame A.foot m s.2.2 ∧ s.2.1 = h) ?_ ?_
  · refine Runs.forUp1 (I := fun j s => HoldsR true s.2 A (fun p q => if q < j then bOp false A.cols h r a p q else a p q) ∧ Frame A.foot m s.2 ∧
      (s.1 = h ∨ (j = 0 ∧ s.1 = 0)))
      (Nat.zero_le _) ⟨hA.ext' fun p q _ => by rw [if_neg (by omega)], Frame.refl _ _, Or.inr ⟨rfl, rfl⟩⟩ ?_ ?_
    · rintro j ⟨j', m1⟩ - hj ⟨h1, F1, -⟩
      dsimp only at h1 F1 ⊢
      refine (rbtPairs_spec (a := a) (diff := false) hw h1 (fun i => by rw [if_neg (by omega)]) (hR.frame F1) hh (by show A.cols ≤ _; omega) hj).mono ?_
      rintro ⟨i, m2⟩ ⟨hi, h2, F2⟩
      dsimp only at hi h2 F2 ⊢
      refine ⟨h2.ext' fun p q hp => ?_, F1.trans F2, Or.inl (by rw [hi]; show A.cols - h = h; omega)⟩
      have e : rlen true A = A.cols := rfl
      rw [e] at hp ⊢
      by_cases c : q = j ∧ (p + h < A.cols ∨ h ≤ p ∧ p < A.cols)
      · rw [if_pos c, if_pos (by omega)]
      · rw [if_neg c]
        by_cases c1 : q < j
        · rw [if_pos c1, if_pos (by omega)]
        · rw [if_neg c1, if_neg (by omega)]
    · rintro ⟨j', m1⟩ ⟨h1, F1, h3⟩
      refine ⟨Holds.congr h1 fun i j hi hj => by simp only [if_true]; exact if_pos hi, F1, ?_⟩
      exact h3.resolve_right (by omega)
  · rintro ⟨i, j, m1⟩ ⟨h1, F1, h3⟩
    dsimp only at h1 F1 h3 ⊢
    subst h3
    refine Runs.bind (P := fun s => s.2 = m1) ?_ ?_
    · exact Runs.forUp1 (I := fun _ s => s = m1) (le_refl _) rfl (fun k _ h1 h2 => absurd h2 (by omega)) fun _ h => h
    · rintro ⟨_, _⟩ rfl
      exact Runs.pure ⟨h1, F1⟩

section Levels

variable {α : Type} [Field α] [DecidableEq α]

/-- `rbt_left` or `rbt_right` on one block. -/
theorem rbtSide_spec {right trans : Bool} {m : Mem α} {A R : View} {h : Nat} {r : Nat → α} {a : Nat → Nat → α} (hw : A.WF)
    (hA : HoldsR right m A a) (hR : RHolds m A R (rlen right A) r) (hh : 0 < h) (hn : rlen right A ≤ h + h)
    (hf : rlen right A = 1 ∨ h ≤ rlen right A) (ht : right = true → trans = true → rlen right A = h + h ∧ 0 < rwid right A) :
    Runs (rbtSide right trans m A R (2 * h)) (fun m' => HoldsR right m' A (bOp (right != trans) (rlen right A) h r a) ∧ Frame A.foot m m') := by
  unfold rbtSide
  cases right
  · rw [if_neg (by simp)]
    cases trans
    · exact rbtBlock_spec hw hA hR hh hn hf
    · exact rbtBlock_spec hw hA hR hh hn hf
  · rw [if_pos rfl]
    cases trans
    · exact rbtBlock_spec hw hA hR hh hn hf
    · exact rbtRightT_spec hw hA hR hh (ht rfl rfl).1 (ht rfl rfl).2

/-- All blocks. -/
def gOp (diff : Bool) (N h : Nat) (r : Nat → α) (a : Nat → Nat → α) (i j : Nat) : α :=
  if i % (2 * h) < h then
    (if i + h < N then pOp diff (r i) (r (i + h)) (a i j) (a (i + h) j) else r i * a i j)
  else qOp diff (r (i - h)) (r i) (a (i - h) j) (a i j)

theorem gOp_bOp {diff : Bool} {N h o n : Nat} {r : Nat → α} {a x : Nat → Nat → α} (ho : o % (2 * h) = 0) (hn : n = min (2 * h) (N - o))
    {i j : Nat} (h1 : i < n) (hx : ∀ i j, o ≤ i → i < o + n → x i j = a i j) :
    bOp diff n h (fun i => r (o + i)) (fun i j => x (o + i) j) i j = gOp diff N h r a (o + i) j := by
  have e : (o + i) % (2 * h) = i := by rw [Nat.add_mod, ho, Nat.zero_add, Nat.mod_mod, Nat.mod_eq_of_lt (by omega)]
  unfold bOp gOp
  rw [e]
  beta_reduce
  by_cases c : i < h
  · rw [if_pos c, if_pos c]
    by_cases c1 : i + h < n
    · have c2 : o + i + h < N := by omega
      rw [if_pos c1, if_pos c2, hx (o + i) j (by omega) (by omega), hx (o + (i + h)) j (by omega) (by omega), ← Nat.add_assoc]
      rfl
    · have c2 : ¬ o + i + h < N := by omega
      rw [if_neg c1, if_neg c2, hx (o + i) j (by omega) (by omega)]
  · rw [if_neg c, if_neg c]
    unfold qOp
    rw [hx (o + (i - h)) j (by omega) (by omega), hx (o + i) j (by omega) (by omega), show o + (i - h) = o + i - h by omega]

/-- The scalars of all levels, apart from `A`. -/
structure RMat (m : Mem α) (A R : View) (n : Nat) (r : Nat → Nat → α) : Prop where
  val : ∀ i k, i < n → k < R.cols → m (R.at' i k) = some (r i k)
  dis : ∀ i k, i < n → k < R.cols → R.at' i k ∉ A.foot

omit [Field α] [DecidableEq α] in
theorem RMat.frame {m m' : Mem α} {A R : View} {n : Nat} {r : Nat → Nat → α} (h : RMat m A R n r) (F : Frame A.foot m m') : RMat m' A R n r :=
  ⟨fun i k hi hk => by rw [F _ (h.dis i k hi hk)]; exact h.val i k hi hk, h.dis⟩

theorem sub_vat {R : View} {o k b i : Nat} (hi : i < b) : (R.sub o k b 1).vat i = R.at' (o + i) k := by
  unfold View.vat View.sub View.at'
  by_cases c : b = 1
  · have : i = 0 := by omega
    subst this
    simp
    omega
  · simp [c, View.inc]
    omega

omit [Field α] [DecidableEq α] in
theorem RMat.col {m : Mem α} {A B R : View} {n : Nat} {r : Nat → Nat → α} (h : RMat m A R n r) {o b k : Nat} (ho : o + b ≤ n) (hk : k < R.cols)
    (hB : B.foot ⊆ A.foot) : RHolds m B (R.sub o k b 1) b (fun i => r (o + i) k) :=
  ⟨fun i hi => by rw [sub_vat hi]; exact h.val _ _ (by omega) hk, fun i hi => by rw [sub_vat hi]; exact fun h' => h.dis _ _ (by omega) hk (hB h')⟩

theorem HoldsR.putR {right : Bool} {m m' : Mem α} {C : View} {x y : Nat → Nat → α} {k n : Nat} (hw : C.WF) (hk : k + n ≤ rlen right C)
    (h0 : HoldsR right m C x) (h1 : HoldsR right m' (rsub right C k n) y) (F : Frame (rsub right C k n).foot m m') :
    HoldsR right m' C (fun i j => if k ≤ i ∧ i < k + n then y (i - k) j else x i j) := by
  cases right
  · simp only [rlen, Bool.false_eq_true, if_false] at hk
    refine (Holds.put (F := ∅) h0 hw (by simp) (r := k) (c := 0) (nr := n) (nc := C.cols) hk (by omega) h1 (F.mono (by intro x; exact Or.inl))).congr
      fun i j hi hj => ?_
    simp only [put, Bool.false_eq_true, if_false]
    by_cases c : k ≤ i ∧ i < k + n
    · rw [if_pos c, if_pos (by omega), Nat.sub_zero]
    · rw [if_neg c, if_neg (by omega)]
  · simp only [rlen, if_true] at hk
    refine (Holds.put (F := ∅) h0 hw (by simp) (r := 0) (c := k) (nr := C.rows) (nc := n) (by omega) hk h1 (F.mono (by intro x; exact Or.inl))).congr
      fun i j hi hj => ?_
    simp only [put, if_true]
    by_cases c : k ≤ j ∧ j < k + n
    · rw [if_pos c, if_pos (by omega), Nat.sub_zero]
    · rw [if_neg c, if_neg (by omega)]

/-- One butterfly matrix. -/
theorem rbtLevel_spec {right trans : Bool} {m : Mem α} {A R : View} {h lb k : Nat} {r : Nat → Nat → α} {a : Nat → Nat → α} (hw : A.WF)
    (hA : HoldsR right m A a) (hR : RMat m A R (rlen right A) r) (hh : 0 < rlen right A → 0 < h) (hk : k < R.cols)
    (hl : lb = 2 * h ∨ lb = rlen right A ∧ rlen right A ≤ 2 * h)
    (hf : rlen right A % (2 * h) ≤ 1 ∨ h ≤ rlen right A % (2 * h))
    (ht : right = true → trans = true → rlen right A % (2 * h) = 0 ∧ 0 < rwid right A) :
    Runs (rbtLevel right trans A R lb (2 * h) k m) (fun m' =>
      HoldsR right m' A (gOp (right != trans) (rlen right A) h (fun i => r i k) a) ∧ Frame A.foot m m') := by
  unfold rbtLevel
  have en : (if right = true then A.cols else A.rows) = rlen right A := rfl
  dsimp only
  rw [en]
  rcases Nat.eq_zero_or_pos (rlen right A) with h0 | h0
  · refine Runs.bind (P := fun s => s.2 = m) ?_ ?_
    · rw [h0, Armas.forUp]
      exact Runs.ok rfl
    · rintro ⟨_, _⟩ rfl
      exact Runs.pure ⟨hA.ext' fun i j hi => absurd hi (by omega), Frame.refl _ _⟩
  have hh := hh h0
  refine Runs.bind (P := fun s => HoldsR right s.2 A (gOp (right != trans) (rlen right A) h (fun i => r i k) a) ∧ Frame A.foot m s.2) ?_ ?_
  · refine Runs.forUp (I := fun o m' => (o % (2 * h) = 0 ∨ rlen right A ≤ o) ∧ HoldsR right m' A (fun i j =>
      if i < o then gOp (right != trans) (rlen right A) h (fun i => r i k) a i j else a i j) ∧ Frame A.foot m m') (by omega)
      ⟨Or.inl (by simp), hA.ext' fun p q _ => by rw [if_neg (by omega)], Frame.refl _ _⟩ ?_ ?_
    · rintro o m1 - ho ⟨h1, h2, F1⟩
      have ho0 : o % (2 * h) = 0 := h1.resolve_right (by omega)
      have hmin : min lb (rlen right A - o) = min (2 * h) (rlen right A - o) := by
        rcases hl with hl | hl
        · rw [hl]
        · omega
      rw [hmin]
      generalize hb : min (2 * h) (rlen right A - o) = b
      have es : (if right = true then A.sub 0 o A.rows b else A.sub o 0 b A.cols) = rsub right A o b := rfl
      rw [es]
      have hob : o + b ≤ rlen right A := by omega
      have hm : b < 2 * h → rlen right A % (2 * h) = b := by
        intro c
        have : rlen right A = o + b := by omega
        rw [this, Nat.add_mod, ho0, Nat.zero_add, Nat.mod_mod, Nat.mod_eq_of_lt c]
      have el : rlen right (rsub right A o b) = b := by cases right <;> rfl
      have ew : rwid right (rsub right A o b) = rwid right A := by cases right <;> rfl
      have hb0 : 0 < b := by omega
      refine (rbtSide_spec (h := h) (r := fun i => r (o + i) k) (rsub_wf hw hob) (h2.part hob) (by rw [el]; exact (hR.frame F1).col hob hk (rsub_foot hob)) hh
        (by omega) ?_ ?_).mono ?_
      · rw [el]
        by_cases c : b < 2 * h
        · have := hm c
          omega
        · omega
      · intro c1 c2
        rw [el, ew]
        obtain ⟨t1, t2⟩ := ht c1 c2
        refine ⟨?_, t2⟩
        by_contra c
        have := hm (by omega)
        omega
      · rintro m2 ⟨h3, F3⟩
        refine ⟨?_, ?_, F1.trans (F3.mono (rsub_foot hob))⟩
        · rcases hl with hl | hl
          · left
            rw [hl, Nat.add_mod_right, ho0]
          · right; omega
        · rw [el] at h3
          refine (h2.putR hw hob h3 F3).ext' fun i j hi => ?_
          by_cases c : o ≤ i ∧ i < o + b
          · rw [if_pos c, if_pos (by omega), gOp_bOp (r := fun i => r i k) (a := a)
              (x := fun i j => if i < o then gOp (right != trans) (rlen right A) h (fun i => r i k) a i j else a i j) ho0 hb.symm (by omega)
              fun i j hi1 hi2 => if_neg (by omega)]
            rw [show o + (i - o) = i by omega]
          · rw [if_neg c]
            by_cases c1 : i < o
            · rw [if_pos c1, if_pos (by omega)]
            · rw [if_neg c1, if_neg ?_]
              omega
    · rintro o m1 ho - ⟨-, h1, F1⟩
      exact ⟨h1.ext' fun i j hi => if_pos (by omega), F1⟩
  · rintro ⟨_, m1⟩ h1
    exact Runs.pure h1

theorem gOp_bfly {N h : Nat} {r : Nat → α} {a : Nat → Nat → α} (hh : 0 < h) {i : Nat} (hi : i < N) (j : Nat) :
    gOp false N h r a i j = bfly N (2 * h) r a i j := by
  unfold gOp bfly bflyMat
  have e2 : 2 * h / 2 = h := by omega
  rw [e2]
  by_cases c : i % (2 * h) < h
  · rw [if_pos c]
    have : ∀ q, (if i = q then if i % (2 * h) < h then r i else -r i else if i % (2 * h) < h ∧ q = i + h then r q
        else if h ≤ i % (2 * h) ∧ q + h = i then r q else 0) * a q j = (if q = i then r i * a i j else 0) + (if q = i + h then r (i + h) * a (i + h) j else 0) := by
      intro q
      by_cases c1 : q = i
      · subst c1
        rw [if_pos rfl, if_pos c, if_pos rfl, if_neg (by omega), add_zero]
      · rw [if_neg (fun h => c1 h.symm), if_neg c1, zero_add]
        by_cases c2 : q = i + h
        · subst c2
          rw [if_pos ⟨c, rfl⟩, if_pos rfl]
        · rw [if_neg (by omega), if_neg (by omega), if_neg c2, zero_mul]
    simp only [this, Finset.sum_add_distrib, Finset.sum_ite_eq', Finset.mem_range]
    rw [if_pos hi]
    by_cases c3 : i + h < N
    · rw [if_pos c3, if_pos c3]
      simp [pOp]
    · rw [if_neg c3, if_neg c3, add_zero]
  · rw [if_neg c]
    have hih : h ≤ i := by
      have := Nat.mod_le i (2 * h)
      omega
    have : ∀ q, (if i = q then if i % (2 * h) < h then r i else -r i else if i % (2 * h) < h ∧ q = i + h then r q
        else if h ≤ i % (2 * h) ∧ q + h = i then r q else 0) * a q j = (if q = i then -r i * a i j else 0) + (if q = i - h then r (i - h) * a (i - h) j else 0) := by
      intro q
      by_cases c1 : q = i
      · subst c1
        rw [if_pos rfl, if_neg c, if_pos rfl, if_neg (by omega), add_zero]
      · rw [if_neg (fun h => c1 h.symm), if_neg c1, zero_add, if_neg (by omega)]
        by_cases c2 : q = i - h
        · subst c2
          rw [if_pos (by omega), if_pos rfl]
        · rw [if_neg (by omega), if_neg c2, zero_mul]
    simp only [this, Finset.sum_add_distrib, Finset.sum_ite_eq', Finset.mem_range]
    rw [if_pos hi, if_pos (by omega)]
    simp only [qOp, Bool.false_eq_true, if_false]
    ring

theorem mod_add_half {i h : Nat} (c : i % (2 * h) < h) : (i + h) % (2 * h) = i % (2 * h) + h := by
  rw [Nat.add_mod, Nat.mod_eq_of_lt (show h < 2 * h by omega), Nat.mod_eq_of_lt (by omega)]

theorem mod_sub_half {i h : Nat} (hh : 0 < h) (c : h ≤ i % (2 * h)) : (i - h) % (2 * h) < h := by
  have h1 := Nat.mod_le i (2 * h)
  have h2 := Nat.mod_lt i (show 0 < 2 * h by omega)
  by_contra h3
  have h4 : ((i - h) + h) % (2 * h) = (i - h) % (2 * h) - h := by
    have h5 := Nat.mod_lt (i - h) (show 0 < 2 * h by omega)
    rw [Nat.add_mod, Nat.mod_eq_of_lt (show h < 2 * h by omega), Nat.mod_eq_sub_mod (by omega), Nat.mod_eq_of_lt (by omega)]
    omega
  rw [Nat.sub_add_cancel (by omega)] at h4
  have h5 := Nat.mod_lt (i - h) (show 0 < 2 * h by omega)
  omega

theorem gOp_bflyT {N h : Nat} {r : Nat → α} {a : Nat → Nat → α} (hh : 0 < h) {i : Nat} (hi : i < N) (j : Nat) :
    gOp true N h r a i j = bflyT N (2 * h) r a i j := by
  unfold gOp bflyT bflyMat
  have e2 : 2 * h / 2 = h := by omega
  rw [e2]
  by_cases c : i % (2 * h) < h
  · rw [if_pos c]
    have : ∀ p, (if p = i then if p % (2 * h) < h then r p else -r p else if p % (2 * h) < h ∧ i = p + h then r i
        else if h ≤ p % (2 * h) ∧ i + h = p then r i else 0) * a p j = (if p = i then r i * a i j else 0) + (if p = i + h then r i * a (i + h) j else 0) := by
      intro p
      by_cases c1 : p = i
      · subst c1
        rw [if_pos rfl, if_pos c, if_pos rfl, if_neg (by omega), add_zero]
      · rw [if_neg c1, if_neg c1, zero_add]
        by_cases c2 : p = i + h
        · subst c2
          have := mod_add_half c
          rw [if_neg (by omega), if_pos ⟨by omega, rfl⟩, if_pos rfl]
        · rw [if_neg ?_, if_neg (by omega), if_neg c2, zero_mul]
          rintro ⟨k1, rfl⟩
          have := mod_add_half k1
          omega
    simp only [this, Finset.sum_add_distrib, Finset.sum_ite_eq', Finset.mem_range]
    rw [if_pos hi]
    by_cases c3 : i + h < N
    · rw [if_pos c3, if_pos c3]
      simp only [pOp, if_true]
      ring
    · rw [if_neg c3, if_neg c3, add_zero]
  · rw [if_neg c]
    have hih : h ≤ i := by
      have := Nat.mod_le i (2 * h)
      omega
    have : ∀ p, (if p = i then if p % (2 * h) < h then r p else -r p else if p % (2 * h) < h ∧ i = p + h then r i
        else if h ≤ p % (2 * h) ∧ i + h = p then r i else 0) * a p j = (if p = i then -r i * a i j else 0) + (if p = i - h then r i * a (i - h) j else 0) := by
      intro p
      by_cases c1 : p = i
      · subst c1
        rw [if_pos rfl, if_neg c, if_pos rfl, if_neg (by omega), add_zero]
      · rw [if_neg c1, if_neg c1, zero_add]
        by_cases c2 : p = i - h
        · subst c2
          rw [if_pos ⟨mod_sub_half hh (by omega), by omega⟩, if_pos rfl]
        · rw [if_neg (by omega), if_neg ?_, if_neg c2, zero_mul]
          rintro ⟨k1, k2⟩
          subst k2
          have := mod_sub_half hh k1
          rw [Nat.add_sub_cancel] at this
          omega
    simp only [this, Finset.sum_add_distrib, Finset.sum_ite_eq', Finset.mem_range]
    rw [if_pos hi, if_pos (by omega)]
    simp only [qOp, if_true]
    ring

/-- The level as a product with the butterfly matrix (`diff` for the transpose). -/
def lvl (diff : Bool) (N s : Nat) (r : Nat → α) (a : Nat → Nat → α) : Nat → Nat → α := if diff then bflyT N s r a else bfly N s r a

theorem gOp_lvl {diff : Bool} {N h : Nat} {r : Nat → α} {a : Nat → Nat → α} (hh : 0 < h) {i : Nat} (hi : i < N) (j : Nat) :
    gOp diff N h r a i j = lvl diff N (2 * h) r a i j := by
  cases diff
  · exact gOp_bfly hh hi j
  · exact gOp_bflyT hh hi j

/-- The last block of every size is at least half full, or has at most one row. -/
def rbtFit (N d w : Nat) : Prop := ∀ c, c < d → N % (w * 2 ^ (c + 1)) ≤ 1 ∨ w * 2 ^ c ≤ N % (w * 2 ^ (c + 1))

/-- Largest butterfly first. -/
def passDown (op : Nat → (Nat → Nat → α) → Nat → Nat → α) : Nat → (Nat → Nat → α) → Nat → Nat → α
  | 0, a => a
  | d + 1, a => passDown op d (op d a)

/-- Smallest butterfly first. -/
def passUp (op : Nat → (Nat → Nat → α) → Nat → Nat → α) : Nat → (Nat → Nat → α) → Nat → Nat → α
  | 0, a => a
  | d + 1, a => op d (passUp op d a)

/-- The butterflies of all columns of `R`. -/
def rop (diff : Bool) (N w : Nat) (r : Nat → Nat → α) (c : Nat) : (Nat → Nat → α) → Nat → Nat → α := lvl diff N (w * 2 ^ (c + 1)) (fun i => r i c)

theorem rop_level {right trans : Bool} {m : Mem α} {A R : View} {w lb Nd k : Nat} {r : Nat → Nat → α} {a : Nat → Nat → α} (hw : A.WF)
    (hA : HoldsR right m A a) (hR : RMat m A R (rlen right A) r) (hh : 0 < rlen right A → 0 < w) (hk : k < R.cols) (hN : Nd = w * 2 ^ (k + 1))
    (hl : lb = Nd ∨ lb = rlen right A ∧ rlen right A ≤ Nd) (hf : rbtFit (rlen right A) R.cols w)
    (ht : right = true → trans = true → 2 ^ R.cols ∣ rlen right A ∧ rlen right A = w * 2 ^ R.cols ∧ 0 < rwid right A) :
    Runs (rbtLevel right trans A R lb Nd k m) (fun m' =>
      HoldsR right m' A (rop (right != trans) (rlen right A) w r k a) ∧ Frame A.foot m m') := by
  have e : Nd = 2 * (w * 2 ^ k) := by rw [hN, pow_succ]; ring
  have e' : w * 2 ^ (k + 1) = 2 * (w * 2 ^ k) := by rw [pow_succ]; ring
  rw [e]
  have hp : 0 < 2 ^ k := Nat.two_pow_pos k
  have hf' := hf k hk
  rw [e'] at hf'
  refine (rbtLevel_spec (h := w * 2 ^ k) hw hA hR (fun h => Nat.mul_pos (hh h) hp) hk (by rw [← e]; exact hl) hf' ?_).mono ?_
  · intro h1 h2
    obtain ⟨-, t1, t2⟩ := ht h1 h2
    refine ⟨?_, t2⟩
    rw [t1, ← e']
    exact Nat.mod_eq_zero_of_dvd (Nat.mul_dvd_mul_left _ (Nat.pow_dvd_pow _ (by omega)))
  · rintro m1 ⟨h1, F1⟩
    refine ⟨h1.ext' fun i j hi => ?_, F1⟩
    rw [gOp_lvl (Nat.mul_pos (hh (by omega)) hp) hi, rop, e']

theorem rbtSize_eq (n d : Nat) : rbtSize n d = ((n + 2 ^ d - 1) / 2 ^ d) * 2 ^ d := rfl

/-- `rbt_recursive_left` and `rbt_recursive_right`. -/
theorem rbtRecursive_spec {right trans : Bool} {c : α} {m : Mem α} {A R : View} {w : Nat} {r : Nat → Nat → α} {a : Nat → Nat → α} (hw : A.WF)
    (hA : HoldsR right m A a) (hR : RMat m A R (rlen right A) r) (hW : w = (rlen right A + 2 ^ R.cols - 1) / 2 ^ R.cols)
    (hf : rbtFit (rlen right A) R.cols w) (hd : trans = true → 0 < R.cols)
    (ht : right = true → trans = true → 2 ^ R.cols ∣ rlen right A ∧ 0 < rwid right A) :
    Runs (rbtRecursive right trans c m A R) (fun m' =>
      HoldsR right m' A (fun i j => c * (if trans then passUp (rop (!right) (rlen right A) w r) R.cols a i j
        else passDown (rop right (rlen right A) w r) R.cols a i j)) ∧ Frame A.foot m m') := by
  have en : (if right = true then A.cols else A.rows) = rlen right A := rfl
  have hp : 0 < 2 ^ R.cols := Nat.two_pow_pos _
  have hle : rlen right A ≤ w * 2 ^ R.cols := by
    have h1 := Nat.div_add_mod (rlen right A + 2 ^ R.cols - 1) (2 ^ R.cols)
    have h2 := Nat.mod_lt (rlen right A + 2 ^ R.cols - 1) hp
    rw [← hW, Nat.mul_comm] at h1
    omega
  have hh : 0 < rlen right A → 0 < w := by
    intro h
    rcases Nat.eq_zero_or_pos w with h0 | h0
    · rw [h0, Nat.zero_mul] at hle
      omega
    · exact h0
  have ht' : right = true → trans = true → 2 ^ R.cols ∣ rlen right A ∧ rlen right A = w * 2 ^ R.cols ∧ 0 < rwid right A := by
    intro h1 h2
    obtain ⟨t1, t2⟩ := ht h1 h2
    refine ⟨t1, ?_, t2⟩
    obtain ⟨q, hq⟩ := t1
    rw [hW, hq, show 2 ^ R.cols * q + 2 ^ R.cols - 1 = (2 ^ R.cols - 1) + 2 ^ R.cols * q by omega, Nat.add_mul_div_left _ _ hp,
      Nat.div_eq_of_lt (by omega)]
    ring
  unfold rbtRecursive
  dsimp only
  rw [en, rbtSize_eq, ← hW]
  have hscale : ∀ {m1 : Mem α} {y : Nat → Nat → α}, HoldsR right m1 A y → Frame A.foot m m1 → Runs (do
      let (_, m) ← mscale m1 A c .all false
      pure m) (fun m' => HoldsR right m' A (fun i j => c * y i j) ∧ Frame A.foot m m') := by
    intro m1 y h1 F1
    refine (Props.C51_mscale_all hw h1).1.bind ?_
    rintro ⟨_, m2⟩ ⟨-, h2, F2⟩
    refine Runs.pure ⟨Holds.congr h2 fun i j _ _ => ?_, F1.trans F2⟩
    cases right <;> rfl
  cases trans
  · rw [if_neg (by simp)]
    simp only [Bool.false_eq_true, if_false]
    refine Runs.bind (P := fun s => HoldsR right s.2.2.2 A (passDown (rop right (rlen right A) w r) R.cols a) ∧ Frame A.foot m s.2.2.2) ?_ ?_
    · refine Runs.forUp1 (I := fun p s => s.2.1 = w * 2 ^ (R.cols - p) ∧ (s.1 = s.2.1 ∨ s.1 = rlen right A ∧ rlen right A ≤ s.2.1) ∧
        ∃ y : Nat → Nat → α, passDown (rop right (rlen right A) w r) (R.cols - p) y = passDown (rop right (rlen right A) w r) R.cols a ∧
          HoldsR right s.2.2 A y ∧ Frame A.foot m s.2.2) (Nat.zero_le _) ⟨rfl, Or.inr ⟨rfl, hle⟩, a, rfl, hA, Frame.refl _ _⟩ ?_ ?_
      · rintro p ⟨lb, Nd, m1⟩ - hp' ⟨i1, i2, y, i3, i4, i5⟩
        dsimp only at i1 i2 i4 i5 ⊢
        have ek : R.cols - p = (R.cols - 1 - p) + 1 := by omega
        refine (rop_level (trans := false) (k := R.cols - 1 - p) hw i4 (hR.frame i5) hh (by omega) (by rw [i1, ek]) i2 hf ht').bind ?_
        rintro m2 ⟨k1, F2⟩
        have e2 : Nd / 2 = w * 2 ^ (R.cols - (p + 1)) := by
          rw [i1, ek, pow_succ, ← Nat.mul_assoc, Nat.mul_div_cancel _ (by omega), show R.cols - 1 - p = R.cols - (p + 1) by omega]
        refine Runs.pure ⟨e2, Or.inl rfl, _, ?_, k1, i5.trans F2⟩
        rw [← i3, ek, passDown, show R.cols - (p + 1) = R.cols - 1 - p by omega]
        cases right <;> rfl
      · rintro ⟨lb, Nd, m1⟩ ⟨-, -, y, i3, i4, i5⟩
        rw [Nat.sub_self] at i3
        exact ⟨by rw [← i3]; exact i4, i5⟩
    · rintro ⟨_, _, _, m1⟩ ⟨h1, F1⟩
      exact hscale h1 F1
  · have hd := hd rfl
    have hk : 2 ^ R.cols / 2 = 2 ^ (R.cols - 1) := by
      conv_lhs => rw [show R.cols = (R.cols - 1) + 1 by omega, pow_succ]
      exact Nat.mul_div_cancel _ (by omega)
    have hk0 : 0 < 2 ^ (R.cols - 1) := Nat.two_pow_pos _
    have hN : w * 2 ^ R.cols / 2 ^ (R.cols - 1) = w * 2 ^ (0 + 1) := by
      conv_lhs => rw [show R.cols = (R.cols - 1) + 1 by omega, pow_succ, Nat.mul_comm (2 ^ _) 2, ← Nat.mul_assoc]
      exact Nat.mul_div_cancel _ hk0
    rw [if_neg (by rw [hk]; omega)]
    simp only [if_true]
    rw [hk, hN]
    refine Runs.bind (P := fun s => HoldsR right s.2.2.2 A (passUp (rop (!right) (rlen right A) w r) R.cols a) ∧ Frame A.foot m s.2.2.2) ?_ ?_
    · refine Runs.forUp1 (I := fun p s => s.2.1 = w * 2 ^ (p + 1) ∧ (s.1 = s.2.1 ∨ s.1 = rlen right A ∧ rlen right A ≤ s.2.1) ∧
        HoldsR right s.2.2 A (passUp (rop (!right) (rlen right A) w r) p a) ∧ Frame A.foot m s.2.2) (Nat.zero_le _)
        ⟨rfl, Or.inl rfl, hA, Frame.refl _ _⟩ ?_ ?_
      · rintro p ⟨lb, Nd, m1⟩ - hp' ⟨i1, i2, i4, i5⟩
        dsimp only at i1 i2 i4 i5 ⊢
        refine (rop_level (trans := true) (k := p) hw i4 (hR.frame i5) hh (by omega) i1 i2 hf ht').bind ?_
        rintro m2 ⟨k1, F2⟩
        refine Runs.pure ⟨?_, ?_, ?_, i5.trans F2⟩
        · show 2 * Nd = _
          rw [i1, pow_succ 2 (p + 1)]; ring
        · show min (2 * lb) _ = 2 * Nd ∨ min (2 * lb) _ = _ ∧ _ ≤ 2 * Nd
          omega
        · cases right <;> exact k1
      · rintro ⟨lb, Nd, m1⟩ ⟨-, -, i4, i5⟩
        exact ⟨i4, i5⟩
    · rintro ⟨_, _, _, m1⟩ ⟨h1, F1⟩
      exact hscale h1 F1

theorem passDown_mul (N w : Nat) (r : Nat → Nat → α) (d : Nat) (a : Nat → Nat → α) : passDown (rop false N w r) d a = rbtMul N w r d a := by
  induction d generalizing a with
  | zero => rfl
  | succ d ih => rw [passDown, rbtMul, ih]; rfl

theorem passUp_mulT (N w : Nat) (r : Nat → Nat → α) (d : Nat) (a : Nat → Nat → α) : passUp (rop true N w r) d a = rbtMulT N w r d a := by
  induction d with
  | zero => rfl
  | succ d ih => rw [passUp, rbtMulT, ih]; rfl

theorem passUp_rev (N w : Nat) (r : Nat → Nat → α) (d : Nat) (a : Nat → Nat → α) : passUp (rop false N w r) d a = rbtRev N w r d a := by
  induction d with
  | zero => rfl
  | succ d ih => rw [passUp, rbtRev, ih]; rfl

theorem passDown_revT (N w : Nat) (r : Nat → Nat → α) (d : Nat) (a : Nat → Nat → α) : passDown (rop true N w r) d a = rbtRevT N w r d a := by
  induction d generalizing a with
  | zero => rfl
  | succ d ih => rw [passDown, rbtRevT, ih]; rfl

/-- For depths up to two every size fits. -/
theorem rbtFit_two {N d : Nat} (hd : d ≤ 2) : rbtFit N d ((N + 2 ^ d - 1) / 2 ^ d) := by
  intro c hc
  have key : ∀ {N s : Nat} (q : Nat), N < s * (q + 1) → s * q ≤ N → N % s = N - s * q := by
    intro N s q h1 h2
    rw [Nat.mul_add] at h1
    conv_lhs => rw [show N = (N - s * q) + s * q by omega, Nat.add_mul_mod_self_left, Nat.mod_eq_of_lt (by omega)]
  interval_cases d
  · omega
  · have : c = 0 := by omega
    subst this
    norm_num
    generalize hw : (N + 1) / 2 = w
    rcases Nat.lt_or_ge N (w * 2) with h | h
    · rw [Nat.mod_eq_of_lt h]; omega
    · rw [show N = w * 2 by omega, Nat.mod_self]; omega
  · generalize hw : (N + 2 ^ 2 - 1) / 2 ^ 2 = w
    norm_num at hw
    interval_cases c
    · norm_num
      rcases Nat.lt_or_ge N (w * 2) with h | h
      · rw [Nat.mod_eq_of_lt h]; omega
      · rcases Nat.lt_or_ge N (w * 2 * 2) with h' | h'
        · rw [key 1 (by omega) (by omega)]; omega
        · rw [show N = w * 2 * 2 by omega, Nat.mul_mod_right]; omega
    · norm_num
      rcases Nat.lt_or_ge N (w * 4) with h | h
      · rw [Nat.mod_eq_of_lt h]; omega
      · rw [show N = w * 4 by omega, Nat.mod_self]; omega

/-- Multiples of `2^d` fit. -/
theorem rbtFit_dvd {N d w : Nat} (h : N = w * 2 ^ d) : rbtFit N d w := by
  intro c hc
  left
  rw [h, Nat.mod_eq_zero_of_dvd (Nat.mul_dvd_mul_left _ (Nat.pow_dvd_pow _ (by omega)))]
  omega

end Levels

end Armas
