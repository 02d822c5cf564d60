import Verif.KernelLemmas

/-! # Specification of the blocked matrix-matrix multiplication -/

namespace Armas

open Finset

variable {α : Type}

/-! ## Block copies -/

/-- What a block copy does to an element: with `ARMAS_ABSA` or `ARMAS_ABSB` it takes the absolute
value `ab`. -/
def Flags.elt (fl : Flags) (ab : α → α) (x : α) : α := if fl.absA ∨ fl.absB then ab x else x

theorem Flags.elt_id {fl : Flags} (hA : fl.absA = false) (hB : fl.absB = false) (ab : α → α) (x : α) :
    fl.elt ab x = x := by simp [Flags.elt, hA, hB]

/-- One element copy of a matrix that is being filled. -/
theorem Upd.copyElem {m0 m : Mem α} {D : View} {f g : Nat → Nat → α} {S : Nat → Nat → Prop}
    (h : Upd m0 D f g S m) (hw : D.WF) {i j : Nat} (hi : i < D.rows) (hj : j < D.cols)
    (hS : ¬ S i j) {p q : Nat} (hq : q = D.at' i j) {v : α} (hv : m p = some v) (ab : α → α)
    (hg : ab v = g i j) :
    Runs (do let v ← rd m p; wr m q (ab v)) (Upd m0 D f g (fun r c => S r c ∨ (r = i ∧ c = j))) := by
  subst hq
  refine Runs.rd_bind hv (Runs.wr (h.old hi hj hS) ?_)
  exact h.set hw hi hj hg

theorem copyPlainAbs_spec (ab : α → α) {m : Mem α} {D S : View} {a b : Nat → Nat → α}
    (hD : D.WF) (hR : D.rows ≤ S.rows) (hC : D.cols ≤ S.cols)
    (hA : Holds m D a) (hS : Holds m S b) (hd : Disjoint S.foot D.foot) :
    Runs (copyPlainAbs ab m D S D.rows D.cols)
      (fun m' => Holds m' D (fun i j => ab (b i j)) ∧ Frame D.foot m m') := by
  unfold copyPlainAbs
  have hs : ∀ {P m'}, Upd m D a (fun i j => ab (b i j)) P m' → Holds m' S b := fun h => h.otherM hS hd
  have step : ∀ {P : Nat → Nat → Prop} {m' i j}, i < D.rows → j < D.cols → ¬ P i j →
      Upd m D a (fun i j => ab (b i j)) P m' →
      Runs (do let v ← rd m' (S.at' i j); wr m' (D.at' i j) (ab v))
        (Upd m D a (fun i j => ab (b i j)) (fun r c => P r c ∨ (r = i ∧ c = j))) :=
    fun hi hj hP h => h.copyElem hD hi hj hP rfl (hs h _ _ (by omega) (by omega)) ab rfl
  refine Runs.bind (Runs.forUp
    (fun j m' => Upd m D a (fun i j => ab (b i j)) (fun _ q => q < j) m' ∧ j ≤ D.cols)
    (by omega) ⟨(Upd.init hA _).congr (by simp), by omega⟩ ?_ (Q := fun p => Upd m D a
      (fun i j => ab (b i j)) (fun _ q => q < p.1) p.2 ∧ p.1 ≤ D.cols)
    (fun k st h1 _ h => ⟨h.1, h.2⟩)) ?_
  · rintro j m1 - hj ⟨h, -⟩
    refine Runs.bind (Runs.forUp1
      (fun i m' => Upd m D a (fun i j => ab (b i j)) (fun p q => q < j ∨ (p < i ∧ q < j + 4)) m')
      (by omega) (h.congr (by simp)) ?_ (Q := fun p => Upd m D a (fun i j => ab (b i j))
        (fun _ q => q < j + 4) p.2) (fun m' h => h.congr (fun p q _ _ => by omega)))
      (fun p hp => Runs.pure ⟨hp, by omega⟩)
    intro i m1 _ hi h
    refine Runs.bind (step hi (by omega) (by omega) h) (fun m2 h => ?_)
    refine Runs.bind (step hi (by omega) (by omega) h) (fun m2 h => ?_)
    refine Runs.bind (step hi (by omega) (by omega) h) (fun m2 h => ?_)
    refine (step hi (by omega) (by omega) h).mono (fun m2 h => h.congr ?_)
    intros; omega
  · rintro ⟨j, m1⟩ ⟨h, hle⟩
    dsimp only at h hle ⊢
    refine Runs.bind (Runs.forUp1
      (fun j m' => Upd m D a (fun i j => ab (b i j)) (fun _ q => q < j) m') hle h ?_
      (Q := fun p => Holds p.2 D (fun i j => ab (b i j)) ∧ Frame D.foot m p.2)
      (fun m' h => ⟨h.all (fun _ _ _ hj => hj), h.frame⟩)) (fun p hp => Runs.pure hp)
    intro j m1 _ hj h
    refine Runs.bind (Runs.forUp1
      (fun i m' => Upd m D a (fun i j => ab (b i j)) (fun p q => q < j ∨ (p < i ∧ q < j + 1)) m')
      (by omega) (h.congr (by simp)) ?_ (Q := fun p => Upd m D a (fun i j => ab (b i j))
        (fun _ q => q < j + 1) p.2) (fun m' h => h.congr (fun p q _ _ => by omega)))
      (fun p hp => Runs.pure hp)
    intro i m1 _ hi h
    refine (step hi (by omega) (by omega) h).mono (fun m2 h => h.congr ?_)
    intros; omega

theorem copyTransAbs_spec (ab : α → α) {m : Mem α} {D S : View} {a b : Nat → Nat → α}
    (hD : D.WF) (hR : D.cols ≤ S.rows) (hC : D.rows ≤ S.cols)
    (hA : Holds m D a) (hS : Holds m S b) (hd : Disjoint S.foot D.foot) :
    Runs (copyTransAbs ab m D S D.cols D.rows)
      (fun m' => Holds m' D (fun i j => ab (b j i)) ∧ Frame D.foot m m') := by
  unfold copyTransAbs
  have hs : ∀ {P m'}, Upd m D a (fun i j => ab (b j i)) P m' → Holds m' S b := fun h => h.otherM hS hd
  have step : ∀ {P : Nat → Nat → Prop} {m' i j}, i < D.cols → j < D.rows → ¬ P j i →
      Upd m D a (fun i j => ab (b j i)) P m' →
      Runs (do let v ← rd m' (S.at' i j); wr m' (D.at' j i) (ab v))
        (Upd m D a (fun i j => ab (b j i)) (fun r c => P r c ∨ (r = j ∧ c = i))) :=
    fun hi hj hP h => h.copyElem hD hj hi hP rfl (hs h _ _ (by omega) (by omega)) ab rfl
  refine Runs.bind (Runs.forUp
    (fun j m' => Upd m D a (fun i j => ab (b j i)) (fun q _ => q < j) m' ∧ j ≤ D.rows)
    (by omega) ⟨(Upd.init hA _).congr (by simp), by omega⟩ ?_ (Q := fun p => Upd m D a
      (fun i j => ab (b j i)) (fun q _ => q < p.1) p.2 ∧ p.1 ≤ D.rows)
    (fun k st h1 _ h => ⟨h.1, h.2⟩)) ?_
  · rintro j m1 - hj ⟨h, -⟩
    refine Runs.bind (Runs.forUp1
      (fun i m' => Upd m D a (fun i j => ab (b j i)) (fun q p => q < j ∨ (p < i ∧ q < j + 4)) m')
      (by omega) (h.congr (by simp)) ?_ (Q := fun p => Upd m D a (fun i j => ab (b j i))
        (fun q _ => q < j + 4) p.2) (fun m' h => h.congr (fun p q _ _ => by omega)))
      (fun p hp => Runs.pure ⟨hp, by omega⟩)
    intro i m1 _ hi h
    refine Runs.bind (step hi (by omega) (by omega) h) (fun m2 h => ?_)
    refine Runs.bind (step hi (by omega) (by omega) h) (fun m2 h => ?_)
    refine Runs.bind (step hi (by omega) (by omega) h) (fun m2 h => ?_)
    refine (step hi (by omega) (by omega) h).mono (fun m2 h => h.congr ?_)
    intros; omega
  · rintro ⟨j, m1⟩ ⟨h, hle⟩
    dsimp only at h hle ⊢
    refine Runs.bind (Runs.forUp1
      (fun j m' => Upd m D a (fun i j => ab (b j i)) (fun q _ => q < j) m') hle h ?_
      (Q := fun p => Holds p.2 D (fun i j => ab (b j i)) ∧ Frame D.foot m p.2)
      (fun m' h => ⟨h.all (fun _ _ hj _ => hj), h.frame⟩)) (fun p hp => Runs.pure hp)
    intro j m1 _ hj h
    refine Runs.bind (Runs.forUp
      (fun i m' => Upd m D a (fun i j => ab (b j i)) (fun q p => q < j ∨ (p < i ∧ q < j + 1)) m' ∧
        i ≤ D.cols)
      (by omega) ⟨h.congr (by simp), by omega⟩ ?_ (Q := fun p => Upd m D a (fun i j => ab (b j i))
        (fun q c => q < j ∨ (c < p.1 ∧ q < j + 1)) p.2 ∧ p.1 ≤ D.cols ∧ D.cols - 3 ≤ p.1)
        (fun k m' h1 _ h => ⟨h.1, h.2, h1⟩)) ?_
    · rintro i m1 - hi ⟨h, -⟩
      refine Runs.bind (step (by omega) (by omega) (by omega) h) (fun m2 h => ?_)
      refine Runs.bind (step (by omega) (by omega) (by omega) h) (fun m2 h => ?_)
      refine Runs.bind (step (by omega) (by omega) (by omega) h) (fun m2 h => ?_)
      refine (step (by omega) (by omega) (by omega) h).mono (fun m2 h => ⟨h.congr ?_, by omega⟩)
      intros; omega
    · rintro ⟨i, m1⟩ ⟨h, h1, h2⟩
      dsimp only at h h1 h2 ⊢
      refine Runs.switchTail (fun i m' => Upd m D a (fun i j => ab (b j i))
        (fun q p => q < j ∨ (p < i ∧ q < j + 1)) m') h1 h2 h ?_
        (fun m2 h => h.congr (by intros; omega))
      intro i m1 _ hi h
      refine (step hi (by omega) (by omega) h).mono (fun m2 h => h.congr ?_)
      intros; omega

theorem cpBlk_spec (ab : α → α) (fl : Flags) {m : Mem α} {D S : View} {a b : Nat → Nat → α} {nR nC : Nat}
    (hnR : nR = D.rows) (hnC : nC = D.cols)
    (hD : D.WF) (hR : D.rows ≤ S.rows) (hC : D.cols ≤ S.cols)
    (hA : Holds m D a) (hS : Holds m S b) (hd : Disjoint S.foot D.foot) :
    Runs (cpBlk ab m D S nR nC fl)
      (fun m' => Holds m' D (fun i j => fl.elt ab (b i j)) ∧ Frame D.foot m m') := by
  subst hnR hnC
  unfold cpBlk Flags.elt
  split
  · exact copyPlainAbs_spec ab hD hR hC hA hS hd
  · exact copyPlain_spec hD hR hC hA hS hd

theorem cpBlkTrans_spec (ab : α → α) (fl : Flags) {m : Mem α} {D S : View} {a b : Nat → Nat → α}
    {nR nC : Nat} (hnR : nR = D.cols) (hnC : nC = D.rows)
    (hD : D.WF) (hR : D.cols ≤ S.rows) (hC : D.rows ≤ S.cols)
    (hA : Holds m D a) (hS : Holds m S b) (hd : Disjoint S.foot D.foot) :
    Runs (cpBlkTrans ab m D S nR nC fl)
      (fun m' => Holds m' D (fun i j => fl.elt ab (b j i)) ∧ Frame D.foot m m') := by
  subst hnR hnC
  unfold cpBlkTrans Flags.elt
  split
  · exact copyTransAbs_spec ab hD hR hC hA hS hd
  · exact copyTrans4x1_spec hD hR hC hA hS hd

/-! ## The copy buffers -/

/-- Both copy buffers are usable: positive block sizes, a stride that fits a block column, all cells
allocated, and the two do not overlap. -/
structure Cache.Ready (c : Cache) (m : Mem α) : Prop where
  kb : 0 < c.KB
  nb : 0 < c.NB
  mb : 0 < c.MB
  rb : 0 < c.rb
  step : c.KB ≤ c.step
  allocA : ∃ a, Holds m (c.A c.KB c.MB) a
  allocB : ∃ b, Holds m (c.B c.KB c.NB) b
  dis : Disjoint (c.A c.KB c.MB).foot (c.B c.KB c.NB).foot

/-- The cells of the copy buffers. -/
def Cache.foot (c : Cache) : Set Nat := (c.A c.KB c.MB).foot ∪ (c.B c.KB c.NB).foot

theorem Cache.A_sub (c : Cache) (KB MB nr nc : Nat) : c.A nr nc = (c.A KB MB).sub 0 0 nr nc := by
  simp [Cache.A, View.sub]

theorem Cache.B_sub (c : Cache) (KB NB nr nc : Nat) : c.B nr nc = (c.B KB NB).sub 0 0 nr nc := by
  simp [Cache.B, View.sub]

theorem Cache.A_foot (c : Cache) {nr nc : Nat} (hr : nr ≤ c.KB) (hc : nc ≤ c.MB) :
    (c.A nr nc).foot ⊆ (c.A c.KB c.MB).foot := by
  rw [c.A_sub c.KB c.MB]
  exact View.sub_foot (V := c.A c.KB c.MB) (by simpa [Cache.A] using hr) (by simpa [Cache.A] using hc)

theorem Cache.B_foot (c : Cache) {nr nc : Nat} (hr : nr ≤ c.KB) (hc : nc ≤ c.NB) :
    (c.B nr nc).foot ⊆ (c.B c.KB c.NB).foot := by
  rw [c.B_sub c.KB c.NB]
  exact View.sub_foot (V := c.B c.KB c.NB) (by simpa [Cache.B] using hr) (by simpa [Cache.B] using hc)

namespace Cache.Ready
variable {c : Cache} {m m' : Mem α}

theorem wfA (h : c.Ready m) : (c.A c.KB c.MB).WF := Or.inl h.step
theorem wfB (h : c.Ready m) : (c.B c.KB c.NB).WF := Or.inl h.step

theorem frame (h : c.Ready m) {S : Set Nat} (hf : Frame S m m') (hd : Disjoint c.foot S) : c.Ready m' := by
  obtain ⟨a, ha⟩ := h.allocA
  obtain ⟨b, hb⟩ := h.allocB
  exact ⟨h.kb, h.nb, h.mb, h.rb, h.step, ⟨a, ha.frame hf (hd.mono_left Set.subset_union_left)⟩,
    ⟨b, hb.frame hf (hd.mono_left Set.subset_union_right)⟩, h.dis⟩

theorem writeA (h : c.Ready m) {nr nc : Nat} {v : Nat → Nat → α} (hr : nr ≤ c.KB) (hc : nc ≤ c.MB)
    (hv : Holds m' (c.A nr nc) v) (hf : Frame (c.A nr nc).foot m m') : c.Ready m' := by
  obtain ⟨a, ha⟩ := h.allocA
  obtain ⟨b, hb⟩ := h.allocB
  have hb' : Holds m' (c.B c.KB c.NB) b :=
    hb.frame hf (h.dis.symm.mono_right (c.A_foot hr hc))
  rw [c.A_sub c.KB c.MB] at hv hf
  exact ⟨h.kb, h.nb, h.mb, h.rb, h.step,
    ⟨_, ha.patch h.wfA (by simpa [Cache.A] using hr) (by simpa [Cache.A] using hc) hv hf⟩, ⟨b, hb'⟩, h.dis⟩

theorem writeB (h : c.Ready m) {nr nc : Nat} {v : Nat → Nat → α} (hr : nr ≤ c.KB) (hc : nc ≤ c.NB)
    (hv : Holds m' (c.B nr nc) v) (hf : Frame (c.B nr nc).foot m m') : c.Ready m' := by
  obtain ⟨a, ha⟩ := h.allocA
  obtain ⟨b, hb⟩ := h.allocB
  have ha' : Holds m' (c.A c.KB c.MB) a :=
    ha.frame hf (h.dis.mono_right (c.B_foot hr hc))
  rw [c.B_sub c.KB c.NB] at hv hf
  exact ⟨h.kb, h.nb, h.mb, h.rb, h.step, ⟨a, ha'⟩,
    ⟨_, hb.patch h.wfB (by simpa [Cache.B] using hr) (by simpa [Cache.B] using hc) hv hf⟩, h.dis⟩

theorem allocA' (h : c.Ready m) {nr nc : Nat} (hr : nr ≤ c.KB) (hc : nc ≤ c.MB) :
    ∃ a, Holds m (c.A nr nc) a := by
  obtain ⟨a, ha⟩ := h.allocA
  rw [c.A_sub c.KB c.MB]
  exact ⟨_, ha.sub (by simpa [Cache.A] using hr) (by simpa [Cache.A] using hc)⟩

theorem allocB' (h : c.Ready m) {nr nc : Nat} (hr : nr ≤ c.KB) (hc : nc ≤ c.NB) :
    ∃ a, Holds m (c.B nr nc) a := by
  obtain ⟨a, ha⟩ := h.allocB
  rw [c.B_sub c.KB c.NB]
  exact ⟨_, ha.sub (by simpa [Cache.B] using hr) (by simpa [Cache.B] using hc)⟩

end Cache.Ready

/-- `op(A)`. -/
def opM (t : Bool) (a : Nat → Nat → α) (i j : Nat) : α := if t then a j i else a i j

/-- Loading a block of `op(A)` transposed to the `A` buffer. -/
theorem loadA {c : Cache} {m : Mem α} (ab : α → α) (fl : Flags) {A : View} {a : Nat → Nat → α}
    (hc : c.Ready m) (hA : Holds m A a) (hd : Disjoint A.foot c.foot) {ip kp nI nP : Nat}
    (hnP : nP ≤ c.KB) (hnI : nI ≤ c.MB)
    (hi : ip + nI ≤ if fl.transA then A.cols else A.rows)
    (hk : kp + nP ≤ if fl.transA then A.rows else A.cols) :
    Runs (if fl.transA then cpBlk ab m (c.A nP nI) (A.sub kp ip nP nI) nP nI fl
        else cpBlkTrans ab m (c.A nP nI) (A.sub ip kp nI nP) nI nP fl) (fun m' =>
      Holds m' (c.A nP nI) (fun k i => fl.elt ab (opM fl.transA a (ip + i) (kp + k))) ∧
      Frame (c.A nP nI).foot m m' ∧ c.Ready m') := by
  obtain ⟨v, hv⟩ := hc.allocA' hnP hnI
  have hw : (c.A nP nI).WF := Or.inl (le_trans hnP hc.step)
  have hfA : (c.A nP nI).foot ⊆ c.foot := (c.A_foot hnP hnI).trans Set.subset_union_left
  cases ht : fl.transA
  · simp only [ht, Bool.false_eq_true, if_false] at hi hk ⊢
    refine (cpBlkTrans_spec (S := A.sub ip kp nI nP) ab fl rfl rfl hw (le_refl _) (le_refl _) hv
      (hA.sub hi hk) ((hd.mono_left (View.sub_foot hi hk)).mono_right hfA)).mono ?_
    rintro m' ⟨h1, h2⟩
    exact ⟨h1, h2, hc.writeA hnP hnI h1 h2⟩
  · simp only [ht, if_true] at hi hk ⊢
    refine (cpBlk_spec (S := A.sub kp ip nP nI) ab fl rfl rfl hw (le_refl _) (le_refl _) hv
      (hA.sub hk hi) ((hd.mono_left (View.sub_foot hk hi)).mono_right hfA)).mono ?_
    rintro m' ⟨h1, h2⟩
    exact ⟨h1, h2, hc.writeA hnP hnI h1 h2⟩

/-- Loading a block of `op(B)` to the `B` buffer. -/
theorem loadB {c : Cache} {m : Mem α} (ab : α → α) (fl : Flags) {B : View} {b : Nat → Nat → α}
    (hc : c.Ready m) (hB : Holds m B b) (hd : Disjoint B.foot c.foot) {jp kp nJ nP : Nat}
    (hnP : nP ≤ c.KB) (hnJ : nJ ≤ c.NB)
    (hj : jp + nJ ≤ if fl.transB then B.rows else B.cols)
    (hk : kp + nP ≤ if fl.transB then B.cols else B.rows) :
    Runs (if fl.transB then cpBlkTrans ab m (c.B nP nJ) (B.sub jp kp nJ nP) nJ nP fl
        else cpBlk ab m (c.B nP nJ) (B.sub kp jp nP nJ) nP nJ fl) (fun m' =>
      Holds m' (c.B nP nJ) (fun k j => fl.elt ab (opM fl.transB b (kp + k) (jp + j))) ∧
      Frame (c.B nP nJ).foot m m' ∧ c.Ready m') := by
  obtain ⟨v, hv⟩ := hc.allocB' hnP hnJ
  have hw : (c.B nP nJ).WF := Or.inl (le_trans hnP hc.step)
  have hfB : (c.B nP nJ).foot ⊆ c.foot := (c.B_foot hnP hnJ).trans Set.subset_union_right
  cases ht : fl.transB
  · simp only [ht, Bool.false_eq_true, if_false] at hj hk ⊢
    refine (cpBlk_spec (S := B.sub kp jp nP nJ) ab fl rfl rfl hw (le_refl _) (le_refl _) hv
      (hB.sub hk hj) ((hd.mono_left (View.sub_foot hk hj)).mono_right hfB)).mono ?_
    rintro m' ⟨h1, h2⟩
    exact ⟨h1, h2, hc.writeB hnP hnJ h1 h2⟩
  · simp only [ht, if_true] at hj hk ⊢
    refine (cpBlkTrans_spec (S := B.sub jp kp nJ nP) ab fl rfl rfl hw (le_refl _) (le_refl _) hv
      (hB.sub hj hk) ((hd.mono_left (View.sub_foot hj hk)).mono_right hfB)).mono ?_
    rintro m' ⟨h1, h2⟩
    exact ⟨h1, h2, hc.writeB hnP hnJ h1 h2⟩

/-! ## The blocked loops -/

/-- `Holds.patch` when cells outside the matrix were written as well. -/
theorem Holds.patch' {m m' : Mem α} {V : View} {a b : Nat → Nat → α} (h : Holds m V a) (hw : V.WF)
    {r c nr nc : Nat} {S : Set Nat} (hr : r + nr ≤ V.rows) (hc : c + nc ≤ V.cols)
    (hb : Holds m' (V.sub r c nr nc) b) (hf : Frame ((V.sub r c nr nc).foot ∪ S) m m')
    (hd : Disjoint V.foot S) :
    Holds m' V (fun i j => if r ≤ i ∧ i < r + nr ∧ c ≤ j ∧ j < c + nc then b (i - r) (j - c)
      else a i j) := by
  intro i j hi hj
  by_cases hin : r ≤ i ∧ i < r + nr ∧ c ≤ j ∧ j < c + nc
  · simp only [hin, and_self, if_true]
    have := hb (i - r) (j - c) (by simp; omega) (by simp; omega)
    rw [View.at_sub] at this
    rw [← this]
    congr 2 <;> omega
  · simp only [if_neg hin]
    rw [hf _ ?_]
    · exact h i j hi hj
    · rintro (hmem | hmem)
      · exact hin ((View.mem_sub_foot hw hr hc hi hj).mp hmem)
      · exact Set.disjoint_left.mp hd (View.at_mem_foot hi hj) hmem

section
variable [CommRing α] [DecidableEq α]

/-- `armas_scale_unsafe` on any matrix, as it is called everywhere: only if the factor is not one. -/
theorem scaleUnsafe_mat {m : Mem α} {X : View} {f : Nat → Nat → α} (beta : α)
    (hw : X.WF) (hx : Holds m X f) :
    Runs (if beta ≠ 1 then scaleUnsafe m X beta else pure m)
      (fun m' => Holds m' X (fun i j => beta * f i j) ∧ Frame X.foot m m') := by
  by_cases hv : X.isVec
  · have key : ∀ i j, i < X.rows → j < X.cols →
        (if X.rows = 1 then f 0 (i + j) else f (i + j) 0) = f i j := by
      intro i j hi hj
      by_cases h1 : X.rows = 1
      · rw [if_pos h1]; congr 1 <;> omega
      · have h2 : X.cols = 1 := by
          rcases hv with h | h
          · exact absurd h h1
          · exact h
        rw [if_neg h1]; congr 1 <;> omega
    refine (scaleUnsafe_vec (x := fun k => if X.rows = 1 then f 0 k else f k 0) beta hv hw
      ((holdsV_iff hv).mpr (hx.congr (fun i j hi hj => (key i j hi hj).symm)))).mono ?_
    rintro m' ⟨h, hf⟩
    refine ⟨((holdsV_iff hv).mp h).congr (fun i j hi hj => ?_), hf⟩
    rw [key i j hi hj]
  · by_cases hb : beta = 1
    · rw [if_neg (by simp [hb])]
      exact Runs.pure ⟨hx.congr (by simp [hb]), Frame.refl _ _⟩
    · rw [if_pos hb]
      unfold scaleUnsafe
      rw [if_neg hv]
      refine (blkScale_spec beta hw hx).mono ?_
      rintro m' ⟨h, hf⟩
      exact ⟨h.congr (fun i j _ _ => mul_comm _ _), hf⟩

/-- The row loop: one panel of `C` gains `alpha` times the product of one inner block. -/
theorem kernelRows_spec {c : Cache} {m : Mem α} (ab : α → α) (fl : Flags) {C A : View}
    {a b f : Nat → Nat → α} (alpha : α) {jp nJ kp nP : Nat}
    (hw : C.WF) (hc : c.Ready m) (hA : Holds m A a)
    (hdA : Disjoint A.foot c.foot) (hdC : Disjoint C.foot c.foot) (hdAC : Disjoint A.foot C.foot)
    (hnP : nP ≤ c.KB) (hnJ : nJ ≤ c.NB) (hj : jp + nJ ≤ C.cols)
    (hr : C.rows = if fl.transA then A.cols else A.rows)
    (hk : kp + nP ≤ if fl.transA then A.rows else A.cols)
    (hC : Holds m (C.sub 0 jp C.rows nJ) f) (hB : Holds m (c.B nP nJ) b) :
    Runs (kernelRows ab m C alpha A fl c (c.B nP nJ) jp nJ kp nP) (fun m' =>
      Holds m' (C.sub 0 jp C.rows nJ) (fun i j => f i j + alpha * ∑ k ∈ range nP,
        fl.elt ab (opM fl.transA a i (kp + k)) * b k j) ∧
      Frame ((C.sub 0 jp C.rows nJ).foot ∪ (c.A c.KB c.MB).foot) m m' ∧ c.Ready m') := by
  unfold kernelRows
  set Cp := C.sub 0 jp C.rows nJ with hCp
  have hCpf : Cp.foot ⊆ C.foot := View.sub_foot (by omega) hj
  have hwp : Cp.WF := hw.sub (by omega) hj
  set g : Nat → Nat → α := fun i j => f i j + alpha * ∑ k ∈ range nP,
        fl.elt ab (opM fl.transA a i (kp + k)) * b k j with hg
  have hdCp : Disjoint Cp.foot c.foot := hdC.mono_left hCpf
  refine Runs.bind (Runs.forUp (fun ip m' => Holds m' Cp (fun i j => if i < ip then g i j else f i j) ∧
    Frame (Cp.foot ∪ (c.A c.KB c.MB).foot) m m' ∧ c.Ready m') hc.mb
    ⟨hC.congr (by intros; simp), Frame.refl _ _, hc⟩ ?_
    (Q := fun p => Holds p.2 Cp g ∧ Frame (Cp.foot ∪ (c.A c.KB c.MB).foot) m p.2 ∧ c.Ready p.2)
    (fun k st h1 _ h => ⟨h.1.congr ?_, h.2⟩)) (fun p hp => Runs.pure hp)
  · rintro ip m1 - hip ⟨h1, hf1, hc1⟩
    set nI := min c.MB (C.rows - ip) with hnI
    have hA1 : Holds m1 A a := by
      refine hA.frame hf1 ?_
      rw [Set.disjoint_union_right]
      exact ⟨hdAC.mono_right hCpf, hdA.mono_right Set.subset_union_left⟩
    have hB1 : Holds m1 (c.B nP nJ) b := by
      refine hB.frame hf1 ?_
      rw [Set.disjoint_union_right]
      exact ⟨(hdCp.mono_right ((c.B_foot hnP hnJ).trans Set.subset_union_right)).symm,
        hc.dis.symm.mono_left (c.B_foot hnP hnJ)⟩
    refine Runs.bind (loadA (ip := ip) (kp := kp) (nI := nI) (nP := nP) ab fl hc1 hA1 hdA hnP
      (by omega) (by rw [← hr]; omega) hk) ?_
    rintro m2 ⟨hA2, hf2, hc2⟩
    have hfA : (c.A nP nI).foot ⊆ (c.A c.KB c.MB).foot := c.A_foot hnP (by omega)
    have hC2 := h1.frame hf2 (hdCp.mono_right (hfA.trans Set.subset_union_left))
    have hB2 := hB1.frame hf2 ((hc.dis.symm.mono_left (c.B_foot hnP hnJ)).mono_right hfA)
    have eC : C.sub ip jp nI nJ = Cp.sub ip 0 nI nJ := by
      simp only [hCp, View.sub, View.mk.injEq, and_true]; ring
    have hr1 : ip + nI ≤ Cp.rows := by rw [hCp, View.sub_rows]; omega
    have hc1' : 0 + nJ ≤ Cp.cols := by rw [hCp, View.sub_cols]; omega
    have hfs : (Cp.sub ip 0 nI nJ).foot ⊆ Cp.foot := View.sub_foot hr1 hc1'
    rw [eC]
    have hds := (hdCp.mono_left hfs)
    refine (kernelInner_spec (C := Cp.sub ip 0 nI nJ) (A := c.A nP nI) (B := c.B nP nJ) alpha hc2.rb
      (hwp.sub hr1 hc1') (hC2.sub hr1 hc1') hA2 hB2 (le_refl _) (le_refl _) (le_refl _)
      (hds.mono_right (hfA.trans Set.subset_union_left)).symm
      (hds.mono_right ((c.B_foot hnP hnJ).trans Set.subset_union_right)).symm).mono ?_
    rintro m3 ⟨h3, hf3⟩
    have hp := hC2.patch hwp hr1 hc1' h3 hf3
    refine ⟨hp.congr ?_, (hf1.trans (hf2.mono (hfA.trans Set.subset_union_right))).trans
      (hf3.mono (hfs.trans Set.subset_union_left)), hc2.frame hf3 hds.symm⟩
    intro i j hi hj
    rw [hCp, View.sub_rows] at hi
    rw [hCp, View.sub_cols] at hj
    by_cases hin : ip ≤ i ∧ i < ip + nI
    · rw [if_pos ⟨hin.1, hin.2, by omega, by omega⟩, if_neg (by omega), if_pos (by omega)]
      simp only [hg, Nat.sub_zero, Nat.zero_add]
      rw [show ip + (i - ip) = i by omega]
      rfl
    · rw [if_neg (by omega)]
      by_cases h5 : i < ip
      · rw [if_pos h5, if_pos (by omega)]
      · rw [if_neg h5, if_neg (by omega)]
  · intro i j hi _
    rw [hCp, View.sub_rows] at hi
    rw [if_pos (by omega)]

/-- The loop over the inner dimension: one panel of `C` gains `alpha*op(A)*op(B)`. -/
theorem kernelPanel_spec {c : Cache} {m : Mem α} (ab : α → α) (fl : Flags) {C A B : View}
    {a b f : Nat → Nat → α} (alpha : α) {jp nJ P : Nat}
    (hw : C.WF) (hc : c.Ready m) (hA : Holds m A a) (hB : Holds m B b)
    (hdA : Disjoint A.foot c.foot) (hdB : Disjoint B.foot c.foot) (hdC : Disjoint C.foot c.foot)
    (hdAC : Disjoint A.foot C.foot) (hdBC : Disjoint B.foot C.foot)
    (hnJ : nJ ≤ c.NB) (hj : jp + nJ ≤ C.cols)
    (hr : C.rows = if fl.transA then A.cols else A.rows)
    (hP : P = if fl.transA then A.rows else A.cols)
    (hBc : C.cols = if fl.transB then B.rows else B.cols)
    (hBr : P = if fl.transB then B.cols else B.rows)
    (hC : Holds m (C.sub 0 jp C.rows nJ) f) :
    Runs (kernelPanel ab m C alpha A B fl c P jp nJ) (fun m' =>
      Holds m' (C.sub 0 jp C.rows nJ) (fun i j => f i j + alpha * ∑ k ∈ range P,
        fl.elt ab (opM fl.transA a i k) * fl.elt ab (opM fl.transB b k (jp + j))) ∧
      Frame ((C.sub 0 jp C.rows nJ).foot ∪ c.foot) m m' ∧ c.Ready m') := by
  unfold kernelPanel
  set Cp := C.sub 0 jp C.rows nJ with hCp
  have hCpf : Cp.foot ⊆ C.foot := View.sub_foot (by omega) hj
  have hdCp : Disjoint Cp.foot c.foot := hdC.mono_left hCpf
  refine Runs.bind (Runs.forUp (fun kp m' => Holds m' Cp (fun i j => f i j + alpha *
      ∑ k ∈ range (min kp P), fl.elt ab (opM fl.transA a i k) * fl.elt ab (opM fl.transB b k (jp + j))) ∧
    Frame (Cp.foot ∪ c.foot) m m' ∧ c.Ready m') hc.kb
    ⟨hC.congr (by intros; simp), Frame.refl _ _, hc⟩ ?_
    (Q := fun p => Holds p.2 Cp (fun i j => f i j + alpha * ∑ k ∈ range P,
        fl.elt ab (opM fl.transA a i k) * fl.elt ab (opM fl.transB b k (jp + j))) ∧
      Frame (Cp.foot ∪ c.foot) m p.2 ∧ c.Ready p.2)
    (fun k st h1 _ h => ⟨?_, h.2⟩)) (fun p hp => Runs.pure hp)
  · rintro kp m1 - hkp ⟨h1, hf1, hc1⟩
    set nP := min c.KB (P - kp) with hnP
    have hB1 : Holds m1 B b := by
      refine hB.frame hf1 ?_
      rw [Set.disjoint_union_right]
      exact ⟨hdBC.mono_right hCpf, hdB⟩
    refine Runs.bind (loadB (jp := jp) (kp := kp) (nJ := nJ) (nP := nP) ab fl hc1 hB1 hdB (by omega)
      hnJ (by rw [← hBc]; omega) (by rw [← hBr]; omega)) ?_
    rintro m2 ⟨hB2, hf2, hc2⟩
    have hfB : (c.B nP nJ).foot ⊆ c.foot := (c.B_foot (by omega) hnJ).trans Set.subset_union_right
    have hf12 := hf1.trans (hf2.mono (hfB.trans (Set.subset_union_right (s := Cp.foot))))
    have hA2 : Holds m2 A a := by
      refine hA.frame hf12 ?_
      rw [Set.disjoint_union_right]
      exact ⟨hdAC.mono_right hCpf, hdA⟩
    have hC2 := h1.frame hf2 (hdCp.mono_right hfB)
    refine (kernelRows_spec (jp := jp) (nJ := nJ) (kp := kp) (nP := nP) ab fl alpha hw hc2 hA2 hdA hdC
      hdAC (by omega) hnJ hj hr (by rw [← hP]; omega) hC2 hB2).mono ?_
    rintro m3 ⟨h3, hf3, hc3⟩
    refine ⟨h3.congr ?_, hf12.trans (hf3.mono ?_), hc3⟩
    · intro i j _ _
      have e1 : min kp P = kp := by omega
      have e2 : min (kp + c.KB) P = kp + nP := by omega
      rw [e1, e2, sum_split _ (show kp ≤ kp + nP by omega)]
      rw [show kp + nP - kp = nP by omega]
      ring
    · exact Set.union_subset_union_right _ Set.subset_union_left
  · have e : min k P = P := by omega
    have := h.1
    rw [e] at this
    exact this

/-- `armas_mult_kernel_nc`: no scaling; a zero or too large row block is replaced by half of `MB`. -/
theorem multKernelNc_spec {c : Cache} {m : Mem α} (ab : α → α) (fl : Flags) {C A B : View}
    {a b f : Nat → Nat → α} (alpha : α)
    (hw : C.WF) (hc : c.Ready m) (hrb : c.rb ≤ c.MB)
    (hA : Holds m A a) (hB : Holds m B b) (hC : Holds m C f)
    (hdA : Disjoint A.foot c.foot) (hdB : Disjoint B.foot c.foot) (hdC : Disjoint C.foot c.foot)
    (hdAC : Disjoint A.foot C.foot) (hdBC : Disjoint B.foot C.foot)
    (hr : C.rows = if fl.transA then A.cols else A.rows)
    (hBc : C.cols = if fl.transB then B.rows else B.cols)
    (hBr : (if fl.transA then A.rows else A.cols) = if fl.transB then B.cols else B.rows) :
    Runs (multKernelNc ab m C alpha A B fl c) (fun m' =>
      Holds m' C (fun i j => f i j + alpha * ∑ k ∈ range (if fl.transA then A.rows else A.cols),
        fl.elt ab (opM fl.transA a i k) * fl.elt ab (opM fl.transB b k j)) ∧
      Frame (C.foot ∪ c.foot) m m' ∧ c.Ready m') := by
  unfold multKernelNc
  set P := if fl.transA then A.rows else A.cols with hP
  set g : Nat → Nat → α := fun i j => f i j + alpha * ∑ k ∈ range P,
        fl.elt ab (opM fl.transA a i k) * fl.elt ab (opM fl.transB b k j) with hg
  by_cases ha : alpha = 0
  · rw [if_pos ha]
    exact Runs.pure ⟨hC.congr (fun i j _ _ => by simp [hg, ha]), Frame.refl _ _, hc⟩
  rw [if_neg ha]
  have hcr : ({ c with rb := if c.rb = 0 ∨ c.rb > c.MB then c.MB / 2 else c.rb } : Cache) = c := by
    have := hc.rb
    rw [if_neg (by omega)]
  rw [hcr]
  dsimp only
  refine Runs.bind (Runs.forUp (fun jp m' => Holds m' C (fun i j => if j < jp then g i j else f i j) ∧
    Frame (C.foot ∪ c.foot) m m' ∧ c.Ready m') hc.nb
    ⟨hC.congr (by intros; simp), Frame.refl _ _, hc⟩ ?_
    (Q := fun p => Holds p.2 C g ∧ Frame (C.foot ∪ c.foot) m p.2 ∧ c.Ready p.2)
    (fun k st h1 _ h => ⟨h.1.congr ?_, h.2⟩)) (fun p hp => Runs.pure hp)
  · rintro jp m1 - hjp ⟨h1, hf1, hc1⟩
    set nJ := min c.NB (C.cols - jp) with hnJ
    have hr1 : 0 + C.rows ≤ C.rows := by omega
    have hj : jp + nJ ≤ C.cols := by omega
    have hCpf : (C.sub 0 jp C.rows nJ).foot ⊆ C.foot := View.sub_foot hr1 hj
    have hA2 := hA.frame hf1 (Set.disjoint_union_right.mpr ⟨hdAC, hdA⟩)
    have hB2 := hB.frame hf1 (Set.disjoint_union_right.mpr ⟨hdBC, hdB⟩)
    refine (kernelPanel_spec (jp := jp) (nJ := nJ) (P := P) ab fl alpha hw hc1 hA2 hB2 hdA hdB hdC hdAC
      hdBC (by omega) hj hr rfl hBc hBr (h1.sub hr1 hj)).mono ?_
    rintro m3 ⟨h3, hf3, hc3⟩
    refine ⟨?_, hf1.trans (hf3.mono (Set.union_subset_union_left _ hCpf)), hc3⟩
    refine (h1.patch' hw hr1 hj h3 hf3 hdC).congr ?_
    intro i j hi hj
    by_cases hin : jp ≤ j ∧ j < jp + nJ
    · rw [if_pos ⟨by omega, by omega, hin.1, hin.2⟩, if_neg (by omega), if_pos (by omega)]
      simp only [hg, Nat.sub_zero, Nat.zero_add]
      rw [show jp + (j - jp) = j by omega]
    · rw [if_neg (by omega)]
      by_cases h5 : j < jp
      · rw [if_pos h5, if_pos (by omega)]
      · rw [if_neg h5, if_neg (by omega)]
  · intro i j _ hj
    rw [if_pos (by omega)]

/-- `armas_mult_kernel`. -/
theorem multKernel_spec {c : Cache} {m : Mem α} (ab : α → α) (fl : Flags) {C A B : View}
    {a b f : Nat → Nat → α} (beta alpha : α)
    (hw : C.WF) (hc : c.Ready m) (hA : Holds m A a) (hB : Holds m B b) (hC : Holds m C f)
    (hdA : Disjoint A.foot c.foot) (hdB : Disjoint B.foot c.foot) (hdC : Disjoint C.foot c.foot)
    (hdAC : Disjoint A.foot C.foot) (hdBC : Disjoint B.foot C.foot)
    (hr : C.rows = if fl.transA then A.cols else A.rows)
    (hBc : C.cols = if fl.transB then B.rows else B.cols)
    (hBr : (if fl.transA then A.rows else A.cols) = if fl.transB then B.cols else B.rows) :
    Runs (multKernel ab m beta C alpha A B fl c) (fun m' =>
      Holds m' C (fun i j => beta * f i j + alpha * ∑ k ∈ range (if fl.transA then A.rows else A.cols),
        fl.elt ab (opM fl.transA a i k) * fl.elt ab (opM fl.transB b k j)) ∧
      Frame (C.foot ∪ c.foot) m m' ∧ c.Ready m') := by
  unfold multKernel
  set P := if fl.transA then A.rows else A.cols with hP
  set g : Nat → Nat → α := fun i j => beta * f i j + alpha * ∑ k ∈ range P,
        fl.elt ab (opM fl.transA a i k) * fl.elt ab (opM fl.transB b k j) with hg
  by_cases ha : alpha = 0
  · rw [if_pos ha]
    refine (scaleUnsafe_mat beta hw hC).mono ?_
    rintro m' ⟨h, hf⟩
    refine ⟨h.congr (fun i j _ _ => ?_), hf.mono Set.subset_union_left, hc.frame hf hdC.symm⟩
    simp [hg, ha]
  rw [if_neg ha]
  refine Runs.bind (Runs.forUp (fun jp m' => Holds m' C (fun i j => if j < jp then g i j else f i j) ∧
    Frame (C.foot ∪ c.foot) m m' ∧ c.Ready m') hc.nb
    ⟨hC.congr (by intros; simp), Frame.refl _ _, hc⟩ ?_
    (Q := fun p => Holds p.2 C g ∧ Frame (C.foot ∪ c.foot) m p.2 ∧ c.Ready p.2)
    (fun k st h1 _ h => ⟨h.1.congr ?_, h.2⟩)) (fun p hp => Runs.pure hp)
  · rintro jp m1 - hjp ⟨h1, hf1, hc1⟩
    dsimp only
    set nJ := min c.NB (C.cols - jp) with hnJ
    have hr1 : 0 + C.rows ≤ C.rows := by omega
    have hj : jp + nJ ≤ C.cols := by omega
    have hCpf : (C.sub 0 jp C.rows nJ).foot ⊆ C.foot := View.sub_foot hr1 hj
    have hfr : ∀ {V : View} {v : Nat → Nat → α} {S : Set Nat} {m1 m2 : Mem α}, Disjoint V.foot C.foot →
        Disjoint V.foot c.foot → Holds m1 V v → Frame (C.foot ∪ c.foot) m1 m2 → Holds m2 V v := by
      intro V v S m1 m2 d1 d2 h hf
      exact h.frame hf (Set.disjoint_union_right.mpr ⟨d1, d2⟩)
    refine Runs.bind (blkScale_spec (X := C.sub 0 jp C.rows nJ) beta (hw.sub hr1 hj) (h1.sub hr1 hj)) ?_
    rintro m2 ⟨h2, hf2⟩
    have hf12 := hf1.trans (hf2.mono (hCpf.trans Set.subset_union_left))
    have hA2 := hfr (S := ∅) hdAC hdA hA hf12
    have hB2 := hfr (S := ∅) hdBC hdB hB hf12
    have hc2 := hc1.frame hf2 (hdC.mono_left hCpf).symm
    refine (kernelPanel_spec (jp := jp) (nJ := nJ) (P := P) ab fl alpha hw hc2 hA2 hB2 hdA hdB hdC hdAC
      hdBC (by omega) hj hr rfl hBc hBr h2).mono ?_
    rintro m3 ⟨h3, hf3, hc3⟩
    refine ⟨?_, hf12.trans (hf3.mono (Set.union_subset_union_left _ hCpf)), hc3⟩
    have hf23 : Frame ((C.sub 0 jp C.rows nJ).foot ∪ c.foot) m1 m3 :=
      (hf2.mono Set.subset_union_left).trans hf3
    refine (h1.patch' hw hr1 hj h3 hf23 hdC).congr ?_
    intro i j hi hj
    by_cases hin : jp ≤ j ∧ j < jp + nJ
    · rw [if_pos ⟨by omega, by omega, hin.1, hin.2⟩, if_neg (by omega), if_pos (by omega)]
      simp only [hg, Nat.sub_zero, Nat.zero_add]
      rw [show jp + (j - jp) = j by omega]
      ring
    · rw [if_neg (by omega)]
      by_cases h5 : j < jp
      · rw [if_pos h5, if_pos (by omega)]
      · rw [if_neg h5, if_neg (by omega)]
  · intro i j _ hj
    rw [if_pos (by omega)]

end

end Armas
