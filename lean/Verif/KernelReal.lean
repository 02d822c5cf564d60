import Verif.Real
import Verif.GemmLemmas

/-! The multiplication kernel as a thread: which cells it writes. -/

namespace Armas

variable {α : Type} {W : Set Nat}

/-- Readers. -/
macro "rdr" : tactic => `(tactic| repeat (first
  | exact RealR.rd | exact RealR.pure | exact RealR.ok
  | refine RealR.read ?_ (fun _ => ?_)))

section kernels
variable [Mul α] [Add α] [Zero α]

theorem mac_real {a b : Nat} {y : α} : RealR W (fun m => mac m a b y) := by
  unfold mac; rdr

theorem addTo_real {c : Nat} {v : α} (h : c ∈ W) : RealM W (fun m => addTo m c v) := by
  unfold addTo
  exact RealM.read RealR.rd (fun _ => RealM.wr h)

/-- Chains of multiply and add. -/
macro "macs" : tactic => `(tactic| repeat (first
  | exact mac_real | exact RealR.pure | refine RealR.read mac_real (fun _ => ?_)))

theorem mult1c1_real {c a b : Nat} {alpha : α} {nR : Nat} (h : c ∈ W) :
    RealM W (fun m => mult1c1 m c a b alpha nR) := by
  unfold mult1c1
  refine RealM.read (RealR.forUp (fun k st _ _ => by macs)) ?_
  rintro ⟨k, y⟩
  dsimp only
  refine RealM.read ?_ (fun _ => addTo_real h)
  split <;> macs

theorem mult1c2_real {c0 c1 a b0 b1 : Nat} {alpha : α} {nR : Nat} (h0 : c0 ∈ W) (h1 : c1 ∈ W) :
    RealM W (fun m => mult1c2 m c0 c1 a b0 b1 alpha nR) := by
  unfold mult1c2
  refine RealM.read (RealR.forUp (fun k st _ _ => by macs)) ?_
  rintro ⟨k, y⟩
  dsimp only
  refine RealM.read ?_ (fun _ => RealM.seq (addTo_real h0) (addTo_real h1))
  split <;> macs

theorem mult2c2_real {c0 c1 a0 a1 b0 b1 : Nat} {alpha : α} {nR : Nat} (h0 : c0 ∈ W) (h1 : c1 ∈ W)
    (h0' : c0 + 1 ∈ W) (h1' : c1 + 1 ∈ W) :
    RealM W (fun m => mult2c2 m c0 c1 a0 a1 b0 b1 alpha nR) := by
  unfold mult2c2
  refine RealM.read (RealR.forUp (fun k st _ _ => by macs)) ?_
  rintro ⟨k, y⟩
  dsimp only
  refine RealM.read ?_ (fun _ => RealM.seq (addTo_real h0) (RealM.seq (addTo_real h1)
    (RealM.seq (addTo_real h0') (addTo_real h1'))))
  split <;> macs

theorem mult1c4_real {c0 c1 c2 c3 a b0 b1 b2 b3 : Nat} {alpha : α} {nR : Nat} (h0 : c0 ∈ W) (h1 : c1 ∈ W)
    (h2 : c2 ∈ W) (h3 : c3 ∈ W) :
    RealM W (fun m => mult1c4 m c0 c1 c2 c3 a b0 b1 b2 b3 alpha nR) := by
  unfold mult1c4
  refine RealM.read (RealR.forUp (fun k st _ _ => by macs)) ?_
  rintro ⟨k, y⟩
  exact RealM.seq (addTo_real h0) (RealM.seq (addTo_real h1) (RealM.seq (addTo_real h2) (addTo_real h3)))

theorem mult2c4_real {c0 c1 c2 c3 a0 a1 b0 b1 b2 b3 : Nat} {alpha : α} {nR : Nat} (h0 : c0 ∈ W) (h1 : c1 ∈ W)
    (h2 : c2 ∈ W) (h3 : c3 ∈ W) (h0' : c0 + 1 ∈ W) (h1' : c1 + 1 ∈ W) (h2' : c2 + 1 ∈ W) (h3' : c3 + 1 ∈ W) :
    RealM W (fun m => mult2c4 m c0 c1 c2 c3 a0 a1 b0 b1 b2 b3 alpha nR) := by
  unfold mult2c4
  refine RealM.read (RealR.forUp (fun k st _ _ => by macs)) ?_
  rintro ⟨k, y⟩
  exact RealM.seq (addTo_real h0) (RealM.seq (addTo_real h1) (RealM.seq (addTo_real h2)
    (RealM.seq (addTo_real h3) (RealM.seq (addTo_real h0') (RealM.seq (addTo_real h1')
    (RealM.seq (addTo_real h2') (addTo_real h3')))))))

/-- The cells of rows below `r` and columns below `c` are in `W`. -/
def InW (W : Set Nat) (C : View) (r c : Nat) : Prop := ∀ i j, i < r → j < c → C.at' i j ∈ W

theorem InW.sub {C : View} {r c i j r' c' : Nat} (h : InW W C r c) (hr : i + r' ≤ r) (hc : j + c' ≤ c) :
    InW W (C.sub i j r' c') r' c' := by
  intro x y hx hy
  have := h (i + x) (j + y) (by omega) (by omega)
  unfold View.at' View.sub at *
  dsimp only
  rw [Nat.add_mul] at this
  rw [show C.base + j * C.step + i + x + y * C.step = C.base + (i + x) + (j * C.step + y * C.step) by omega]
  exact this

theorem InW.succ {C : View} {r c i j : Nat} (h : InW W C r c) (hi : i + 1 < r) (hj : j < c) :
    C.at' i j + 1 ∈ W := by
  have := h (i + 1) j hi hj
  unfold View.at' at *
  rw [show C.base + i + j * C.step + 1 = C.base + (i + 1) + j * C.step by omega]
  exact this

theorem cmult4_real {C A B : View} {alpha : α} {col nI nP c : Nat} (h : InW W C nI c) (hc : col + 4 ≤ c) :
    RealM W (fun m => cmult4 m C A B alpha col nI nP) := by
  unfold cmult4
  refine Real.bindM (Real.forUp (fun i _ hi => ?_)) ?_
  · exact mult2c4_real (h _ _ (by omega) (by omega)) (h _ _ (by omega) (by omega)) (h _ _ (by omega) (by omega))
      (h _ _ (by omega) (by omega)) (h.succ (by omega) (by omega)) (h.succ (by omega) (by omega))
      (h.succ (by omega) (by omega)) (h.succ (by omega) (by omega))
  · intro i hi
    refine RealM.ite (fun _ => RealM.pure) (fun hne => ?_)
    exact mult1c4_real (h _ _ (by omega) (by omega)) (h _ _ (by omega) (by omega)) (h _ _ (by omega) (by omega))
      (h _ _ (by omega) (by omega))

theorem cmult2_real {C A B : View} {alpha : α} {col nI nP c : Nat} (h : InW W C nI c) (hc : col + 2 ≤ c) :
    RealM W (fun m => cmult2 m C A B alpha col nI nP) := by
  unfold cmult2
  refine Real.bindM (Real.forUp (fun i _ hi => ?_)) ?_
  · exact mult2c2_real (h _ _ (by omega) (by omega)) (h _ _ (by omega) (by omega))
      (h.succ (by omega) (by omega)) (h.succ (by omega) (by omega))
  · intro i hi
    refine RealM.ite (fun _ => RealM.pure) (fun hne => ?_)
    exact mult1c2_real (h _ _ (by omega) (by omega)) (h _ _ (by omega) (by omega))

theorem cmult1_real {C A B : View} {alpha : α} {col nI nP c : Nat} (h : InW W C nI c) (hc : col + 1 ≤ c) :
    RealM W (fun m => cmult1 m C A B alpha col nI nP) := by
  unfold cmult1
  exact RealM.forUp (fun i _ hi => mult1c1_real (h _ _ (by omega) (by omega)))

theorem kernelInner_real {C A B : View} {alpha : α} {rb : Nat} (h : InW W C C.rows C.cols) :
    RealM W (fun m => kernelInner m C alpha A B rb) := by
  unfold kernelInner
  refine RealM.forUp (fun kp _ hkp => ?_)
  dsimp only
  have hs : InW W (C.sub kp 0 (min rb (C.rows - kp)) C.cols) (min rb (C.rows - kp)) C.cols :=
    h.sub (by omega) (by omega)
  refine Real.bindM (Real.forUp (fun j _ hj => cmult4_real hs (by omega))) ?_
  intro j hj
  dsimp only
  refine RealM.ite (c := j = C.cols) (fun _ => RealM.pure) (fun hne => ?_)
  refine Real.bindM (Φ := fun j' => True) ?_ ?_
  · by_cases hlt : j < C.cols - 1
    · simp only [if_pos hlt]
      exact RealM.bindV (cmult2_real hs (by omega)) (Real.ok trivial)
    · simp only [if_neg hlt]
      exact Real.ok trivial
  · intro j' _
    exact RealM.ite (c := j' < C.cols) (fun hlt => cmult1_real hs (by omega)) (fun _ => RealM.pure)

end kernels

theorem blkScale_real [Mul α] [Zero α] [One α] [DecidableEq α] {X : View} {beta : α} {M N : Nat}
    (h : InW W X M N) : RealM W (fun m => blkScale m X beta M N) := by
  unfold blkScale
  refine RealM.ite (fun _ => RealM.ok) (fun _ => RealM.ite (fun _ => ?_) (fun _ => ?_))
  · refine Real.bindM (Real.forUp (fun j _ hj => ?_)) ?_
    · refine RealM.forUp (fun i _ hi => ?_)
      exact RealM.seq (RealM.wr (h _ _ (by omega) (by omega))) (RealM.seq (RealM.wr (h _ _ (by omega) (by omega)))
        (RealM.seq (RealM.wr (h _ _ (by omega) (by omega))) (RealM.wr (h _ _ (by omega) (by omega)))))
    · intro j hj
      refine RealM.forUp (fun j' _ hj' => RealM.forUp (fun i _ hi => RealM.wr (h _ _ (by omega) (by omega))))
  · refine Real.bindM (Real.forUp (fun j _ hj => ?_)) ?_
    · refine RealM.forUp (fun i _ hi => ?_)
      exact RealM.read RealR.rd (fun _ => RealM.seq (RealM.wr (h _ _ (by omega) (by omega)))
        (RealM.read RealR.rd (fun _ => RealM.seq (RealM.wr (h _ _ (by omega) (by omega)))
        (RealM.read RealR.rd (fun _ => RealM.seq (RealM.wr (h _ _ (by omega) (by omega)))
        (RealM.read RealR.rd (fun _ => RealM.wr (h _ _ (by omega) (by omega)))))))))
    · intro j hj
      exact RealM.forUp (fun j' _ hj' => RealM.forUp (fun i _ hi =>
        RealM.read RealR.rd (fun _ => RealM.wr (h _ _ (by omega) (by omega)))))

theorem InW.foot {V : View} (h : V.foot ⊆ W) : InW W V V.rows V.cols :=
  fun _ _ hi hj => h (View.at_mem_foot hi hj)

theorem vecScale_real [Mul α] {X : View} {alpha : α} {N : Nat} (h : ∀ i, i < N → X.vat i ∈ W) :
    RealM W (fun m => vecScale m X alpha N) := by
  unfold vecScale
  refine Real.bindM (Real.forUp (fun i _ hi => ?_)) ?_
  · exact RealM.read RealR.rd (fun _ => RealM.seq (RealM.wr (h _ (by omega)))
        (RealM.read RealR.rd (fun _ => RealM.seq (RealM.wr (h _ (by omega)))
        (RealM.read RealR.rd (fun _ => RealM.seq (RealM.wr (h _ (by omega)))
        (RealM.read RealR.rd (fun _ => RealM.wr (h _ (by omega)))))))))
  · intro i hi
    refine RealM.switchTail (N := max N i) (by omega) (fun k hk hkN => ?_)
    exact RealM.read RealR.rd (fun _ => RealM.wr (h _ (by omega)))

theorem scaleUnsafe_real [Mul α] [Zero α] [One α] [DecidableEq α] {X : View} {alpha : α} (h : X.foot ⊆ W) :
    RealM W (fun m => scaleUnsafe m X alpha) := by
  unfold scaleUnsafe
  exact RealM.ite (fun hv => vecScale_real (fun i hi => h (View.vat_mem_foot hv hi)))
    (fun _ => blkScale_real (InW.foot h))

theorem memcpyElems_real {d s n : Nat} (h : ∀ i, i < n → d + i ∈ W) :
    RealM W (fun m : Mem α => memcpyElems m d s n) := by
  unfold memcpyElems
  exact RealM.ite (fun _ => RealM.ub) (fun _ => RealM.forUp (fun i _ hi =>
    RealM.read RealR.rd (fun _ => RealM.wr (h _ hi))))

theorem copyPlain_real {D S : View} {nR nC : Nat} (h : InW W D nR nC) :
    RealM W (fun m : Mem α => copyPlain m D S nR nC) := by
  unfold copyPlain
  refine RealM.forUp (fun j _ hj => memcpyElems_real (fun i hi => ?_))
  have := h i j hi hj
  unfold View.at' at *
  rw [show D.base + 0 + j * D.step + i = D.base + i + j * D.step by omega]
  exact this

theorem copyTrans1x4_real {D S : View} {nR nC : Nat} (h : InW W D nC nR) :
    RealM W (fun m : Mem α => copyTrans1x4 m D S nR nC) := by
  unfold copyTrans1x4
  refine RealM.forUp (fun j _ hj => ?_)
  refine Real.bindM (Real.forUp (fun i _ hi => ?_)) ?_
  · exact RealM.read RealR.rd (fun _ => RealM.seq (RealM.wr (h _ _ (by omega) (by omega)))
        (RealM.read RealR.rd (fun _ => RealM.seq (RealM.wr (h _ _ (by omega) (by omega)))
        (RealM.read RealR.rd (fun _ => RealM.seq (RealM.wr (h _ _ (by omega) (by omega)))
        (RealM.read RealR.rd (fun _ => RealM.wr (h _ _ (by omega) (by omega)))))))))
  · intro i hi
    refine RealM.switchTail (N := max nR i) (by omega) (fun k hk hkN => ?_)
    exact RealM.read RealR.rd (fun _ => RealM.wr (h _ _ (by omega) (by omega)))

theorem copyTrans4x1_real {D S : View} {nR nC : Nat} (h : InW W D nC nR) :
    RealM W (fun m : Mem α => copyTrans4x1 m D S nR nC) := by
  unfold copyTrans4x1
  refine Real.bindM (Real.forUp (fun j _ hj => ?_)) ?_
  · refine RealM.forUp (fun i _ hi => ?_)
    exact RealM.read RealR.rd (fun _ => RealM.seq (RealM.wr (h _ _ (by omega) (by omega)))
        (RealM.read RealR.rd (fun _ => RealM.seq (RealM.wr (h _ _ (by omega) (by omega)))
        (RealM.read RealR.rd (fun _ => RealM.seq (RealM.wr (h _ _ (by omega) (by omega)))
        (RealM.read RealR.rd (fun _ => RealM.wr (h _ _ (by omega) (by omega)))))))))
  · intro j hj
    dsimp only
    refine RealM.ite (c := j = nC) (fun _ => RealM.pure) (fun hne => copyTrans1x4_real ?_)
    exact h.sub (by omega) (by omega)

theorem copyPlainAbs_real {ab : α → α} {D S : View} {nR nC : Nat} (h : InW W D nR nC) :
    RealM W (fun m : Mem α => copyPlainAbs ab m D S nR nC) := by
  unfold copyPlainAbs
  have elem : ∀ i j, i < nR → j < nC → RealM W (fun m : Mem α => (do
      let v ← rd m (S.at' i j)
      wr m (D.at' i j) (ab v))) := fun i j hi hj => RealM.read RealR.rd (fun _ => RealM.wr (h _ _ hi hj))
  dsimp only
  refine Real.bindM (Real.forUp (fun j _ hj => ?_)) ?_
  · refine RealM.forUp (fun i _ hi => ?_)
    exact RealM.seq (elem _ _ hi (by omega)) (RealM.seq (elem _ _ hi (by omega))
      (RealM.seq (elem _ _ hi (by omega)) (elem _ _ hi (by omega))))
  · intro j hj
    exact RealM.forUp (fun j' _ hj' => RealM.forUp (fun i _ hi => elem _ _ hi hj'))

theorem copyTransAbs_real {ab : α → α} {D S : View} {nR nC : Nat} (h : InW W D nC nR) :
    RealM W (fun m : Mem α => copyTransAbs ab m D S nR nC) := by
  unfold copyTransAbs
  have elem : ∀ i j, i < nR → j < nC → RealM W (fun m : Mem α => (do
      let v ← rd m (S.at' i j)
      wr m (D.at' j i) (ab v))) := fun i j hi hj => RealM.read RealR.rd (fun _ => RealM.wr (h _ _ hj hi))
  dsimp only
  refine Real.bindM (Real.forUp (fun j _ hj => ?_)) ?_
  · refine RealM.forUp (fun i _ hi => ?_)
    exact RealM.seq (elem _ _ hi (by omega)) (RealM.seq (elem _ _ hi (by omega))
      (RealM.seq (elem _ _ hi (by omega)) (elem _ _ hi (by omega))))
  · intro j hj
    refine RealM.forUp (fun j' _ hj' => ?_)
    refine Real.bindM (Real.forUp (fun i _ hi => ?_)) ?_
    · exact RealM.seq (elem i _ (by omega) hj') (RealM.seq (elem (i + 1) _ (by omega) hj')
        (RealM.seq (elem (i + 2) _ (by omega) hj') (elem (i + 3) _ (by omega) hj')))
    · intro i hi
      dsimp only
      refine RealM.switchTail (N := max nR i) ?_ (fun k hk hkN => elem k j' ?_ hj') <;> omega

theorem cpBlk_real {ab : α → α} {D S : View} {nR nC : Nat} {fl : Flags} (h : InW W D nR nC) :
    RealM W (fun m : Mem α => cpBlk ab m D S nR nC fl) := by
  unfold cpBlk
  exact RealM.ite (fun _ => copyPlainAbs_real h) (fun _ => copyPlain_real h)

theorem cpBlkTrans_real {ab : α → α} {D S : View} {nR nC : Nat} {fl : Flags} (h : InW W D nC nR) :
    RealM W (fun m : Mem α => cpBlkTrans ab m D S nR nC fl) := by
  unfold cpBlkTrans
  exact RealM.ite (fun _ => copyTransAbs_real h) (fun _ => copyTrans4x1_real h)

section gemm
variable [Mul α] [Add α] [Zero α] [One α] [DecidableEq α]

theorem InW.bufA {c : Cache} {nr nc : Nat} (h : c.foot ⊆ W) (hr : nr ≤ c.KB) (hc : nc ≤ c.MB) :
    InW W (c.A nr nc) nr nc :=
  InW.foot ((c.A_foot hr hc).trans (Set.subset_union_left.trans h))

theorem InW.bufB {c : Cache} {nr nc : Nat} (h : c.foot ⊆ W) (hr : nr ≤ c.KB) (hc : nc ≤ c.NB) :
    InW W (c.B nr nc) nr nc :=
  InW.foot ((c.B_foot hr hc).trans (Set.subset_union_right.trans h))

theorem kernelRows_real {ab : α → α} {C : View} {alpha : α} {A : View} {fl : Flags} {c : Cache} {Bcpy : View}
    {jp nJ kp nP : Nat} (hC : InW W C C.rows C.cols) (hc : c.foot ⊆ W) (hj : jp + nJ ≤ C.cols) (hp : nP ≤ c.KB) :
    RealM W (fun m => kernelRows ab m C alpha A fl c Bcpy jp nJ kp nP) := by
  unfold kernelRows
  refine RealM.forUp (fun ip _ hip => ?_)
  dsimp only
  refine RealM.seq ?_ (kernelInner_real (hC.sub (by omega) hj))
  exact RealM.ite (fun _ => cpBlk_real (InW.bufA hc hp (by omega)))
    (fun _ => cpBlkTrans_real (InW.bufA hc hp (by omega)))

theorem kernelPanel_real {ab : α → α} {C : View} {alpha : α} {A B : View} {fl : Flags} {c : Cache}
    {P jp nJ : Nat} (hC : InW W C C.rows C.cols) (hc : c.foot ⊆ W) (hj : jp + nJ ≤ C.cols) (hn : nJ ≤ c.NB) :
    RealM W (fun m => kernelPanel ab m C alpha A B fl c P jp nJ) := by
  unfold kernelPanel
  refine RealM.forUp (fun kp _ hkp => ?_)
  dsimp only
  refine RealM.seq ?_ (kernelRows_real hC hc hj (by omega))
  exact RealM.ite (fun _ => cpBlkTrans_real (InW.bufB hc (by omega) hn))
    (fun _ => cpBlk_real (InW.bufB hc (by omega) hn))

/-- `armas_mult_kernel` is a thread that writes to `C` and the copy buffers. -/
theorem multKernel_real {ab : α → α} {beta : α} {C : View} {alpha : α} {A B : View} {fl : Flags} {c : Cache}
    (hC : C.foot ⊆ W) (hc : c.foot ⊆ W) : RealM W (fun m => multKernel ab m beta C alpha A B fl c) := by
  unfold multKernel
  refine RealM.ite (fun _ => RealM.ite (fun _ => scaleUnsafe_real hC) (fun _ => RealM.pure)) (fun _ => ?_)
  dsimp only
  refine RealM.forUp (fun jp _ hjp => ?_)
  exact RealM.seq (blkScale_real ((InW.foot hC).sub (by omega) (by omega)))
    (kernelPanel_real (InW.foot hC) hc (by omega) (by omega))

theorem multKernelNc_real {ab : α → α} {C : View} {alpha : α} {A B : View} {fl : Flags} {c : Cache}
    (hC : C.foot ⊆ W) (hc : c.foot ⊆ W) : RealM W (fun m => multKernelNc ab m C alpha A B fl c) := by
  unfold multKernelNc
  refine RealM.ite (fun _ => RealM.pure) (fun _ => ?_)
  dsimp only
  refine RealM.forUp (fun jp _ hjp => ?_)
  exact kernelPanel_real (c := { c with rb := _ }) (InW.foot hC) hc (by omega) (by dsimp only; omega)

end gemm

end Armas
