import Verif.CgLoops

/-!
# The preconditioned solver and the solvers on the normal equations as a whole
-/

namespace Armas

open Matrix Finset

variable {α : Type} [Field α] [LinearOrder α] [IsStrictOrderedRing α]

theorem rstopNe_pos {cf : IterConf α} (he : cf.eps ≠ 0) {d : α} (hd : 0 < d) : 0 < cf.rstopNe d := by
  unfold IterConf.rstopNe
  dsimp only
  have hm : (if cf.smult ≠ 0 then cf.smult else cf.eps) ≠ 0 := by split_ifs with h <;> assumption
  by_cases h : cf.stop = 0
  · rw [if_neg (not_not.mpr h), if_pos rfl, ← mul_assoc]
    exact mul_pos (mul_self_pos.mpr hm) hd
  · rw [if_pos h, if_neg h]; exact mul_self_pos.mpr h

theorem dot_self_pos {n : Nat} {v : Fin n → α} (h : v ≠ 0) : 0 < v ⬝ᵥ v := by
  have := (spd_one (α := α) (n := n)).pos _ h; rwa [one_mulVec] at this

theorem colView_sub {wb o c s n : Nat} (U : Set Nat) (hs : s + n ≤ c) :
    ((colView (wb + (o + s)) n).foot : Set Nat) ⊆ U ∪ (rng (wb + o) c : Set Nat) := by
  intro q hq
  rw [colView_foot] at hq
  obtain ⟨a, b⟩ := hq
  right; constructor <;> omega

theorem wsetpos_back {W : WBuf} {q : Nat} (h : W.offset < W.bytes) : wsetpos ⟨W.bytes, q⟩ (wpos W) = W := by
  unfold wsetpos wpos; rw [if_pos h]

theorem pcgradW_spec {n : Nat} {A : Sp α} {N : Nat} {e : Nat → Ent α} {upper lower trans : Bool} (T : Props.Triangular A n N e true)
    (hn : 0 < n) {S M : Matrix (Fin n) (Fin n) α} (hSm : fmat n n (symm (upper && !lower) (dense N e)) = S) (hS : Spd S) (hM : Spd M)
    {prec : Mem α → View → View → Res (Int × Mem α)} (hp : PrecBy prec M) (env : Env) {fuel : Nat}
    (hf : n < fuel) (sq : α → α) {cf : IterConf α} (heps : 0 < cf.eps) {X B : View} {m : Mem α} {x b : Fin n → α} (hX : Vec m X x)
    (hBv : B.isVec) (hBs : B.size = n) (hB : HoldsV m B (fv b)) {W : WBuf} {wb o : Nat} (hW : WorkOk m W wb o (4 * n))
    (dX : Disjoint X.foot (rng (wb + o) (4 * n))) (dB : Disjoint B.foot (rng (wb + o) (4 * n))) (h0 : b - S *ᵥ x ≠ 0) :
    Runs (pcgradW env fuel sq cf prec X A B upper lower trans wb W m) (fun r => r.work = some W ∧
      Frame (X.foot ∪ (rng (wb + o) (4 * n) : Set Nat)) m r.mem ∧ ∃ (x' : Fin n → α) (it : Nat) (d : α), Vec r.mem X x' ∧
      r.out = some ⟨it, sq d⟩ ∧ r.code = 0 ∧
      CgPost S b (fun r => r ⬝ᵥ M *ᵥ r) (cf.rstop ((b - S *ᵥ x) ⬝ᵥ (b - S *ᵥ x))) (cf.limit (2 * n)) x x' it d) := by
  obtain ⟨wr, hR⟩ := hW.vec (s := 0) (n := n) (by omega)
  obtain ⟨wz, hZ⟩ := hW.vec (s := n) (n := n) (by omega)
  obtain ⟨wp, hP⟩ := hW.vec (s := n + n) (n := n) (by omega)
  obtain ⟨wq, hQ⟩ := hW.vec (s := n + n + n) (n := n) (by omega)
  rw [Nat.add_zero] at hR
  simp only [← Nat.add_assoc o] at hP hQ
  have hfit := hW.fits
  unfold pcgradW
  dsimp only
  rw [if_neg (show ¬ W.bytes = 0 by omega),
    if_neg (not_not.mpr ⟨hX.isVec, hBv, by rw [hX.size, hBs], by rw [T.rows, T.cols], by rw [hX.size, T.rows]⟩),
    if_neg (by rw [wbytes_ok hW.lt hW.off (by omega), T.rows]; omega), if_neg (by rw [T.rows, T.cols]; omega), T.rows]
  rw [wtake_ok hW.lt hW.off (by omega), Res.ok_bind]
  dsimp only
  have dXR : Disjoint X.foot (colView (wb + o) n).foot := colView_rng dX (by omega) (by omega)
  have dXZ : Disjoint X.foot (colView (wb + (o + n)) n).foot := colView_rng dX (by omega) (by omega)
  have dXP : Disjoint X.foot (colView (wb + (o + n + n)) n).foot := colView_rng dX (by omega) (by omega)
  have dXQ : Disjoint X.foot (colView (wb + (o + n + n + n)) n).foot := colView_rng dX (by omega) (by omega)
  have dBR : Disjoint B.foot (colView (wb + o) n).foot := colView_rng dB (by omega) (by omega)
  have dRZ : Disjoint (colView (wb + o) n).foot (colView (wb + (o + n)) n).foot := colView_disj (by omega)
  have dRP : Disjoint (colView (wb + o) n).foot (colView (wb + (o + n + n)) n).foot := colView_disj (by omega)
  have dRQ : Disjoint (colView (wb + o) n).foot (colView (wb + (o + n + n + n)) n).foot := colView_disj (by omega)
  have dZP : Disjoint (colView (wb + (o + n)) n).foot (colView (wb + (o + n + n)) n).foot := colView_disj (by omega)
  have dZQ : Disjoint (colView (wb + (o + n)) n).foot (colView (wb + (o + n + n + n)) n).foot := colView_disj (by omega)
  have dPQ : Disjoint (colView (wb + (o + n + n)) n).foot (colView (wb + (o + n + n + n)) n).foot := colView_disj (by omega)
  refine Runs.bind (Props.C05_mcopy_vector false hR.wf hR.isVec hBv hR.holds hB dBR (by rw [hR.size, hBs])) ?_
  rintro ⟨_, m1⟩ ⟨-, r1, f1⟩
  dsimp only at r1 f1 ⊢
  replace r1 : Vec m1 (colView (wb + o) n) b := hR.mk' r1 fun i => fv_fin b i
  have hX1 := hX.frame f1 dXR
  refine Runs.bind (r1.sym T hX1 dXR.symm 1 (-1)) ?_
  rintro ⟨_, m2⟩ ⟨r2, f2⟩
  dsimp only at r2 f2 ⊢
  rw [hSm, one_smul, neg_one_smul, ← sub_eq_add_neg] at r2
  have hX2 := hX1.frame f2 dXR
  have hZ2 := (hZ.frame f1 dRZ.symm).frame f2 dRZ.symm
  have hP2 := (hP.frame f1 dRP.symm).frame f2 dRP.symm
  have hQ2 := (hQ.frame f1 dRQ.symm).frame f2 dRQ.symm
  rw [r2.dot r2 _ _ hf, Res.ok_bind, wtake_ok (W := ⟨W.bytes, 8 * (o + n)⟩) (o := o + n) hW.lt rfl (by dsimp only; omega), Res.ok_bind]
  dsimp only
  refine Runs.bind (hp m2 _ _ _ _ hZ2 r2 dRZ.symm) ?_
  rintro ⟨_, m3⟩ ⟨z3, f3⟩
  dsimp only at z3 f3 ⊢
  have hX3 := hX2.frame f3 dXZ
  have hR3 := r2.frame f3 dRZ
  have hP3 := hP2.frame f3 dZP.symm
  have hQ3 := hQ2.frame f3 dZQ.symm
  rw [wtake_ok (W := ⟨W.bytes, 8 * (o + n + n)⟩) (o := o + n + n) hW.lt rfl (by dsimp only; omega), Res.ok_bind]
  dsimp only
  refine Runs.bind (hP3.mcopy z3 dZP) ?_
  rintro ⟨_, m4⟩ ⟨p4, f4⟩
  dsimp only at p4 f4 ⊢
  rw [wtake_ok (W := ⟨W.bytes, 8 * (o + n + n + n)⟩) (o := o + n + n + n) hW.lt rfl (by dsimp only; omega), Res.ok_bind]
  dsimp only
  refine Runs.bind (pcgradLoop_spec T hSm hS hM hp env hf (X := X) (R := colView (wb + o) n) (Z := colView (wb + (o + n)) n)
    (P := colView (wb + (o + n + n)) n) (Q := colView (wb + (o + n + n + n)) n) ?_ (b := b) (r0 := b - S *ᵥ x) (xs := x)
    (rstop_pos heps (dot_self_pos h0)) (cf.limit (2 * n)) 0 0 m4 x _ (hX3.frame f4 dXP) (hR3.frame f4 dRP) (z3.frame f4 dZP) p4
    (hQ3.frame f4 dPQ.symm) rfl ?_ (le_refl _) (fun h => absurd h (ne_of_gt (limit_pos (by omega))))) ?_
  · simp only [Apart, List.pairwise_cons, List.mem_cons, List.not_mem_nil, or_false, forall_eq_or_imp, forall_eq]
    exact ⟨⟨dXR, dXZ, dXP, dXQ⟩, ⟨dRZ, dRP, dRQ⟩, ⟨dZP, dZQ⟩, dPQ, fun _ h => h.elim, List.Pairwise.nil⟩
  · intro i hi
    have : i = 0 := by omega
    subst this; exact h0
  · rintro ⟨it, d, m5⟩ ⟨x', h1, h2, h3⟩
    dsimp only at h1 h2 h3 ⊢
    have s0 := colView_sub (wb := wb) (o := o) (s := 0) (n := n) (c := 4 * n) X.foot (by omega)
    have s1 := colView_sub (wb := wb) (o := o) (s := n) (n := n) (c := 4 * n) X.foot (by omega)
    have s2 := colView_sub (wb := wb) (o := o) (s := n + n) (n := n) (c := 4 * n) X.foot (by omega)
    have s3 := colView_sub (wb := wb) (o := o) (s := n + n + n) (n := n) (c := 4 * n) X.foot (by omega)
    rw [Nat.add_zero] at s0
    simp only [← Nat.add_assoc o] at s2 s3
    refine Runs.pure ⟨?_, ?_, x', it, d, h1, rfl, rfl, ?_⟩
    · dsimp only
      rw [wsetpos_back (by have := hW.off; omega)]
    · exact ((f1.mono s0).trans ((f2.mono s0).trans ((f3.mono s1).trans (f4.mono s2)))).trans
        (h3.mono (Set.union_subset (Set.union_subset (Set.union_subset (Set.union_subset (fun _ h => Or.inl h) s0) s1) s2) s3))
    · rw [Nat.zero_add] at h2; exact h2

theorem cgneW_spec {A : Sp α} {N : Nat} {e : Nat → Ent α} (M : Mulable A N e) (hr : 0 < A.rows) (hc : 0 < A.cols)
    {D : Matrix (Fin A.rows) (Fin A.cols) α} (hDm : fmat A.rows A.cols (dense N e) = D) (hS : Spd (D * Dᵀ)) (env : Env) {fuel : Nat}
    (hf : A.rows < fuel) (hf' : A.cols < fuel) (sq : α → α) {cf : IterConf α} (heps : cf.eps ≠ 0) {X B : View} {m : Mem α}
    {x : Fin A.cols → α} {b : Fin A.rows → α} (hX : Vec m X x)
    (hBv : B.isVec) (hBs : B.size = A.rows) (hB : HoldsV m B (fv b)) {W : WBuf} {wb o : Nat} (hW : WorkOk m W wb o (2 * A.rows + A.cols))
    (dX : Disjoint X.foot (rng (wb + o) (2 * A.rows + A.cols))) (dB : Disjoint B.foot (rng (wb + o) (2 * A.rows + A.cols)))
    (h0 : b - D *ᵥ x ≠ 0) :
    Runs (cgneW env fuel sq cf X A B wb W m) (fun r => r.work = some W ∧
      Frame (X.foot ∪ (rng (wb + o) (2 * A.rows + A.cols) : Set Nat)) m r.mem ∧ ∃ (y : Fin A.rows → α) (it : Nat) (d : α),
      Vec r.mem X (x + Dᵀ *ᵥ y) ∧ r.out = some ⟨it, sq d⟩ ∧ r.code = (if cf.limit (2 * A.rows) ≤ it then -9 else 0) ∧
      CgPost (D * Dᵀ) (b - D *ᵥ x) (fun r => r ⬝ᵥ r) (cf.rstopNe ((b - D *ᵥ x) ⬝ᵥ (b - D *ᵥ x))) (cf.limit (2 * A.rows)) 0 y it d) := by
  obtain ⟨wr, hR⟩ := hW.vec (s := 0) (n := A.rows) (by omega)
  obtain ⟨wp, hP⟩ := hW.vec (s := A.rows) (n := A.cols) (by omega)
  obtain ⟨wq, hQ⟩ := hW.vec (s := A.rows + A.cols) (n := A.rows) (by omega)
  rw [Nat.add_zero] at hR
  simp only [← Nat.add_assoc o] at hQ
  have hfit := hW.fits
  unfold cgneW
  dsimp only
  rw [if_neg (show ¬ W.bytes = 0 by omega), if_neg (by omega),
    if_neg (not_not.mpr ⟨hX.isVec, hBv, hBs, hX.size⟩),
    if_neg (by rw [wbytes_ok hW.lt hW.off (by omega)]; omega)]
  rw [wtake_ok hW.lt hW.off (by omega), Res.ok_bind]
  dsimp only
  have dXR : Disjoint X.foot (colView (wb + o) A.rows).foot := colView_rng dX (by omega) (by omega)
  have dXP : Disjoint X.foot (colView (wb + (o + A.rows)) A.cols).foot := colView_rng dX (by omega) (by omega)
  have dXQ : Disjoint X.foot (colView (wb + (o + A.rows + A.cols)) A.rows).foot := colView_rng dX (by omega) (by omega)
  have dBR : Disjoint B.foot (colView (wb + o) A.rows).foot := colView_rng dB (by omega) (by omega)
  have dRP : Disjoint (colView (wb + o) A.rows).foot (colView (wb + (o + A.rows)) A.cols).foot := colView_disj (by omega)
  have dRQ : Disjoint (colView (wb + o) A.rows).foot (colView (wb + (o + A.rows + A.cols)) A.rows).foot := colView_disj (by omega)
  have dPQ : Disjoint (colView (wb + (o + A.rows)) A.cols).foot (colView (wb + (o + A.rows + A.cols)) A.rows).foot := colView_disj (by omega)
  refine Runs.bind (Props.C05_mcopy_vector false hR.wf hR.isVec hBv hR.holds hB dBR (by rw [hR.size, hBs])) ?_
  rintro ⟨_, m1⟩ ⟨-, r1, f1⟩
  dsimp only at r1 f1 ⊢
  replace r1 : Vec m1 (colView (wb + o) A.rows) b := hR.mk' r1 fun i => fv_fin b i
  have hX1 := hX.frame f1 dXR
  refine Runs.bind (r1.mult M hX1 dXR.symm 1 (-1)) ?_
  rintro ⟨_, m2⟩ ⟨r2, f2⟩
  dsimp only at r2 f2 ⊢
  rw [hDm, one_smul, neg_one_smul, ← sub_eq_add_neg] at r2
  have hX2 := hX1.frame f2 dXR
  have hP2 := (hP.frame f1 dRP.symm).frame f2 dRP.symm
  have hQ2 := (hQ.frame f1 dRQ.symm).frame f2 dRQ.symm
  rw [r2.dot r2 _ _ hf, Res.ok_bind, wtake_ok (W := ⟨W.bytes, 8 * (o + A.rows)⟩) (o := o + A.rows) hW.lt rfl (by dsimp only; omega),
    Res.ok_bind]
  dsimp only
  refine Runs.bind (hP2.multT M r2 dRP.symm 0 1) ?_
  rintro ⟨_, m3⟩ ⟨p3, f3⟩
  dsimp only at p3 f3 ⊢
  rw [hDm, zero_smul, one_smul, zero_add] at p3
  rw [wtake_ok (W := ⟨W.bytes, 8 * (o + A.rows + A.cols)⟩) (o := o + A.rows + A.cols) hW.lt rfl (by dsimp only; omega), Res.ok_bind]
  dsimp only
  refine Runs.bind (cgneLoop_spec M hDm rfl hS env hf hf' (X := X) (R := colView (wb + o) A.rows) (P := colView (wb + (o + A.rows)) A.cols)
    (Q := colView (wb + (o + A.rows + A.cols)) A.rows) ?_ (b := b) (r0 := b - D *ᵥ x) (xs := x) rfl
    (rstopNe_pos heps (dot_self_pos h0)) (cf.limit (2 * A.rows)) 0 0 m3 0 _ ?_ (r2.frame f3 dRP) ?_
    (hQ2.frame f3 dPQ.symm) ?_ ?_ (le_refl _) (fun h => absurd h (ne_of_gt (limit_pos (by omega))))) ?_
  · simp only [Apart, List.pairwise_cons, List.mem_cons, List.not_mem_nil, or_false, forall_eq_or_imp, forall_eq]
    exact ⟨⟨dXR, dXP, dXQ⟩, ⟨dRP, dRQ⟩, dPQ, fun _ h => h.elim, List.Pairwise.nil⟩
  · rw [mulVec_zero, add_zero]; exact hX2.frame f3 dXP
  · rw [cgP_zero, one_mulVec]; exact p3
  · rw [cgR_zero, mulVec_zero, sub_zero]
  · intro i hi
    have : i = 0 := by omega
    subst this; exact h0
  · rintro ⟨it, d, m5⟩ ⟨y, h1, h2, h3⟩
    dsimp only at h1 h2 h3 ⊢
    have s0 := colView_sub (wb := wb) (o := o) (s := 0) (n := A.rows) (c := 2 * A.rows + A.cols) X.foot (by omega)
    have s1 := colView_sub (wb := wb) (o := o) (s := A.rows) (n := A.cols) (c := 2 * A.rows + A.cols) X.foot (by omega)
    have s2 := colView_sub (wb := wb) (o := o) (s := A.rows + A.cols) (n := A.rows) (c := 2 * A.rows + A.cols) X.foot (by omega)
    rw [Nat.add_zero] at s0
    simp only [← Nat.add_assoc o] at s2
    refine Runs.pure ⟨?_, ?_, y, it, d, h1, rfl, rfl, ?_⟩
    · dsimp only
      rw [wsetpos_back (by have := hW.off; omega)]
    · exact ((f1.mono s0).trans ((f2.mono s0).trans (f3.mono s1))).trans
        (h3.mono (Set.union_subset (Set.union_subset (Set.union_subset (fun _ h => Or.inl h) s0) s1) s2))
    · rw [Nat.zero_add] at h2; exact h2

theorem Vec.copy {n : Nat} {m : Mem α} {Y X : View} {y x : Fin n → α} (hy : Vec m Y y) (hx : Vec m X x) (hd : Disjoint X.foot Y.foot) :
    Runs (copyVec m Y X) (fun r => Vec r.2 Y x ∧ Frame Y.foot m r.2) := by
  refine (Props.C05_copy hy.wf hy.isVec hx.isVec hy.holds hx.holds hd).mono ?_
  rintro r ⟨-, h1, h2⟩
  exact ⟨hy.mk' h1 fun i => by rw [hx.size, if_pos i.2, fv_fin], h2⟩

theorem cgnrW_spec {A : Sp α} {N : Nat} {e : Nat → Ent α} (M : Mulable A N e) (hr : 0 < A.rows) (hc : 0 < A.cols)
    {D : Matrix (Fin A.rows) (Fin A.cols) α} (hDm : fmat A.rows A.cols (dense N e) = D) (hS : Spd (Dᵀ * D)) (env : Env) {fuel : Nat}
    (hf : A.rows < fuel) (hf' : A.cols < fuel) (sq : α → α) {cf : IterConf α} (heps : 0 < cf.eps) {X B : View} {m : Mem α}
    {x : Fin A.cols → α} {b : Fin A.rows → α} (hX : Vec m X x)
    (hBv : B.isVec) (hBs : B.size = A.rows) (hB : HoldsV m B (fv b)) {W : WBuf} {wb o : Nat}
    (hW : WorkOk m W wb o (2 * A.rows + 2 * A.cols))
    (dX : Disjoint X.foot (rng (wb + o) (2 * A.rows + 2 * A.cols))) (dB : Disjoint B.foot (rng (wb + o) (2 * A.rows + 2 * A.cols)))
    (h0 : Dᵀ *ᵥ (b - D *ᵥ x) ≠ 0) :
    Runs (cgnrW env fuel sq cf X A B wb W m) (fun r => r.work = some W ∧
      Frame (X.foot ∪ (rng (wb + o) (2 * A.rows + 2 * A.cols) : Set Nat)) m r.mem ∧ ∃ (x' : Fin A.cols → α) (it : Nat) (d : α),
      Vec r.mem X x' ∧ r.out = some ⟨it, sq d⟩ ∧ r.code = (if cf.limit (2 * A.rows) ≤ it then -9 else 0) ∧
      CgPost (Dᵀ * D) (Dᵀ *ᵥ b) (fun r => r ⬝ᵥ r) (cf.rstop ((b - D *ᵥ x) ⬝ᵥ (b - D *ᵥ x))) (cf.limit (2 * A.rows)) x x' it d) := by
  obtain ⟨wr, hR⟩ := hW.vec (s := 0) (n := A.rows) (by omega)
  obtain ⟨wz, hZ⟩ := hW.vec (s := A.rows) (n := A.cols) (by omega)
  obtain ⟨wp, hP⟩ := hW.vec (s := A.rows + A.cols) (n := A.cols) (by omega)
  obtain ⟨wq, hQ⟩ := hW.vec (s := A.rows + A.cols + A.cols) (n := A.rows) (by omega)
  rw [Nat.add_zero] at hR
  simp only [← Nat.add_assoc o] at hP hQ
  have hfit := hW.fits
  unfold cgnrW
  dsimp only
  rw [if_neg (show ¬ W.bytes = 0 by omega), if_neg (by omega),
    if_neg (not_not.mpr ⟨hX.isVec, hBv, hBs, hX.size⟩),
    if_neg (by rw [wbytes_ok hW.lt hW.off (by omega)]; omega)]
  rw [wtake_ok hW.lt hW.off (by omega), Res.ok_bind]
  dsimp only
  have dXR : Disjoint X.foot (colView (wb + o) A.rows).foot := colView_rng dX (by omega) (by omega)
  have dXZ : Disjoint X.foot (colView (wb + (o + A.rows)) A.cols).foot := colView_rng dX (by omega) (by omega)
  have dXP : Disjoint X.foot (colView (wb + (o + A.rows + A.cols)) A.cols).foot := colView_rng dX (by omega) (by omega)
  have dXQ : Disjoint X.foot (colView (wb + (o + A.rows + A.cols + A.cols)) A.rows).foot := colView_rng dX (by omega) (by omega)
  have dBR : Disjoint B.foot (colView (wb + o) A.rows).foot := colView_rng dB (by omega) (by omega)
  have dRZ : Disjoint (colView (wb + o) A.rows).foot (colView (wb + (o + A.rows)) A.cols).foot := colView_disj (by omega)
  have dRP : Disjoint (colView (wb + o) A.rows).foot (colView (wb + (o + A.rows + A.cols)) A.cols).foot := colView_disj (by omega)
  have dRQ : Disjoint (colView (wb + o) A.rows).foot (colView (wb + (o + A.rows + A.cols + A.cols)) A.rows).foot := colView_disj (by omega)
  have dZP : Disjoint (colView (wb + (o + A.rows)) A.cols).foot (colView (wb + (o + A.rows + A.cols)) A.cols).foot := colView_disj (by omega)
  have dZQ : Disjoint (colView (wb + (o + A.rows)) A.cols).foot (colView (wb + (o + A.rows + A.cols + A.cols)) A.rows).foot :=
    colView_disj (by omega)
  have dPQ : Disjoint (colView (wb + (o + A.rows + A.cols)) A.cols).foot (colView (wb + (o + A.rows + A.cols + A.cols)) A.rows).foot :=
    colView_disj (by omega)
  refine Runs.bind (Props.C05_mcopy_vector false hR.wf hR.isVec hBv hR.holds hB dBR (by rw [hR.size, hBs])) ?_
  rintro ⟨_, m1⟩ ⟨-, r1, f1⟩
  dsimp only at r1 f1 ⊢
  replace r1 : Vec m1 (colView (wb + o) A.rows) b := hR.mk' r1 fun i => fv_fin b i
  have hX1 := hX.frame f1 dXR
  refine Runs.bind (r1.mult M hX1 dXR.symm 1 (-1)) ?_
  rintro ⟨_, m2⟩ ⟨r2, f2⟩
  dsimp only at r2 f2 ⊢
  rw [hDm, one_smul, neg_one_smul, ← sub_eq_add_neg] at r2
  have hX2 := hX1.frame f2 dXR
  have hZ2 := (hZ.frame f1 dRZ.symm).frame f2 dRZ.symm
  have hP2 := (hP.frame f1 dRP.symm).frame f2 dRP.symm
  have hQ2 := (hQ.frame f1 dRQ.symm).frame f2 dRQ.symm
  rw [r2.dot r2 _ _ hf, Res.ok_bind, wtake_ok (W := ⟨W.bytes, 8 * (o + A.rows)⟩) (o := o + A.rows) hW.lt rfl (by dsimp only; omega),
    Res.ok_bind]
  dsimp only
  refine Runs.bind (hZ2.multT M r2 dRZ.symm 0 1) ?_
  rintro ⟨_, m3⟩ ⟨z3, f3⟩
  dsimp only at z3 f3 ⊢
  rw [hDm, zero_smul, one_smul, zero_add] at z3
  rw [wtake_ok (W := ⟨W.bytes, 8 * (o + A.rows + A.cols)⟩) (o := o + A.rows + A.cols) hW.lt rfl (by dsimp only; omega), Res.ok_bind]
  dsimp only
  refine Runs.bind ((hP2.frame f3 dZP.symm).copy z3 dZP) ?_
  rintro ⟨_, m4⟩ ⟨p4, f4⟩
  dsimp only at p4 f4 ⊢
  rw [wtake_ok (W := ⟨W.bytes, 8 * (o + A.rows + A.cols + A.cols)⟩) (o := o + A.rows + A.cols + A.cols) hW.lt rfl (by dsimp only; omega),
    Res.ok_bind]
  dsimp only
  have hne : b - D *ᵥ x ≠ 0 := by
    intro h; rw [h, mulVec_zero] at h0; exact h0 rfl
  refine Runs.bind (cgnrLoop_spec M hDm rfl hS env hf hf' (X := X) (R := colView (wb + o) A.rows) (Z := colView (wb + (o + A.rows)) A.cols)
    (P := colView (wb + (o + A.rows + A.cols)) A.cols) (Q := colView (wb + (o + A.rows + A.cols + A.cols)) A.rows) ?_ (b := b)
    (r0 := Dᵀ *ᵥ (b - D *ᵥ x)) (xs := x) (rstop_pos heps (dot_self_pos hne)) (cf.limit (2 * A.rows)) 0 0 m4 x _
    ((hX2.frame f3 dXZ).frame f4 dXP) ((r2.frame f3 dRZ).frame f4 dRP) (z3.frame f4 dZP) ?_
    ((hQ2.frame f3 dZQ.symm).frame f4 dPQ.symm) ?_ ?_ (le_refl _) (fun h => absurd h (ne_of_gt (limit_pos (by omega))))) ?_
  · simp only [Apart, List.pairwise_cons, List.mem_cons, List.not_mem_nil, or_false, forall_eq_or_imp, forall_eq]
    exact ⟨⟨dXR, dXZ, dXP, dXQ⟩, ⟨dRZ, dRP, dRQ⟩, ⟨dZP, dZQ⟩, dPQ, fun _ h => h.elim, List.Pairwise.nil⟩
  · rw [cgP_zero, one_mulVec]; exact p4
  · rw [cgR_zero, mulVec_sub, mulVec_mulVec]
  · intro i hi
    have : i = 0 := by omega
    subst this; exact h0
  · rintro ⟨it, d, m5⟩ ⟨y, h1, h2, h3⟩
    dsimp only at h1 h2 h3 ⊢
    have s0 := colView_sub (wb := wb) (o := o) (s := 0) (n := A.rows) (c := 2 * A.rows + 2 * A.cols) X.foot (by omega)
    have s1 := colView_sub (wb := wb) (o := o) (s := A.rows) (n := A.cols) (c := 2 * A.rows + 2 * A.cols) X.foot (by omega)
    have s2 := colView_sub (wb := wb) (o := o) (s := A.rows + A.cols) (n := A.cols) (c := 2 * A.rows + 2 * A.cols) X.foot (by omega)
    have s3 := colView_sub (wb := wb) (o := o) (s := A.rows + A.cols + A.cols) (n := A.rows) (c := 2 * A.rows + 2 * A.cols) X.foot (by omega)
    rw [Nat.add_zero] at s0
    simp only [← Nat.add_assoc o] at s2 s3
    refine Runs.pure ⟨?_, ?_, y, it, d, h1, rfl, rfl, ?_⟩
    · dsimp only
      rw [wsetpos_back (by have := hW.off; omega)]
    · exact ((f1.mono s0).trans ((f2.mono s0).trans ((f3.mono s1).trans (f4.mono s2)))).trans
        (h3.mono (Set.union_subset (Set.union_subset (Set.union_subset (Set.union_subset (fun _ h => Or.inl h) s0) s1) s2) s3))
    · rw [Nat.zero_add] at h2; exact h2

end Armas
