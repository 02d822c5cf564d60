import Verif.CgLemmas

/-!
# The conjugate gradient solver as a whole
-/

namespace Armas

open Matrix Finset

variable {α : Type} {n : Nat}

theorem colView_foot (t n : Nat) : (colView t n).foot = rng t n := View.colFoot (X := colView t n) rfl

theorem colView_disj {t n t' n' : Nat} (h : t + n ≤ t') : Disjoint (colView t n).foot (colView t' n').foot := by
  rw [colView_foot, colView_foot]
  refine Set.disjoint_left.mpr ?_
  rintro q ⟨h1, h2⟩ ⟨h3, h4⟩
  omega

theorem colView_rng {U : View} {t n a c : Nat} (h : Disjoint U.foot (rng a c)) (h1 : a ≤ t) (h2 : t + n ≤ a + c) :
    Disjoint U.foot (colView t n).foot := by
  rw [colView_foot]
  refine h.mono_right ?_
  rintro q ⟨h3, h4⟩
  constructor <;> omega

theorem vec_of_cells [Zero α] {m : Mem α} {t n : Nat} (h : ∀ i, i < n → ∃ v, m (t + i) = some v) :
    ∃ w : Fin n → α, Vec m (colView t n) w := by
  choose g hg using h
  refine ⟨fun i => g i i.2, rfl, rfl, ?_⟩
  rw [← vecAt_col (X := colView t n) rfl]
  intro i hi
  have hi : i < n := hi
  rw [fv_lt _ hi]; exact hg i hi

/-- The part of the workspace that a solver uses: `c` cells from offset `o`, aligned and inside the buffer, holding some values. -/
structure WorkOk (m : Mem α) (W : WBuf) (wb o c : Nat) : Prop where
  lt : W.bytes < SIZE_T
  off : W.offset = 8 * o
  fits : 8 * o + 8 * c ≤ W.bytes
  cells : ∀ q, rng (wb + o) c q → ∃ v, m q = some v

theorem WorkOk.vec [Zero α] {m : Mem α} {W : WBuf} {wb o c : Nat} (h : WorkOk m W wb o c) {s n : Nat} (hs : s + n ≤ c) :
    ∃ w : Fin n → α, Vec m (colView (wb + (o + s)) n) w :=
  vec_of_cells fun i hi => h.cells _ (by constructor <;> omega)

variable [Field α] [LinearOrder α] [IsStrictOrderedRing α]

theorem rstop_pos {cf : IterConf α} (he : 0 < cf.eps) {d : α} (hd : 0 < d) : 0 < cf.rstop d := by
  unfold IterConf.rstop
  dsimp only
  have hm : 0 < (if 0 < cf.smult then cf.smult else cf.eps) := by split_ifs with h <;> assumption
  split_ifs with h1 h2 h3 h4
  all_goals first
    | positivity
    | exact absurd ‹_ = (0 : α)› (ne_of_gt h1)
    | (exfalso; simp_all)

theorem limit_pos {cf : IterConf α} {d : Nat} (hd : 0 < d) : 0 < cf.limit d := by
  unfold IterConf.limit
  split_ifs with h
  · omega
  · exact hd

theorem cgradW_spec {A : Sp α} {N : Nat} {e : Nat → Ent α} {upper lower trans : Bool} (T : Props.Triangular A n N e true) (hn : 0 < n)
    {S : Matrix (Fin n) (Fin n) α} (hSm : fmat n n (symm (upper && !lower) (dense N e)) = S) (hS : Spd S) (env : Env) {fuel : Nat}
    (hf : n < fuel) (sq : α → α) {cf : IterConf α} (heps : 0 < cf.eps) {X B : View} {m : Mem α} {x b : Fin n → α} (hX : Vec m X x)
    (hBv : B.isVec) (hBs : B.size = n) (hB : HoldsV m B (fv b)) {W : WBuf} {wb o : Nat} (hW : WorkOk m W wb o (3 * n))
    (dX : Disjoint X.foot (rng (wb + o) (3 * n))) (dB : Disjoint B.foot (rng (wb + o) (3 * n))) (h0 : b - S *ᵥ x ≠ 0) :
    Runs (cgradW env fuel sq cf X A B upper lower trans wb (some W) m) (fun r => r.work = some W ∧
      Frame (X.foot ∪ rng (wb + o) (3 * n)) m r.mem ∧ ∃ (x' : Fin n → α) (it : Nat) (d : α), Vec r.mem X x' ∧ r.out = some ⟨it, sq d⟩ ∧
      r.code = (if cf.limit (4 * n) ≤ it then -9 else 0) ∧
      CgPost S b (fun r => r ⬝ᵥ r) (cf.rstop ((b - S *ᵥ x) ⬝ᵥ (b - S *ᵥ x))) (cf.limit (4 * n)) x x' it d) := by
  obtain ⟨wr, hR⟩ := hW.vec (s := 0) (n := n) (by omega)
  obtain ⟨wp, hP⟩ := hW.vec (s := n) (n := n) (by omega)
  obtain ⟨wq, hQ⟩ := hW.vec (s := 2 * n) (n := n) (by omega)
  rw [Nat.add_zero] at hR
  have hfit := hW.fits
  unfold cgradW
  dsimp only
  rw [if_neg (show ¬ W.bytes = 0 by omega), if_neg (by rw [T.rows, T.cols]; omega),
    if_neg (not_not.mpr ⟨hX.isVec, hBv, by rw [hX.size, hBs], by rw [T.rows, T.cols], by rw [hX.size, T.rows]⟩),
    if_neg (by rw [wbytes_ok hW.lt hW.off (by omega), T.rows]; omega), T.rows]
  rw [wtake_ok hW.lt hW.off (by omega), Res.ok_bind]
  dsimp only
  have dXR : Disjoint X.foot (colView (wb + o) n).foot := colView_rng dX (by omega) (by omega)
  have dXP : Disjoint X.foot (colView (wb + (o + n)) n).foot := colView_rng dX (by omega) (by omega)
  have dXQ : Disjoint X.foot (colView (wb + (o + 2 * n)) n).foot := colView_rng dX (by omega) (by omega)
  have dBR : Disjoint B.foot (colView (wb + o) n).foot := colView_rng dB (by omega) (by omega)
  have dRP : Disjoint (colView (wb + o) n).foot (colView (wb + (o + n)) n).foot := colView_disj (by omega)
  have dRQ : Disjoint (colView (wb + o) n).foot (colView (wb + (o + 2 * n)) n).foot := colView_disj (by omega)
  have dPQ : Disjoint (colView (wb + (o + n)) n).foot (colView (wb + (o + 2 * n)) n).foot := colView_disj (by omega)
  refine Runs.bind (Props.C05_mcopy_vector false hR.wf hR.isVec hBv hR.holds hB dBR (by rw [hR.size, hBs])) ?_
  rintro ⟨_, m1⟩ ⟨-, r1, f1⟩
  dsimp only at r1 f1 ⊢
  replace r1 : Vec m1 (colView (wb + o) n) b := hR.mk' r1 fun i => fv_fin b i
  have hX1 := hX.frame f1 dXR
  have hP1 := hP.frame f1 dRP.symm
  have hQ1 := hQ.frame f1 dRQ.symm
  refine Runs.bind (r1.sym T hX1 dXR.symm 1 (-1)) ?_
  rintro ⟨_, m2⟩ ⟨r2, f2⟩
  dsimp only at r2 f2 ⊢
  rw [hSm, one_smul, neg_one_smul, ← sub_eq_add_neg] at r2
  have hX2 := hX1.frame f2 dXR
  have hP2 := hP1.frame f2 dRP.symm
  have hQ2 := hQ1.frame f2 dRQ.symm
  rw [r2.dot r2 _ _ hf, Res.ok_bind, wtake_ok (W := ⟨W.bytes, 8 * (o + n)⟩) (o := o + n) hW.lt rfl (by dsimp only; omega), Res.ok_bind]
  dsimp only
  refine Runs.bind (hP2.mcopy r2 dRP) ?_
  rintro ⟨_, m3⟩ ⟨p3, f3⟩
  dsimp only at p3 f3 ⊢
  have hX3 := hX2.frame f3 dXP
  have hR3 := r2.frame f3 dRP
  have hQ3 := hQ2.frame f3 dPQ.symm
  rw [show o + 2 * n = o + n + n by omega] at dXQ dRQ dPQ hQ3
  rw [wtake_ok (W := ⟨W.bytes, 8 * (o + n + n)⟩) (o := o + n + n) hW.lt rfl (by dsimp only; omega), Res.ok_bind]
  dsimp only
  have hpos : 0 < (b - S *ᵥ x) ⬝ᵥ (b - S *ᵥ x) := by
    have := (spd_one (α := α) (n := n)).pos _ h0; rwa [one_mulVec] at this
  refine Runs.bind (cgradLoop_spec T hSm hS env hf (X := X) (R := colView (wb + o) n) (P := colView (wb + (o + n)) n)
    (Q := colView (wb + (o + n + n)) n) ?_ (b := b) (r0 := b - S *ᵥ x) (xs := x) (rstop_pos heps hpos) (cf.limit (4 * n)) 0 0 m3 x _ hX3 hR3
    (by rw [cgP_zero, one_mulVec]; exact p3) hQ3 rfl ?_ (le_refl _) (fun h => absurd h (ne_of_gt (limit_pos (by omega))))) ?_
  · simp only [Apart, List.pairwise_cons, List.mem_cons, List.not_mem_nil, or_false, forall_eq_or_imp, forall_eq]
    exact ⟨⟨dXR, dXP, dXQ⟩, ⟨dRP, dRQ⟩, dPQ, fun _ h => h.elim, List.Pairwise.nil⟩
  · intro i hi
    have : i = 0 := by omega
    subst this; exact h0
  · rintro ⟨it, d, m4⟩ ⟨x', h1, h2, h3⟩
    dsimp only at h1 h2 h3 ⊢
    have hsub : ∀ s, s + n ≤ 3 * n → ((colView (wb + (o + s)) n).foot : Set Nat) ⊆ X.foot ∪ rng (wb + o) (3 * n) := by
      intro s hs q hq
      rw [colView_foot] at hq
      obtain ⟨a, b⟩ := hq
      right; constructor <;> omega
    have s0 := hsub 0 (by omega)
    have s1 := hsub n (by omega)
    have s2 := hsub (n + n) (by omega)
    rw [Nat.add_zero] at s0
    rw [← Nat.add_assoc o n n] at s2
    refine Runs.pure ⟨?_, ?_, x', it, d, h1, rfl, rfl, ?_⟩
    · dsimp only
      unfold wsetpos wpos
      have hb : W.offset < W.bytes := by have := hW.off; omega
      rw [if_pos hb]
    · exact ((f1.mono s0).trans ((f2.mono s0).trans (f3.mono s1))).trans
        (h3.mono (Set.union_subset (Set.union_subset (Set.union_subset (fun _ h => Or.inl h) s0) s1) s2))
    · rw [Nat.zero_add] at h2; exact h2

end Armas
