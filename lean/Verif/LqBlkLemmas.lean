import Verif.LqLemmas

/-!
# Lemmas on the block reflectors of LQ factorization
-/

namespace Armas

open Finset

variable {α : Type} [Field α]

/-- `armas_update_lq_left` and `armas_update_lq_right` side by side. -/
def updLq [DecidableEq α] (ab : α → α) (env : Env) (fuel : Nat) (m : Mem α) (C1 C2 Y1 Y2 T W : View) (right tA : Bool)
    (cbuf : Option Cache) : Res (Mem α) :=
  if C1.size = 0 ∧ C2.size = 0 then .ok m
  else do
    let (_, m) ← mcopy m W C1 (!right)
    let (_, m) ← multTrm ab env fuel m W 1 Y1 { upper := true, unit := true, right := true, transA := true } cbuf
    let (_, m) ← mult ab m 1 W 1 C2 Y2 { transA := !right, transB := true } cbuf
    let (_, m) ← multTrm ab env fuel m W 1 T { upper := true, right := true, transA := tA } cbuf
    let (_, m) ← (if right then mult ab m 1 C2 (-1) W Y2 {} cbuf
      else mult ab m 1 C2 (-1) Y2 W { transA := true, transB := true } cbuf)
    let (_, m) ← multTrm ab env fuel m W 1 Y1 { upper := true, unit := true, right := true } cbuf
    let (_, m) ← mplus ab m 1 C1 (-1) W .all false (!right) false
    pure m

theorem updateLqLeft_eq [DecidableEq α] (ab : α → α) (env : Env) (fuel : Nat) (m : Mem α) (C1 C2 Y1 Y2 T W : View) (transpose : Bool)
    (cbuf : Option Cache) : updateLqLeft ab env fuel m C1 C2 Y1 Y2 T W transpose cbuf =
      updLq ab env fuel m C1 C2 Y1 Y2 T W false (!transpose) cbuf := by
  unfold updateLqLeft updLq
  simp

theorem updateLqRight_eq [DecidableEq α] (ab : α → α) (env : Env) (fuel : Nat) (m : Mem α) (C1 C2 Y1 Y2 T W : View) (transpose : Bool)
    (cbuf : Option Cache) : updateLqRight ab env fuel m C1 C2 Y1 Y2 T W transpose cbuf =
      updLq ab env fuel m C1 C2 Y1 Y2 T W true (!transpose) cbuf := by
  unfold updateLqRight updLq
  simp

theorem qrw_trm' {nb i j : Nat} (f : Nat → Nat → α) : qrw f j i = trm true true (fun p q => f q p) j i := by
  unfold qrw trm
  by_cases h1 : i = j
  · simp [h1]
  · by_cases h2 : i < j
    · simp [h1, h2, show ¬ j < i by omega, show j ≠ i by omega]
    · simp [h1, h2, show j < i by omega, show j ≠ i by omega]

/-- Operands of the update: `C` (or its transpose) is `nb + P` by `K`. -/
structure LqUpdArgs (c : Cache) (m : Mem α) (C1 C2 Y1 Y2 T W : View) (nb P K : Nat) (right : Bool) (f b τ w : Nat → Nat → α) : Prop where
  r1 : C1.rows = if right then K else nb
  c1 : C1.cols = if right then nb else K
  r2 : C2.rows = if right then K else P
  c2 : C2.cols = if right then P else K
  y1 : Y1.rows = nb ∧ Y1.cols = nb
  y2 : Y2.rows = nb ∧ Y2.cols = P
  t : T.rows = nb ∧ T.cols = nb
  wsh : W.rows = K ∧ W.cols = nb
  wf1 : C1.WF
  wf2 : C2.WF
  wfW : W.WF
  ready : c.Ready m
  h1 : Holds m C1 (fun i j => if right then b j i else b i j)
  h2 : Holds m C2 (fun i j => if right then b (nb + j) i else b (nb + i) j)
  hY1 : Holds m Y1 (fun i j => f j i)
  hY2 : Holds m Y2 (fun i j => f (nb + j) i)
  hT : Holds m T τ
  hW : Holds m W w
  d12 : Disjoint C1.foot C2.foot
  d1W : Disjoint C1.foot W.foot
  d2W : Disjoint C2.foot W.foot
  dY1 : Disjoint Y1.foot (C1.foot ∪ C2.foot ∪ W.foot)
  dY2 : Disjoint Y2.foot (C1.foot ∪ C2.foot ∪ W.foot)
  dT : Disjoint T.foot (C1.foot ∪ C2.foot ∪ W.foot)
  dc : Disjoint (C1.foot ∪ C2.foot ∪ W.foot ∪ Y1.foot ∪ Y2.foot ∪ T.foot) c.foot

theorem updLq_spec [DecidableEq α] (ab : α → α) {env : Env} {c : Cache} (hc : Conf3 env c) {fuel : Nat} {m : Mem α}
    {C1 C2 Y1 Y2 T W : View} {nb P K : Nat} {right tA : Bool} {f b τ w : Nat → Nat → α}
    (H : LqUpdArgs c m C1 C2 Y1 Y2 T W nb P K right f b τ w) (hf : nb + K + nb < fuel) :
    Runs (updLq ab env fuel m C1 C2 Y1 Y2 T W right tA (some c)) (fun m' =>
      Holds m' C1 (fun i j => let B := blockProd (nb + P) nb (fun p q => if tA then trm true false τ p q else trm true false τ q p) f b
        if right then B j i else B i j) ∧
      Holds m' C2 (fun i j => let B := blockProd (nb + P) nb (fun p q => if tA then trm true false τ p q else trm true false τ q p) f b
        if right then B (nb + j) i else B (nb + i) j) ∧
      Frame (C1.foot ∪ C2.foot ∪ W.foot ∪ c.foot) m m' ∧ c.Ready m' ∧ ∃ w', Holds m' W w') := by
  obtain ⟨r1, c1, r2, c2, ⟨y1, y1'⟩, ⟨y2, y2'⟩, ⟨t, t'⟩, ⟨ww, ww'⟩, wf1, wf2, wfW, R, h1, h2, hY1, hY2, hT, hW, d12, d1W, d2W, dY1, dY2,
    dT, dc⟩ := H
  have d1c : Disjoint C1.foot c.foot := dc.mono_left (by intro p h; simp only [Set.mem_union]; tauto)
  have d2c : Disjoint C2.foot c.foot := dc.mono_left (by intro p h; simp only [Set.mem_union]; tauto)
  have dWc : Disjoint W.foot c.foot := dc.mono_left (by intro p h; simp only [Set.mem_union]; tauto)
  have dY1c : Disjoint Y1.foot c.foot := dc.mono_left (by intro p h; simp only [Set.mem_union]; tauto)
  have dY2c : Disjoint Y2.foot c.foot := dc.mono_left (by intro p h; simp only [Set.mem_union]; tauto)
  have dTc : Disjoint T.foot c.foot := dc.mono_left (by intro p h; simp only [Set.mem_union]; tauto)
  have dY11 : Disjoint Y1.foot C1.foot := dY1.mono_right (by intro p h; simp only [Set.mem_union]; tauto)
  have dY12 : Disjoint Y1.foot C2.foot := dY1.mono_right (by intro p h; simp only [Set.mem_union]; tauto)
  have dY1W : Disjoint Y1.foot W.foot := dY1.mono_right (by intro p h; simp only [Set.mem_union]; tauto)
  have dY21 : Disjoint Y2.foot C1.foot := dY2.mono_right (by intro p h; simp only [Set.mem_union]; tauto)
  have dY22 : Disjoint Y2.foot C2.foot := dY2.mono_right (by intro p h; simp only [Set.mem_union]; tauto)
  have dY2W : Disjoint Y2.foot W.foot := dY2.mono_right (by intro p h; simp only [Set.mem_union]; tauto)
  have dTW : Disjoint T.foot W.foot := dT.mono_right (by intro p h; simp only [Set.mem_union]; tauto)
  have dT1 : Disjoint T.foot C1.foot := dT.mono_right (by intro p h; simp only [Set.mem_union]; tauto)
  have dT2 : Disjoint T.foot C2.foot := dT.mono_right (by intro p h; simp only [Set.mem_union]; tauto)
  unfold updLq
  by_cases h0 : C1.size = 0 ∧ C2.size = 0
  · rw [if_pos h0]
    have e1 : C1.rows = 0 ∨ C1.cols = 0 := by simpa [View.size] using h0.1
    have e2 : C2.rows = 0 ∨ C2.cols = 0 := by simpa [View.size] using h0.2
    exact Runs.ok ⟨fun i j hi hj => by omega, fun i j hi hj => by omega, Frame.refl _ _, R, w, hW⟩
  rw [if_neg h0]
  -- W = op(C1)
  have s1 : Runs (mcopy m W C1 (!right)) (fun r => Holds r.2 W (fun i j => b j i) ∧ Frame W.foot m r.2) := by
    cases right
    · simp only [Bool.false_eq_true, if_false] at r1 c1 h1
      exact (Props.C05_mcopy_trans wfW hW h1 d1W (by omega) (by omega)).mono fun r h => ⟨h.2.1, h.2.2⟩
    · simp only [if_true] at r1 c1 h1
      exact (Props.C05_mcopy wfW hW h1 d1W (by omega) (by omega)).mono fun r h => ⟨h.2.1, h.2.2⟩
  refine s1.bind ?_
  rintro ⟨e1, m1⟩ ⟨k1, f1⟩
  dsimp only at k1 f1 ⊢
  have R1 := R.frame f1 dWc.symm
  -- W = W * Y1
  have s2 := multTrm_ready ab hc.min2 (c := c) (m := m1) (B := W) (A := Y1) (f := fun i j => b j i) (a := fun i j => f j i) 1
    (fl := { upper := true, unit := true, right := true, transA := true }) (fuel := fuel)
    ⟨fun _ => rfl, rfl, rfl, wfW, by omega, by simp; omega, R1, hc.rb, k1,
      HoldsOn.of_holds (hY1.frame f1 dY1W), dY1W.mono_left (View.footOn_sub_foot _ _), dY1c.mono_left (View.footOn_sub_foot _ _), dWc⟩
    (by omega)
  refine s2.bind ?_
  rintro ⟨e2, m2⟩ ⟨-, k2, f2, R2⟩
  dsimp only at k2 f2 R2 ⊢
  have f12 : Frame (W.foot ∪ c.foot) m m2 := (f1.mono Set.subset_union_left).trans f2
  -- W = W + op(C2) Y2
  set u : Nat → Nat → α := fun i j => ∑ r ∈ range (nb + P), qrw f j r * b r i with hu
  have s3 : Runs (mult ab m2 1 W 1 C2 Y2 { transA := !right, transB := true } (some c)) (fun r => Holds r.2 W u ∧
      Frame (W.foot ∪ c.foot) m2 r.2 ∧ c.Ready r.2) := by
    refine (mult_one ab 1 (P := P) rfl rfl wfW R2 (h2.frame f12 (Set.disjoint_union_right.mpr ⟨d2W, d2c⟩))
      (hY2.frame f12 (Set.disjoint_union_right.mpr ⟨dY2W, dY2c⟩)) k2 d2c dY2c dWc d2W dY2W
      (by cases right <;> simp_all) (by simp; omega) (by cases right <;> simp_all) (by simp; omega)).mono ?_
    rintro r ⟨q1, q2, q3⟩
    refine ⟨q1.congr fun i j hi hj => ?_, q2, q3⟩
    have hj : j < nb := by omega
    simp only [hu, sum_range_add, Props.triProd, y1', if_true, Bool.false_eq_true, if_false, one_mul]
    congr 1
    · exact sum_congr rfl fun r _ => by rw [qrw_trm' (nb := nb), mul_comm]
    · refine sum_congr rfl fun r _ => ?_
      rw [show qrw f j (nb + r) = f (nb + r) j by rw [qrw, if_neg (by omega), if_neg (by omega)], mul_comm]
      cases right <;> simp
  refine s3.bind ?_
  rintro ⟨e3, m3⟩ ⟨k3, f3, R3⟩
  dsimp only at k3 f3 R3 ⊢
  have f13 : Frame (W.foot ∪ c.foot) m m3 := f12.trans f3
  -- W = W * op(T)
  set v : Nat → Nat → α := fun i j => ∑ k ∈ range nb, u i k * (if tA then trm true false τ j k else trm true false τ k j) with hv
  have s4 := multTrm_ready ab hc.min2 (c := c) (m := m3) (B := W) (A := T) (f := u) (a := τ) 1
    (fl := { upper := true, right := true, transA := tA }) (fuel := fuel)
    ⟨fun _ => rfl, rfl, rfl, wfW, by omega, by simp; omega, R3, hc.rb, k3,
      HoldsOn.of_holds (hT.frame f13 (Set.disjoint_union_right.mpr ⟨dTW, dTc⟩)), dTW.mono_left (View.footOn_sub_foot _ _),
      dTc.mono_left (View.footOn_sub_foot _ _), dWc⟩
    (by omega)
  refine s4.bind ?_
  rintro ⟨e4, m4⟩ ⟨-, k4, f4, R4⟩
  dsimp only at k4 f4 R4 ⊢
  have k4' : Holds m4 W v := k4.congr fun i j _ _ => by
    simp only [Props.triProd, t', hv, one_mul, if_true]
  have f14 : Frame (W.foot ∪ c.foot) m m4 := f13.trans f4
  have h24 := h2.frame f14 (Set.disjoint_union_right.mpr ⟨d2W, d2c⟩)
  have hY24 := hY2.frame f14 (Set.disjoint_union_right.mpr ⟨dY2W, dY2c⟩)
  -- C2 = C2 - Y2 * W'
  have s5 : Runs (if right then mult ab m4 1 C2 (-1) W Y2 {} (some c)
      else mult ab m4 1 C2 (-1) Y2 W { transA := true, transB := true } (some c)) (fun r =>
      Holds r.2 C2 (fun i j => if right then b (nb + j) i - ∑ k ∈ range nb, f (nb + j) k * v i k
        else b (nb + i) j - ∑ k ∈ range nb, f (nb + i) k * v j k) ∧
      Frame (C2.foot ∪ c.foot) m4 r.2 ∧ c.Ready r.2) := by
    cases right
    · simp only [Bool.false_eq_true, if_false] at r1 c1 r2 c2 h24 ⊢
      refine (mult_one ab (-1) (P := nb) rfl rfl wf2 R4 hY24 k4' h24 dY2c dWc d2c dY22 d2W.symm (by simp; omega) (by simp; omega)
        (by simp; omega) (by simp; omega)).mono ?_
      rintro r ⟨q1, q2, q3⟩
      refine ⟨q1.congr fun i j hi hj => ?_, q2, q3⟩
      simp only [Bool.false_eq_true, if_false, if_true]
      ring
    · simp only [if_true] at r1 c1 r2 c2 h24 ⊢
      refine (mult_one ab (-1) (P := nb) rfl rfl wf2 R4 k4' hY24 h24 dWc dY2c d2c d2W.symm dY22 (by simp; omega) (by simp; omega)
        (by simp; omega) (by simp; omega)).mono ?_
      rintro r ⟨q1, q2, q3⟩
      refine ⟨q1.congr fun i j hi hj => ?_, q2, q3⟩
      simp only [Bool.false_eq_true, if_false, if_true]
      rw [neg_one_mul, ← sub_eq_add_neg]
      congr 1
      exact sum_congr rfl fun k _ => mul_comm _ _
  refine s5.bind ?_
  rintro ⟨e5, m5⟩ ⟨k5, f5, R5⟩
  dsimp only at k5 f5 R5 ⊢
  have f15 : Frame (W.foot ∪ c.foot ∪ C2.foot) m m5 := (f14.mono Set.subset_union_left).trans (f5.mono (by
    rintro p (h | h)
    · exact Or.inr h
    · exact Or.inl (Or.inr h)))
  -- W = W * Y1'
  have s6 := multTrm_ready ab hc.min2 (c := c) (m := m5) (B := W) (A := Y1) (f := v) (a := fun i j => f j i) 1
    (fl := { upper := true, unit := true, right := true }) (fuel := fuel)
    ⟨fun _ => rfl, rfl, rfl, wfW, by omega, by simp; omega, R5, hc.rb,
      k4'.frame f5 (Set.disjoint_union_right.mpr ⟨d2W.symm, dWc⟩),
      HoldsOn.of_holds (hY1.frame f15 (Set.disjoint_union_right.mpr ⟨Set.disjoint_union_right.mpr ⟨dY1W, dY1c⟩, dY12⟩)),
      dY1W.mono_left (View.footOn_sub_foot _ _), dY1c.mono_left (View.footOn_sub_foot _ _), dWc⟩
    (by omega)
  refine s6.bind ?_
  rintro ⟨e6, m6⟩ ⟨-, k6, f6, R6⟩
  dsimp only at k6 f6 R6 ⊢
  have f16 : Frame (W.foot ∪ c.foot ∪ C2.foot) m m6 := f15.trans (f6.mono Set.subset_union_left)
  -- C1 = C1 - W'
  refine (mplus_one wf1 (h1.frame f16 (Set.disjoint_union_right.mpr ⟨Set.disjoint_union_right.mpr ⟨d1W, d1c⟩, d12⟩)) k6
    d1W.symm (by cases right <;> simp_all) (by cases right <;> simp_all)).bind ?_
  rintro ⟨e7, m7⟩ ⟨k7, f7⟩
  dsimp only at k7 f7 ⊢
  have bp : ∀ i j, blockProd (nb + P) nb (fun p q => if tA then trm true false τ p q else trm true false τ q p) f b i j =
      b i j - ∑ k ∈ range nb, qrw f k i * v j k := by
    intro i j
    simp only [blockProd, hv, hu]
    congr 1
    refine sum_congr rfl fun p _ => ?_
    congr 1
    exact sum_congr rfl fun q _ => mul_comm _ _
  refine Runs.pure ⟨k7.congr fun i j hi hj => ?_, ?_, ?_, R6.frame f7 d1c.symm, _, k6.frame f7 d1W.symm⟩
  · simp only [bp, Props.triProd, y1', if_true, one_mul]
    cases right
    · simp only [Bool.not_false, if_true, Bool.false_eq_true, if_false]
      rw [neg_one_mul, ← sub_eq_add_neg]
      congr 1
      exact sum_congr rfl fun k _ => by rw [qrw_trm' (nb := nb), mul_comm]
    · simp only [Bool.not_true, if_true, Bool.false_eq_true, if_false]
      rw [neg_one_mul, ← sub_eq_add_neg]
      congr 1
      exact sum_congr rfl fun k _ => by rw [qrw_trm' (nb := nb), mul_comm]
  · refine ((k5.frame f6 (Set.disjoint_union_right.mpr ⟨d2W, d2c⟩)).frame f7 d12.symm).congr fun i j hi hj => ?_
    simp only [bp]
    have e : ∀ l k, k < nb → qrw f k (nb + l) = f (nb + l) k := fun l k hk => by
      rw [qrw, if_neg (by omega), if_neg (by omega)]
    cases right
    · simp only [Bool.false_eq_true, if_false]
      congr 1
      exact sum_congr rfl fun k hk => by rw [e i k (mem_range.mp hk)]
    · simp only [if_true]
      congr 1
      exact sum_congr rfl fun k hk => by rw [e j k (mem_range.mp hk)]
  · refine (f16.mono ?_).trans (f7.mono ?_)
    · rintro p ((h | h) | h) <;> simp only [Set.mem_union] <;> tauto
    · intro p h
      simp only [Set.mem_union]
      tauto

variable [DecidableEq α]

theorem lqReflStep_spec (ab : α → α) {env : Env} (hmin : env.blas2min ≠ 1 ∨ env.naive = true) {fuel : Nat} {m : Mem α} {T A tau : View}
    {f τ : Nat → Nat → α} {t : α} {k : Nat} (wT : T.WF) (hk : k < A.rows) (hk' : k < A.cols) (hTr : A.rows ≤ T.rows)
    (hTc : A.rows ≤ T.cols) (hfu : A.rows < fuel) (hT : Holds m T τ) (hA : Holds m A fun i j => f j i) (ht : m (tau.at' k 0) = some t)
    (dA : Disjoint A.foot T.foot) (hl : t = 0 ∨ k = 0 ∨ k + 1 < A.cols) :
    Runs (lqReflStep ab env fuel T A tau k m) (fun m' => Holds m' T (if t = 0 then τ else reflCol A.cols f k t τ) ∧
      Frame T.foot m m') := by
  unfold lqReflStep
  refine Runs.rd_bind ht ?_
  beta_reduce
  by_cases h0 : t = 0
  · rw [if_pos h0]
    refine Runs.pure ?_
    rw [if_pos h0]
    exact ⟨hT, Frame.refl _ _⟩
  rw [if_neg h0]
  have s01 : (T.sub 0 k k 1).foot ⊆ T.foot := View.sub_foot (by omega) (by omega)
  have w01 : (T.sub 0 k k 1).WF := wT.sub (by omega) (by omega)
  have z01 : (T.sub 0 k k 1).size = k := by simp [View.size]
  refine Runs.wr_bind (hT k k (by omega) (by omega)) ?_
  beta_reduce
  set m1 := m.set (T.at' k k) t with hm1
  have F1 : Frame T.foot m m1 := Frame.set (View.at_mem_foot (by omega) (by omega)) _
  have hT1 : Holds m1 T (fun p q => if p = k ∧ q = k then t else τ p q) := hT.cell wT (by omega) (by omega) t
  have hA1 : Holds m1 A fun i j => f j i := hA.frame F1 dA
  have hc1 : HoldsV m1 (T.sub 0 k k 1) (fun l => τ l k) :=
    ((hT1.part (r := 0) (c := k) (nr := k) (nc := 1) (by omega) (by omega)).colV rfl).congr fun l hl => by
      rw [z01] at hl
      simp [show ¬ l = k by omega]
  have hr1 : HoldsV m1 (A.sub 0 k k 1) (fun l => f k l) := 
    ((hA1.part (r := 0) (c := k) (nr := k) (nc := 1) (by omega) (by omega)).colV rfl).congr fun l _ => by simp
  have dA01 : ∀ r c nr nc, r + nr ≤ A.rows → c + nc ≤ A.cols → Disjoint (A.sub r c nr nc).foot (T.sub 0 k k 1).foot :=
    fun r c nr nc h h' => dA.mono (View.sub_foot h h') s01
  refine Runs.bind (Props.C06_axpby 0 1 (Or.inr rfl) (Or.inr rfl) w01 (by simp [View.size]) hr1 hc1
    (dA01 _ _ _ _ (by omega) (by omega))) ?_
  rintro ⟨e2, m2⟩ ⟨-, k2, F2⟩
  dsimp only at k2 F2 ⊢
  have hA2 : Holds m2 A fun i j => f j i := hA1.frame F2 (dA.mono_right s01)
  have s3 : Runs (mvmult ab env fuel m2 (-t) (T.sub 0 k k 1) (-t) (A.sub 0 (k + 1) k (A.cols - k - 1))
      (A.sub k (k + 1) 1 (A.cols - k - 1)) {}) (fun r =>
      HoldsV r.2 (T.sub 0 k k 1) (fun l => -t * gramW A.cols f l k) ∧ Frame (T.sub 0 k k 1).foot m2 r.2) := by
    by_cases c0 : k = 0
    · unfold mvmult
      rw [if_pos (by simp [View.size, c0])]
      exact Runs.ok ⟨fun l hl => by omega, Frame.refl _ _⟩
    have hl : k + 1 < A.cols := by rcases hl with h | h | h; exacts [absurd h h0, absurd h c0, h]
    refine (Props.C10_mvmult_partial ab hmin (-t) (-t) (fl := {}) rfl
      (by simp only [View.size, View.sub_rows, View.sub_cols]; exact Nat.mul_ne_zero c0 (by omega)) (by omega) (Or.inr rfl) w01 (Or.inl rfl) (by simp [View.size]) (by simp [View.size])
      k2 (hA2.part (by omega) (by omega)) ((hA2.part (by omega) (by omega)).toV_row) (dA01 _ _ _ _ (by omega) (by omega))
      (dA01 _ _ _ _ (by omega) (by omega))).mono ?_
    rintro r ⟨-, q1, q2⟩
    refine ⟨q1.congr fun l hl => ?_, q2⟩
    rw [z01] at hl
    rw [gramW_eq f hl hk']
    simp [View.size]
    ring
  refine s3.bind ?_
  rintro ⟨e3, m3⟩ ⟨k3, F3⟩
  dsimp only at k3 F3 ⊢
  have F23 : Frame (T.sub 0 k k 1).foot m1 m3 := F2.trans F3
  have d00 : Disjoint (T.sub 0 0 k k).foot (T.sub 0 k k 1).foot := View.sub_disj wT (by omega) (by omega) (by omega) (by omega) (by omega)
  have hT3 : Holds m3 (T.sub 0 0 k k) τ := ((hT1.part (r := 0) (c := 0) (nr := k) (nc := k) (by omega) (by omega)).frame F23 d00).congr
    fun i j hi hj => by
      rw [View.sub_rows] at hi
      simp [show ¬ i = k by omega]
  refine Runs.bind (Props.C12_mvmult_trm_partial ab hmin 1 (fl := { upper := true }) rfl (Or.inr rfl) w01 (wT.sub (by omega) (by omega))
    (by simp [View.size]) (by simp [View.size]) (by omega) k3 (HoldsOn.of_holds hT3) (d00.mono_left (View.footOn_sub_foot _ _))) ?_
  rintro ⟨e4, m4⟩ ⟨-, k4, F4⟩
  dsimp only at k4 F4 ⊢
  have F24 : Frame (T.sub 0 k k 1).foot m1 m4 := F23.trans F4
  refine Runs.pure ?_
  rw [if_neg h0]
  refine ⟨?_, F1.trans (F24.mono s01)⟩
  refine (hT1.put wT (F := ∅) (by simp) (by omega) (by omega) (k4.col rfl) (by simpa using F24)).congr fun i j hi hj => ?_
  unfold Armas.put reflCol
  beta_reduce
  by_cases c1 : j = k ∧ i < k
  · rw [if_pos (by omega), if_neg (by omega), if_pos c1, z01, one_mul, mul_sum]
    refine sum_congr rfl fun q _ => ?_
    simp only [Nat.sub_zero, Bool.false_eq_true, if_false]
    ring
  · rw [if_neg (by omega), if_neg c1]
    by_cases c2 : i = k ∧ j = k
    · rw [if_pos c2, if_pos c2.symm]
    · rw [if_neg c2, if_neg (fun h => c2 h.symm)]

/-- As `lqReflector_spec`; columns of `T` with a zero `tau` may have any values when the vector of the reflector is a unit vector. -/
theorem lqReflector_weak (ab : α → α) {env : Env} (hmin : env.blas2min ≠ 1 ∨ env.naive = true) {fuel : Nat} {m : Mem α} {T A tau : View}
    {f τ : Nat → Nat → α} {t : Nat → α} (wT : T.WF) (hsh : A.rows ≤ A.cols) (hTr : A.rows ≤ T.rows)
    (hTc : A.rows ≤ T.cols) (hfu : A.rows < fuel) (hT : Holds m T τ) (hA : Holds m A fun i j => f j i)
    (ht : ∀ k, k < A.rows → m (tau.at' k 0) = some (t k)) (dA : Disjoint A.foot T.foot) (dt : ∀ k, k < A.rows → tau.at' k 0 ∉ T.foot)
    (hl : ∀ k, k < A.rows → t k = 0 ∨ k = 0 ∨ k + 1 < A.cols)
    (hz : ∀ k, k < A.rows → t k = 0 → (∀ i, i ≤ k → τ i k = 0) ∨ (∀ i, k < i → i < A.cols → f i k = 0)) :
    Runs (lqReflector ab env fuel m T A tau) (fun m' => ∃ τ', Holds m' T τ' ∧ BlkT A.cols A.rows t f (fun i k => if t k = 0 then 0 else τ' i k) ∧
      (∀ i k, t k = 0 → τ' i k = τ i k) ∧ Frame T.foot m m') := by
  unfold lqReflector
  rw [Nat.min_eq_left hsh]
  refine Runs.bind (P := fun r => ∃ τ', Holds r.2 T τ' ∧ BlkT A.cols A.rows t f (fun i k => if t k = 0 then 0 else τ' i k) ∧
      (∀ i k, t k = 0 → τ' i k = τ i k) ∧ Frame T.foot m r.2) ?_ ?_
  · refine Runs.forUp1 (i := 0) (n := A.rows) (I := fun k m' => ∃ τ', Holds m' T τ' ∧ BlkT A.cols k t f (fun i k => if t k = 0 then 0 else τ' i k) ∧
      (∀ i k, t k = 0 → τ' i k = τ i k) ∧ Frame T.foot m m') (Nat.zero_le _) ?_ ?_ ?_
    · exact ⟨τ, hT, ⟨fun k hk => by omega, fun k i hk => by omega⟩, fun _ _ _ => rfl, Frame.refl _ _⟩
    · rintro k m1 - hk ⟨τ', h1, h2, h3, F1⟩
      refine (lqReflStep_spec ab hmin wT hk (by omega) hTr hTc hfu h1 (hA.frame F1 dA) (by rw [F1 _ (dt k hk)]; exact ht k hk) dA
        (hl k hk)).mono ?_
      rintro m2 ⟨q1, q2⟩
      refine ⟨_, q1, ?_, ?_, F1.trans q2⟩
      · by_cases c0 : t k = 0
        · rw [if_pos c0]
          constructor
          · intro l hl'
            by_cases c : l = k
            · subst c; rw [if_pos c0, c0]
            · exact h2.diag l (by omega)
          · intro l i hl' hi
            by_cases c : l = k
            · subst c; rw [if_pos c0, c0]; simp
            · exact h2.col l i (by omega) hi
        · rw [if_neg c0]
          have keep : ∀ i j, j < k → reflCol A.cols f k (t k) τ' i j = τ' i j := by
            intro i j hj
            rw [reflCol, if_neg (by omega), if_neg (by omega)]
          have keepT : ∀ i j, j < k → trm true false (fun i k_1 => if t k_1 = 0 then 0 else reflCol A.cols f k (t k) τ' i k_1) i j =
              trm true false (fun i k => if t k = 0 then 0 else τ' i k) i j := by
            intro i j hj
            rw [trm_up, trm_up, keep i j hj]
          constructor
          · intro l hl'
            by_cases c : l = k
            · subst c; rw [if_neg c0]; simp [reflCol]
            · rw [keep l l (by omega)]; exact h2.diag l (by omega)
          · intro l i hl' hi
            rw [sum_congr rfl fun q hq => by rw [keepT i q (by have := mem_range.mp hq; omega)]]
            by_cases c : l = k
            · subst c; rw [if_neg c0, reflCol, if_neg (by omega), if_pos ⟨rfl, hi⟩]
              congr 1
              refine sum_congr rfl fun q hq => ?_
              have hq := mem_range.mp hq
              by_cases c1 : t q = 0
              · rcases hz q (by omega) c1 with hz | hz
                · congr 1
                  rw [trm_up, trm_up, if_pos c1]
                  by_cases c2 : i ≤ q
                  · rw [if_pos c2, if_pos c2, h3 i q c1, hz i c2]
                  · rw [if_neg c2, if_neg c2]
                · rw [gramW_eq f hq (by omega), hz l hq (by omega), sum_eq_zero, add_zero, mul_zero, mul_zero]
                  intro j hj
                  have := mem_range.mp hj
                  rw [hz _ (by omega) (by omega), zero_mul]
              · congr 1
                rw [trm_up, trm_up, if_neg c1]
            · rw [keep i l (by omega)]; exact h2.col l i (by omega) hi
      · intro i j hj
        by_cases c0 : t k = 0
        · rw [if_pos c0]; exact h3 i j hj
        · have : j ≠ k := by rintro rfl; exact c0 hj
          rw [if_neg c0, reflCol, if_neg (by omega), if_neg (by omega)]; exact h3 i j hj
    · exact fun m' h => h
  · rintro ⟨k, m'⟩ h
    exact Runs.pure h

theorem lqReflector_spec (ab : α → α) {env : Env} (hmin : env.blas2min ≠ 1 ∨ env.naive = true) {fuel : Nat} {m : Mem α} {T A tau : View}
    {f τ : Nat → Nat → α} {t : Nat → α} (wT : T.WF) (hsh : A.rows ≤ A.cols) (hTr : A.rows ≤ T.rows)
    (hTc : A.rows ≤ T.cols) (hfu : A.rows < fuel) (hT : Holds m T τ) (hA : Holds m A fun i j => f j i)
    (ht : ∀ k, k < A.rows → m (tau.at' k 0) = some (t k)) (dA : Disjoint A.foot T.foot) (dt : ∀ k, k < A.rows → tau.at' k 0 ∉ T.foot)
    (hl : ∀ k, k < A.rows → t k = 0 ∨ k = 0 ∨ k + 1 < A.cols) (hz : ∀ k i, k < A.rows → i ≤ k → t k = 0 → τ i k = 0) :
    Runs (lqReflector ab env fuel m T A tau) (fun m' => ∃ τ', Holds m' T τ' ∧ BlkT A.cols A.rows t f τ' ∧ Frame T.foot m m') := by
  refine (lqReflector_weak ab hmin wT hsh hTr hTc hfu hT hA ht dA dt hl fun k hk h => Or.inl fun i hi => hz k i hk hi h).mono ?_
  rintro m' ⟨τ', h1, h2, h3, h4⟩
  have e : ∀ i k, k < A.rows → i ≤ k → (if t k = 0 then 0 else τ' i k) = τ' i k := by
    intro i k hk hi
    by_cases c : t k = 0
    · rw [if_pos c, h3 i k c, hz k i hk hi c]
    · rw [if_neg c]
  refine ⟨τ', h1, ⟨fun k hk => ?_, fun k i hk hi => ?_⟩, h4⟩
  · rw [← e k k hk (le_refl k)]; exact h2.diag k hk
  · have q := h2.col k i hk hi
    beta_reduce at q
    rw [← e i k hk hi.le, q]
    congr 1
    refine sum_congr rfl fun q hq => ?_
    rw [trm_up, trm_up]
    by_cases c : i ≤ q
    · rw [if_pos c, if_pos c, e i q (by have := mem_range.mp hq; omega) c]
    · rw [if_neg c, if_neg c]

end Armas
