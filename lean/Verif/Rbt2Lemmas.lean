import Verif.RbtLemmas

/-!
# Two sided update with random butterfly matrices
-/

namespace Armas

open Finset

variable {α : Type} [Field α] [DecidableEq α]

/-- The index of the pair an index belongs to. -/
def cls (h p : Nat) : Nat := if p < h then p else p - h

/-- Both sides of one block. -/
def b2 (hf : α) (M N h : Nat) (u v : Nat → α) (a : Nat → Nat → α) (i j : Nat) : α :=
  hf * bOp true N h v (fun q p => bOp true M h u a p q) j i

theorem rbt2Cell_spec {hf : α} {m : Mem α} {A R S : View} {h i j : Nat} {hi hj : Bool} {u v : Nat → α} {a x : Nat → Nat → α} (hw : A.WF)
    (hA : Holds m A x) (hR : RHolds m A R A.rows u) (hS : RHolds m A S A.cols v) (hih : i < h) (hjh : j < h) (hi0 : i < A.rows) (hj0 : j < A.cols)
    (hM : A.rows ≤ h + h) (hN : A.cols ≤ h + h)
    (ei : hi = decide (i + h < A.rows)) (ej : hj = decide (j + h < A.cols))
    (hx : ∀ p q, cls h p = i → cls h q = j → x p q = a p q) :
    Runs (rbt2Cell hf A R S h hj hi j i m) (fun m' => Holds m' A (fun p q => if cls h q = j ∧ cls h p = i then b2 hf A.rows A.cols h u v a p q
      else x p q) ∧ Frame A.foot m m') := by
  have ci : cls h i = i := if_pos hih
  have ci' : cls h (i + h) = i := by unfold cls; rw [if_neg (by omega), Nat.add_sub_cancel]
  have cj : cls h j = j := if_pos hjh
  have cj' : cls h (j + h) = j := by unfold cls; rw [if_neg (by omega), Nat.add_sub_cancel]
  have key : ∀ p k, cls h p = k → p = k ∨ p = k + h := by
    intro p k hp
    unfold cls at hp
    split at hp <;> omega
  have a00 := hA i j hi0 hj0
  have b00 : b2 hf A.rows A.cols h u v a i j = hf * v j * u i * ((a i j + if j + h < A.cols then a i (j + h) else 0) +
      ((if i + h < A.rows then a (i + h) j else 0) + if i + h < A.rows ∧ j + h < A.cols then a (i + h) (j + h) else 0)) := by
    unfold b2 bOp
    simp only [hih, hjh, if_true]
    by_cases c1 : i + h < A.rows <;> by_cases c2 : j + h < A.cols <;> simp only [c1, c2, if_true, if_false, and_true, and_false] <;> ring
  have b01 : j + h < A.cols → b2 hf A.rows A.cols h u v a i (j + h) = hf * v (j + h) * u i * ((a i j + if i + h < A.rows then a (i + h) j else 0) -
      (a i (j + h) + if i + h < A.rows then a (i + h) (j + h) else 0)) := by
    intro _
    unfold b2 bOp
    rw [if_neg (show ¬ j + h < h by omega), Nat.add_sub_cancel]
    simp only [hih, if_true]
    by_cases c1 : i + h < A.rows <;> simp only [c1, if_true, if_false] <;> ring
  have b10 : i + h < A.rows → b2 hf A.rows A.cols h u v a (i + h) j = hf * v j * u (i + h) * ((a i j + if j + h < A.cols then a i (j + h) else 0) -
      (a (i + h) j + if j + h < A.cols then a (i + h) (j + h) else 0)) := by
    intro _
    unfold b2 bOp
    simp only [hjh, if_true, if_neg (show ¬ i + h < h by omega), Nat.add_sub_cancel]
    by_cases c1 : j + h < A.cols <;> simp only [c1, if_true, if_false] <;> ring
  have b11 : b2 hf A.rows A.cols h u v a (i + h) (j + h) = hf * v (j + h) * u (i + h) * ((a i j + a (i + h) (j + h)) - (a i (j + h) + a (i + h) j)) := by
    unfold b2 bOp
    simp only [if_neg (show ¬ i + h < h by omega), if_neg (show ¬ j + h < h by omega), Nat.add_sub_cancel, if_true]
    ring
  unfold rbt2Cell
  by_cases c1 : i + h < A.rows
  · obtain rfl : hi = true := by rw [ei]; simpa using c1
    by_cases c2 : j + h < A.cols
    · obtain rfl : hj = true := by rw [ej]; simpa using c2
      have a01 := hA i (j + h) hi0 c2
      have a10 := hA (i + h) j c1 hj0
      have a11 := hA (i + h) (j + h) c1 c2
      simp only [if_true, and_self]
      refine Runs.rd_bind (hS.val j hj0) ?_
      refine Runs.rd_bind (hS.val (j + h) c2) ?_
      refine Runs.rd_bind (hR.val i hi0) ?_
      refine Runs.rd_bind (hR.val (i + h) c1) ?_
      refine Runs.rd_bind a00 ?_
      refine Runs.rd_bind a01 ?_
      refine Runs.rd_bind a10 ?_
      refine Runs.rd_bind a11 ?_
      rw [hx _ _ ci cj, hx _ _ ci cj', hx _ _ ci' cj, hx _ _ ci' cj']
      refine Runs.wr_bind a00 ?_
      have k0 := hA.cell hw hi0 hj0 (hf * v j * u i * ((a i j + a i (j + h)) + (a (i + h) j + a (i + h) (j + h))))
      refine Runs.wr_bind (k0 i (j + h) hi0 c2) ?_
      have k1 := k0.cell hw hi0 c2 (hf * v (j + h) * u i * ((a i j + a (i + h) j) - (a i (j + h) + a (i + h) (j + h))))
      refine Runs.wr_bind (k1 (i + h) j c1 hj0) ?_
      have k2 := k1.cell hw c1 hj0 (hf * v j * u (i + h) * ((a i j + a i (j + h)) - (a (i + h) j + a (i + h) (j + h))))
      refine Runs.wr (k2 (i + h) (j + h) c1 c2) ⟨?_, ?_⟩
      · refine (k2.cell hw c1 c2 _).congr fun p q hp hq => ?_
        beta_reduce
        by_cases d : cls h q = j ∧ cls h p = i
        · rw [if_pos d]
          rcases key p i d.2 with rfl | rfl <;> rcases key q j d.1 with rfl | rfl
          · rw [if_neg (by omega), if_neg (by omega), if_neg (by omega), if_pos ⟨rfl, rfl⟩, b00, if_pos c1, if_pos c2, if_pos ⟨c1, c2⟩]
          · rw [if_neg (by omega), if_neg (by omega), if_pos ⟨rfl, rfl⟩, b01 c2, if_pos c1, if_pos c1]
          · rw [if_neg (by omega), if_pos ⟨rfl, rfl⟩, b10 c1, if_pos c2, if_pos c2]
          · rw [if_pos ⟨rfl, rfl⟩, b11]
        · rw [if_neg d, if_neg, if_neg, if_neg, if_neg]
          · rintro ⟨rfl, rfl⟩; exact d ⟨cj, ci⟩
          · rintro ⟨rfl, rfl⟩; exact d ⟨cj', ci⟩
          · rintro ⟨rfl, rfl⟩; exact d ⟨cj, ci'⟩
          · rintro ⟨rfl, rfl⟩; exact d ⟨cj', ci'⟩
      · exact (((Frame.set (View.at_mem_foot hi0 hj0) _).trans (Frame.set (View.at_mem_foot hi0 c2) _)).trans
          (Frame.set (View.at_mem_foot c1 hj0) _)).trans (Frame.set (View.at_mem_foot c1 c2) _)
    · obtain rfl : hj = false := by rw [ej]; simpa using c2
      have a10 := hA (i + h) j c1 hj0
      simp only [if_true, Bool.false_eq_true, if_false, and_false, and_true]
      refine Runs.rd_bind (hS.val j hj0) ?_
      refine Runs.bind (P := fun s => s = 0) (Runs.pure rfl) ?_
      rintro _ rfl
      refine Runs.rd_bind (hR.val i hi0) ?_
      refine Runs.rd_bind (hR.val (i + h) c1) ?_
      refine Runs.rd_bind a00 ?_
      refine Runs.bind (P := fun s => s = 0) (Runs.pure rfl) ?_
      rintro _ rfl
      refine Runs.rd_bind a10 ?_
      refine Runs.bind (P := fun s => s = 0) (Runs.pure rfl) ?_
      rintro _ rfl
      rw [hx _ _ ci cj, hx _ _ ci' cj]
      refine Runs.wr_bind a00 ?_
      have k0 := hA.cell hw hi0 hj0 (hf * v j * u i * ((a i j + 0) + (a (i + h) j + 0)))
      refine Runs.bind (P := fun s => s = m.set (A.at' i j) (hf * v j * u i * ((a i j + 0) + (a (i + h) j + 0)))) (Runs.pure rfl) ?_
      rintro _ rfl
      refine Runs.wr_bind (k0 (i + h) j c1 hj0) ?_
      refine Runs.pure ⟨?_, ?_⟩
      · refine (k0.cell hw c1 hj0 _).congr fun p q hp hq => ?_
        beta_reduce
        by_cases d : cls h q = j ∧ cls h p = i
        · rw [if_pos d]
          rcases key p i d.2 with rfl | rfl <;> rcases key q j d.1 with rfl | rfl
          · rw [if_neg (by omega), if_pos ⟨rfl, rfl⟩, b00, if_pos c1, if_neg c2, if_neg (by omega)]
          · omega
          · rw [if_pos ⟨rfl, rfl⟩, b10 c1, if_neg c2, if_neg c2]
          · omega
        · rw [if_neg d, if_neg, if_neg]
          · rintro ⟨rfl, rfl⟩; exact d ⟨cj, ci⟩
          · rintro ⟨rfl, rfl⟩; exact d ⟨cj, ci'⟩
      · exact (Frame.set (View.at_mem_foot hi0 hj0) _).trans (Frame.set (View.at_mem_foot c1 hj0) _)
  · obtain rfl : hi = false := by rw [ei]; simpa using c1
    by_cases c2 : j + h < A.cols
    · obtain rfl : hj = true := by rw [ej]; simpa using c2
      have a01 := hA i (j + h) hi0 c2
      simp only [if_true, Bool.false_eq_true, if_false, false_and]
      refine Runs.rd_bind (hS.val j hj0) ?_
      refine Runs.rd_bind (hS.val (j + h) c2) ?_
      refine Runs.rd_bind (hR.val i hi0) ?_
      refine Runs.bind (P := fun s => s = 0) (Runs.pure rfl) ?_
      rintro _ rfl
      refine Runs.rd_bind a00 ?_
      refine Runs.rd_bind a01 ?_
      refine Runs.bind (P := fun s => s = 0) (Runs.pure rfl) ?_
      rintro _ rfl
      refine Runs.bind (P := fun s => s = 0) (Runs.pure rfl) ?_
      rintro _ rfl
      rw [hx _ _ ci cj, hx _ _ ci cj']
      refine Runs.wr_bind a00 ?_
      have k0 := hA.cell hw hi0 hj0 (hf * v j * u i * ((a i j + a i (j + h)) + (0 + 0)))
      refine Runs.wr_bind (k0 i (j + h) hi0 c2) ?_
      refine Runs.bind (P := fun s => s = _) (Runs.pure rfl) ?_
      rintro _ rfl
      refine Runs.pure ⟨?_, ?_⟩
      · refine (k0.cell hw hi0 c2 _).congr fun p q hp hq => ?_
        beta_reduce
        by_cases d : cls h q = j ∧ cls h p = i
        · rw [if_pos d]
          rcases key p i d.2 with rfl | rfl <;> rcases key q j d.1 with rfl | rfl
          · rw [if_neg (by omega), if_pos ⟨rfl, rfl⟩, b00, if_neg c1, if_pos c2, if_neg (by omega)]
          · rw [if_pos ⟨rfl, rfl⟩, b01 c2, if_neg c1, if_neg c1]
          · omega
          · omega
        · rw [if_neg d, if_neg, if_neg]
          · rintro ⟨rfl, rfl⟩; exact d ⟨cj, ci⟩
          · rintro ⟨rfl, rfl⟩; exact d ⟨cj', ci⟩
      · exact (Frame.set (View.at_mem_foot hi0 hj0) _).trans (Frame.set (View.at_mem_foot hi0 c2) _)
    · obtain rfl : hj = false := by rw [ej]; simpa using c2
      simp only [Bool.false_eq_true, if_false, false_and]
      refine Runs.rd_bind (hS.val j hj0) ?_
      refine Runs.bind (P := fun s => s = 0) (Runs.pure rfl) ?_
      rintro _ rfl
      refine Runs.rd_bind (hR.val i hi0) ?_
      refine Runs.bind (P := fun s => s = 0) (Runs.pure rfl) ?_
      rintro _ rfl
      refine Runs.rd_bind a00 ?_
      refine Runs.bind (P := fun s => s = 0) (Runs.pure rfl) ?_
      rintro _ rfl
      refine Runs.bind (P := fun s => s = 0) (Runs.pure rfl) ?_
      rintro _ rfl
      refine Runs.bind (P := fun s => s = 0) (Runs.pure rfl) ?_
      rintro _ rfl
      rw [hx _ _ ci cj]
      refine Runs.wr_bind a00 ?_
      refine Runs.bind (P := fun s => s = _) (Runs.pure rfl) ?_
      rintro _ rfl
      refine Runs.bind (P := fun s => s = _) (Runs.pure rfl) ?_
      rintro _ rfl
      refine Runs.pure ⟨?_, Frame.set (View.at_mem_foot hi0 hj0) _⟩
      refine (hA.cell hw hi0 hj0 _).congr fun p q hp hq => ?_
      by_cases d : cls h q = j ∧ cls h p = i
      · rw [if_pos d]
        rcases key p i d.2 with rfl | rfl <;> rcases key q j d.1 with rfl | rfl
        · rw [if_pos ⟨rfl, rfl⟩, b00, if_neg c1, if_neg c2, if_neg (by omega)]
        · omega
        · omega
        · omega
      · rw [if_neg d, if_neg]
        rintro ⟨rfl, rfl⟩; exact d ⟨cj, ci⟩

/-- The loops over the rows for one column pair. -/
theorem rbt2Col_spec {hf : α} {m : Mem α} {A R S : View} {h j : Nat} {hj : Bool} {u v : Nat → α} {a : Nat → Nat → α} (hw : A.WF)
    (hA : Holds m A (fun p q => if cls h q < j then b2 hf A.rows A.cols h u v a p q else a p q)) (hR : RHolds m A R A.rows u) (hS : RHolds m A S A.cols v)
    (hjh : j < h) (hj0 : j < A.cols)
    (hM : A.rows ≤ h + h) (hN : A.cols ≤ h + h) (hM' : h ≤ A.rows) (ej : hj = decide (j + h < A.cols)) :
    Runs (do
      let (i, m) ← forUp 0 (A.rows - h) 1 (rbt2Cell hf A R S h hj true j) m
      let (_, m) ← forUp i h 1 (rbt2Cell hf A R S h hj false j) m
      pure m) (fun m' => Holds m' A (fun p q => if cls h q < j + 1 then b2 hf A.rows A.cols h u v a p q else a p q) ∧ Frame A.foot m m') := by
  have clt : ∀ p, p < A.rows → cls h p < h := by
    intro p hp
    unfold cls
    split <;> omega
  have step : ∀ (hi : Bool) (k : Nat) (m1 : Mem α), k < h → hi = decide (k + h < A.rows) →
      (Holds m1 A (fun p q => if cls h q < j ∨ cls h q = j ∧ cls h p < k then b2 hf A.rows A.cols h u v a p q else a p q) ∧ Frame A.foot m m1) →
      Runs (rbt2Cell hf A R S h hj hi j k m1) (fun m2 =>
        Holds m2 A (fun p q => if cls h q < j ∨ cls h q = j ∧ cls h p < k + 1 then b2 hf A.rows A.cols h u v a p q else a p q) ∧ Frame A.foot m m2) := by
    rintro hi k m1 hk ei ⟨h1, F1⟩
    refine (rbt2Cell_spec (a := a) hw h1 (hR.frame F1) (hS.frame F1) hk hjh (by omega) hj0 hM hN ei ej ?_).mono ?_
    · intro p q hp hq
      rw [if_neg (by omega)]
    · rintro m2 ⟨h2, F2⟩
      refine ⟨h2.congr fun p q hp hq => ?_, F1.trans F2⟩
      by_cases c : cls h q = j ∧ cls h p = k
      · rw [if_pos c, if_pos (by omega)]
      · rw [if_neg c]
        by_cases c' : cls h q < j ∨ cls h q = j ∧ cls h p < k
        · rw [if_pos c', if_pos (by omega)]
        · rw [if_neg c', if_neg (by omega)]
  refine Runs.bind (P := fun s => s.1 = A.rows - h ∧ Holds s.2 A (fun p q => if cls h q < j ∨ cls h q = j ∧ cls h p < A.rows - h then b2 hf A.rows A.cols h u v a p q
      else a p q) ∧ Frame A.foot m s.2) ?_ ?_
  · refine Runs.forUp1 (I := fun k m1 => Holds m1 A (fun p q => if cls h q < j ∨ cls h q = j ∧ cls h p < k then b2 hf A.rows A.cols h u v a p q else a p q) ∧
      Frame A.foot m m1) (Nat.zero_le _) ⟨hA.congr fun p q _ _ => ?_, Frame.refl _ _⟩ ?_ ?_
    · by_cases c : cls h q < j
      · rw [if_pos c, if_pos (Or.inl c)]
      · rw [if_neg c, if_neg (by omega)]
    · intro k m1 _ hk h1
      exact step true k m1 (by omega) (by symm; rw [decide_eq_true_iff]; omega) h1
    · intro m1 h1
      exact ⟨rfl, h1⟩
  · rintro ⟨i, m1⟩ ⟨hi, h1⟩
    dsimp only at hi h1 ⊢
    subst hi
    refine Runs.bind (P := fun s => Holds s.2 A (fun p q => if cls h q < j + 1 then b2 hf A.rows A.cols h u v a p q else a p q) ∧ Frame A.foot m s.2) ?_
      fun s hs => Runs.pure hs
    refine Runs.forUp1 (I := fun k m1 => Holds m1 A (fun p q => if cls h q < j ∨ cls h q = j ∧ cls h p < k then b2 hf A.rows A.cols h u v a p q else a p q) ∧
      Frame A.foot m m1) (by omega) h1 ?_ ?_
    · intro k m1 hk1 hk h1
      exact step false k m1 hk (by symm; rw [decide_eq_false_iff_not]; omega) h1
    · rintro m2 ⟨h2, F2⟩
      refine ⟨h2.congr fun p q hp hq => ?_, F2⟩
      have := clt p hp
      by_cases c : cls h q < j + 1
      · rw [if_pos c, if_pos (by omega)]
      · rw [if_neg c, if_neg (by omega)]

theorem update2Rbt_spec {hf : α} {m : Mem α} {A R S : View} {h Nd : Nat} {u v : Nat → α} {a : Nat → Nat → α} (hw : A.WF)
    (hA : Holds m A a) (hR : RHolds m A R A.rows u) (hS : RHolds m A S A.cols v) (hNd : Nd = 2 * h)
    (hM : A.rows ≤ h + h) (hN : A.cols ≤ h + h) (hM' : h ≤ A.rows) (hN' : h ≤ A.cols) :
    Runs (update2Rbt hf m A R S Nd) (fun m' => Holds m' A (b2 hf A.rows A.cols h u v a) ∧ Frame A.foot m m') := by
  unfold update2Rbt
  have e2 : Nd / 2 = h := by omega
  dsimp only
  rw [e2]
  have clt : ∀ p, p < A.cols → cls h p < h := by
    intro p hp
    unfold cls
    split <;> omega
  refine Runs.bind (P := fun s => s.1 = A.cols - h ∧ Holds s.2 A (fun p q => if cls h q < A.cols - h then b2 hf A.rows A.cols h u v a p q
      else a p q) ∧ Frame A.foot m s.2) ?_ ?_
  · refine Runs.forUp1 (I := fun k m1 => Holds m1 A (fun p q => if cls h q < k then b2 hf A.rows A.cols h u v a p q else a p q) ∧
      Frame A.foot m m1) (Nat.zero_le _) ⟨hA.congr fun p q _ _ => by rw [if_neg (by omega)], Frame.refl _ _⟩ ?_ ?_
    · rintro k m1 - hk ⟨h1, F1⟩
      refine (rbt2Col_spec hw h1 (hR.frame F1) (hS.frame F1) (by omega) (by omega) hM hN hM' (by symm; rw [decide_eq_true_iff]; omega)).mono ?_
      rintro m2 ⟨h2, F2⟩
      exact ⟨h2, F1.trans F2⟩
    · intro m1 h1
      exact ⟨rfl, h1⟩
  · rintro ⟨i, m1⟩ ⟨hi, h1⟩
    dsimp only at hi h1 ⊢
    subst hi
    refine Runs.bind (P := fun s => Holds s.2 A (b2 hf A.rows A.cols h u v a) ∧ Frame A.foot m s.2) ?_
      fun s hs => Runs.pure hs
    refine Runs.forUp1 (I := fun k m1 => Holds m1 A (fun p q => if cls h q < k then b2 hf A.rows A.cols h u v a p q else a p q) ∧
      Frame A.foot m m1) (by omega) h1 ?_ ?_
    · rintro k m1 hk1 hk ⟨h1, F1⟩
      refine (rbt2Col_spec hw h1 (hR.frame F1) (hS.frame F1) (by omega) (by omega) hM hN hM' (by symm; rw [decide_eq_false_iff_not]; omega)).mono ?_
      rintro m2 ⟨h2, F2⟩
      exact ⟨h2, F1.trans F2⟩
    · rintro m2 ⟨h2, F2⟩
      exact ⟨h2.congr fun p q hp hq => if_pos (clt q hq), F2⟩

/-! ### Levels and blocks -/

theorem gOp_congr {diff : Bool} {N h : Nat} {r r' : Nat → α} {a b : Nat → Nat → α} {i j j' : Nat} (hi : i < N) (hr : ∀ k, k < N → r k = r' k)
    (hab : ∀ k, k < N → a k j = b k j') : gOp diff N h r a i j = gOp diff N h r' b i j' := by
  unfold gOp
  rw [hab i hi, hr i hi]
  by_cases c : i % (2 * h) < h
  · rw [if_pos c, if_pos c]
    by_cases c2 : i + h < N
    · rw [if_pos c2, if_pos c2, hab _ c2, hr _ c2]
    · rw [if_neg c2, if_neg c2]
  · rw [if_neg c, if_neg c, hab (i - h) (by omega), hr (i - h) (by omega)]

theorem gOp_loc {diff : Bool} {N h o n : Nat} {r : Nat → α} {a : Nat → Nat → α} (ho : o % (2 * h) = 0) (hn : o + n ≤ N)
    (hn' : n % (2 * h) = 0 ∨ o + n = N) {i j : Nat} (hi : i < n) :
    gOp diff N h r a (o + i) j = gOp diff n h (fun i => r (o + i)) (fun i j => a (o + i) j) i j := by
  have e : (o + i) % (2 * h) = i % (2 * h) := by rw [Nat.add_mod, ho, Nat.zero_add, Nat.mod_mod]
  unfold gOp
  rw [e]
  by_cases c : i % (2 * h) < h
  · rw [if_pos c, if_pos c]
    have key : n % (2 * h) = 0 → i + h < n := by
      intro c1
      have d1 := Nat.div_add_mod i (2 * h)
      have d2 := Nat.div_add_mod n (2 * h)
      have d3 : i / (2 * h) + 1 ≤ n / (2 * h) := by
        by_contra c3
        have : 2 * h * (n / (2 * h)) ≤ 2 * h * (i / (2 * h)) := Nat.mul_le_mul_left _ (by omega)
        omega
      have d4 : 2 * h * (i / (2 * h) + 1) ≤ 2 * h * (n / (2 * h)) := Nat.mul_le_mul_left _ d3
      rw [Nat.mul_add] at d4
      omega
    by_cases c2 : i + h < n
    · rw [if_pos c2, if_pos (by omega), Nat.add_assoc]
    · rw [if_neg c2, if_neg (by omega)]
  · rw [if_neg c, if_neg c]
    have := Nat.mod_le i (2 * h)
    rw [show o + i - h = o + (i - h) by omega]

/-- Both sides of one level. -/
def g2 (M N h : Nat) (u v : Nat → α) (a : Nat → Nat → α) (i j : Nat) : α := gOp true N h v (fun q p => gOp true M h u a p q) j i

theorem g2_congr {M N h : Nat} {u v : Nat → α} {a b : Nat → Nat → α} {i j : Nat} (hi : i < M) (hj : j < N)
    (hab : ∀ p q, p < M → q < N → a p q = b p q) : g2 M N h u v a i j = g2 M N h u v b i j :=
  gOp_congr hj (fun _ _ => rfl) fun q hq => gOp_congr hi (fun _ _ => rfl) fun p hp => hab p q hp hq

theorem bOp_gOp {diff : Bool} {n h : Nat} {r : Nat → α} {a : Nat → Nat → α} {i : Nat} (j : Nat) (hn : n ≤ 2 * h) (hi : i < n) :
    bOp diff n h r a i j = gOp diff n h r a i j := by
  have := gOp_bOp (diff := diff) (N := n) (h := h) (o := 0) (n := n) (r := r) (a := a) (x := a) (Nat.zero_mod _) (by omega) hi (j := j) fun _ _ _ _ => rfl
  simpa only [Nat.zero_add] using this

theorem b2_g2 {hf : α} {M N h : Nat} {u v : Nat → α} {a : Nat → Nat → α} {i j : Nat} (hM : M ≤ 2 * h) (hN : N ≤ 2 * h) (hi : i < M) (hj : j < N) :
    b2 hf M N h u v a i j = hf * g2 M N h u v a i j := by
  unfold b2 g2
  rw [bOp_gOp _ hN hj]
  congr 1
  exact gOp_congr hj (fun _ _ => rfl) fun q hq => bOp_gOp q hM hi

/-- The first `c` levels. -/
def pass2 (hf : α) (M N w : Nat) (u v : Nat → Nat → α) : Nat → (Nat → Nat → α) → Nat → Nat → α
  | 0, a => a
  | c + 1, a => fun i j => hf * g2 M N (w * 2 ^ c) (fun i => u i c) (fun j => v j c) (pass2 hf M N w u v c a) i j

theorem pass2_congr {hf : α} {M N w : Nat} {u v : Nat → Nat → α} {c : Nat} {a b : Nat → Nat → α} (hab : ∀ p q, p < M → q < N → a p q = b p q)
    {i j : Nat} (hi : i < M) (hj : j < N) : pass2 hf M N w u v c a i j = pass2 hf M N w u v c b i j := by
  induction c generalizing i j with
  | zero => exact hab i j hi hj
  | succ c ih =>
    simp only [pass2]
    rw [g2_congr hi hj fun p q hp hq => ih hp hq]

theorem pass2_loc {hf : α} {M N w D o1 n1 o2 n2 : Nat} {u v : Nat → Nat → α} {a : Nat → Nat → α}
    (h1 : w * 2 ^ D ∣ o1) (h2 : o1 + n1 ≤ M) (h3 : w * 2 ^ D ∣ n1 ∨ o1 + n1 = M)
    (k1 : w * 2 ^ D ∣ o2) (k2 : o2 + n2 ≤ N) (k3 : w * 2 ^ D ∣ n2 ∨ o2 + n2 = N) {c : Nat} (hc : c ≤ D) {i j : Nat} (hi : i < n1) (hj : j < n2) :
    pass2 hf M N w u v c a (o1 + i) (o2 + j) =
      pass2 hf n1 n2 w (fun i k => u (o1 + i) k) (fun j k => v (o2 + j) k) c (fun i j => a (o1 + i) (o2 + j)) i j := by
  induction c generalizing i j with
  | zero => rfl
  | succ c ih =>
    have e : 2 * (w * 2 ^ c) = w * 2 ^ (c + 1) := by rw [pow_succ]; ring
    have dv : 2 * (w * 2 ^ c) ∣ w * 2 ^ D := by rw [e]; exact Nat.mul_dvd_mul_left _ (Nat.pow_dvd_pow _ hc)
    simp only [pass2]
    congr 1
    unfold g2
    rw [gOp_loc (Nat.mod_eq_zero_of_dvd (dv.trans k1)) k2 (k3.imp_left fun h => Nat.mod_eq_zero_of_dvd (dv.trans h)) hj]
    refine gOp_congr hj (fun _ _ => rfl) fun q hq => ?_
    rw [gOp_loc (Nat.mod_eq_zero_of_dvd (dv.trans h1)) h2 (h3.imp_left fun h => Nat.mod_eq_zero_of_dvd (dv.trans h)) hi]
    exact gOp_congr hi (fun _ _ => rfl) fun p hp => ih (by omega) hp hq

/-- Scalars of `d` levels. -/
structure UMat (m : Mem α) (A U : View) (n d : Nat) (u : Nat → Nat → α) : Prop where
  val : ∀ i k, i < n → k < d → m (U.at' i k) = some (u i k)
  dis : ∀ i k, i < n → k < d → U.at' i k ∉ A.foot

omit [Field α] [DecidableEq α] in
theorem UMat.frame {m m' : Mem α} {A U : View} {n d : Nat} {u : Nat → Nat → α} (h : UMat m A U n d u) (F : Frame A.foot m m') : UMat m' A U n d u :=
  ⟨fun i k hi hk => by rw [F _ (h.dis i k hi hk)]; exact h.val i k hi hk, h.dis⟩

omit [Field α] [DecidableEq α] in
theorem UMat.sub {m : Mem α} {A B U : View} {n d : Nat} {u : Nat → Nat → α} (h : UMat m A U n d u) {o n' d' : Nat} (r c : Nat) (ho : o + n' ≤ n)
    (hd : d' ≤ d) (hB : B.foot ⊆ A.foot) : UMat m B (U.sub o 0 r c) n' d' (fun i k => u (o + i) k) :=
  ⟨fun i k hi hk => by rw [View.at_sub, Nat.zero_add]; exact h.val _ _ (by omega) (by omega),
    fun i k hi hk => by rw [View.at_sub, Nat.zero_add]; exact fun h' => h.dis _ _ (by omega) (by omega) (hB h')⟩

omit [Field α] [DecidableEq α] in
theorem UMat.col {m : Mem α} {A U : View} {n d : Nat} {u : Nat → Nat → α} (h : UMat m A U n d u) {k r : Nat} (hk : k < d) (hr : n ≤ r) :
    RHolds m A (U.sub 0 k r 1) n (fun i => u i k) :=
  ⟨fun i hi => by rw [sub_vat (by omega), Nat.zero_add]; exact h.val _ _ hi hk, fun i hi => by rw [sub_vat (by omega), Nat.zero_add]; exact h.dis _ _ hi hk⟩

omit [Field α] [DecidableEq α] in
theorem UMat.col0 {m : Mem α} {A U : View} {n : Nat} {u : Nat → Nat → α} (h : UMat m A U n 1 u) (hc : U.cols = 1) (hr : n ≤ U.rows) :
    RHolds m A U n (fun i => u i 0) := by
  have e : U = U.sub 0 0 U.rows 1 := by
    cases U
    simp only [View.sub] at *
    simp [hc]
  have := h.col (k := 0) (by omega) hr
  rw [← e] at this
  exact this

theorem update2Descend_spec {hf : α} {w : Nat} (d : Nat) {m : Mem α} {A U V : View} {Nd : Nat} {u v : Nat → Nat → α} {a : Nat → Nat → α} (hw : A.WF)
    (hA : Holds m A a) (hU : UMat m A U A.rows (d + 1) u) (hV : UMat m A V A.cols (d + 1) v) (cU : U.cols = d + 1) (cV : V.cols = d + 1)
    (rU : A.rows ≤ U.rows) (rV : A.cols ≤ V.rows) (hNd : Nd = w * 2 ^ (d + 1))
    (hM : A.rows ≤ Nd) (hN : A.cols ≤ Nd) (hM' : Nd ≤ A.rows + w) (hN' : Nd ≤ A.cols + w) :
    Runs (update2Descend hf d m A U V Nd) (fun m' => Holds m' A (pass2 hf A.rows A.cols w u v (d + 1) a) ∧ Frame A.foot m m') := by
  induction d generalizing m A U V Nd u v a with
  | zero =>
    rw [update2Descend]
    have e : Nd = 2 * w := by rw [hNd]; omega
    refine (update2Rbt_spec (h := w) hw hA (hU.col0 cU rU) (hV.col0 cV rV) e (by omega) (by omega) (by omega) (by omega)).mono ?_
    rintro m1 ⟨h1, F1⟩
    refine ⟨h1.congr fun i j hi hj => ?_, F1⟩
    rw [b2_g2 (by omega) (by omega) hi hj]
    simp only [pass2, pow_zero, Nat.mul_one]
  | succ d ih =>
    rw [update2Descend]
    have ep : Nd = 2 * (w * 2 ^ (d + 1)) := by rw [hNd, pow_succ 2 (d + 1)]; ring
    have el : Nd / 2 = w * 2 ^ (d + 1) := by omega
    have hwl : w ≤ w * 2 ^ (d + 1) := Nat.le_mul_of_pos_right _ (Nat.two_pow_pos _)
    rw [el]
    generalize hl : w * 2 ^ (d + 1) = l
    rw [hl] at ep hwl
    have hlM : l ≤ A.rows := by omega
    have hlN : l ≤ A.cols := by omega
    rw [Nat.min_eq_left (by omega : l ≤ U.rows), Nat.min_eq_left (by omega : l ≤ V.rows)]
    have f00 : (A.sub 0 0 l l).foot ⊆ A.foot := View.sub_foot (by omega) (by omega)
    have f01 : (A.sub 0 l l (A.cols - l)).foot ⊆ A.foot := View.sub_foot (by omega) (by omega)
    have f10 : (A.sub l 0 (A.rows - l) l).foot ⊆ A.foot := View.sub_foot (by omega) (by omega)
    have f11 : (A.sub l l (A.rows - l) (A.cols - l)).foot ⊆ A.foot := View.sub_foot (by omega) (by omega)
    have dvl : w * 2 ^ (d + 1) ∣ l := by rw [hl]
    have go : ∀ {m1 : Mem α} {x : Nat → Nat → α} (o1 n1 o2 n2 : Nat), Holds m1 A x → Frame A.foot m m1 → (o1 = 0 ∧ n1 = l ∨ o1 = l ∧ n1 = A.rows - l) →
        (o2 = 0 ∧ n2 = l ∨ o2 = l ∧ n2 = A.cols - l) → ∀ r1 r2, n1 ≤ r1 → n2 ≤ r2 → (∀ p q, o1 ≤ p → p < o1 + n1 → o2 ≤ q → q < o2 + n2 → x p q = a p q) →
        Runs (update2Descend hf d m1 (A.sub o1 o2 n1 n2) (U.sub o1 0 r1 (d + 1)) (V.sub o2 0 r2 (d + 1)) l) (fun m2 =>
          Holds m2 A (fun p q => if (o1 ≤ p ∧ p < o1 + n1) ∧ (o2 ≤ q ∧ q < o2 + n2) then pass2 hf A.rows A.cols w u v (d + 1) a p q else x p q) ∧ Frame A.foot m m2) := by
      intro m1 x o1 n1 o2 n2 h1 F1 q1 q2 r1 r2 hr1 hr2 hx
      have fs : (A.sub o1 o2 n1 n2).foot ⊆ A.foot := View.sub_foot (by omega) (by omega)
      refine (ih (A := A.sub o1 o2 n1 n2) (u := fun i k => u (o1 + i) k) (v := fun j k => v (o2 + j) k) (hw.sub (by omega) (by omega))
        (h1.part (r := o1) (c := o2) (nr := n1) (nc := n2) (by omega) (by omega))
        ((hU.frame F1).sub _ _ (by simp only [View.sub]; omega) (by omega) fs) ((hV.frame F1).sub _ _ (by simp only [View.sub]; omega) (by omega) fs) rfl rfl
        hr1 hr2 hl.symm (by simp only [View.sub]; omega) (by simp only [View.sub]; omega) (by simp only [View.sub]; omega)
        (by simp only [View.sub]; omega)).mono ?_
      rintro m2 ⟨h2, F2⟩
      refine ⟨?_, F1.trans (F2.mono fs)⟩
      refine (h1.put (F := ∅) hw (by simp) (r := o1) (c := o2) (nr := n1) (nc := n2) (by omega) (by omega) h2 (F2.mono fun p hp => Or.inl hp)).congr
        fun p q hp hq => ?_
      unfold put
      by_cases c : (o1 ≤ p ∧ p < o1 + n1) ∧ (o2 ≤ q ∧ q < o2 + n2)
      · rw [if_pos c, if_pos (by omega)]
        have e1 : ∃ i, p = o1 + i ∧ i < n1 := ⟨p - o1, by omega, by omega⟩
        have e2 : ∃ j, q = o2 + j ∧ j < n2 := ⟨q - o2, by omega, by omega⟩
        obtain ⟨i, rfl, hi⟩ := e1
        obtain ⟨j, rfl, hj⟩ := e2
        rw [Nat.add_sub_cancel_left, Nat.add_sub_cancel_left]
        rw [pass2_loc (D := d + 1) (n1 := n1) (n2 := n2) ?_ (by omega) ?_ ?_ (by omega) ?_ (le_refl _) hi hj]
        · show pass2 hf n1 n2 w _ _ _ _ _ _ = _
          exact pass2_congr (fun p q hp hq => hx _ _ (by omega) (by omega) (by omega) (by omega)) hi hj
        · rcases q1 with ⟨rfl, _⟩ | ⟨rfl, _⟩
          · exact dvd_zero _
          · exact dvl
        · rcases q1 with ⟨_, rfl⟩ | ⟨rfl, rfl⟩
          · exact Or.inl dvl
          · exact Or.inr (by omega)
        · rcases q2 with ⟨rfl, _⟩ | ⟨rfl, _⟩
          · exact dvd_zero _
          · exact dvl
        · rcases q2 with ⟨_, rfl⟩ | ⟨rfl, rfl⟩
          · exact Or.inl dvl
          · exact Or.inr (by omega)
      · rw [if_neg c, if_neg (by omega)]
    refine (go 0 l 0 l hA (Frame.refl _ _) (Or.inl ⟨rfl, rfl⟩) (Or.inl ⟨rfl, rfl⟩) l l (le_refl _) (le_refl _) fun _ _ _ _ _ _ => rfl).bind ?_
    rintro m1 ⟨h1, F1⟩
    refine (go 0 l l (A.cols - l) h1 F1 (Or.inl ⟨rfl, rfl⟩) (Or.inr ⟨rfl, rfl⟩) l (V.rows - l) (le_refl _) (by omega)
      fun _ _ _ _ _ _ => if_neg (by omega)).bind ?_
    rintro m2 ⟨h2, F2⟩
    refine (go l (A.rows - l) 0 l h2 F2 (Or.inr ⟨rfl, rfl⟩) (Or.inl ⟨rfl, rfl⟩) (U.rows - l) l (by omega) (le_refl _)
      fun _ _ _ _ _ _ => by rw [if_neg (by omega), if_neg (by omega)]).bind ?_
    rintro m3 ⟨h3, F3⟩
    refine (go l (A.rows - l) l (A.cols - l) h3 F3 (Or.inr ⟨rfl, rfl⟩) (Or.inr ⟨rfl, rfl⟩) (U.rows - l) (V.rows - l) (by omega) (by omega)
      fun _ _ _ _ _ _ => by rw [if_neg (by omega), if_neg (by omega), if_neg (by omega)]).bind ?_
    rintro m4 ⟨h4, F4⟩
    have h5 : Holds m4 A (pass2 hf A.rows A.cols w u v (d + 1) a) := h4.congr fun p q hp hq => by
      by_cases c1 : p < l <;> by_cases c2 : q < l
      · rw [if_neg (by omega), if_neg (by omega), if_neg (by omega), if_pos (by omega)]
      · rw [if_neg (by omega), if_neg (by omega), if_pos (by omega)]
      · rw [if_neg (by omega), if_pos (by omega)]
      · rw [if_pos (by omega)]
    refine (update2Rbt_spec (h := l) hw h5 ((hU.frame F4).col (k := d + 1) (by omega) rU) ((hV.frame F4).col (k := d + 1) (by omega) rV) ep
      (by omega) (by omega) hlM hlN).mono ?_
    rintro m6 ⟨h6, F6⟩
    refine ⟨h6.congr fun i j hi hj => ?_, F4.trans F6⟩
    rw [b2_g2 (by omega) (by omega) hi hj]
    conv_rhs => rw [pass2]
    rw [hl]

/-- The levels as products. -/
theorem pass2_rbt2 {hf : α} {N w : Nat} {u v : Nat → Nat → α} {a : Nat → Nat → α} (hw : 0 < w) (c : Nat) {i j : Nat} (hi : i < N) (hj : j < N) :
    pass2 hf N N w u v c a i j = rbt2 hf N w u v c a i j := by
  induction c generalizing i j with
  | zero => rfl
  | succ c ih =>
    rw [rbt2, bfly2_eq]
    simp only [pass2]
    congr 1
    rw [g2_congr hi hj fun p q hp hq => ih hp hq]
    have hp : 0 < w * 2 ^ c := Nat.mul_pos hw (Nat.two_pow_pos _)
    have e : 2 * (w * 2 ^ c) = w * 2 ^ (c + 1) := by rw [pow_succ]; ring
    unfold g2
    rw [gOp_bflyT hp hj, e]
    show _ = bflyT _ _ _ _ j i
    unfold bflyT
    refine Finset.sum_congr rfl fun q hq => ?_
    beta_reduce
    rw [gOp_bflyT hp hi, e]
    rfl

end Armas
