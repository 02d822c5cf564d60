import Verif.PivotLemmas

/-!
# Indirect sorting: lemmas
-/

namespace Armas

variable {α : Type} [AddGroup α] [LinearOrder α]

/-- `x` may stand before `y` in the requested direction. -/
def ordR (dir : Int) (x y : α) : Prop := (dir < 0 → y ≤ x) ∧ (dir > 0 → x ≤ y)

omit [AddGroup α] in
theorem ordR.trans {dir : Int} {x y z : α} (h : ordR dir x y) (h' : ordR dir y z) : ordR dir x z :=
  ⟨fun c => (h'.1 c).trans (h.1 c), fun c => (h.2 c).trans (h'.2 c)⟩

theorem perm_le {ρ : Equiv.Perm Nat} {k : Nat} (h : ∀ i, k < i → ρ i = i) {i : Nat} (hi : i ≤ k) :
    ρ i ≤ k := by
  by_contra hc
  have := h (ρ i) (by omega)
  have := ρ.injective this
  omega

/-- Positions `0..k` except `j` hold a sorted selection; the element with index `c` is in the hand. -/
structure ShiftInv (d : Nat → α) (dir : Int) (k c : Nat) (P0 : Piv) (j : Nat) (P : Piv)
    (ρ : Equiv.Perm Nat) : Prop where
  n : P.n = P0.n
  fix : ∀ i, k < i → ρ i = i
  hole : ρ j = c
  val : ∀ i, i ≤ k → i ≠ j → P.ix i = ρ i + 1
  rest : ∀ i, k < i → P.ix i = P0.ix i
  ord : ∀ i i', i < i' → i' ≤ k → i ≠ j → i' ≠ j → ordR dir |d (ρ i)| |d (ρ i')|
  aft : ∀ i, j < i → i ≤ k → ordR dir |d c| |d (ρ i)|

theorem pivotShift_spec {m : Mem α} {D : View} {d : Nat → α} (h : HoldsV m D d) {dir : Int} {k c : Nat}
    {P0 : Piv} (hk : k < D.size) (hn : D.size ≤ P0.n) :
    ∀ (j : Nat) (P : Piv) (ρ : Equiv.Perm Nat), j ≤ k → ShiftInv d dir k c P0 j P ρ →
      Runs (pivotShift m D dir |d c| j P) (fun r => r.1 ≤ k ∧ ∃ ρ', ShiftInv d dir k c P0 r.1 r.2 ρ' ∧
        ∀ i, i < r.1 → ordR dir |d (ρ' i)| |d c|) := by
  intro j
  induction j with
  | zero => intro P ρ hj hI; exact Runs.ok ⟨by simp, ρ, hI, by simp⟩
  | succ j ih =>
    intro P ρ hj hI
    rw [pivotShift]
    have hget : P.get j = ρ j + 1 := by
      rw [Piv.get, if_pos (by rw [hI.n]; omega), hI.val j (by omega) (by omega)]
    have hle : ρ j ≤ k := perm_le hI.fix (by omega)
    have habs : absAt m D (P.get j - 1) = .ok |d (ρ j)| := by
      rw [hget, absAt, if_neg (by omega)]
      have : ((ρ j : Int) + 1 - 1).toNat = ρ j := by omega
      rw [this, rd_ok (h _ (by omega))]; rfl
    simp only [habs, Res.ok_bind]
    have stop : ordR dir |d (ρ j)| |d c| → ∀ i, i < j + 1 → ordR dir |d (ρ i)| |d c| := by
      intro ho i hi
      rcases Nat.lt_or_eq_of_le (Nat.le_of_lt_succ hi) with hi | rfl
      · exact (hI.ord i j hi (by omega) (by omega) (by omega)).trans ho
      · exact ho
    split
    · rename_i hb
      exact Runs.pure ⟨hj, ρ, hI, stop ⟨fun _ => hb.2, fun c => absurd hb.1 (by omega)⟩⟩
    · rename_i hb
      split
      · rename_i hb'
        exact Runs.pure ⟨hj, ρ, hI, stop ⟨fun c => absurd hb'.1 (by omega), fun _ => hb'.2⟩⟩
      · rename_i hb'
        have hord : ordR dir |d c| |d (ρ j)| := by
          refine ⟨fun hd => ?_, fun hd => ?_⟩
          · rcases le_total |d c| |d (ρ j)| with hc | hc
            · exact absurd ⟨hd, hc⟩ hb
            · exact hc
          · rcases le_total |d c| |d (ρ j)| with hc | hc
            · exact hc
            · exact absurd ⟨hd, hc⟩ hb'
        have e0 : (ρ * Equiv.swap j (j + 1)) j = ρ (j + 1) := by simp
        have e1 : (ρ * Equiv.swap j (j + 1)) (j + 1) = ρ j := by simp
        have e2 : ∀ i, i ≠ j → i ≠ j + 1 → (ρ * Equiv.swap j (j + 1)) i = ρ i := fun i h1 h2 => by
          rw [Equiv.Perm.mul_apply, Equiv.swap_apply_of_ne_of_ne h1 h2]
        refine ih _ (ρ * Equiv.swap j (j + 1)) (by omega) ⟨?_, ?_, ?_, ?_, ?_, ?_, ?_⟩
        · rw [Piv.set]; split <;> exact hI.n
        · intro i hi; rw [e2 i (by omega) (by omega), hI.fix i hi]
        · rw [e0, hI.hole]
        · intro i hi hij
          rw [Piv.set, if_pos (by rw [hI.n]; omega)]
          dsimp only
          by_cases hi1 : i = j + 1
          · rw [if_pos hi1, hi1, e1, hget]; omega
          · rw [if_neg hi1, e2 i hij hi1, hI.val i hi hi1]
        · intro i hi
          rw [Piv.set, if_pos (by rw [hI.n]; omega)]
          dsimp only
          rw [if_neg (by omega), hI.rest i hi]
        · intro i i' hii hi' hij hij'
          by_cases h1 : i = j + 1
          · rw [h1, e1, e2 i' hij' (by omega)]
            exact hI.ord j i' (by omega) hi' (by omega) (by omega)
          · rw [e2 i hij h1]
            by_cases h2 : i' = j + 1
            · rw [h2, e1]; exact hI.ord i j (by omega) (by omega) h1 (by omega)
            · rw [e2 i' hij' h2]; exact hI.ord i i' hii hi' h1 h2
        · intro i hji hi
          by_cases h1 : i = j + 1
          · rw [h1, e1]; exact hord
          · rw [e2 i (by omega) h1]; exact hI.aft i (by omega) hi

/-- The first `k` positions hold a sorted permutation, the next ones are as initialised. -/
structure SortInv (d : Nat → α) (dir : Int) (N k : Nat) (P0 : Piv) (P : Piv)
    (ρ : Equiv.Perm Nat) : Prop where
  n : P.n = P0.n
  fix : ∀ i, k ≤ i → ρ i = i
  val : ∀ i, i < N → P.ix i = ρ i + 1
  rest : ∀ i, N ≤ i → P.ix i = P0.ix i
  ord : ∀ i i', i < i' → i' < k → ordR dir |d (ρ i)| |d (ρ i')|

theorem pivotSort_spec {m : Mem α} {D : View} {d : Nat → α} (hv : D.isVec) (h : HoldsV m D d) {dir : Int}
    {P : Piv} (hn : D.size ≤ P.n) :
    Runs (pivotSort m D P dir) (fun r => r.1 = 0 ∧ ∃ σ, SortInv d dir D.size D.size P r.2 σ) := by
  unfold pivotSort
  rw [if_neg (not_not.mpr hv)]
  refine Runs.bind (P := fun x => SortInv d dir D.size 0 P x.2 1) (Runs.forUp1 (fun k P' => P'.n = P.n ∧
    ∀ i, P'.ix i = if i < k then (i : Int) + 1 else P.ix i) (Nat.zero_le _) ⟨rfl, by simp⟩ ?_ ?_) ?_
  · rintro k P' _ hk ⟨h1, h2⟩
    refine Runs.ok ?_
    rw [Piv.set, if_pos (by omega)]
    refine ⟨h1, fun i => ?_⟩
    dsimp only
    split
    · rename_i e; subst e; simp
    · rw [h2]
      split <;> split <;> first | rfl | omega
  · rintro P' ⟨h1, h2⟩
    refine ⟨h1, fun i _ => rfl, fun i hi => ?_, fun i hi => ?_, by omega⟩
    · rw [h2, if_pos hi]; rfl
    · rw [h2, if_neg (by omega)]
  rintro ⟨_, P1⟩ h1
  refine Runs.bind (P := fun x => ∃ σ, SortInv d dir D.size D.size P x.2 σ) ?_
    (fun x hx => Runs.pure ⟨rfl, hx⟩)
  by_cases hs : D.size = 0
  · rw [hs] at h1 ⊢
    rw [forUp_eq, if_neg (by omega)]
    exact Runs.ok ⟨1, h1⟩
  refine Runs.forUp1 (fun k P' => ∃ σ, SortInv d dir D.size k P P' σ) (by omega)
    ⟨1, h1.n, fun i _ => rfl, h1.val, h1.rest, by omega⟩ ?_ (fun st hst => hst)
  rintro k P' hk1 hk ⟨σ, hI⟩
  have hget : P'.get k = (k : Int) + 1 := by
    rw [Piv.get, if_pos (by rw [hI.n]; omega), hI.val k hk, hI.fix k (le_refl _)]
  have habs : absAt m D (P'.get k - 1) = .ok |d k| := by
    rw [hget, absAt, if_neg (by omega)]
    have : ((k : Int) + 1 - 1).toNat = k := by omega
    rw [this, rd_ok (h _ (by omega))]; rfl
  simp only [habs, Res.ok_bind]
  refine (pivotShift_spec h (P0 := P') hk (by rw [hI.n]; omega) k P' σ (le_refl _)
    ⟨rfl, fun i hi => hI.fix i (by omega), hI.fix k (le_refl _), fun i hi _ => hI.val i (by omega),
      fun _ _ => rfl, fun i i' h1 h2 _ h4 => hI.ord i i' h1 (by omega), by omega⟩).bind ?_
  rintro ⟨j, P2⟩ ⟨hj, ρ, hJ, hb⟩
  dsimp only at hj hJ hb
  refine Runs.pure ⟨ρ, ?_⟩
  dsimp only
  rw [Piv.set, if_pos (by rw [hJ.n, hI.n]; omega), hget]
  refine ⟨hJ.n.trans hI.n, fun i hi => hJ.fix i (by omega), fun i hi => ?_, fun i hi => ?_, ?_⟩
  · dsimp only
    by_cases e : i = j
    · rw [if_pos e, e, hJ.hole]; omega
    · rw [if_neg e]
      by_cases hik : i ≤ k
      · exact hJ.val i hik e
      · rw [hJ.rest i (by omega), hJ.fix i (by omega), hI.val i hi, hI.fix i (by omega)]
  · dsimp only
    rw [if_neg (by omega), hJ.rest i (by omega), hI.rest i hi]
  · intro i i' hii hi'
    by_cases e : i = j
    · rw [e, hJ.hole]; exact hJ.aft i' (by omega) (by omega)
    · by_cases e' : i' = j
      · rw [e', hJ.hole]; exact hb i (by omega)
      · exact hJ.ord i i' hii (by omega) e e'

end Armas
