import Verif.MatOpsLemmas

/-!
# Setting values: lemmas
-/

namespace Armas

open Classical

variable {α : Type}

/-- The elements in `S` have been set by calls `0..c-1` of the value function, one call for each; `num i j`
is the number of the call. -/
structure SetInv (m0 : Mem α) (A : View) (T : Nat → Nat → Prop) (a : Nat → Nat → α)
    (gen : Nat → Nat → Nat → α) (num : Nat → Nat → Nat) (S : Nat → Nat → Prop) (m : Mem α) (c : Nat) :
    Prop where
  upd : UpdOn m0 A T a (fun i j => gen i j (num i j)) S m
  sub : ∀ i j, S i j → i < A.rows ∧ j < A.cols ∧ T i j
  lt : ∀ i j, S i j → num i j < c
  inj : ∀ i j i' j', S i j → S i' j' → num i j = num i' j' → i = i' ∧ j = j'
  surj : ∀ k, k < c → ∃ i j, S i j ∧ num i j = k

theorem SetInv.init {m0 : Mem α} {A : View} {T : Nat → Nat → Prop} {a : Nat → Nat → α}
    {gen : Nat → Nat → Nat → α} (h : HoldsOn m0 A T a) :
    SetInv m0 A T a gen (fun _ _ => 0) (fun _ _ => False) m0 0 :=
  ⟨(UpdOn.init h _).congr (by intros; simp), by simp, by simp, by simp, by simp⟩

theorem SetInv.congr {m0 m : Mem α} {A : View} {T S S' : Nat → Nat → Prop} {a : Nat → Nat → α}
    {gen : Nat → Nat → Nat → α} {num : Nat → Nat → Nat} {c : Nat} (h : SetInv m0 A T a gen num S m c)
    (e : ∀ i j, S i j ↔ S' i j) : SetInv m0 A T a gen num S' m c := by
  have : S = S' := funext (fun i => funext (fun j => propext (e i j)))
  rwa [this] at h

theorem setGen_step {m0 m : Mem α} {A : View} {T S : Nat → Nat → Prop} {a : Nat → Nat → α}
    {gen : Nat → Nat → Nat → α} {num : Nat → Nat → Nat} {c : Nat} (hw : A.WF)
    (h : SetInv m0 A T a gen num S m c) {i j : Nat} (hi : i < A.rows) (hj : j < A.cols) (ht : T i j)
    (hS : ¬ S i j) :
    Runs (setGen gen A i j (m, c)) (fun s => ∃ num', SetInv m0 A T a gen num'
      (fun p q => S p q ∨ (p = i ∧ q = j)) s.1 s.2) := by
  unfold setGen
  obtain ⟨v, hv⟩ := h.upd.at_some hi hj ht
  refine Runs.wr_bind hv (Runs.pure ⟨fun p q => if p = i ∧ q = j then c else num p q, ?_, ?_, ?_, ?_, ?_⟩)
  · have h1 : UpdOn m0 A T a (fun p q => gen p q (if p = i ∧ q = j then c else num p q)) S m := by
      refine ⟨h.upd.hold.congr (fun p q _ _ _ => ?_), h.upd.frame⟩
      by_cases hs : S p q
      · have : ¬ (p = i ∧ q = j) := by rintro ⟨rfl, rfl⟩; exact hS hs
        simp only [hs, if_true, this, if_false]
      · simp only [hs, if_false]
    exact h1.set hw hi hj ht (by simp)
  · rintro p q (hs | ⟨rfl, rfl⟩)
    · exact h.sub p q hs
    · exact ⟨hi, hj, ht⟩
  · rintro p q (hs | ⟨rfl, rfl⟩)
    · have := h.lt p q hs
      dsimp only; split <;> omega
    · simp
  · have key : ∀ p q, S p q → ¬ (p = i ∧ q = j) := by
      rintro p q hs ⟨rfl, rfl⟩; exact hS hs
    rintro p q p' q' (hs | ⟨rfl, rfl⟩) (hs' | ⟨rfl, rfl⟩) e
    · simp only [key p q hs, key p' q' hs', if_false] at e
      exact h.inj _ _ _ _ hs hs' e
    · simp only [key p q hs, if_false, and_self, if_true] at e
      have := h.lt p q hs; omega
    · simp only [key p' q' hs', if_false, and_self, if_true] at e
      have := h.lt p' q' hs'; omega
    · exact ⟨rfl, rfl⟩
  · intro k hk
    dsimp only at hk
    by_cases e : k = c
    · exact ⟨i, j, Or.inr ⟨rfl, rfl⟩, by simp [e]⟩
    · obtain ⟨p, q, hs, hn⟩ := h.surj k (by omega)
      have : ¬ (p = i ∧ q = j) := by rintro ⟨rfl, rfl⟩; exact hS hs
      exact ⟨p, q, Or.inl hs, by simp only [this, if_false]; exact hn⟩

/-- A run of `setGen` over rows `i0..i1-1` of column `j`. -/
theorem setGen_col {m0 m : Mem α} {A : View} {T S : Nat → Nat → Prop} {a : Nat → Nat → α}
    {gen : Nat → Nat → Nat → α} {num : Nat → Nat → Nat} {c : Nat} (hw : A.WF)
    (h : SetInv m0 A T a gen num S m c) {j i0 i1 : Nat} (hi1 : i1 ≤ A.rows) (hj : j < A.cols)
    (ht : ∀ i, i0 ≤ i → i < i1 → T i j) (hS : ∀ i, i0 ≤ i → i < i1 → ¬ S i j) :
    Runs (forUp i0 i1 1 (fun i s => setGen gen A i j s) (m, c)) (fun x => ∃ num', SetInv m0 A T a gen num'
      (fun p q => S p q ∨ (i0 ≤ p ∧ p < i1 ∧ q = j)) x.2.1 x.2.2) := by
  by_cases h01 : i0 ≤ i1
  · refine Runs.forUp1 (fun i s => ∃ num', SetInv m0 A T a gen num'
      (fun p q => S p q ∨ (i0 ≤ p ∧ p < i ∧ q = j)) s.1 s.2) h01 ⟨num, h.congr (fun p q => ?_)⟩ ?_
      (fun st hst => hst)
    · constructor
      · exact Or.inl
      · rintro (c | c)
        · exact c
        · omega
    · rintro i ⟨m', c'⟩ hi hi' ⟨num', hI⟩
      refine (setGen_step hw hI (by omega) hj (ht i hi hi') ?_).mono (fun s ⟨n, hs⟩ =>
        ⟨n, hs.congr (fun p q => ?_)⟩)
      · rintro (c | c)
        · exact hS i hi hi' c
        · omega
      · constructor
        · rintro ((c | c) | c)
          · exact Or.inl c
          · right; omega
          · right; omega
        · rintro (c | c)
          · exact Or.inl (Or.inl c)
          · by_cases e : p = i
            · right; omega
            · left; right; omega
  · rw [forUp_eq, if_neg (by omega)]
    refine Runs.ok ⟨num, h.congr (fun p q => ?_)⟩
    constructor
    · exact Or.inl
    · rintro (c | c)
      · exact c
      · omega

/-! ## Symmetric matrices -/

/-- Calls `0..c-1` were made for the elements in `S`, one for each. -/
structure NumInv (num : Nat → Nat → Nat) (S : Nat → Nat → Prop) (c : Nat) : Prop where
  lt : ∀ i j, S i j → num i j < c
  inj : ∀ i j i' j', S i j → S i' j' → num i j = num i' j' → i = i' ∧ j = j'
  surj : ∀ k, k < c → ∃ i j, S i j ∧ num i j = k

theorem NumInv.congr {num : Nat → Nat → Nat} {S S' : Nat → Nat → Prop} {c : Nat} (h : NumInv num S c)
    (e : ∀ i j, S i j ↔ S' i j) : NumInv num S' c := by
  have : S = S' := funext (fun i => funext (fun j => propext (e i j)))
  rwa [this] at h

theorem NumInv.step {num : Nat → Nat → Nat} {S : Nat → Nat → Prop} {c : Nat} (h : NumInv num S c)
    {i j : Nat} (hS : ¬ S i j) :
    NumInv (fun p q => if p = i ∧ q = j then c else num p q) (fun p q => S p q ∨ (p = i ∧ q = j))
      (c + 1) := by
  have key : ∀ p q, S p q → ¬ (p = i ∧ q = j) := by
    rintro p q hs ⟨rfl, rfl⟩; exact hS hs
  refine ⟨?_, ?_, ?_⟩
  · rintro p q (hs | ⟨rfl, rfl⟩)
    · have := h.lt p q hs
      split <;> omega
    · simp
  · rintro p q p' q' (hs | ⟨rfl, rfl⟩) (hs' | ⟨rfl, rfl⟩) e
    · simp only [key p q hs, key p' q' hs', if_false] at e
      exact h.inj _ _ _ _ hs hs' e
    · simp only [key p q hs, if_false, and_self, if_true] at e
      have := h.lt p q hs; omega
    · simp only [key p' q' hs', if_false, and_self, if_true] at e
      have := h.lt p' q' hs'; omega
    · exact ⟨rfl, rfl⟩
  · intro k hk
    by_cases e : k = c
    · exact ⟨i, j, Or.inr ⟨rfl, rfl⟩, by simp [e]⟩
    · obtain ⟨p, q, hs, hn⟩ := h.surj k (by omega)
      exact ⟨p, q, Or.inl hs, by simp only [key p q hs, if_false]; exact hn⟩

/-- The symmetric matrix made of the values of the calls. -/
def symGen [One α] (gen : Nat → Nat → Nat → α) (num : Nat → Nat → Nat) (unit : Bool) (i j : Nat) : α :=
  if i = j ∧ unit = true then 1 else gen (max i j) (min i j) (num (max i j) (min i j))

theorem symGen_congr [One α] {gen : Nat → Nat → Nat → α} {num num' : Nat → Nat → Nat} {unit : Bool}
    {i j : Nat} (h : num (max i j) (min i j) = num' (max i j) (min i j)) :
    symGen gen num unit i j = symGen gen num' unit i j := by
  unfold symGen; rw [h]

theorem setSym_spec [One α] {m0 : Mem α} {A : View} {a : Nat → Nat → α} {gen : Nat → Nat → Nat → α}
    {unit : Bool} (hw : A.WF) (hs : A.rows = A.cols) (h : Holds m0 A a) :
    Runs (setElems gen m0 A .symm unit) (fun r => r.1 = 0 ∧ ∃ num,
      NumInv num (fun i j => i < A.rows ∧ j ≤ i ∧ (i = j → unit = false)) r.2.2 ∧
      Holds r.2.1 A (symGen gen num unit) ∧ Frame A.foot m0 r.2.1) := by
  unfold setElems
  simp only [ne_eq, hs, not_true_eq_false, if_false]
  rw [← hs]
  refine Runs.bind (Runs.forUp1 (fun j s => ∃ num, NumInv num
      (fun p q => p < A.rows ∧ q ≤ p ∧ q < j ∧ (p = q → unit = false)) s.2 ∧
      UpdOn m0 A (fun _ _ => True) a (symGen gen num unit) (fun p q => min p q < j) s.1) (by omega)
      ⟨fun _ _ => 0, ⟨by omega, by omega, by simp⟩,
        (UpdOn.init (HoldsOn.of_holds h) _).congr (by intros; omega)⟩ ?_ (Q := fun x => ∃ num,
      NumInv num (fun i j => i < A.rows ∧ j ≤ i ∧ (i = j → unit = false)) x.2.2 ∧
      Holds x.2.1 A (symGen gen num unit) ∧ Frame A.foot m0 x.2.1) ?_) (fun x hx => Runs.pure ⟨rfl, hx⟩)
  · rintro j ⟨m, c⟩ - hj ⟨num, hn, hu⟩
    dsimp only at hn hu
    -- diagonal
    refine Runs.bind (P := fun s => ∃ num, NumInv num
      (fun p q => p < A.rows ∧ q ≤ p ∧ (q < j ∨ (q = j ∧ p < j + 1)) ∧ (p = q → unit = false)) s.2 ∧
      UpdOn m0 A (fun _ _ => True) a (symGen gen num unit)
        (fun p q => min p q < j ∨ (min p q = j ∧ max p q < j + 1)) s.1) ?_ ?_
    · obtain ⟨v, hv⟩ := hu.at_some (i := j) (j := j) (by omega) (by omega) trivial
      cases unit
      · rw [if_neg (by simp)]
        unfold setGen
        refine Runs.wr_bind hv (Runs.pure ⟨_, (hn.step (i := j) (j := j) (by omega)).congr
          (fun p q => by simp; omega), ?_⟩)
        have h1 : UpdOn m0 A (fun _ _ => True) a (symGen gen (fun p q => if p = j ∧ q = j then c
            else num p q) false) (fun p q => min p q < j) m := by
          refine ⟨hu.hold.congr (fun p q _ _ _ => ?_), hu.frame⟩
          by_cases hs : min p q < j
          · simp only [hs, if_true]
            apply symGen_congr
            rw [if_neg (by omega)]
          · simp only [hs, if_false]
        exact (h1.set hw (by omega) (by omega) trivial (by simp [symGen])).congr
          (fun p q _ _ _ => by omega)
      · rw [if_pos rfl]
        refine Runs.wr_bind hv (Runs.pure ⟨num, hn.congr (fun p q => by simp; omega), ?_⟩)
        exact (hu.set hw (by omega) (by omega) trivial (by simp [symGen])).congr
          (fun p q _ _ _ => by omega)
    rintro ⟨m1, c1⟩ ⟨num1, hn1, hu1⟩
    dsimp only at hn1 hu1
    refine Runs.bind (Runs.forUp1 (fun i s => ∃ num, NumInv num
      (fun p q => p < A.rows ∧ q ≤ p ∧ (q < j ∨ (q = j ∧ p < i)) ∧ (p = q → unit = false)) s.2 ∧
      UpdOn m0 A (fun _ _ => True) a (symGen gen num unit)
        (fun p q => min p q < j ∨ (min p q = j ∧ max p q < i)) s.1) (by omega) ⟨num1, hn1, hu1⟩ ?_
        (Q := fun x => ∃ num, NumInv num
      (fun p q => p < A.rows ∧ q ≤ p ∧ q < j + 1 ∧ (p = q → unit = false)) x.2.2 ∧
      UpdOn m0 A (fun _ _ => True) a (symGen gen num unit) (fun p q => min p q < j + 1) x.2.1) ?_)
      (fun x hx => Runs.pure hx)
    · rintro i ⟨m2, c2⟩ hi hi' ⟨num2, hn2, hu2⟩
      dsimp only at hn2 hu2
      obtain ⟨v, hv⟩ := hu2.at_some (i := i) (j := j) (by omega) (by omega) trivial
      unfold setGen
      simp only [wr_ok hv, Res.ok_bind, Res.pure_eq]
      have h1 : UpdOn m0 A (fun _ _ => True) a (symGen gen (fun p q => if p = i ∧ q = j then c2
          else num2 p q) unit) (fun p q => min p q < j ∨ (min p q = j ∧ max p q < i)) m2 := by
        refine ⟨hu2.hold.congr (fun p q _ _ _ => ?_), hu2.frame⟩
        by_cases hs : min p q < j ∨ (min p q = j ∧ max p q < i)
        · simp only [hs, if_true]
          apply symGen_congr
          rw [if_neg (by omega)]
        · simp only [hs, if_false]
      have e1 : max i j = i := by omega
      have e2 : min i j = j := by omega
      have e3 : max j i = i := by omega
      have e4 : min j i = j := by omega
      have hx : symGen gen (fun p q => if p = i ∧ q = j then c2 else num2 p q) unit i j = gen i j c2 := by
        unfold symGen; rw [if_neg (by omega), e1, e2]; simp
      have hx' : symGen gen (fun p q => if p = i ∧ q = j then c2 else num2 p q) unit j i = gen i j c2 := by
        unfold symGen; rw [if_neg (by omega), e3, e4]; simp
      have h2 := h1.set hw (i := i) (j := j) (by omega) (by omega) trivial hx.symm
      refine Runs.rd_bind (Mem.set_same _ _ _) ?_
      obtain ⟨w, hw'⟩ := h2.at_some (i := j) (j := i) (by omega) (by omega) trivial
      refine Runs.wr_bind hw' (Runs.ok ⟨_, (hn2.step (i := i) (j := j) (by omega)).congr
        (fun p q => ?_), ?_⟩)
      · constructor
        · rintro (c | c)
          · exact ⟨c.1, c.2.1, by omega, c.2.2.2⟩
          · exact ⟨by omega, by omega, by omega, by omega⟩
        · rintro ⟨c1, c2, c3, c4⟩
          by_cases e : p = i ∧ q = j
          · exact Or.inr e
          · exact Or.inl ⟨c1, c2, by omega, c4⟩
      · exact (h2.set hw (by omega) (by omega) trivial hx'.symm).congr (fun p q _ _ _ => by omega)
    · rintro ⟨m2, c2⟩ ⟨num2, hn2, hu2⟩
      refine ⟨num2, hn2.congr (fun p q => ?_), hu2.congr (fun p q _ _ _ => by omega)⟩
      constructor
      · rintro ⟨c1, c2, c3, c4⟩; exact ⟨c1, c2, by omega, c4⟩
      · rintro ⟨c1, c2, c3, c4⟩; exact ⟨c1, c2, by omega, c4⟩
  · rintro ⟨m, c⟩ ⟨num, hn, hu⟩
    refine ⟨num, hn.congr (fun p q => ?_), fun i j hi hj => ?_, hu.frame.mono (View.footOn_sub_foot _ _)⟩
    · constructor
      · rintro ⟨c1, c2, c3, c4⟩; exact ⟨c1, c2, c4⟩
      · rintro ⟨c1, c2, c4⟩; exact ⟨c1, c2, by omega, c4⟩
    · exact hu.at_new hi hj trivial (by omega)

end Armas
