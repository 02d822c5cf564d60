import Verif.Sort
import Verif.PivotLemmas

/-!
# Sorting of vectors: lemmas for `Verif.Sort`
-/

namespace Armas

variable {α : Type}

/-! ## Vector elements -/

theorem HoldsV.set {m : Mem α} {X : View} {f : Nat → α} (hv : X.isVec) (hw : X.WF) (h : HoldsV m X f) {k : Nat}
    (hk : k < X.size) (v : α) : HoldsV (m.set (X.vat k) v) X (Function.update f k v) := by
  intro l hl
  by_cases e : l = k
  · subst e; rw [Mem.set_same, Function.update_self]
  · rw [Mem.set_ne _ _ (fun e' => e (View.vat_inj hv hw hl hk e')), Function.update_of_ne e]; exact h l hl

theorem HoldsV.wr {m : Mem α} {X : View} {f : Nat → α} (hv : X.isVec) (hw : X.WF) (h : HoldsV m X f) {k : Nat}
    (hk : k < X.size) (v : α) :
    Runs (wr m (X.vat k) v) (fun m' => HoldsV m' X (Function.update f k v) ∧ Frame X.foot m m') :=
  ⟨_, wr_ok (h k hk), h.set hv hw hk v, Frame.set (View.vat_mem_foot hv hk) v⟩

theorem HoldsV.congr' {m : Mem α} {X : View} {f g : Nat → α} (h : HoldsV m X f) (e : ∀ k, k < X.size → f k = g k) :
    HoldsV m X g := fun k hk => by rw [← e k hk]; exact h k hk

/-- Permutation of the first `n` positions. -/
def PermN (n : Nat) (σ : Equiv.Perm Nat) : Prop := ∀ i, n ≤ i → σ i = i

theorem PermN.lt {n : Nat} {σ : Equiv.Perm Nat} (h : PermN n σ) {i : Nat} (hi : i < n) : σ i < n := by
  by_contra hc
  have := σ.injective (h (σ i) (by omega))
  omega

theorem PermN.one (n : Nat) : PermN n 1 := fun _ _ => rfl

theorem PermN.mul {n : Nat} {σ τ : Equiv.Perm Nat} (h : PermN n σ) (h' : PermN n τ) : PermN n (σ * τ) := by
  intro i hi; rw [Equiv.Perm.mul_apply, h' i hi, h i hi]

theorem PermN.swap {n p q : Nat} (hp : p < n) (hq : q < n) : PermN n (Equiv.swap p q) := by
  intro i hi; exact Equiv.swap_apply_of_ne_of_ne (by omega) (by omega)

theorem PermN.mono {n k : Nat} {σ : Equiv.Perm Nat} (h : PermN k σ) (hk : k ≤ n) : PermN n σ :=
  fun i hi => h i (by omega)

/-- A permutation acting from position `d` on. -/
def shiftPerm (d : Nat) (σ : Equiv.Perm Nat) : Equiv.Perm Nat where
  toFun i := if i < d then i else d + σ (i - d)
  invFun i := if i < d then i else d + σ.symm (i - d)
  left_inv i := by
    dsimp only
    by_cases c : i < d
    · rw [if_pos c, if_pos c]
    · rw [if_neg c, if_neg (by omega), show d + σ (i - d) - d = σ (i - d) by omega, Equiv.symm_apply_apply]; omega
  right_inv i := by
    dsimp only
    by_cases c : i < d
    · rw [if_pos c, if_pos c]
    · rw [if_neg c, if_neg (by omega), show d + σ.symm (i - d) - d = σ.symm (i - d) by omega, Equiv.apply_symm_apply]
      omega

theorem shiftPerm_apply (d : Nat) (σ : Equiv.Perm Nat) (i : Nat) :
    shiftPerm d σ i = if i < d then i else d + σ (i - d) := rfl

theorem shiftPerm_permN {d n : Nat} {σ : Equiv.Perm Nat} (h : PermN n σ) : PermN (d + n) (shiftPerm d σ) := by
  intro i hi
  rw [shiftPerm_apply, if_neg (by omega), h _ (by omega)]; omega

/-! ## The order -/

section order
variable [LinearOrder α]

/-- `a` may stand in front of `b`. -/
def leq (asc : Bool) (a b : α) : Prop := if asc then a ≤ b else b ≤ a

theorem leq.refl (asc : Bool) (a : α) : leq asc a a := by unfold leq; split <;> exact le_rfl

theorem leq.trans {asc : Bool} {a b c : α} (h : leq asc a b) (h' : leq asc b c) : leq asc a c := by
  unfold leq at *
  split at h
  · rw [if_pos (by assumption)] at h' ⊢; exact h.trans h'
  · rw [if_neg (by assumption)] at h' ⊢; exact h'.trans h

theorem leq.antisymm {asc : Bool} {a b : α} (h : leq asc a b) (h' : leq asc b a) : a = b := by
  unfold leq at *
  split at h
  · rw [if_pos (by assumption)] at h'; exact le_antisymm h h'
  · rw [if_neg (by assumption)] at h'; exact le_antisymm h' h

theorem before_leq {asc : Bool} {a b : α} (h : before asc a b = true) : leq asc a b := by
  unfold before at h
  unfold leq
  split at h
  · rw [if_pos (by assumption)]; exact (of_decide_eq_true h).le
  · rw [if_neg (by assumption)]; exact (of_decide_eq_true h).le

theorem before_ne {asc : Bool} {a b : α} (h : before asc a b = true) : a ≠ b := by
  unfold before at h
  split at h
  · exact (of_decide_eq_true h).ne
  · exact (of_decide_eq_true h).ne'

theorem not_before {asc : Bool} {a b : α} (h : ¬ before asc a b = true) : leq asc b a := by
  unfold before at h
  unfold leq
  split at h
  · rw [if_pos (by assumption)]; exact not_lt.mp (by simpa using h)
  · rw [if_neg (by assumption)]; exact not_lt.mp (by simpa using h)

/-- The first `n` values are in order. -/
def Sorted (asc : Bool) (n : Nat) (f : Nat → α) : Prop := ∀ i j, i < j → j < n → leq asc (f i) (f j)

/-! ## Insertion sort -/

/-- Positions `0..k` of `w` are sorted apart from `j`, which is not after the ones that follow it. -/
structure HoleInv (asc : Bool) (k j : Nat) (w : Nat → α) : Prop where
  ord : ∀ p q, p < q → q ≤ k → p ≠ j → q ≠ j → leq asc (w p) (w q)
  aft : ∀ q, j < q → q ≤ k → leq asc (w j) (w q)

theorem isortShift_spec {asc : Bool} {key : α → α} (hkey : ∀ a, key (key a) = key a) {X : View} (hv : X.isVec)
    (hw : X.WF) {c : α} (hc : key c = c) {k : Nat} (hk : k < X.size) :
    ∀ (j : Nat) (m : Mem α) (z : Nat → α), j ≤ k → HoldsV m X z →
      HoleInv asc k j (fun i => key (Function.update z j c i)) →
      Runs (isortShift asc key X c j m) (fun m' => ∃ y σ, HoldsV m' X y ∧ PermN (k + 1) σ ∧
        (∀ i, key (y i) = key (Function.update z j c (σ i))) ∧
        (∀ i, y i = Function.update z j c (σ i) ∨ y i = key (Function.update z j c (σ i))) ∧
        Sorted asc (k + 1) (fun i => key (y i)) ∧ Frame X.foot m m') := by
  intro j
  induction j with
  | zero =>
    intro m z hj h hI
    rw [isortShift]
    refine (h.wr hv hw (by omega) c).mono ?_
    rintro m' ⟨h', f'⟩
    refine ⟨_, 1, h', PermN.one _, fun i => rfl, fun i => Or.inl rfl, ?_, f'⟩
    intro p q hpq hq
    by_cases c0 : p = 0
    · subst c0; exact hI.aft q hpq (by omega)
    · exact hI.ord p q hpq (by omega) c0 (by omega)
  | succ j ih =>
    intro m z hj h hI
    rw [isortShift]
    refine Runs.rd_bind (h j (by omega)) ?_
    by_cases hb : before asc c (key (z j)) = true
    · rw [if_pos hb]
      refine (h.wr hv hw (show j + 1 < X.size by omega) (key (z j))).bind ?_
      rintro m1 ⟨h1, f1⟩
      obtain ⟨w, hwd⟩ : ∃ w, w = Function.update z (j + 1) c := ⟨_, rfl⟩
      obtain ⟨w', hw'⟩ : ∃ w', w' = Function.update (Function.update z (j + 1) (key (z j))) j c := ⟨_, rfl⟩
      have wj : w j = z j := by rw [hwd, Function.update_of_ne (by omega)]
      have wj1 : w (j + 1) = c := by rw [hwd, Function.update_self]
      have e : ∀ i, key (w' i) = key (w (Equiv.swap j (j + 1) i)) := by
        intro i
        by_cases c1 : i = j
        · subst c1; rw [Equiv.swap_apply_left, wj1, hw', Function.update_self]
        · by_cases c2 : i = j + 1
          · subst c2; rw [Equiv.swap_apply_right, wj, hw', Function.update_of_ne c1, Function.update_self, hkey]
          · rw [Equiv.swap_apply_of_ne_of_ne c1 c2, hw', Function.update_of_ne c1, Function.update_of_ne c2, hwd,
              Function.update_of_ne c2]
      have e' : ∀ i, w' i = w (Equiv.swap j (j + 1) i) ∨ w' i = key (w (Equiv.swap j (j + 1) i)) := by
        intro i
        by_cases c1 : i = j
        · subst c1; rw [Equiv.swap_apply_left, wj1, hw', Function.update_self]; exact Or.inl rfl
        · by_cases c2 : i = j + 1
          · subst c2; rw [Equiv.swap_apply_right, wj, hw', Function.update_of_ne c1, Function.update_self]
            exact Or.inr rfl
          · rw [Equiv.swap_apply_of_ne_of_ne c1 c2, hw', Function.update_of_ne c1, Function.update_of_ne c2, hwd,
              Function.update_of_ne c2]; exact Or.inl rfl
      have e0 : key (w' j) = c := by rw [e, Equiv.swap_apply_left, wj1, hc]
      have e1 : key (w' (j + 1)) = key (w j) := by rw [e, Equiv.swap_apply_right]
      have e2 : ∀ i, i ≠ j → i ≠ j + 1 → key (w' i) = key (w i) := fun i c1 c2 => by
        rw [e, Equiv.swap_apply_of_ne_of_ne c1 c2]
      rw [← hwd] at hI
      refine (ih m1 _ (by omega) h1 ?_).mono ?_
      · rw [← hw']
        refine ⟨?_, ?_⟩
        · intro p q hpq hq hp hq'
          beta_reduce
          by_cases c1 : p = j + 1
          · subst c1
            rw [e1, e2 q (by omega) (by omega)]
            exact hI.ord j q (by omega) hq (by omega) (by omega)
          · rw [e2 p hp c1]
            by_cases c2 : q = j + 1
            · subst c2; rw [e1]; exact hI.ord p j (by omega) (by omega) c1 (by omega)
            · rw [e2 q hq' c2]; exact hI.ord p q hpq hq c1 c2
        · intro q hq hqk
          beta_reduce
          rw [e0]
          by_cases c2 : q = j + 1
          · subst c2; rw [e1, wj]; exact before_leq hb
          · rw [e2 q (by omega) c2]
            have := hI.aft q (by omega) hqk
            beta_reduce at this
            rwa [wj1, hc] at this
      · rintro m2 ⟨y, σ, h2, h3, h4, h4', h5, f2⟩
        rw [← hw'] at h4 h4'
        refine ⟨y, Equiv.swap j (j + 1) * σ, h2, (PermN.swap (by omega) (by omega)).mul h3, fun i => ?_, fun i => ?_, h5,
          f1.trans f2⟩
        · rw [h4 i, e, hwd]; rfl
        · rw [← hwd]
          show y i = w (Equiv.swap j (j + 1) (σ i)) ∨ y i = key (w (Equiv.swap j (j + 1) (σ i)))
          rcases h4' i with h | h
          · rw [h]; exact e' _
          · rw [h, e]; exact Or.inr rfl
    · rw [if_neg hb]
      refine (h.wr hv hw (by omega) c).mono ?_
      rintro m' ⟨h', f'⟩
      refine ⟨_, 1, h', PermN.one _, fun i => rfl, fun i => Or.inl rfl, ?_, f'⟩
      have hz : leq asc (key (Function.update z (j + 1) c j)) (key (Function.update z (j + 1) c (j + 1))) := by
        rw [Function.update_of_ne (by omega), Function.update_self, hc]; exact not_before hb
      intro p q hpq hq
      by_cases c0 : p = j + 1
      · subst c0; exact hI.aft q hpq (by omega)
      · by_cases c1 : q = j + 1
        · subst c1
          by_cases c2 : p = j
          · subst c2; exact hz
          · exact (hI.ord p j (by omega) (by omega) c0 (by omega)).trans hz
        · exact hI.ord p q hpq (by omega) c0 c1

theorem isort_spec {asc : Bool} {key : α → α} (hkey : ∀ a, key (key a) = key a) {m : Mem α} {X : View} {x : Nat → α}
    (hv : X.isVec) (hw : X.WF) (h : HoldsV m X x) :
    Runs (isort asc key m X) (fun m' => ∃ y σ, HoldsV m' X y ∧ PermN X.size σ ∧
      (∀ i, key (y i) = key (x (σ i))) ∧ (∀ i, y i = x (σ i) ∨ y i = key (x (σ i))) ∧
      Sorted asc X.size (fun i => key (y i)) ∧
      Frame X.foot m m') := by
  unfold isort
  by_cases h0 : X.size ≤ 1
  · rw [forUp_eq, if_neg (by omega)]
    simp only [Res.ok_bind]
    exact Runs.pure ⟨x, 1, h, PermN.one _, fun _ => rfl, fun _ => Or.inl rfl, fun i j hi hj => by omega, Frame.refl _ _⟩
  refine Runs.bind (P := fun r : Nat × Mem α => ∃ y σ, HoldsV r.2 X y ∧ PermN X.size σ ∧
      (∀ i, key (y i) = key (x (σ i))) ∧ (∀ i, y i = x (σ i) ∨ y i = key (x (σ i))) ∧
      Sorted asc X.size (fun i => key (y i)) ∧
      Frame X.foot m r.2) ?_ (fun r h => Runs.pure h)
  refine Runs.forUp1 (fun k m' => ∃ y σ, HoldsV m' X y ∧ PermN X.size σ ∧
      (∀ i, key (y i) = key (x (σ i))) ∧ (∀ i, y i = x (σ i) ∨ y i = key (x (σ i))) ∧
      Sorted asc k (fun i => key (y i)) ∧ Frame X.foot m m')
    (by omega) ⟨x, 1, h, PermN.one _, fun _ => rfl, fun _ => Or.inl rfl, fun i j hi hj => by omega, Frame.refl _ _⟩ ?_
    (fun _ h => h)
  rintro k m1 hk1 hk ⟨y, σ, h1, h2, h3, h3', h4, f1⟩
  refine Runs.rd_bind (h1 k hk) ?_
  have e : ∀ i, key (Function.update y k (key (y k)) i) = key (y i) := by
    intro i
    by_cases c : i = k
    · subst c; rw [Function.update_self, hkey]
    · rw [Function.update_of_ne c]
  have e' : ∀ i, Function.update y k (key (y k)) i = y i ∨ Function.update y k (key (y k)) i = key (y i) := by
    intro i
    by_cases c : i = k
    · subst c; rw [Function.update_self]; exact Or.inr rfl
    · rw [Function.update_of_ne c]; exact Or.inl rfl
  refine (isortShift_spec (asc := asc) hkey hv hw (hkey (y k)) hk k m1 y le_rfl h1 ⟨?_, ?_⟩).mono ?_
  · intro p q hpq hq hp hq'
    beta_reduce
    rw [e, e]; exact h4 p q hpq (by omega)
  · intro q hq hq'; omega
  · rintro m2 ⟨y2, τ, h5, h6, h7, h7', h8, f2⟩
    refine ⟨y2, σ * τ, h5, h2.mul (h6.mono (by omega)), fun i => ?_, fun i => ?_, h8, f1.trans f2⟩
    · rw [h7 i, e, h3]; rfl
    · show y2 i = x (σ (τ i)) ∨ y2 i = key (x (σ (τ i)))
      have h9 : ∀ i, key (y i) = key (x (σ i)) := h3
      rcases h7' i with h | h
      · rcases e' (τ i) with g | g
        · rw [h, g]; exact h3' _
        · rw [h, g, h9]; exact Or.inr rfl
      · rw [h, e, h9]; exact Or.inr rfl

/-! ## Quicksort -/

theorem scanUp_spec {asc : Bool} {m : Mem α} {X : View} {pv : α} {n : Nat} {y : Nat → α} (hs : X.size = n)
    (h : HoldsV m X y) (hp : ∃ u, m (X.vat n) = some u) : ∀ (d i : Nat), i + d = n →
    Runs (scanUp asc m X pv d i) (fun r => i ≤ r ∧ r ≤ n ∧ (∀ p, i ≤ p → p < r → before asc (y p) pv = true) ∧
      (r < n → ¬ before asc (y r) pv = true)) := by
  intro d
  induction d with
  | zero =>
    intro i hi
    obtain ⟨u, hu⟩ := hp
    rw [scanUp]
    refine Runs.rd_bind (by rw [show i = n by omega]; exact hu) ?_
    exact Runs.pure ⟨le_rfl, by omega, by intros; omega, by omega⟩
  | succ d ih =>
    intro i hi
    rw [scanUp]
    refine Runs.rd_bind (h i (by omega)) ?_
    by_cases hb : before asc (y i) pv = true
    · rw [if_pos hb]
      refine (ih (i + 1) (by omega)).mono ?_
      rintro r ⟨h1, h2, h3, h4⟩
      refine ⟨by omega, h2, fun p hp1 hp2 => ?_, h4⟩
      by_cases c : p = i
      · subst c; exact hb
      · exact h3 p (by omega) hp2
    · rw [if_neg hb]
      exact Runs.pure ⟨le_rfl, by omega, by intros; omega, fun _ => hb⟩

theorem scanDown_spec {asc : Bool} {m : Mem α} {X : View} {pv : α} {y : Nat → α}
    (h : HoldsV m X y) (h0 : y 0 = pv) : ∀ (j : Nat), j < X.size →
    Runs (scanDown asc m X pv j) (fun r => r ≤ j ∧ (∀ q, r < q → q ≤ j → before asc pv (y q) = true) ∧
      ¬ before asc pv (y r) = true) := by
  have hn : ¬ before asc pv (y 0) = true := fun hb => before_ne hb h0.symm
  intro j
  induction j with
  | zero =>
    intro hj
    rw [scanDown]
    refine Runs.rd_bind (h 0 hj) ?_
    rw [if_neg hn]
    exact Runs.pure ⟨le_rfl, by intros; omega, hn⟩
  | succ j ih =>
    intro hj
    rw [scanDown]
    refine Runs.rd_bind (h _ hj) ?_
    by_cases hb : before asc pv (y (j + 1)) = true
    · rw [if_pos hb]
      refine (ih (by omega)).mono ?_
      rintro r ⟨h1, h2, h3⟩
      refine ⟨by omega, fun q hq1 hq2 => ?_, h3⟩
      by_cases c : q = j + 1
      · subst c; exact hb
      · exact h2 q hq1 (by omega)
    · rw [if_neg hb]
      exact Runs.pure ⟨le_rfl, by intros; omega, hb⟩

theorem update_swap {f : Nat → α} {p q : Nat} (hpq : p ≠ q) :
    Function.update (Function.update f p (f q)) q (f p) = f ∘ Equiv.swap p q := by
  funext i
  by_cases c1 : i = q
  · subst c1; simp
  · rw [Function.update_of_ne c1]
    by_cases c2 : i = p
    · subst c2; simp
    · rw [Function.update_of_ne c2, Function.comp, Equiv.swap_apply_of_ne_of_ne c2 c1]

theorem readable_frame {m m' : Mem α} {X : View} {y : Nat → α} {p : Nat} (hv : X.isVec) (hp : ∃ u, m p = some u)
    (h' : HoldsV m' X y) (hf : Frame X.foot m m') : ∃ u, m' p = some u := by
  by_cases c : p ∈ X.foot
  · rw [View.foot_vec hv] at c
    obtain ⟨k, hk, rfl⟩ := c
    exact ⟨_, h' k hk⟩
  · rw [hf p c]; exact hp

theorem partLoop_spec {asc : Bool} {X : View} {pv : α} {n : Nat} (hv : X.isVec) (hw : X.WF) (hs : X.size = n) :
    ∀ (fuel i j : Nat) (m : Mem α) (y : Nat → α), HoldsV m X y → (∃ u, m (X.vat n) = some u) →
      y 0 = pv → (∀ p q, p < n → q < n → y p = y q → p = q) → 1 ≤ i → i ≤ n → j < n →
      (∀ p, 1 ≤ p → p < i → before asc (y p) pv = true) → (∀ q, j < q → q < n → before asc pv (y q) = true) →
      (n - i < fuel ∧ (i < n → before asc (y i) pv = true) ∨ n + 1 - i < fuel) →
      Runs (partLoop asc X n pv fuel i j m) (fun r => ∃ y' σ, HoldsV r.2 X y' ∧ PermN n σ ∧ y' = y ∘ σ ∧ r.1 < n ∧
        y' 0 = pv ∧ (∀ p, 1 ≤ p → p ≤ r.1 → leq asc (y' p) pv) ∧ (∀ q, r.1 < q → q < n → leq asc pv (y' q)) ∧
        Frame X.foot m r.2) := by
  intro fuel
  induction fuel with
  | zero => intro i j m y _ _ _ _ _ _ _ _ _ hf; omega
  | succ fuel ih =>
    intro i j m y h hp h0 hinj hi1 hin hj hlo hhi hf
    rw [partLoop]
    refine (scanUp_spec (asc := asc) (pv := pv) hs h hp (n - i) i (by omega)).bind ?_
    rintro i1 ⟨a1, a2, a3, a4⟩
    refine (scanDown_spec (asc := asc) h h0 j (by omega)).bind ?_
    rintro j1 ⟨b1, b2, b3⟩
    have lo1 : ∀ p, 1 ≤ p → p < i1 → before asc (y p) pv = true := fun p h1 h2 => by
      by_cases c : p < i
      · exact hlo p h1 c
      · exact a3 p (by omega) h2
    have hi1' : ∀ q, j1 < q → q < n → before asc pv (y q) = true := fun q h1 h2 => by
      by_cases c : j < q
      · exact hhi q c h2
      · exact b2 q h1 (by omega)
    split
    · rename_i hge
      refine Runs.pure ⟨y, 1, h, PermN.one _, rfl, by dsimp only; omega, h0, ?_, ?_, Frame.refl _ _⟩
      · intro p h1 h2
        dsimp only at h2
        by_cases c : p = j1
        · subst c; exact not_before b3
        · exact before_leq (lo1 p h1 (by omega))
      · intro q h1 h2
        exact before_leq (hi1' q h1 h2)
    · rename_i hlt
      have hlt' : i1 < j1 := by omega
      refine Runs.rd_bind (h i1 (by omega)) ?_
      refine Runs.rd_bind (h j1 (by omega)) ?_
      refine (h.wr hv hw (show i1 < X.size by omega) (y j1)).bind ?_
      rintro m1 ⟨h1, f1⟩
      refine (h1.wr hv hw (show j1 < X.size by omega) (y i1)).bind ?_
      rintro m2 ⟨h2, f2⟩
      rw [update_swap (by omega)] at h2
      have ei : (y ∘ Equiv.swap i1 j1) i1 = y j1 := by simp
      have ej : (y ∘ Equiv.swap i1 j1) j1 = y i1 := by simp
      have eo : ∀ p, p ≠ i1 → p ≠ j1 → (y ∘ Equiv.swap i1 j1) p = y p := fun p c1 c2 => by
        rw [Function.comp, Equiv.swap_apply_of_ne_of_ne c1 c2]
      have bi : before asc (y j1) pv = true := by
        by_contra hc
        have := (leq.antisymm (not_before hc) (not_before b3)).symm
        have := hinj j1 0 (by omega) (by omega) (by rw [this, h0])
        omega
      have bj : before asc pv (y i1) = true := by
        by_contra hc
        have := (leq.antisymm (not_before hc) (not_before (a4 (by omega))))
        have := hinj i1 0 (by omega) (by omega) (by rw [this, h0])
        omega
      refine (ih i1 j1 m2 _ h2 (readable_frame hv hp h2 (f1.trans f2)) ?_ ?_ (by omega) a2 (by omega) ?_ ?_
        (Or.inl ⟨?_, ?_⟩)).mono ?_
      · rw [eo 0 (by omega) (by omega), h0]
      · intro p q hp' hq' e
        have P := PermN.swap (n := n) (p := i1) (q := j1) (by omega) (by omega)
        exact (Equiv.swap i1 j1).injective (hinj _ _ (P.lt hp') (P.lt hq') e)
      · intro p c1 c2
        rw [eo p (by omega) (by omega)]; exact lo1 p c1 c2
      · intro q c1 c2
        rw [eo q (by omega) (by omega)]; exact hi1' q c1 c2
      · rcases hf with ⟨g1, g2⟩ | g
        · have : i1 ≠ i := by
            rintro rfl
            exact a4 (by omega) (g2 (by omega))
          omega
        · omega
      · intro _; rw [ei]; exact bi
      · rintro r ⟨y', σ, c1, c2, c3, c4⟩
        exact ⟨y', Equiv.swap i1 j1 * σ, c1, (PermN.swap (by omega) (by omega)).mul c2, by rw [c3]; rfl, c4.1, c4.2.1,
          c4.2.2.1, c4.2.2.2.1, (f1.trans f2).trans c4.2.2.2.2⟩

theorem subvec_vat_end {X : View} (hv : X.isVec) {n len : Nat} (hn : n + len ≤ X.size) (h2 : 2 ≤ len) :
    (X.subvec n len).vat len = X.vat (n + len) := by
  unfold View.subvec
  split
  · rename_i h1
    simp only [View.vat, View.inc, View.sub, View.at', h1, if_true]
    ring
  · rename_i h1
    have : ¬ len = 1 := by omega
    simp only [View.vat, View.inc, View.sub, View.at', h1, if_false, this]
    omega

theorem qsort_spec {asc : Bool} : ∀ (fuel : Nat) {m : Mem α} {X : View} {x : Nat → α}, X.isVec → X.WF → HoldsV m X x →
      (8 ≤ X.size → ∃ u, m (X.vat X.size) = some u) → (∀ p q, p < X.size → q < X.size → x p = x q → p = q) →
      X.size + 1 < fuel →
      Runs (qsort asc fuel m X) (fun m' => ∃ σ : Equiv.Perm Nat, HoldsV m' X (x ∘ σ) ∧ PermN X.size σ ∧
        Sorted asc X.size (x ∘ σ) ∧ Frame X.foot m m') := by
  intro fuel
  induction fuel with
  | zero => intro m X x _ _ _ _ _ hf; omega
  | succ fuel ih =>
    intro m X x hv hw h hp hinj hf
    rw [qsort]
    by_cases h8 : X.size < 8
    · rw [if_pos h8]
      refine (isort_spec (asc := asc) (key := id) (fun _ => rfl) hv hw h).mono ?_
      rintro m' ⟨y, σ, h1, h2, h3, -, h4, h5⟩
      have : y = x ∘ σ := funext h3
      subst this
      exact ⟨σ, h1, h2, h4, h5⟩
    rw [if_neg h8]
    obtain ⟨n, hn⟩ : ∃ n, n = X.size := ⟨_, rfl⟩
    dsimp only
    rw [← hn] at hinj hf h8 ⊢
    have hp' := hp (by omega)
    rw [← hn] at hp'
    refine Runs.rd_bind (h (n / 2) (by omega)) ?_
    refine Runs.rd_bind (h 0 (by omega)) ?_
    refine (h.wr hv hw (show n / 2 < X.size by omega) (x 0)).bind ?_
    rintro m1 ⟨h1, f1⟩
    refine (h1.wr hv hw (show 0 < X.size by omega) (x (n / 2))).bind ?_
    rintro m2 ⟨h2, f2⟩
    rw [update_swap (by omega)] at h2
    obtain ⟨τ, hτ⟩ : ∃ τ : Equiv.Perm Nat, τ = Equiv.swap (n / 2) 0 := ⟨_, rfl⟩
    have Pτ : PermN n τ := by rw [hτ]; exact PermN.swap (by omega) (by omega)
    rw [← hτ] at h2
    have hinj2 : ∀ p q, p < n → q < n → (x ∘ τ) p = (x ∘ τ) q → p = q := fun p q hp hq e =>
      τ.injective (hinj _ _ (Pτ.lt hp) (Pτ.lt hq) e)
    refine (partLoop_spec (asc := asc) (pv := x (n / 2)) hv hw hn.symm (fuel + 1) 1 (n - 1) m2 _ h2
      (readable_frame hv hp' h2 (f1.trans f2)) (by rw [hτ]; simp) hinj2 le_rfl (by omega) (by omega)
      (by intros; omega) (by intros; omega) (Or.inr (by omega))).bind ?_
    rintro ⟨j, m3⟩ ⟨y, σ, h3, Pσ, hy, hj, hy0, hlo, hhi, f3⟩
    dsimp only at h3 hj hlo hhi f3 ⊢
    refine Runs.rd_bind (h3 j (by omega)) ?_
    refine (h3.wr hv hw (show 0 < X.size by omega) (y j)).bind ?_
    rintro m4 ⟨h4, f4⟩
    refine (h4.wr hv hw (show j < X.size by omega) (x (n / 2))).bind ?_
    rintro m5 ⟨h5, f5⟩
    -- contents after the partition
    obtain ⟨z, hz⟩ : ∃ z, z = y ∘ Equiv.swap 0 j := ⟨_, rfl⟩
    have h5' : HoldsV m5 X z := by
      refine h5.congr' (fun i _ => ?_)
      rw [hz]
      by_cases c1 : i = j
      · subst c1; rw [Function.update_self, Function.comp, Equiv.swap_apply_right, hy0]
      · rw [Function.update_of_ne c1]
        by_cases c2 : i = 0
        · subst c2; rw [Function.update_self, Function.comp, Equiv.swap_apply_left]
        · rw [Function.update_of_ne c2, Function.comp, Equiv.swap_apply_of_ne_of_ne c2 c1]
    have zj : z j = x (n / 2) := by rw [hz, Function.comp, Equiv.swap_apply_right, hy0]
    have zlo : ∀ p, p < j → leq asc (z p) (z j) := by
      intro p hp
      rw [zj, hz, Function.comp]
      by_cases c2 : p = 0
      · subst c2; rw [Equiv.swap_apply_left]; exact hlo j (by omega) le_rfl
      · rw [Equiv.swap_apply_of_ne_of_ne c2 (by omega)]; exact hlo p (by omega) (by omega)
    have zhi : ∀ q, j < q → q < n → leq asc (z j) (z q) := by
      intro q hq hqn
      rw [zj, hz, Function.comp, Equiv.swap_apply_of_ne_of_ne (by omega) (by omega)]
      exact hhi q hq hqn
    obtain ⟨ρ, hρ⟩ : ∃ ρ : Equiv.Perm Nat, ρ = τ * σ * Equiv.swap 0 j := ⟨_, rfl⟩
    have Pρ : PermN n ρ := by rw [hρ]; exact (Pτ.mul Pσ).mul (PermN.swap (by omega) (by omega))
    have hzx : z = x ∘ ρ := by rw [hz, hy, hρ]; rfl
    have hzinj : ∀ p q, p < n → q < n → z p = z q → p = q := by
      rw [hzx]; exact fun p q hp hq e => ρ.injective (hinj _ _ (Pρ.lt hp) (Pρ.lt hq) e)
    have F5 : Frame X.foot m m5 := (((f1.trans f2).trans f3).trans f4).trans f5
    have hp5 : ∃ u, m5 (X.vat n) = some u := readable_frame hv hp' h5' F5
    clear h1 h2 h3 h4 h5 f1 f2 f3 f4 f5 hlo hhi hinj2
    -- the part in front
    refine (ih (m := m5) (X := X.subvec 0 j) (x := fun k => z (0 + k)) (View.subvec_isVec _ _ _)
      (hw.subvec hv (by omega)) (h5'.subvec hv (by omega)) ?_ ?_ (by rw [View.subvec_size]; omega)).bind ?_
    · intro hs8
      rw [View.subvec_size] at hs8 ⊢
      rw [subvec_vat_end hv (by omega) (by omega)]
      exact ⟨_, h5' (0 + j) (by omega)⟩
    · intro p q hp hq e
      rw [View.subvec_size] at hp hq
      have := hzinj _ _ (by omega) (by omega) e
      omega
    rintro m6 ⟨σ0, h6, P0, s0, f6⟩
    rw [View.subvec_size] at P0 s0
    have f6' : Frame X.foot m5 m6 := f6.mono (View.subvec_foot hv (by omega))
    -- the whole vector now
    have H6 : HoldsV m6 X (z ∘ σ0) := by
      intro k hk
      by_cases c : k < j
      · have := h6 k (by rw [View.subvec_size]; exact c)
        rw [View.subvec_vat hv 0 j c, Nat.zero_add] at this
        rw [this]; simp
      · rw [f6 _ ?_, h5' k hk, Function.comp, P0 k (by omega)]
        rw [View.foot_vec (View.subvec_isVec _ _ _)]
        rintro ⟨l, hl, e⟩
        rw [View.subvec_size] at hl
        rw [View.subvec_vat hv 0 j hl] at e
        have := View.vat_inj hv hw hk (by omega) e
        omega
    -- the part behind
    refine (ih (m := m6) (X := X.subvec (j + 1) (n - j - 1)) (x := fun k => (z ∘ σ0) (j + 1 + k))
      (View.subvec_isVec _ _ _) (hw.subvec hv (by omega)) (H6.subvec hv (by omega)) ?_ ?_
      (by rw [View.subvec_size]; omega)).mono ?_
    · intro hs8
      rw [View.subvec_size] at hs8 ⊢
      rw [subvec_vat_end hv (by omega) (by omega), show j + 1 + (n - j - 1) = n by omega]
      exact readable_frame hv hp5 H6 f6'
    · intro p q hp hq e
      rw [View.subvec_size] at hp hq
      beta_reduce at e
      rw [Function.comp, Function.comp, P0 (j + 1 + p) (by omega), P0 (j + 1 + q) (by omega)] at e
      have := hzinj _ _ (by omega) (by omega) e
      omega
    rintro m7 ⟨σ1, h7, P1, s1, f7⟩
    rw [View.subvec_size] at P1 s1
    have f7' : Frame X.foot m6 m7 := f7.mono (View.subvec_foot hv (by omega))
    obtain ⟨π, hπ⟩ : ∃ π : Equiv.Perm Nat, π = σ0 * shiftPerm (j + 1) σ1 := ⟨_, rfl⟩
    have plo : ∀ k, k < j → π k = σ0 k := fun k hk => by
      rw [hπ, Equiv.Perm.mul_apply, shiftPerm_apply, if_pos (by omega)]
    have pj : π j = j := by rw [hπ, Equiv.Perm.mul_apply, shiftPerm_apply, if_pos (by omega), P0 j le_rfl]
    have phi : ∀ k, k < n - j - 1 → π (j + 1 + k) = j + 1 + σ1 k := fun k hk => by
      rw [hπ, Equiv.Perm.mul_apply, shiftPerm_apply, if_neg (by omega), P0 _ (by omega),
        show j + 1 + k - (j + 1) = k by omega]
    have Pπ : PermN n π := by
      rw [hπ]
      refine (P0.mono (by omega)).mul ?_
      have := shiftPerm_permN (d := j + 1) P1
      rwa [show j + 1 + (n - j - 1) = n by omega] at this
    refine ⟨ρ * π, ?_, Pρ.mul Pπ, ?_, (F5.trans f6').trans f7'⟩
    · intro k hk
      have e : (x ∘ ⇑(ρ * π)) k = z (π k) := by rw [hzx]; rfl
      rw [e]
      by_cases c : j < k
      · have := h7 (k - (j + 1)) (by rw [View.subvec_size]; omega)
        rw [View.subvec_vat hv _ _ (by omega), show j + 1 + (k - (j + 1)) = k by omega] at this
        rw [this]
        have q := phi (k - (j + 1)) (by omega)
        rw [show j + 1 + (k - (j + 1)) = k by omega] at q
        rw [q, Function.comp]
        beta_reduce
        rw [Function.comp, P0 _ (by omega)]
      · rw [f7 _ ?_, H6 k hk]
        · by_cases c' : k = j
          · subst c'; rw [pj, Function.comp, P0 _ le_rfl]
          · rw [plo k (by omega)]; rfl
        · rw [View.foot_vec (View.subvec_isVec _ _ _)]
          rintro ⟨l, hl, e⟩
          rw [View.subvec_size] at hl
          rw [View.subvec_vat hv _ _ hl] at e
          have := View.vat_inj hv hw hk (by omega) e
          omega
    · have e : x ∘ ⇑(ρ * π) = z ∘ π := by rw [hzx]; rfl
      rw [e]
      intro p q hpq hqn
      show leq asc (z (π p)) (z (π q))
      have hq0 : j < q → ∃ k, k < n - j - 1 ∧ q = j + 1 + k := fun h => ⟨q - (j + 1), by omega, by omega⟩
      have top : j < q → leq asc (z j) (z (π q)) := by
        intro h
        obtain ⟨k, hk, rfl⟩ := hq0 h
        have := P1.lt hk
        rw [phi k hk]; exact zhi _ (by omega) (by omega)
      have bot : p < j → leq asc (z (π p)) (z j) := by
        intro h
        rw [plo p h]; exact zlo _ (P0.lt h)
      rcases Nat.lt_trichotomy p j with c | c | c
      · rcases Nat.lt_trichotomy q j with d | d | d
        · rw [plo p c, plo q d]
          have := s0 p q hpq d
          simpa using this
        · subst d; rw [pj]; exact bot c
        · exact (bot c).trans (top d)
      · subst c; rw [pj]; exact top hpq
      · obtain ⟨k, hk, rfl⟩ := hq0 (by omega)
        have := s1 (p - (j + 1)) k (by omega) hk
        have q' := phi (p - (j + 1)) (by omega)
        rw [show j + 1 + (p - (j + 1)) = p by omega] at q'
        rw [phi k hk, q']
        simp only [Function.comp] at this
        rw [P0 _ (by omega), P0 _ (by omega)] at this
        exact this

/-! ## Selection sort with eigenvectors -/

theorem vecMinmax_spec {asc : Bool} {m : Mem α} {X : View} {x : Nat → α} (hs : 0 < X.size) (h : HoldsV m X x) :
    Runs (vecMinmax asc m X) (fun r => r < X.size ∧ ∀ k, k < X.size → leq asc (x r) (x k)) := by
  unfold vecMinmax
  refine Runs.rd_bind (h 0 hs) ?_
  refine Runs.bind (P := fun r : Nat × α × Nat => r.2.2 < X.size ∧ r.2.1 = x r.2.2 ∧
    ∀ k, k < X.size → leq asc (x r.2.2) (x k)) ?_ ?_
  · refine Runs.forUp1 (fun n (st : α × Nat) => st.2 < n ∧ st.1 = x st.2 ∧ ∀ k, k < n → leq asc (x st.2) (x k)) hs
      ⟨by simp, rfl, ?_⟩ ?_ (fun st h => h)
    · intro k hk
      have : k = 0 := by omega
      subst this; exact leq.refl _ _
    · rintro n ⟨c, ix⟩ hn hns ⟨h1, h2, h3⟩
      dsimp only at h1 h2 h3
      refine Runs.rd_bind (h n hns) ?_
      dsimp only
      split
      · rename_i hb
        refine Runs.pure ⟨by simp, rfl, fun k hk => ?_⟩
        have hb' := before_leq hb
        rw [h2] at hb'
        by_cases c : k = n
        · subst c; exact leq.refl _ _
        · exact hb'.trans (h3 k (by omega))
      · rename_i hb
        refine Runs.pure ⟨by dsimp only; omega, h2, fun k hk => ?_⟩
        by_cases c : k = n
        · subst c
          have := not_before hb
          rwa [h2] at this
        · exact h3 k (by omega)
  · rintro ⟨_, c, ix⟩ ⟨h1, -, h3⟩
    exact Runs.pure ⟨h1, h3⟩

theorem swapAt_spec {m : Mem α} {X : View} {f : Nat → α} (hv : X.isVec) (hw : X.WF) (h : HoldsV m X f) {p q : Nat}
    (hp : p < X.size) (hq : q < X.size) (hpq : p ≠ q) :
    Runs (swapAt m X p q) (fun m' => HoldsV m' X (f ∘ Equiv.swap p q) ∧ Frame X.foot m m') := by
  unfold swapAt
  refine Runs.rd_bind (h p hp) ?_
  refine Runs.rd_bind (h q hq) ?_
  refine (h.wr hv hw hp (f q)).bind ?_
  rintro m1 ⟨h1, f1⟩
  refine (h1.wr hv hw hq (f p)).mono ?_
  rintro m2 ⟨h2, f2⟩
  rw [update_swap hpq] at h2
  exact ⟨h2, f1.trans f2⟩

theorem swapLine_spec {col : Bool} {m : Mem α} {U : View} {u : Nat → Nat → α} (hw : U.WF) (h : Holds m U u)
    {p q : Nat} (hp : p < nLines col U) (hq : q < nLines col U) (hpq : p ≠ q) :
    Runs (swapLine col m U p q) (fun m' => Holds m' U (permLines col (Equiv.swap q p) u) ∧ Frame U.foot m m') := by
  unfold swapLine
  split
  · rename_i h0
    have : U.rows = 0 ∨ U.cols = 0 := by simpa [View.size] using h0
    exact Runs.pure ⟨fun i j hi hj => by omega, Frame.refl _ _⟩
  · rename_i h0
    have := swapLines_spec hw h hp hq
    unfold swapLines at this
    have hl : lenLines col U ≠ 0 := by
      intro e
      apply h0
      cases col <;> simp [lenLines] at e <;> simp [View.size, e]
    rw [if_neg (by simp [hpq, hl]), if_neg (by omega)] at this
    exact this

/-- Footprint of an optional matrix. -/
def ofoot (U : Option View) : Set Nat := match U with | some U => U.foot | none => ∅

/-- An optional matrix has at least `N` lines and holds `u` with its lines permuted. -/
def OHolds (col : Bool) (N : Nat) (m : Mem α) (U : Option View) (u : Nat → Nat → α) (σ : Equiv.Perm Nat) : Prop :=
  ∀ U', U = some U' → U'.WF ∧ N ≤ nLines col U' ∧ Holds m U' (permLines col σ u)

/-- The same for the argument `C`, whose elements are permuted if it is a vector and else its columns. -/
def CHolds (N : Nat) (m : Mem α) (C : Option View) (cv : Nat → α) (cm : Nat → Nat → α) (σ : Equiv.Perm Nat) : Prop :=
  ∀ C', C = some C' → C'.WF ∧ if C'.isVec then N ≤ C'.size ∧ HoldsV m C' (cv ∘ σ) else
    N ≤ C'.cols ∧ Holds m C' (permLines true σ cm)

omit [LinearOrder α] in
theorem OHolds.frame {col : Bool} {N : Nat} {m m' : Mem α} {U : Option View} {u : Nat → Nat → α} {σ : Equiv.Perm Nat}
    {S : Set Nat} (h : OHolds col N m U u σ) (hf : Frame S m m') (hd : Disjoint (ofoot U) S) : OHolds col N m' U u σ := by
  intro U' e
  obtain ⟨h1, h2, h3⟩ := h U' e
  subst e
  exact ⟨h1, h2, h3.frame hf hd⟩

omit [LinearOrder α] in
theorem CHolds.frame {N : Nat} {m m' : Mem α} {C : Option View} {cv : Nat → α} {cm : Nat → Nat → α}
    {σ : Equiv.Perm Nat} {S : Set Nat} (h : CHolds N m C cv cm σ) (hf : Frame S m m') (hd : Disjoint (ofoot C) S) :
    CHolds N m' C cv cm σ := by
  intro C' e
  obtain ⟨h1, h2⟩ := h C' e
  subst e
  refine ⟨h1, ?_⟩
  split
  · rename_i hv
    rw [if_pos hv] at h2
    exact ⟨h2.1, h2.2.frame hv hf hd⟩
  · rename_i hv
    rw [if_neg hv] at h2
    exact ⟨h2.1, h2.2.frame hf hd⟩

theorem OHolds.swap {col : Bool} {N : Nat} {m : Mem α} {U : Option View} {u : Nat → Nat → α} {σ : Equiv.Perm Nat}
    (h : OHolds col N m U u σ) {p q : Nat} (hp : p < N) (hq : q < N) (hpq : p ≠ q) :
    Runs (match U with | some U => swapLine col m U p q | none => pure m) (fun m' =>
      OHolds col N m' U u (σ * Equiv.swap q p) ∧ Frame (ofoot U) m m') := by
  cases U with
  | none => exact Runs.pure ⟨by simp [OHolds], Frame.refl _ _⟩
  | some U =>
    obtain ⟨h1, h2, h3⟩ := h U rfl
    refine (swapLine_spec h1 h3 (by omega) (by omega) hpq).mono ?_
    rintro m' ⟨h4, f4⟩
    refine ⟨?_, f4⟩
    rintro U' ⟨⟩
    rw [permLines_mul] at h4
    exact ⟨h1, h2, h4⟩

theorem CHolds.swap {N : Nat} {m : Mem α} {C : Option View} {cv : Nat → α} {cm : Nat → Nat → α} {σ : Equiv.Perm Nat}
    (h : CHolds N m C cv cm σ) {p q : Nat} (hp : p < N) (hq : q < N) (hpq : p ≠ q) :
    Runs (match C with
      | some C => if C.isVec then swapAt m C q p else swapLine true m C p q
      | none => pure m) (fun m' =>
      CHolds N m' C cv cm (σ * Equiv.swap q p) ∧ Frame (ofoot C) m m') := by
  cases C with
  | none => exact Runs.pure ⟨by simp [CHolds], Frame.refl _ _⟩
  | some C =>
    obtain ⟨h1, h2⟩ := h C rfl
    dsimp only
    by_cases hv : C.isVec
    · rw [if_pos hv] at h2 ⊢
      refine (swapAt_spec hv h1 h2.2 (by omega) (by omega) (Ne.symm hpq)).mono ?_
      rintro m' ⟨h4, f4⟩
      refine ⟨?_, f4⟩
      rintro C' ⟨⟩
      refine ⟨h1, ?_⟩
      rw [if_pos hv]
      exact ⟨h2.1, h4⟩
    · rw [if_neg hv] at h2 ⊢
      refine (swapLine_spec h1 h2.2 (by unfold nLines; simp only [if_true]; omega)
        (by unfold nLines; simp only [if_true]; omega) hpq).mono ?_
      rintro m' ⟨h4, f4⟩
      refine ⟨?_, f4⟩
      rintro C' ⟨⟩
      refine ⟨h1, ?_⟩
      rw [permLines_mul] at h4
      rw [if_neg hv]
      exact ⟨h2.1, h4⟩

/-- State of the selection sort: everything permuted by `σ`, the first `k` eigenvalues in place. -/
structure EigInv (asc : Bool) (D : View) (U V C : Option View) (d : Nat → α) (u v : Nat → Nat → α) (cv : Nat → α)
    (cm : Nat → Nat → α) (k : Nat) (m : Mem α) (σ : Equiv.Perm Nat) : Prop where
  perm : PermN D.size σ
  hD : HoldsV m D (d ∘ σ)
  hU : OHolds true D.size m U u σ
  hV : OHolds false D.size m V v σ
  hC : CHolds D.size m C cv cm σ
  ord : ∀ p q, p < k → p < q → q < D.size → leq asc (d (σ p)) (d (σ q))

/-- The arguments are disjoint. -/
structure EigDisj (D : View) (U V C : Option View) : Prop where
  DU : Disjoint D.foot (ofoot U)
  DV : Disjoint D.foot (ofoot V)
  DC : Disjoint D.foot (ofoot C)
  UV : Disjoint (ofoot U) (ofoot V)
  UC : Disjoint (ofoot U) (ofoot C)
  VC : Disjoint (ofoot V) (ofoot C)

theorem sortEigenStep_spec {asc : Bool} {D : View} {U V C : Option View} {d : Nat → α} {u v : Nat → Nat → α}
    {cv : Nat → α} {cm : Nat → Nat → α} {k : Nat} {m : Mem α} {σ : Equiv.Perm Nat} (hv : D.isVec) (hw : D.WF)
    (hd : EigDisj D U V C) (hk : k < D.size) (hI : EigInv asc D U V C d u v cv cm k m σ) :
    Runs (sortEigenStep asc D U V C k m) (fun m' => (∃ σ', EigInv asc D U V C d u v cv cm (k + 1) m' σ') ∧
      Frame (D.foot ∪ ofoot U ∪ ofoot V ∪ ofoot C) m m') := by
  obtain ⟨i1, i2, i3, i4, i5, i6⟩ := hI
  unfold sortEigenStep
  refine (vecMinmax_spec (asc := asc) (by rw [View.subvec_size]; omega) (i2.subvec hv (show k + (D.size - k) ≤ D.size by omega))).bind ?_
  rintro pk ⟨h1, h2⟩
  rw [View.subvec_size] at h1 h2
  by_cases h0 : pk = 0
  · rw [if_neg (by simpa using h0)]
    subst h0
    refine Runs.pure ⟨⟨σ, i1, i2, i3, i4, i5, ?_⟩, Frame.refl _ _⟩
    intro p q hp hpq hq
    by_cases c : p = k
    · subst c
      have := h2 (q - p) (by omega)
      simp only [Function.comp, Nat.add_zero, show p + (q - p) = q by omega] at this
      exact this
    · exact i6 p q (by omega) hpq hq
  · rw [if_pos h0]
    have hne : k + pk ≠ k := by omega
    have S : PermN D.size (Equiv.swap k (k + pk)) := PermN.swap hk (by omega)
    refine (swapAt_spec hv hw i2 hk (show k + pk < D.size by omega) hne.symm).bind ?_
    rintro m1 ⟨g1, f1⟩
    refine ((i3.frame f1 hd.DU.symm).swap (show k + pk < D.size by omega) hk hne).bind ?_
    rintro m2 ⟨g2, f2⟩
    refine (((i4.frame f1 hd.DV.symm).frame f2 hd.UV.symm).swap (show k + pk < D.size by omega) hk hne).bind ?_
    rintro m3 ⟨g3, f3⟩
    refine ((((i5.frame f1 hd.DC.symm).frame f2 hd.UC.symm).frame f3 hd.VC.symm).swap
      (show k + pk < D.size by omega) hk hne).mono ?_
    rintro m4 ⟨g4, f4⟩
    refine ⟨⟨σ * Equiv.swap k (k + pk), i1.mul S, ?_, ?_, ?_, g4, ?_⟩, ?_⟩
    · exact ((g1.frame hv f2 hd.DU).frame hv f3 hd.DV).frame hv f4 hd.DC
    · exact (g2.frame f3 hd.UV).frame f4 hd.UC
    · exact g3.frame f4 hd.VC
    · intro p q hp hpq hq
      simp only [Equiv.Perm.mul_apply]
      by_cases c : p = k
      · subst c
        rw [Equiv.swap_apply_left]
        have hq' : p ≤ Equiv.swap p (p + pk) q := by
          rw [Equiv.swap_apply_def]; split_ifs <;> omega
        have hq2 := S.lt hq
        have := h2 (Equiv.swap p (p + pk) q - p) (by omega)
        simp only [Function.comp, show p + (Equiv.swap p (p + pk) q - p) = Equiv.swap p (p + pk) q by omega] at this
        exact this
      · rw [Equiv.swap_apply_of_ne_of_ne (by omega) (by omega)]
        have hq' : p < Equiv.swap k (k + pk) q := by
          rw [Equiv.swap_apply_def]; split_ifs <;> omega
        exact i6 p _ (by omega) hq' (S.lt hq)
    · refine (((f1.mono ?_).trans (f2.mono ?_)).trans (f3.mono ?_)).trans (f4.mono ?_)
      · exact fun x hx => Or.inl (Or.inl (Or.inl hx))
      · exact fun x hx => Or.inl (Or.inl (Or.inr hx))
      · exact fun x hx => Or.inl (Or.inr hx)
      · exact fun x hx => Or.inr hx

end order

end Armas
