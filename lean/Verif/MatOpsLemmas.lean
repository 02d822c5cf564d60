import Verif.MatOps
import Verif.Tri
import Verif.SymmLemmas

/-!
# Element-wise matrix operations: lemmas
-/

namespace Armas

open Classical

variable {α : Type}

/-- One element of the part was written. -/
theorem UpdOn.set {m0 m : Mem α} {V : View} {T S : Nat → Nat → Prop} {f g : Nat → Nat → α}
    (h : UpdOn m0 V T f g S m) (hw : V.WF) {i j : Nat} (hi : i < V.rows) (hj : j < V.cols) (ht : T i j)
    {v : α} (hv : v = g i j) :
    UpdOn m0 V T f g (fun p q => S p q ∨ (p = i ∧ q = j)) (m.set (V.at' i j) v) := by
  refine ⟨fun p q hp hq htt => ?_, h.frame.trans (Frame.set (S := V.footOn T) ⟨i, j, hi, hj, ht, rfl⟩ _)⟩
  beta_reduce
  by_cases e : p = i ∧ q = j
  · obtain ⟨rfl, rfl⟩ := e; simp [hv]
  · rw [Mem.set_ne _ _ (fun e' => e (View.at_inj hw hp hq hi hj e')), h.hold p q hp hq htt]
    simp [e]

theorem UpdOn.at_old {m0 m : Mem α} {V : View} {T S : Nat → Nat → Prop} {f g : Nat → Nat → α}
    (h : UpdOn m0 V T f g S m) {i j : Nat} (hi : i < V.rows) (hj : j < V.cols) (ht : T i j)
    (hS : ¬ S i j) : m (V.at' i j) = some (f i j) := h.old i j hi hj ⟨ht, hS⟩

theorem UpdOn.at_new {m0 m : Mem α} {V : View} {T S : Nat → Nat → Prop} {f g : Nat → Nat → α}
    (h : UpdOn m0 V T f g S m) {i j : Nat} (hi : i < V.rows) (hj : j < V.cols) (ht : T i j)
    (hS : S i j) : m (V.at' i j) = some (g i j) := h.new i j hi hj ⟨ht, hS⟩

theorem UpdOn.at_some {m0 m : Mem α} {V : View} {T S : Nat → Nat → Prop} {f g : Nat → Nat → α}
    (h : UpdOn m0 V T f g S m) {i j : Nat} (hi : i < V.rows) (hj : j < V.cols) (ht : T i j) :
    ∃ v, m (V.at' i j) = some v := ⟨_, h.hold i j hi hj ht⟩

/-! ## Loops over columns -/

theorem colLoop {vop : Mem α → View → Nat → Res (Mem α)} {φ : α → α}
    (hv : ∀ (m : Mem α) (X : View) (x : Nat → α), X.isVec → X.WF → HoldsV m X x →
      Runs (vop m X X.size) (fun m' => HoldsV m' X (fun k => φ (x k)) ∧ Frame X.foot m m'))
    {m : Mem α} {V : View} {T : Nat → Nat → Prop} {a : Nat → Nat → α} (hw : V.WF) (h : HoldsOn m V T a)
    (r len : Nat → Nat) {c1 : Nat} (hc : c1 ≤ V.cols)
    (hfit : ∀ c, c < c1 → len c = 0 ∨ r c + len c ≤ V.rows)
    (hT : ∀ i j, j < c1 → r j ≤ i → i < r j + len j → T i j) :
    Runs (forUp 0 c1 1 (fun c m => vop m (V.sub (r c) c (len c) 1) (len c)) m) (fun x =>
      UpdOn m V T a (fun i j => φ (a i j)) (fun i j => j < c1 ∧ r j ≤ i ∧ i < r j + len j) x.2) := by
  refine Runs.forUp1 (fun c m' => UpdOn m V T a (fun i j => φ (a i j))
    (fun i j => j < c ∧ r j ≤ i ∧ i < r j + len j) m') (by omega)
    ((UpdOn.init h _).congr (fun i j _ _ _ => by omega)) ?_ (fun st hst => hst)
  rintro c m' - hcc hu
  have hold : HoldsV m' (V.sub (r c) c (len c) 1) (fun k => a (r c + k) c) := by
    rcases hfit c hcc with h0 | h0
    · intro k hk; rw [View.sub_col_size] at hk; omega
    · exact hu.old.col h0 (by omega) (fun i hi => ⟨hT _ _ hcc (by omega) (by omega), by omega⟩)
  have key := hv m' (V.sub (r c) c (len c) 1) _ (Or.inr rfl) (Or.inr (le_refl _)) hold
  rw [View.sub_col_size] at key
  refine key.mono (fun m'' ⟨h1, h2⟩ => ?_)
  rcases hfit c hcc with h0 | h0
  · have : Frame ∅ m' m'' := by
      refine h2.mono ?_
      rintro p ⟨i, j, hi, hj, _⟩
      rw [View.sub_rows] at hi; omega
    have e : m'' = m' := funext (fun p => this p (by simp))
    rw [e]
    refine hu.congr (fun i j _ _ _ => ?_)
    constructor
    · rintro ⟨p1, p2, p3⟩; exact ⟨by omega, p2, p3⟩
    · rintro ⟨p1, p2, p3⟩
      refine ⟨?_, p2, p3⟩
      by_contra hc'
      have : j = c := by omega
      subst this; omega
  · refine (hu.block hw h0 (by omega : c + 1 ≤ V.cols) (fun i j hi hj => ?_) ?_ h2).congr
      (fun i j _ _ _ => ?_)
    · have : c + j = c := by omega
      rw [this]; exact hT _ _ hcc (by omega) (by omega)
    · rw [holdsV_iff (Or.inr rfl)] at h1
      refine h1.congr (fun i j hi hj => ?_)
      have : j = 0 := by rw [View.sub_cols] at hj; omega
      subst this; rfl
    · constructor
      · rintro (⟨p1, p2, p3⟩ | p)
        · exact ⟨by omega, p2, p3⟩
        · have : j = c := by omega
          subst this
          exact ⟨by omega, p.1, p.2.1⟩
      · rintro ⟨p1, p2, p3⟩
        by_cases e : j = c
        · right; subst e; exact ⟨p2, p3, le_refl _, by omega⟩
        · left; exact ⟨by omega, p2, p3⟩

theorem vecScale_op [CommRing α] (alpha : α) (m : Mem α) (X : View) (x : Nat → α) (hX : X.isVec)
    (hXw : X.WF) (hx : HoldsV m X x) :
    Runs (vecScale m X alpha X.size) (fun m' => HoldsV m' X (fun k => alpha * x k) ∧ Frame X.foot m m') :=
  (vecScale_spec alpha hX hXw (le_refl _) hx).mono (fun _ h =>
    ⟨h.1.congr (fun k hk => by rw [if_pos hk, mul_comm]), h.2⟩)

theorem vecAdd_op [Add α] (alpha : α) (m : Mem α) (X : View) (x : Nat → α) (hX : X.isVec)
    (hXw : X.WF) (hx : HoldsV m X x) :
    Runs (vecAdd m X alpha X.size) (fun m' => HoldsV m' X (fun k => x k + alpha) ∧ Frame X.foot m m') := by
  unfold vecAdd
  refine Runs.bind (Runs.forUp
    (fun i m' => UpdV m X x (fun k => x k + alpha) (fun l => l < i) m' ∧ i ≤ X.size)
    (by omega) ⟨UpdV.init_lt hx _, by omega⟩ ?_ (Q := fun p => UpdV m X x
      (fun k => x k + alpha) (fun l => l < p.1) p.2 ∧ p.1 ≤ X.size ∧ X.size - 3 ≤ p.1)
    (fun k st h1 _ h => ⟨h.1, h.2, h1⟩)) ?_
  · rintro j m' - hj ⟨h, -⟩
    refine Runs.rd_bind (h.old (by omega) (by omega)) ?_
    refine Runs.wr_bind (h.old (by omega) (by omega)) ?_
    have h := h.set_lt hX hXw (by omega) (v := x (j + 0) + alpha) rfl
    refine Runs.rd_bind (h.old (by omega) (by omega)) ?_
    refine Runs.wr_bind (h.old (by omega) (by omega)) ?_
    have h := h.set_lt hX hXw (by omega) (v := x (j + 1) + alpha) rfl
    refine Runs.rd_bind (h.old (by omega) (by omega)) ?_
    refine Runs.wr_bind (h.old (by omega) (by omega)) ?_
    have h := h.set_lt hX hXw (by omega) (v := x (j + 2) + alpha) rfl
    refine Runs.rd_bind (h.old (by omega) (by omega)) ?_
    refine Runs.wr (h.old (by omega) (by omega)) ?_
    have h := h.set_lt hX hXw (by omega) (v := x (j + 3) + alpha) rfl
    exact ⟨h, by omega⟩
  · rintro ⟨i, m'⟩ ⟨h, h1, h2⟩
    refine Runs.switchTail
      (fun i m' => UpdV m X x (fun k => x k + alpha) (fun l => l < i) m')
      h1 h2 h ?_ (fun m' h => ⟨?_, h.frame⟩)
    · intro j m' _ hj h
      refine Runs.rd_bind (h.old (by omega) (by omega)) ?_
      refine Runs.wr (h.old (by omega) (by omega)) ?_
      exact h.set_lt hX hXw (by omega) rfl
    · exact h.done (le_refl _)

/-! ## Matrix sum -/

/-- A statement that brings element `(i,j)` to its new value. -/
def StepOK (m0 : Mem α) (A : View) (T : Nat → Nat → Prop) (a g : Nat → Nat → α)
    (f : Nat → Nat → Mem α → Res (Mem α)) : Prop :=
  ∀ (S : Nat → Nat → Prop) (m : Mem α) (i j : Nat), i < A.rows → j < A.cols → T i j → ¬ S i j →
    UpdOn m0 A T a g S m → Runs (f i j m) (UpdOn m0 A T a g (fun p q => S p q ∨ (p = i ∧ q = j)))

theorem StepOK.row4 {m0 : Mem α} {A : View} {T : Nat → Nat → Prop} {a g : Nat → Nat → α}
    {f : Nat → Nat → Mem α → Res (Mem α)} (hf : StepOK m0 A T a g f) {S : Nat → Nat → Prop} {m : Mem α}
    {i j : Nat} (hi : i < A.rows) (hj : j + 3 < A.cols) (hT : ∀ q, j ≤ q → q < j + 4 → T i q)
    (hS : ∀ q, j ≤ q → q < j + 4 → ¬ S i q) (h : UpdOn m0 A T a g S m) :
    Runs (plusRow4 f j i m) (UpdOn m0 A T a g (fun p q => S p q ∨ (p = i ∧ j ≤ q ∧ q < j + 4))) := by
  unfold plusRow4
  refine (hf S m i (j + 0) hi (by omega) (hT _ (by omega) (by omega)) (hS _ (by omega) (by omega)) h).bind
    (fun m1 h1 => ?_)
  refine (hf _ m1 i (j + 1) hi (by omega) (hT _ (by omega) (by omega))
    (by rintro (c | c)
        · exact hS _ (by omega) (by omega) c
        · omega) h1).bind (fun m2 h2 => ?_)
  refine (hf _ m2 i (j + 2) hi (by omega) (hT _ (by omega) (by omega))
    (by rintro ((c | c) | c)
        · exact hS _ (by omega) (by omega) c
        · omega
        · omega) h2).bind (fun m3 h3 => ?_)
  refine (hf _ m3 i (j + 3) hi (by omega) (hT _ (by omega) (by omega))
    (by rintro (((c | c) | c) | c)
        · exact hS _ (by omega) (by omega) c
        · omega
        · omega
        · omega) h3).mono (fun m4 h4 => h4.congr (fun p q _ _ _ => ?_))
  constructor
  · rintro ((((c | c) | c) | c) | c)
    · exact Or.inl c
    all_goals right; omega
  · rintro (c | ⟨c1, c2, c3⟩)
    · exact Or.inl (Or.inl (Or.inl (Or.inl c)))
    · have : q = j + 0 ∨ q = j + 1 ∨ q = j + 2 ∨ q = j + 3 := by omega
      rcases this with e | e | e | e
      · exact Or.inl (Or.inl (Or.inl (Or.inr ⟨c1, e⟩)))
      · exact Or.inl (Or.inl (Or.inr ⟨c1, e⟩))
      · exact Or.inl (Or.inr ⟨c1, e⟩)
      · exact Or.inr ⟨c1, e⟩

theorem maddLower_spec {m0 : Mem α} {A : View} {a g : Nat → Nat → α}
    {f : Nat → Nat → Mem α → Res (Mem α)} (hf : StepOK m0 A (fun i j => j ≤ i) a g f)
    (h : HoldsOn m0 A (fun i j => j ≤ i) a) :
    Runs (maddLower f m0 A.rows A.cols) (fun m' => HoldsOn m' A (fun i j => j ≤ i) g ∧
      Frame (A.footOn (fun i j => j ≤ i)) m0 m') := by
  unfold maddLower
  refine Runs.bind (Runs.forUp (fun j m' => UpdOn m0 A (fun i j => j ≤ i) a g (fun _ q => q < j) m' ∧
    j ≤ A.cols) (by omega) ⟨(UpdOn.init h g).congr (by intros; omega), by omega⟩ ?_ (Q := fun x =>
      UpdOn m0 A (fun i j => j ≤ i) a g (fun _ q => q < x.1) x.2 ∧ x.1 ≤ A.cols)
    (fun k st _ _ hh => hh)) ?_
  · rintro j m - hj ⟨hu, -⟩
    refine Runs.bind (Runs.forUp1 (fun k m' => UpdOn m0 A (fun i j => j ≤ i) a g
      (fun p q => q < j ∨ (q < k ∧ p < j + 3)) m') (by omega)
      (hu.congr (fun p q _ _ ht => by omega)) ?_ (Q := fun x => UpdOn m0 A (fun i j => j ≤ i) a g
      (fun p q => q < j ∨ (q < j + 3 ∧ p < j + 3)) x.2) (fun st hst => hst)) ?_
    · intro k m1 hk hk' hu1
      refine Runs.bind (P := fun x => UpdOn m0 A (fun i j => j ≤ i) a g
        (fun p q => q < j ∨ (q < k + 1 ∧ p < j + 3)) x.2) ?_ (fun x hx => Runs.pure hx)
      by_cases hkn : k ≤ min (j + 3) A.rows
      · refine Runs.forUp1 (fun i m' => UpdOn m0 A (fun i j => j ≤ i) a g
          (fun p q => q < j ∨ (q < k ∧ p < j + 3) ∨ (q = k ∧ p < i)) m') hkn
          (hu1.congr (fun p q _ _ ht => by omega)) ?_
          (fun st hst => hst.congr (fun p q hp _ ht => by omega))
        intro i m2 hi hi' hu2
        exact (hf _ m2 i k (by omega) (by omega) hi (by omega) hu2).mono (fun m3 h3 =>
          h3.congr (fun p q _ _ _ => by omega))
      · rw [forUp_eq, if_neg (by omega)]
        exact Runs.ok (hu1.congr (fun p q hp _ ht => by omega))
    · rintro ⟨_, m1⟩ hu1
      dsimp only at hu1 ⊢
      refine Runs.bind (P := fun x => UpdOn m0 A (fun i j => j ≤ i) a g (fun _ q => q < j + 4) x.2) ?_
        (fun x hx => Runs.pure ⟨hx, by omega⟩)
      by_cases hjn : j + 3 ≤ A.rows
      · refine Runs.forUp1 (fun i m' => UpdOn m0 A (fun i j => j ≤ i) a g
          (fun p q => q < j ∨ (q < j + 4 ∧ p < i)) m') hjn
          (hu1.congr (fun p q _ _ ht => by omega)) ?_
          (fun st hst => hst.congr (fun p q hp _ ht => by omega))
        intro i m2 hi hi' hu2
        exact (hf.row4 (by omega) (by omega) (by intros; omega) (by intros; omega) hu2).mono
          (fun m3 h3 => h3.congr (fun p q _ _ _ => by omega))
      · rw [forUp_eq, if_neg (by omega)]
        exact Runs.ok (hu1.congr (fun p q hp _ ht => by omega))
  · rintro ⟨j, m⟩ ⟨hu, hj⟩
    dsimp only at hu hj ⊢
    refine Runs.bind (Runs.forUp1 (fun k m' => UpdOn m0 A (fun i j => j ≤ i) a g (fun _ q => q < k) m')
      hj hu ?_ (Q := fun x => UpdOn m0 A (fun i j => j ≤ i) a g (fun _ q => q < A.cols) x.2)
      (fun st hst => hst)) (fun x hx => Runs.pure ⟨hx.all (by intros; omega), hx.frame⟩)
    intro k m1 hk hk' hu1
    refine Runs.bind (P := fun x => UpdOn m0 A (fun i j => j ≤ i) a g
        (fun p q => q < k + 1) x.2) ?_ (fun x hx => Runs.pure hx)
    by_cases hkn : k ≤ A.rows
    · refine Runs.forUp1 (fun i m' => UpdOn m0 A (fun i j => j ≤ i) a g
          (fun p q => q < k ∨ (q = k ∧ p < i)) m') hkn
          (hu1.congr (fun p q _ _ ht => by omega)) ?_
          (fun st hst => hst.congr (fun p q hp _ ht => by omega))
      intro i m2 hi hi' hu2
      exact (hf _ m2 i k (by omega) (by omega) hi (by omega) hu2).mono (fun m3 h3 =>
          h3.congr (fun p q _ _ _ => by omega))
    · rw [forUp_eq, if_neg (by omega)]
      exact Runs.ok (hu1.congr (fun p q hp _ ht => by omega))

theorem maddUpper_spec {m0 : Mem α} {A : View} {a g : Nat → Nat → α}
    {f : Nat → Nat → Mem α → Res (Mem α)} (hf : StepOK m0 A (fun i j => i ≤ j) a g f)
    (h : HoldsOn m0 A (fun i j => i ≤ j) a) :
    Runs (maddUpper f m0 A.rows A.cols) (fun m' => HoldsOn m' A (fun i j => i ≤ j) g ∧
      Frame (A.footOn (fun i j => i ≤ j)) m0 m') := by
  unfold maddUpper
  refine Runs.bind (Runs.forUp (fun j m' => UpdOn m0 A (fun i j => i ≤ j) a g (fun _ q => q < j) m' ∧
    j ≤ A.cols) (by omega) ⟨(UpdOn.init h g).congr (by intros; omega), by omega⟩ ?_ (Q := fun x =>
      UpdOn m0 A (fun i j => i ≤ j) a g (fun _ q => q < x.1) x.2 ∧ x.1 ≤ A.cols)
    (fun k st _ _ hh => hh)) ?_
  · rintro j m - hj ⟨hu, -⟩
    refine Runs.bind (Runs.forUp1 (fun i m' => UpdOn m0 A (fun i j => i ≤ j) a g
      (fun p q => q < j ∨ (q < j + 4 ∧ p < i)) m') (by omega)
      (hu.congr (fun p q _ _ ht => by omega)) ?_ (Q := fun x => UpdOn m0 A (fun i j => i ≤ j) a g
      (fun p q => q < j ∨ (q < j + 4 ∧ p < j + 1)) x.2)
        (fun st hst => hst.congr (fun p q hp _ ht => by omega))) ?_
    · intro i m2 hi hi' hu2
      exact (hf.row4 (by omega) (by omega) (by intros; omega) (by intros; omega) hu2).mono
          (fun m3 h3 => h3.congr (fun p q _ _ _ => by omega))
    · rintro ⟨_, m1⟩ hu1
      dsimp only at hu1 ⊢
      refine Runs.bind (P := fun x => UpdOn m0 A (fun i j => i ≤ j) a g (fun _ q => q < j + 4) x.2) ?_
        (fun x hx => Runs.pure ⟨hx, by omega⟩)
      by_cases hjn : j + 1 ≤ min (j + 4) A.rows
      · refine Runs.forUp1 (fun i m' => UpdOn m0 A (fun i j => i ≤ j) a g
          (fun p q => q < j ∨ (q < j + 4 ∧ p < i)) m') hjn
          (hu1.congr (fun p q _ _ ht => by omega)) ?_
          (fun st hst => hst.congr (fun p q hp _ ht => by omega))
        intro i m2 hi hi' hu2
        refine Runs.bind (Runs.forUp1 (fun k m' => UpdOn m0 A (fun i j => i ≤ j) a g
          (fun p q => q < j ∨ (q < j + 4 ∧ p < i) ∨ (p = i ∧ q < k)) m') (by omega)
          (hu2.congr (fun p q _ _ ht => by omega)) ?_ (Q := fun x => UpdOn m0 A (fun i j => i ≤ j) a g
          (fun p q => q < j ∨ (q < j + 4 ∧ p < i + 1)) x.2)
          (fun st hst => hst.congr (fun p q _ _ ht => by omega))) (fun x hx => Runs.pure hx)
        intro k m3 hk hk' hu3
        exact (hf _ m3 i k (by omega) (by omega) hk (by omega) hu3).mono (fun m3 h3 =>
          h3.congr (fun p q _ _ _ => by omega))
      · rw [forUp_eq, if_neg (by omega)]
        exact Runs.ok (hu1.congr (fun p q hp _ ht => by omega))
  · rintro ⟨j, m⟩ ⟨hu, hj⟩
    dsimp only at hu hj ⊢
    refine Runs.bind (Runs.forUp1 (fun k m' => UpdOn m0 A (fun i j => i ≤ j) a g (fun _ q => q < k) m')
      hj hu ?_ (Q := fun x => UpdOn m0 A (fun i j => i ≤ j) a g (fun _ q => q < A.cols) x.2)
      (fun st hst => hst)) (fun x hx => Runs.pure ⟨hx.all (by intros; omega), hx.frame⟩)
    intro k m1 hk hk' hu1
    refine Runs.bind (P := fun x => UpdOn m0 A (fun i j => i ≤ j) a g
        (fun p q => q < k + 1) x.2) ?_ (fun x hx => Runs.pure hx)
    refine Runs.forUp1 (fun i m' => UpdOn m0 A (fun i j => i ≤ j) a g
          (fun p q => q < k ∨ (q = k ∧ p < i)) m') (by omega)
          (hu1.congr (fun p q _ _ ht => by omega)) ?_
          (fun st hst => hst.congr (fun p q hp _ ht => by omega))
    intro i m2 hi hi' hu2
    exact (hf _ m2 i k (by omega) (by omega) (by omega) (by omega) hu2).mono (fun m3 h3 =>
          h3.congr (fun p q _ _ _ => by omega))

theorem maddAll_spec {m0 : Mem α} {A : View} {a g : Nat → Nat → α}
    {f : Nat → Nat → Mem α → Res (Mem α)} (hf : StepOK m0 A (fun _ _ => True) a g f)
    (h : Holds m0 A a) :
    Runs (maddAll f m0 A.rows A.cols) (fun m' => Holds m' A g ∧ Frame A.foot m0 m') := by
  unfold maddAll
  refine Runs.bind (Runs.forUp (fun j m' => UpdOn m0 A (fun _ _ => True) a g (fun _ q => q < j) m' ∧
    j ≤ A.cols) (by omega) ⟨(UpdOn.init (HoldsOn.of_holds h) g).congr (by intros; omega), by omega⟩ ?_
      (Q := fun x => UpdOn m0 A (fun _ _ => True) a g (fun _ q => q < x.1) x.2 ∧ x.1 ≤ A.cols)
    (fun k st _ _ hh => hh)) ?_
  · rintro j m - hj ⟨hu, -⟩
    refine Runs.bind (Runs.forUp1 (fun i m' => UpdOn m0 A (fun _ _ => True) a g
      (fun p q => q < j ∨ (q < j + 4 ∧ p < i)) m') (by omega)
      (hu.congr (fun p q _ _ ht => by omega)) ?_ (Q := fun x => UpdOn m0 A (fun _ _ => True) a g
      (fun p q => q < j + 4) x.2)
        (fun st hst => hst.congr (fun p q hp _ ht => by omega))) (fun x hx => Runs.pure ⟨hx, by omega⟩)
    intro i m2 hi hi' hu2
    exact (hf.row4 (by omega) (by omega) (by intros; trivial) (by intros; omega) hu2).mono
          (fun m3 h3 => h3.congr (fun p q _ _ _ => by omega))
  · rintro ⟨j, m⟩ ⟨hu, hj⟩
    dsimp only at hu hj ⊢
    refine Runs.bind (Runs.forUp1 (fun k m' => UpdOn m0 A (fun _ _ => True) a g (fun _ q => q < k) m')
      hj hu ?_ (Q := fun x => UpdOn m0 A (fun _ _ => True) a g (fun _ q => q < A.cols) x.2)
      (fun st hst => hst)) (fun x hx => Runs.pure ⟨?_, hx.frame.mono (View.footOn_sub_foot _ _)⟩)
    · intro k m1 hk hk' hu1
      refine Runs.bind (P := fun x => UpdOn m0 A (fun _ _ => True) a g
          (fun p q => q < k + 1) x.2) ?_ (fun x hx => Runs.pure hx)
      refine Runs.forUp1 (fun i m' => UpdOn m0 A (fun _ _ => True) a g
            (fun p q => q < k ∨ (q = k ∧ p < i)) m') (by omega)
            (hu1.congr (fun p q _ _ ht => by omega)) ?_
            (fun st hst => hst.congr (fun p q hp _ ht => by omega))
      intro i m2 hi hi' hu2
      exact (hf _ m2 i k (by omega) (by omega) trivial (by omega) hu2).mono (fun m3 h3 =>
            h3.congr (fun p q _ _ _ => by omega))
    · exact fun i j hi hj => (hx.all (by intros; omega)) i j hi hj trivial

theorem plusAt_step [Mul α] [Add α] {ab : α → α} {trans : Bool} {alpha beta : α} {m0 : Mem α} {A B : View}
    {T : Nat → Nat → Prop} {a b : Nat → Nat → α} (hw : A.WF)
    (hr : A.rows = if trans then B.cols else B.rows) (hc : A.cols = if trans then B.rows else B.cols)
    (hB : HoldsOn m0 B (fun i j => if trans then T j i else T i j) b)
    (hd : Disjoint (B.footOn (fun i j => if trans then T j i else T i j)) (A.footOn T)) :
    StepOK m0 A T a (fun i j => alpha * ab (a i j) + beta * ab (if trans then b j i else b i j))
      (plusAt ab trans alpha A beta B) := by
  intro S m i j hi hj ht hS hu
  unfold plusAt
  have hB' := hB.frame hu.frame hd
  refine Runs.rd_bind (hu.at_old hi hj ht hS) (Runs.rd_bind (v := if trans then b j i else b i j) ?_
    (Runs.wr (hu.at_old hi hj ht hS) (hu.set hw hi hj ht rfl)))
  cases trans
  · exact hB' i j (by simpa [hr] using hi) (by simpa [hc] using hj) (by simpa using ht)
  · exact hB' j i (by simpa [hc] using hj) (by simpa [hr] using hi) (by simpa using ht)

end Armas
