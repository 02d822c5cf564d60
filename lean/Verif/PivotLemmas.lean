import Verif.Pivot
import Verif.Tri
import Verif.Blas1Lemmas
import Mathlib.Logic.Equiv.Basic
import Mathlib.Algebra.Group.End

/-!
# Pivot vectors: lemmas
-/

namespace Armas

open Classical

variable {α : Type}

/-- `X` is a vector of `n` elements of `V`; its element `k` is element `ix k` of `V`. -/
structure IsLine (V X : View) (n : Nat) (ix : Nat → Nat × Nat) : Prop where
  vec : X.isVec
  wf : X.WF
  size : X.size = n
  at_ : ∀ k, k < n → (ix k).1 < V.rows ∧ (ix k).2 < V.cols ∧ X.vat k = V.at' (ix k).1 (ix k).2

theorem IsLine.row {V : View} (hw : V.WF) {r c n : Nat} (hr : r < V.rows) (hc : c + n ≤ V.cols) :
    IsLine V (V.sub r c 1 n) n (fun k => (r, c + k)) := by
  refine ⟨Or.inl rfl, hw.sub (by omega) hc, by simp, fun k hk => ⟨hr, by dsimp only; omega, ?_⟩⟩
  rw [View.isVec.vat_eq (Or.inl rfl) (by simpa using hk), View.sub_rows, if_pos rfl, View.at_sub]; rfl

theorem IsLine.col {V : View} (hw : V.WF) {r c n : Nat} (hr : r + n ≤ V.rows) (hc : c < V.cols) :
    IsLine V (V.sub r c n 1) n (fun k => (r + k, c)) := by
  refine ⟨Or.inr rfl, hw.sub hr (by omega), by simp, fun k hk => ⟨by dsimp only; omega, hc, ?_⟩⟩
  rw [View.isVec.vat_eq (Or.inr rfl) (by simpa using hk)]
  split
  · rename_i h
    rw [View.sub_rows] at h
    have : k = 0 := by omega
    subst this; rw [View.at_sub]; simp
  · rw [View.at_sub]; simp

theorem IsLine.mem {V X : View} {n : Nat} {ix : Nat → Nat × Nat} (h : IsLine V X n ix) {p : Nat} :
    p ∈ X.foot ↔ ∃ k, k < n ∧ p = V.at' (ix k).1 (ix k).2 := by
  rw [View.foot_vec h.vec]
  constructor
  · rintro ⟨k, hk, rfl⟩
    rw [h.size] at hk
    exact ⟨k, hk, (h.at_ k hk).2.2⟩
  · rintro ⟨k, hk, rfl⟩
    exact ⟨k, by rw [h.size]; exact hk, ((h.at_ k hk).2.2).symm⟩

/-- Exchange of two disjoint lines of a matrix. -/
theorem swap_on {m0 m : Mem α} {V X Y : View} {T S : Nat → Nat → Prop} {a b : Nat → Nat → α} {n : Nat}
    {p q : Nat → Nat × Nat} (hw : V.WF) (h : UpdOn m0 V T a b S m)
    (hX : IsLine V X n p) (hY : IsLine V Y n q)
    (hT : ∀ k, k < n → T (p k).1 (p k).2 ∧ T (q k).1 (q k).2)
    (hS : ∀ k, k < n → ¬ S (p k).1 (p k).2 ∧ ¬ S (q k).1 (q k).2)
    (hd : ∀ k l, k < n → l < n → p k ≠ q l)
    (hb : ∀ k, k < n → b (p k).1 (p k).2 = a (q k).1 (q k).2 ∧ b (q k).1 (q k).2 = a (p k).1 (p k).2) :
    Runs (swap m X Y) (fun r => r.1 = 0 ∧ UpdOn m0 V T a b (fun i j => S i j ∨
      ∃ k, k < n ∧ ((i = (p k).1 ∧ j = (p k).2) ∨ (i = (q k).1 ∧ j = (q k).2))) r.2) := by
  unfold swap
  rw [if_neg (not_not.mpr hY.vec), if_neg (not_not.mpr hX.vec),
    if_neg (by rw [hX.size, hY.size]; simp)]
  split
  · rename_i h0
    rw [hX.size, hY.size] at h0
    refine Runs.ok ⟨rfl, h.congr (fun i j _ _ _ => ⟨Or.inl, ?_⟩)⟩
    rintro (hs | ⟨k, hk, _⟩)
    · exact hs
    · omega
  · have hx : HoldsV m X (fun k => a (p k).1 (p k).2) := by
      intro k hk
      rw [hX.size] at hk
      obtain ⟨h1, h2, h3⟩ := hX.at_ k hk
      rw [h3, h.hold _ _ h1 h2 (hT k hk).1]; beta_reduce; rw [if_neg (hS k hk).1]
    have hy : HoldsV m Y (fun k => a (q k).1 (q k).2) := by
      intro k hk
      rw [hY.size] at hk
      obtain ⟨h1, h2, h3⟩ := hY.at_ k hk
      rw [h3, h.hold _ _ h1 h2 (hT k hk).2]; beta_reduce; rw [if_neg (hS k hk).2]
    have hdis : Disjoint X.foot Y.foot := by
      rw [Set.disjoint_left]
      intro z hz hz'
      obtain ⟨k, hk, e⟩ := hX.mem.mp hz
      obtain ⟨l, hl, e'⟩ := hY.mem.mp hz'
      obtain ⟨h1, h2, _⟩ := hX.at_ k hk
      obtain ⟨h1', h2', _⟩ := hY.at_ l hl
      obtain ⟨e1, e2⟩ := View.at_inj hw h1 h2 h1' h2' (e.symm.trans e')
      exact hd k l hk hl (Prod.ext e1 e2)
    refine (vecSwap_spec hX.vec hY.vec hX.wf hY.wf (by rw [hX.size, hY.size]) hx hy hdis).bind
      (fun m' ⟨h1, h2, h3⟩ => Runs.pure ⟨rfl, ?_, ?_⟩)
    · intro i j hi hj ht
      dsimp only
      by_cases hin : ∃ k, k < n ∧ ((i = (p k).1 ∧ j = (p k).2) ∨ (i = (q k).1 ∧ j = (q k).2))
      · rw [if_pos (Or.inr hin)]
        obtain ⟨k, hk, ⟨e1, e2⟩ | ⟨e1, e2⟩⟩ := hin
        · rw [e1, e2, ← (hX.at_ k hk).2.2, h1 k (by rw [hX.size]; exact hk), (hb k hk).1]
        · rw [e1, e2, ← (hY.at_ k hk).2.2, h2 k (by rw [hY.size]; exact hk), (hb k hk).2]
      · rw [h3 _ ?_, h.hold i j hi hj ht]
        · simp only [hin, or_false]
        · rintro (hz | hz)
          · obtain ⟨k, hk, e⟩ := hX.mem.mp hz
            obtain ⟨g1, g2, _⟩ := hX.at_ k hk
            obtain ⟨e1, e2⟩ := View.at_inj hw hi hj g1 g2 e
            exact hin ⟨k, hk, Or.inl ⟨e1, e2⟩⟩
          · obtain ⟨k, hk, e⟩ := hY.mem.mp hz
            obtain ⟨g1, g2, _⟩ := hY.at_ k hk
            obtain ⟨e1, e2⟩ := View.at_inj hw hi hj g1 g2 e
            exact hin ⟨k, hk, Or.inr ⟨e1, e2⟩⟩
    · refine h.frame.trans (h3.mono ?_)
      rintro z (hz | hz)
      · obtain ⟨k, hk, e⟩ := hX.mem.mp hz
        exact ⟨_, _, (hX.at_ k hk).1, (hX.at_ k hk).2.1, (hT k hk).1, e⟩
      · obtain ⟨k, hk, e⟩ := hY.mem.mp hz
        exact ⟨_, _, (hY.at_ k hk).1, (hY.at_ k hk).2.1, (hT k hk).2, e⟩

/-! ## Row and column interchanges -/

/-- Rows (`col = false`) or columns of a matrix permuted: line `i` of the result is line `σ i`. -/
def permLines (col : Bool) (σ : Equiv.Perm Nat) (a : Nat → Nat → α) (i j : Nat) : α :=
  if col then a i (σ j) else a (σ i) j

/-- The interchange given by pivot value `n` at position `k` of `N` lines: with line `n - 1`; none if
`n` is not in `1..N`. -/
def pivTau (N : Nat) (n : Int) (k : Nat) : Equiv.Perm Nat :=
  if 0 < n ∧ n ≤ N then Equiv.swap k (n - 1).toNat else 1

theorem permLines_mul (col : Bool) (σ τ : Equiv.Perm Nat) (a : Nat → Nat → α) :
    permLines col τ (permLines col σ a) = permLines col (σ * τ) a := by
  funext i j; unfold permLines; cases col <;> simp

theorem permLines_one (col : Bool) (a : Nat → Nat → α) : permLines col 1 a = a := by
  funext i j; unfold permLines; cases col <;> simp

theorem pivTau_lt {N : Nat} {n : Int} {k : Nat} (hk : k < N) {i : Nat} (hi : i < N) :
    pivTau N n k i < N := by
  unfold pivTau
  split
  · rw [Equiv.swap_apply_def]; split_ifs <;> omega
  · simpa using hi

theorem pivTau_inv (N : Nat) (n : Int) (k : Nat) : pivTau N n k * pivTau N n k = 1 := by
  unfold pivTau; split
  · exact Equiv.swap_mul_self _ _
  · rfl

theorem swapLines_spec {col : Bool} {m : Mem α} {A : View} {a : Nat → Nat → α} {p q : Nat} (hw : A.WF)
    (h : Holds m A a) (hp : p < nLines col A) (hq : q < nLines col A) :
    Runs (swapLines col m A p q) (fun m' => Holds m' A (permLines col (Equiv.swap q p) a) ∧
      Frame A.foot m m') := by
  unfold swapLines
  split
  · rename_i h0
    refine Runs.pure ⟨h.congr (fun i j hi hj => ?_), Frame.refl _ _⟩
    rcases h0 with rfl | h0
    · simp [permLines]
    · cases col <;> simp [lenLines] at h0 <;> omega
  · rename_i h0
    rw [if_neg (by omega)]
    have hne : p ≠ q := fun e => h0 (Or.inl e)
    have hu := UpdOn.init (T := fun _ _ => True) (HoldsOn.of_holds h) (permLines col (Equiv.swap q p) a)
    have key : ∀ {r : Int × Mem α} {S : Nat → Nat → Prop}, UpdOn m A (fun _ _ => True) a
        (permLines col (Equiv.swap q p) a) S r.2 → (∀ i j, i < A.rows → j < A.cols → ¬ S i j →
          a i j = permLines col (Equiv.swap q p) a i j) →
        Runs (pure r.2) (fun m' => Holds m' A (permLines col (Equiv.swap q p) a) ∧
          Frame A.foot m m') := by
      intro r S hr hs
      refine Runs.pure ⟨fun i j hi hj => ?_, hr.frame.mono (View.footOn_sub_foot _ _)⟩
      rw [hr.hold i j hi hj trivial]
      beta_reduce
      split
      · rfl
      · rename_i hn; rw [hs i j hi hj hn]
    cases col
    · simp only [nLines, lineOf] at hp hq ⊢
      refine (swap_on hw hu (IsLine.row hw (r := p) (c := 0) (n := A.cols) hp (by omega))
        (IsLine.row hw (r := q) (c := 0) (n := A.cols) hq (by omega)) (by simp) (by simp)
        (by intro k l _ _ e; exact hne (Prod.ext_iff.mp e).1) ?_).bind (fun r ⟨_, hr⟩ => key hr ?_)
      · intro k hk; simp [permLines]
      · intro i j hi hj hn
        have h1 : i ≠ p := by rintro rfl; exact hn (Or.inr ⟨j, hj, Or.inl (by simp)⟩)
        have h2 : i ≠ q := by rintro rfl; exact hn (Or.inr ⟨j, hj, Or.inr (by simp)⟩)
        simp [permLines, Equiv.swap_apply_of_ne_of_ne h2 h1]
    · simp only [nLines, lineOf] at hp hq ⊢
      refine (swap_on hw hu (IsLine.col hw (c := p) (r := 0) (n := A.rows) (by omega) hp)
        (IsLine.col hw (c := q) (r := 0) (n := A.rows) (by omega) hq) (by simp) (by simp)
        (by intro k l _ _ e; exact hne (Prod.ext_iff.mp e).2) ?_).bind (fun r ⟨_, hr⟩ => key hr ?_)
      · intro k hk; simp [permLines]
      · intro i j hi hj hn
        have h1 : j ≠ p := by rintro rfl; exact hn (Or.inr ⟨i, hi, Or.inl (by simp)⟩)
        have h2 : j ≠ q := by rintro rfl; exact hn (Or.inr ⟨i, hi, Or.inr (by simp)⟩)
        simp [permLines, Equiv.swap_apply_of_ne_of_ne h2 h1]

theorem pivotStep_spec {col : Bool} {m : Mem α} {A : View} {a : Nat → Nat → α} {n : Int} {k : Nat}
    (hw : A.WF) (h : Holds m A a) (hk : k < nLines col A) :
    Runs (pivotStep col m A n k) (fun m' =>
      Holds m' A (permLines col (pivTau (nLines col A) n k) a) ∧ Frame A.foot m m') := by
  unfold pivotStep pivTau
  split
  · rename_i h0
    by_cases hn : n ≤ nLines col A
    · rw [if_pos ⟨h0.1, hn⟩]
      exact swapLines_spec hw h (by omega) hk
    · rw [if_neg (fun c => hn c.2), permLines_one]
      unfold swapLines
      have : (n - 1).toNat ≥ nLines col A := by omega
      split
      · exact Runs.pure ⟨h, Frame.refl _ _⟩
      · rw [if_pos (Or.inl this)]; exact Runs.pure ⟨h, Frame.refl _ _⟩
  · rename_i h0
    refine Runs.pure ⟨?_, Frame.refl _ _⟩
    have : (if 0 < n ∧ n ≤ nLines col A then Equiv.swap k (n - 1).toNat else 1) = 1 := by
      split
      · have : (n - 1).toNat = k := by omega
        rw [this, Equiv.swap_self]; rfl
      · rfl
    rw [this, permLines_one]; exact h

/-- Composition of the first `n` interchanges, applied forward. -/
def fwdPerm (N : Nat) (ix : Nat → Int) : Nat → Equiv.Perm Nat
  | 0 => 1
  | n + 1 => fwdPerm N ix n * pivTau N (ix n) n

/-- The first `n` interchanges at lines shifted by `d`, the last one first. -/
def bwdPerm (N : Nat) (ix : Nat → Int) (d : Nat) : Nat → Equiv.Perm Nat
  | 0 => 1
  | n + 1 => pivTau N (ix n) (d + n) * bwdPerm N ix d n

theorem fwdPerm_lt {N : Nat} {ix : Nat → Int} : ∀ {n : Nat}, n ≤ N → ∀ {i}, i < N →
    fwdPerm N ix n i < N := by
  intro n
  induction n with
  | zero => intro _ i hi; simpa [fwdPerm] using hi
  | succ n ih =>
    intro hn i hi
    rw [fwdPerm, Equiv.Perm.mul_apply]
    exact ih (by omega) (pivTau_lt (by omega) hi)

theorem bwdPerm_lt {N : Nat} {ix : Nat → Int} {d : Nat} : ∀ {n : Nat}, d + n ≤ N → ∀ {i}, i < N →
    bwdPerm N ix d n i < N := by
  intro n
  induction n with
  | zero => intro _ i hi; simpa [bwdPerm] using hi
  | succ n ih =>
    intro hn i hi
    rw [bwdPerm, Equiv.Perm.mul_apply]
    exact pivTau_lt (by omega) (ih (by omega) hi)

theorem fwd_bwd (N : Nat) (ix : Nat → Int) (n : Nat) : fwdPerm N ix n * bwdPerm N ix 0 n = 1 := by
  induction n with
  | zero => rfl
  | succ n ih =>
    rw [fwdPerm, bwdPerm, mul_assoc, ← mul_assoc (pivTau N (ix n) n), Nat.zero_add, pivTau_inv, one_mul,
      ih]

theorem applyPivots_fwd {col : Bool} {m : Mem α} {A : View} {a : Nat → Nat → α} {P : Piv}
    (hw : A.WF) (h : Holds m A a) (hn : P.n ≤ nLines col A) :
    Runs (applyPivots col m A P true) (fun m' =>
      Holds m' A (permLines col (fwdPerm (nLines col A) P.ix P.n) a) ∧ Frame A.foot m m') := by
  unfold applyPivots
  split
  · rename_i h0
    refine Runs.pure ⟨h.congr (fun i j hi hj => ?_), Frame.refl _ _⟩
    cases col <;> simp [lenLines] at h0 <;> omega
  · rw [if_pos rfl]
    refine Runs.bind (P := fun x =>
        Holds x.2 A (permLines col (fwdPerm (nLines col A) P.ix P.n) a) ∧ Frame A.foot m x.2)
      (Runs.forUp1 (fun k m' =>
      Holds m' A (permLines col (fwdPerm (nLines col A) P.ix k) a) ∧ Frame A.foot m m') (by omega)
      ⟨by rw [fwdPerm, permLines_one]; exact h, Frame.refl _ _⟩ ?_ ?_)
      (fun b hb => Runs.pure hb)
    · rintro k m' _ hk ⟨h1, h2⟩
      refine (pivotStep_spec hw h1 (by omega)).mono (fun m'' ⟨h3, h4⟩ => ⟨?_, h2.trans h4⟩)
      rw [permLines_mul] at h3
      exact h3
    · intro st hst; exact hst

theorem applyPivots_bwd {col : Bool} {m : Mem α} {A : View} {a : Nat → Nat → α} {P : Piv}
    (hw : A.WF) (h : Holds m A a) (hn : P.n ≤ nLines col A) :
    Runs (applyPivots col m A P false) (fun m' =>
      Holds m' A (permLines col (bwdPerm (nLines col A) P.ix (nLines col A - P.n) P.n) a) ∧
      Frame A.foot m m') := by
  unfold applyPivots
  split
  · rename_i h0
    refine Runs.pure ⟨h.congr (fun i j hi hj => ?_), Frame.refl _ _⟩
    cases col <;> simp [lenLines] at h0 <;> omega
  · rw [if_neg (by simp)]
    refine Runs.forDown (fun k m' => ∃ b, Holds m' A b ∧
      permLines col (bwdPerm (nLines col A) P.ix (nLines col A - P.n) k) b =
        permLines col (bwdPerm (nLines col A) P.ix (nLines col A - P.n) P.n) a ∧
      Frame A.foot m m') ⟨a, h, rfl, Frame.refl _ _⟩ ?_ ?_
    · rintro k m' hk ⟨b, h1, h2, h3⟩
      rw [show nLines col A - (P.n - k) = nLines col A - P.n + k by omega]
      refine (pivotStep_spec hw h1 (by omega)).mono (fun m'' ⟨h4, h5⟩ => ⟨_, h4, ?_, h3.trans h5⟩)
      rw [permLines_mul]
      exact h2
    · rintro m' ⟨b, h1, h2, h3⟩
      rw [bwdPerm, permLines_one] at h2
      rw [← h2]; exact ⟨h1, h3⟩

/-! ## Symmetric interchanges -/

/-- Rows and columns of a symmetric matrix permuted. -/
def permSym (upper : Bool) (σ : Equiv.Perm Nat) (a : Nat → Nat → α) (i j : Nat) : α :=
  symm upper a (σ i) (σ j)

theorem symm_comm (upper : Bool) (a : Nat → Nat → α) (i j : Nat) : symm upper a i j = symm upper a j i := by
  unfold symm
  rcases Nat.lt_trichotomy i j with h | rfl | h
  · cases upper <;> simp [h, Nat.le_of_lt h, Nat.not_le_of_lt h]
  · rfl
  · cases upper <;> simp [h, Nat.le_of_lt h, Nat.not_le_of_lt h]

theorem symm_permSym (upper : Bool) (σ : Equiv.Perm Nat) (a : Nat → Nat → α) :
    symm upper (permSym upper σ a) = permSym upper σ a := by
  funext i j
  have e : permSym upper σ a j i = permSym upper σ a i j := symm_comm _ _ _ _
  rw [symm, e, ite_self]

theorem permSym_mul (upper : Bool) (σ τ : Equiv.Perm Nat) (a : Nat → Nat → α) :
    permSym upper τ (permSym upper σ a) = permSym upper (σ * τ) a := by
  funext i j
  rw [permSym, symm_permSym]; simp [permSym]

theorem swapDiag_on {m0 m : Mem α} {V : View} {T S : Nat → Nat → Prop} {a b : Nat → Nat → α} {p q : Nat}
    (hw : V.WF) (h : UpdOn m0 V T a b S m) (hp : p < V.rows) (hp' : p < V.cols) (hq : q < V.rows)
    (hq' : q < V.cols) (hne : p ≠ q) (hT : T p p ∧ T q q) (hS : ¬ S p p ∧ ¬ S q q)
    (hb : b p p = a q q ∧ b q q = a p p) :
    Runs (swapDiag m V p q) (UpdOn m0 V T a b (fun i j => S i j ∨ (i = j ∧ (i = p ∨ i = q)))) := by
  unfold swapDiag
  have e1 : m (V.at' p p) = some (a p p) := by rw [h.hold p p hp hp' hT.1]; beta_reduce; rw [if_neg hS.1]
  have e2 : m (V.at' q q) = some (a q q) := by rw [h.hold q q hq hq' hT.2]; beta_reduce; rw [if_neg hS.2]
  have hat : V.at' q q ≠ V.at' p p := fun e => hne (View.at_inj hw hq hq' hp hp' e).1.symm
  refine Runs.rd_bind e1 (Runs.rd_bind e2 (Runs.wr_bind e1 (Runs.wr
    ((Mem.set_ne _ _ hat).trans e2) ⟨fun i j hi hj ht => ?_, ?_⟩)))
  · beta_reduce
    by_cases hqq : i = q ∧ j = q
    · obtain ⟨rfl, rfl⟩ := hqq
      rw [Mem.set_same, if_pos (Or.inr ⟨rfl, Or.inr rfl⟩), hb.2]
    · rw [Mem.set_ne _ _ (fun e => hqq (View.at_inj hw hi hj hq hq' e))]
      by_cases hpp : i = p ∧ j = p
      · obtain ⟨rfl, rfl⟩ := hpp
        rw [Mem.set_same, if_pos (Or.inr ⟨rfl, Or.inl rfl⟩), hb.1]
      · rw [Mem.set_ne _ _ (fun e => hpp (View.at_inj hw hi hj hp hp' e)), h.hold i j hi hj ht]
        have : ¬ (i = j ∧ (i = p ∨ i = q)) := by omega
        simp only [this, or_false]
  · exact h.frame.trans ((Frame.set (S := V.footOn T) ⟨p, p, hp, hp', hT.1, rfl⟩ _).trans
      (Frame.set (S := V.footOn T) ⟨q, q, hq, hq', hT.2, rfl⟩ _))

theorem pivotLower_spec {m : Mem α} {A : View} {a : Nat → Nat → α} {p q : Nat} (hw : A.WF)
    (hs : A.rows = A.cols) (h : HoldsOn m A (InTri false false) a) (hpq : p < q) (hq : q < A.rows) :
    Runs (pivotLower m A p q) (fun m' =>
      HoldsOn m' A (InTri false false) (permSym false (Equiv.swap p q) a) ∧
      Frame (A.footOn (InTri false false)) m m') := by
  unfold pivotLower
  have hu := UpdOn.init h (permSym false (Equiv.swap p q) a)
  have tri : ∀ i j, InTri false false i j ↔ j ≤ i := by intro i j; simp [InTri]
  have sp : Equiv.swap p q p = q := Equiv.swap_apply_left _ _
  have sq : Equiv.swap p q q = p := Equiv.swap_apply_right _ _
  have so : ∀ {x}, x ≠ p → x ≠ q → Equiv.swap p q x = x :=
    fun h1 h2 => Equiv.swap_apply_of_ne_of_ne h1 h2
  refine Runs.bind (P := UpdOn m A (InTri false false) a (permSym false (Equiv.swap p q) a)
    (fun i j => (i = p ∨ i = q) ∧ j < p)) ?_ (fun m1 hu1 => ?_)
  · split
    · refine (swap_on hw hu (IsLine.row hw (r := p) (c := 0) (n := p) (by omega) (by omega))
        (IsLine.row hw (r := q) (c := 0) (n := p) (by omega) (by omega)) ?_ (by simp) ?_ ?_).bind
        (fun r ⟨_, hr⟩ => Runs.pure (hr.congr (fun i j _ _ _ => ?_)))
      · intro k hk; simp only [tri]; omega
      · intro k l _ _ e; have := (Prod.ext_iff.mp e).1; simp only at this; omega
      · intro k hk
        simp only [permSym, sp, sq, Nat.zero_add, so (x := k) (by omega) (by omega), symm]
        simp only [Bool.false_eq_true, if_false]
        rw [if_pos (by omega), if_pos (by omega)]; exact ⟨rfl, rfl⟩
      · simp only [Nat.zero_add, not_lt_zero, false_or]
        constructor
        · rintro ⟨k, hk, h⟩; omega
        · rintro ⟨h, hj⟩; exact ⟨j, hj, by omega⟩
    · refine Runs.pure (hu.congr (fun i j _ _ _ => by omega))
  refine (swap_on hw hu1 (IsLine.col hw (r := p + 1) (c := p) (n := q - p - 1) (by omega) (by omega))
    (IsLine.row hw (r := q) (c := p + 1) (n := q - p - 1) (by omega) (by omega)) ?_ ?_ ?_ ?_).bind
      (fun r2 ⟨_, hu2⟩ => ?_)
  · intro k hk; simp only [tri]; omega
  · intro k hk; simp only; omega
  · intro k l _ _ e; have := (Prod.ext_iff.mp e).2; simp only at this; omega
  · intro k hk
    simp only [permSym, sp, sq, so (x := p + 1 + k) (by omega) (by omega), symm]
    simp only [Bool.false_eq_true, if_false]
    rw [if_neg (by omega), if_neg (by omega)]; exact ⟨rfl, rfl⟩
  refine (swap_on hw hu2 (IsLine.col hw (r := q + 1) (c := p) (n := A.rows - q - 1) (by omega) (by omega))
    (IsLine.col hw (r := q + 1) (c := q) (n := A.rows - q - 1) (by omega) (by omega)) ?_ ?_ ?_ ?_).bind
      (fun r3 ⟨_, hu3⟩ => ?_)
  · intro k hk; simp only [tri]; omega
  · intro k hk
    constructor
    · rintro (h | ⟨l, hl, h⟩) <;> simp only at h <;> omega
    · rintro (h | ⟨l, hl, h⟩) <;> simp only at h <;> omega
  · intro k l _ _ e; have := (Prod.ext_iff.mp e).2; simp only at this; omega
  · intro k hk
    simp only [permSym, sp, sq, so (x := q + 1 + k) (by omega) (by omega), symm]
    simp only [Bool.false_eq_true, if_false]
    rw [if_pos (by omega), if_pos (by omega)]; exact ⟨rfl, rfl⟩
  refine (swapDiag_on hw hu3 (by omega) (by omega) (by omega) (by omega) (by omega)
    ⟨(tri _ _).mpr (le_refl _), (tri _ _).mpr (le_refl _)⟩ ?_ ?_).mono (fun m4 hu4 => ⟨?_, hu4.frame⟩)
  · constructor
    · rintro ((h | ⟨l, hl, h⟩) | ⟨l, hl, h⟩) <;> simp only at h <;> omega
    · rintro ((h | ⟨l, hl, h⟩) | ⟨l, hl, h⟩) <;> simp only at h <;> omega
  · simp [permSym, symm]
  · refine hu4.hold.congr (fun i j hi hj ht => ?_)
    rw [tri] at ht
    beta_reduce
    split
    · rfl
    · rename_i hn
      have n0 : ¬ ((i = p ∨ i = q) ∧ j < p) := fun c => hn (Or.inl (Or.inl (Or.inl c)))
      have n1 : ¬ (j = p ∧ p < i ∧ i < q) := fun c => hn (Or.inl (Or.inl (Or.inr
        ⟨i - (p + 1), by omega, Or.inl ⟨by simp only; omega, by simp only; omega⟩⟩)))
      have n2 : ¬ (i = q ∧ p < j ∧ j < q) := fun c => hn (Or.inl (Or.inl (Or.inr
        ⟨j - (p + 1), by omega, Or.inr ⟨by simp only; omega, by simp only; omega⟩⟩)))
      have n3 : ¬ (q < i ∧ j = p) := fun c => hn (Or.inl (Or.inr
        ⟨i - (q + 1), by omega, Or.inl ⟨by simp only; omega, by simp only; omega⟩⟩))
      have n4 : ¬ (q < i ∧ j = q) := fun c => hn (Or.inl (Or.inr
        ⟨i - (q + 1), by omega, Or.inr ⟨by simp only; omega, by simp only; omega⟩⟩))
      have n5 : ¬ (i = j ∧ (i = p ∨ i = q)) := fun c => hn (Or.inr c)
      by_cases hqp : i = q ∧ j = p
      · rw [hqp.1, hqp.2]
        simp only [permSym, sp, sq, symm, Bool.false_eq_true, if_false]
        rw [if_neg (by omega)]
      · simp only [permSym, so (x := i) (by omega) (by omega), so (x := j) (by omega) (by omega), symm,
          Bool.false_eq_true, if_false]
        rw [if_pos ht]

theorem pivotUpper_spec {m : Mem α} {A : View} {a : Nat → Nat → α} {p q : Nat} (hw : A.WF)
    (hs : A.rows = A.cols) (h : HoldsOn m A (InTri true false) a) (hpq : p < q) (hq : q < A.rows) :
    Runs (pivotUpper m A p q) (fun m' =>
      HoldsOn m' A (InTri true false) (permSym true (Equiv.swap p q) a) ∧
      Frame (A.footOn (InTri true false)) m m') := by
  unfold pivotUpper
  have hu := UpdOn.init h (permSym true (Equiv.swap p q) a)
  have tri : ∀ i j, InTri true false i j ↔ i ≤ j := by intro i j; simp [InTri]
  have sp : Equiv.swap p q p = q := Equiv.swap_apply_left _ _
  have sq : Equiv.swap p q q = p := Equiv.swap_apply_right _ _
  have so : ∀ {x}, x ≠ p → x ≠ q → Equiv.swap p q x = x :=
    fun h1 h2 => Equiv.swap_apply_of_ne_of_ne h1 h2
  refine (swap_on hw hu (IsLine.row hw (r := q) (c := q + 1) (n := A.cols - q - 1) (by omega) (by omega))
    (IsLine.row hw (r := p) (c := q + 1) (n := A.cols - q - 1) (by omega) (by omega)) ?_ (by simp) ?_ ?_).bind
      (fun r1 ⟨_, hu1⟩ => ?_)
  · intro k hk; simp only [tri]; omega
  · intro k l _ _ e; have := (Prod.ext_iff.mp e).1; simp only at this; omega
  · intro k hk
    simp only [permSym, sp, sq, so (x := q + 1 + k) (by omega) (by omega), symm, if_true]
    rw [if_pos (by omega), if_pos (by omega)]; exact ⟨rfl, rfl⟩
  refine (swap_on hw hu1 (IsLine.col hw (r := p + 1) (c := q) (n := q - p - 1) (by omega) (by omega))
    (IsLine.row hw (r := p) (c := p + 1) (n := q - p - 1) (by omega) (by omega)) ?_ ?_ ?_ ?_).bind
      (fun r2 ⟨_, hu2⟩ => ?_)
  · intro k hk; simp only [tri]; omega
  · intro k hk
    constructor
    · rintro (h | ⟨l, hl, h⟩) <;> simp only at h <;> omega
    · rintro (h | ⟨l, hl, h⟩) <;> simp only at h <;> omega
  · intro k l _ _ e; have := (Prod.ext_iff.mp e).1; simp only at this; omega
  · intro k hk
    simp only [permSym, sp, sq, so (x := p + 1 + k) (by omega) (by omega), symm, if_true]
    rw [if_neg (by omega), if_neg (by omega)]; exact ⟨rfl, rfl⟩
  refine (swap_on hw hu2 (IsLine.col hw (r := 0) (c := q) (n := p) (by omega) (by omega))
    (IsLine.col hw (r := 0) (c := p) (n := p) (by omega) (by omega)) ?_ ?_ ?_ ?_).bind
      (fun r3 ⟨_, hu3⟩ => ?_)
  · intro k hk; simp only [tri]; omega
  · intro k hk
    constructor
    · rintro ((h | ⟨l, hl, h⟩) | ⟨l, hl, h⟩) <;> simp only at h <;> omega
    · rintro ((h | ⟨l, hl, h⟩) | ⟨l, hl, h⟩) <;> simp only at h <;> omega
  · intro k l _ _ e; have := (Prod.ext_iff.mp e).2; simp only at this; omega
  · intro k hk
    simp only [permSym, sp, sq, Nat.zero_add, so (x := k) (by omega) (by omega), symm, if_true]
    rw [if_pos (by omega), if_pos (by omega)]; exact ⟨rfl, rfl⟩
  refine (swapDiag_on hw hu3 (by omega) (by omega) (by omega) (by omega) (by omega)
    ⟨(tri _ _).mpr (le_refl _), (tri _ _).mpr (le_refl _)⟩ ?_ ?_).mono (fun m4 hu4 => ⟨?_, hu4.frame⟩)
  · constructor
    · rintro (((h | ⟨l, hl, h⟩) | ⟨l, hl, h⟩) | ⟨l, hl, h⟩) <;> omega
    · rintro (((h | ⟨l, hl, h⟩) | ⟨l, hl, h⟩) | ⟨l, hl, h⟩) <;> omega
  · simp [permSym, symm]
  · refine hu4.hold.congr (fun i j hi hj ht => ?_)
    rw [tri] at ht
    beta_reduce
    split
    · rfl
    · rename_i hn
      have n0 : ¬ ((i = p ∨ i = q) ∧ q < j) := fun c => hn (Or.inl (Or.inl (Or.inl (Or.inr
        ⟨j - (q + 1), by omega, by simp only; omega⟩))))
      have n1 : ¬ (j = q ∧ p < i ∧ i < q) := fun c => hn (Or.inl (Or.inl (Or.inr
        ⟨i - (p + 1), by omega, by simp only; omega⟩)))
      have n2 : ¬ (i = p ∧ p < j ∧ j < q) := fun c => hn (Or.inl (Or.inl (Or.inr
        ⟨j - (p + 1), by omega, by simp only; omega⟩)))
      have n3 : ¬ (i < p ∧ (j = p ∨ j = q)) := fun c => hn (Or.inl (Or.inr
        ⟨i, by omega, by simp only; omega⟩))
      have n5 : ¬ (i = j ∧ (i = q ∨ i = p)) := fun c => hn (Or.inr c)
      by_cases hqp : i = p ∧ j = q
      · rw [hqp.1, hqp.2]
        simp only [permSym, sp, sq, symm, if_true]
        rw [if_neg (by omega)]
      · simp only [permSym, so (x := i) (by omega) (by omega), so (x := j) (by omega) (by omega), symm,
          if_true]
        rw [if_pos ht]

theorem permSym_one {upper : Bool} {a : Nat → Nat → α} {i j : Nat} (h : InTri upper false i j) :
    permSym upper 1 a i j = a i j := by
  cases upper <;> simp only [InTri, permSym, symm, Equiv.Perm.one_apply] at h ⊢ <;> simp_all

theorem pivotSymOne_spec {upper : Bool} {m : Mem α} {A : View} {a : Nat → Nat → α} {i j : Int} (hw : A.WF)
    (hs : A.rows = A.cols) (h : HoldsOn m A (InTri upper false) a) (hi : 0 ≤ i) (hi' : i < A.rows)
    (hj : 0 ≤ j) (hj' : j < A.rows) :
    Runs (pivotSymOne upper m A i j) (fun m' =>
      HoldsOn m' A (InTri upper false) (permSym upper (Equiv.swap i.toNat j.toNat) a) ∧
      Frame (A.footOn (InTri upper false)) m m') := by
  unfold pivotSymOne
  split
  · rename_i e
    subst e
    refine Runs.pure ⟨h.congr (fun x y _ _ ht => ?_), Frame.refl _ _⟩
    rw [Equiv.swap_self]
    exact (permSym_one ht).symm
  · rename_i hne
    rw [if_neg (by omega)]
    have e : Equiv.swap i.toNat j.toNat = Equiv.swap (min i j).toNat (max i j).toNat := by
      rcases le_total i j with hij | hij
      · rw [min_eq_left hij, max_eq_right hij]
      · rw [min_eq_right hij, max_eq_left hij, Equiv.swap_comm]
    rw [e]
    cases upper
    · rw [if_neg (by simp)]; exact pivotLower_spec hw hs h (by omega) (by omega)
    · rw [if_pos rfl]; exact pivotUpper_spec hw hs h (by omega) (by omega)

theorem applySym_fwd {upper : Bool} {m : Mem α} {A : View} {a : Nat → Nat → α} {P : Piv}
    (hw : A.WF) (hs : A.rows = A.cols) (h : HoldsOn m A (InTri upper false) a) (hn : P.n ≤ A.rows)
    (hP : ∀ k, k < P.n → 1 ≤ P.ix k ∧ P.ix k ≤ A.rows) :
    Runs (applySym upper m A P true) (fun m' =>
      HoldsOn m' A (InTri upper false) (permSym upper (fwdPerm A.rows P.ix P.n) a) ∧
      Frame (A.footOn (InTri upper false)) m m') := by
  unfold applySym
  rw [if_pos rfl]
  refine Runs.bind (P := fun x =>
        HoldsOn x.2 A (InTri upper false) (permSym upper (fwdPerm A.rows P.ix P.n) a) ∧
          Frame (A.footOn (InTri upper false)) m x.2) (Runs.forUp1 (fun k m' =>
      HoldsOn m' A (InTri upper false) (permSym upper (fwdPerm A.rows P.ix k) a) ∧
        Frame (A.footOn (InTri upper false)) m m') (by omega)
      ⟨h.congr (fun i j _ _ ht => (permSym_one ht).symm), Frame.refl _ _⟩ ?_ ?_)
      (fun b hb => Runs.pure hb)
  · rintro k m' _ hk ⟨h1, h2⟩
    have hPk := hP k hk
    have eg : P.get k = P.ix k := if_pos hk
    rw [eg]
    refine (pivotSymOne_spec hw hs h1 (by omega) (by omega) (by omega) (by omega)).mono
      (fun m'' ⟨h3, h4⟩ => ⟨?_, h2.trans h4⟩)
    rw [permSym_mul] at h3
    rw [fwdPerm, pivTau, if_pos ⟨by omega, by omega⟩]
    simpa using h3
  · intro st hst; exact hst

theorem applySym_bwd {upper : Bool} {m : Mem α} {A : View} {a : Nat → Nat → α} {P : Piv}
    (hw : A.WF) (hs : A.rows = A.cols) (h : HoldsOn m A (InTri upper false) a) (hn : P.n ≤ A.rows)
    (hP : ∀ k, k < P.n → 1 ≤ P.ix k ∧ P.ix k ≤ A.rows) :
    Runs (applySym upper m A P false) (fun m' =>
      HoldsOn m' A (InTri upper false) (permSym upper (bwdPerm A.rows P.ix (A.rows - P.n) P.n) a) ∧
      Frame (A.footOn (InTri upper false)) m m') := by
  unfold applySym
  rw [if_neg (by simp)]
  refine Runs.forDown (fun k m' => ∃ b, HoldsOn m' A (InTri upper false) b ∧
      permSym upper (bwdPerm A.rows P.ix (A.rows - P.n) k) b =
        permSym upper (bwdPerm A.rows P.ix (A.rows - P.n) P.n) a ∧
      Frame (A.footOn (InTri upper false)) m m') ⟨a, h, rfl, Frame.refl _ _⟩ ?_ ?_
  · rintro k m' hk ⟨b, h1, h2, h3⟩
    have hPk := hP k hk
    have eg : P.get k = P.ix k := if_pos hk
    rw [eg, show A.rows - (P.n - k) = A.rows - P.n + k by omega]
    refine (pivotSymOne_spec hw hs h1 (by omega) (by omega) (by omega) (by omega)).mono
      (fun m'' ⟨h4, h5⟩ => ⟨_, h4, ?_, h3.trans h5⟩)
    rw [permSym_mul, ← h2, bwdPerm, pivTau, if_pos ⟨by omega, by omega⟩, Int.toNat_natCast,
      Equiv.swap_comm]
  · rintro m' ⟨b, h1, h2, h3⟩
    refine ⟨?_, h3⟩
    rw [← h2]
    exact h1.congr (fun i j _ _ ht => (permSym_one ht).symm)

/-! ## `armas_pivot` -/

theorem pivot_lines {m : Mem α} {A : View} {P : Piv} {col fwd : Bool} (hn : P.n ≤ nLines col A) :
    pivot m A P (if col then .cols else .rows) fwd =
      applyPivots col m A P fwd >>= fun m => pure (0, m) := by
  unfold pivot
  cases col <;> simp only [nLines, Bool.false_eq_true, if_false, if_true] at hn ⊢ <;>
    simp [Nat.not_lt.mpr hn]

theorem pivot_sym {m : Mem α} {A : View} {P : Piv} {upper fwd : Bool} (hn : P.n ≤ A.rows) :
    pivot m A P (if upper then .upper else .lower) fwd =
      applySym upper m A P fwd >>= fun m => pure (0, m) := by
  unfold pivot
  cases upper <;> simp [Nat.not_lt.mpr hn]

end Armas
