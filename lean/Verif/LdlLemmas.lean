import Verif.Ldl
import Verif.LapackLemmas
import Verif.Props.Blas1

/-!
# Lemmas for C47 (LDL^T factorization)
-/

namespace Armas

open Armas.Props Finset Classical

variable {α : Type} [Field α]

section pure
variable {f : Nat → Nat → α}

/-- The factors in one matrix: `D` on the diagonal, unit `L` below. -/
def ldlF (f : Nat → Nat → α) (i j : Nat) : α :=
  if i = j then schur f j j j else schur f j i j / schur f j j j

/-- The matrix after `k` steps. -/
def ldlV (f : Nat → Nat → α) (k i j : Nat) : α := if j < k then ldlF f i j else schur f k i j

theorem ldlF_diag (f : Nat → Nat → α) (i : Nat) : ldlF f i i = schur f i i i := by simp [ldlF]

theorem ldlF_off (f : Nat → Nat → α) {i j : Nat} (h : i ≠ j) : ldlF f i j = schur f j i j / schur f j j j := by
  simp [ldlF, h]

theorem ldlF_shift (f : Nat → Nat → α) (k i j : Nat) :
    ldlF (fun i j => schur f k (k + i) (k + j)) i j = ldlF f (k + i) (k + j) := by
  unfold ldlF; simp only [schur_shift, Nat.add_left_cancel_iff]

/-- Unit factor element. -/
theorem ldl_unit {p : Nat} (hp : ∀ q, q ≤ p → schur f q q q ≠ 0) (i : Nat) :
    trm false true (ldlF f) i p = schur f p i p / schur f p p p := by
  simp only [trm, Bool.false_eq_true, if_true, if_false]
  rcases Nat.lt_trichotomy i p with h | h | h
  · rw [if_neg (by omega), if_neg (by omega), schur_zero (fun q hq => hp q (by omega)) (Or.inl h), zero_div]
  · subst h; rw [if_pos rfl, div_self (hp i (le_refl _))]
  · rw [if_neg (by omega), if_pos h, ldlF_off f (by omega)]

/-- The product of the factors. -/
theorem ldl_prod (hs : ∀ i j, f i j = f j i) {n : Nat} (hp : ∀ p, p < n → schur f p p p ≠ 0) {i j : Nat}
    (hi : i < n) (_hj : j < n) :
    ∑ p ∈ range n, trm false true (ldlF f) i p * ldlF f p p * trm false true (ldlF f) j p = f i j := by
  rw [show f i j = schur f 0 i j from rfl, schur_full hp (Or.inl hi) (Nat.zero_le n), ← Finset.range_eq_Ico]
  refine Finset.sum_congr rfl (fun p hp' => ?_)
  have hp'' := Finset.mem_range.mp hp'
  have h0 := hp p hp''
  rw [ldl_unit (fun q hq => hp q (by omega)), ldl_unit (fun q hq => hp q (by omega)), ldlF_diag,
    schur_symm hs p j p]
  field_simp

/-- The block beside a diagonal block solves the unit triangular system. -/
theorem ldl_block (hs : ∀ i j, f i j = f j i) {k nb : Nat} (hp : ∀ p, p < k + nb → schur f p p p ≠ 0) (i : Nat)
    {j : Nat} (hj : j < nb) :
    ∑ p ∈ range nb, schur f (k + p) i (k + p) * trm false true (ldlF f) (k + j) (k + p) = schur f k i (k + j) := by
  rw [schur_full hp (Or.inr (by omega : k + j < k + nb)) (Nat.le_add_right k nb), Finset.sum_Ico_eq_sum_range,
    Nat.add_sub_cancel_left]
  refine Finset.sum_congr rfl (fun p hp' => ?_)
  rw [Finset.mem_range] at hp'
  rw [ldl_unit (fun q hq => hp q (by omega)), schur_symm hs _ (k + j)]
  ring

theorem ldl_update (hs : ∀ i j, f i j = f j i) {k nb : Nat} (hp : ∀ p, p < k + nb → schur f p p p ≠ 0)
    (i j : Nat) :
    schur f k i j - ∑ p ∈ range nb, schur f (k + p) i (k + p) * (schur f (k + p) j (k + p) / schur f (k + p) (k + p) (k + p))
      = schur f (k + nb) i j := by
  rw [schur_sum f (Nat.le_add_right k nb), Finset.sum_Ico_eq_sum_range, Nat.add_sub_cancel_left]
  rw [Finset.sum_congr rfl (fun p _ => show schur f (k + p) i (k + p) * schur f (k + p) (k + p) j /
      schur f (k + p) (k + p) (k + p) = schur f (k + p) i (k + p) * (schur f (k + p) j (k + p) /
      schur f (k + p) (k + p) (k + p)) by rw [schur_symm hs _ j]; ring)]
  ring

end pure

variable [DecidableEq α]

theorem unblkLdlLowerStep_spec {env : Env}
    (hrec : env.recursive = false ∨ env.naive = true ∨ env.blas2min ≠ 1)
    {fuel : Nat} {m1 : Mem α} {A : View} {f : Nat → Nat → α} (hs : ∀ i j, f i j = f j i) (hw : A.WF)
    (hsq : A.cols = A.rows) (hf : A.rows + 1 < fuel) {k : Nat} (hk : k < A.rows)
    (h1 : HoldsOn m1 A (InTri false false) (ldlV f k)) :
    Runs (unblkLdlLowerStep env fuel A k m1) (fun m2 =>
      HoldsOn m2 A (InTri false false) (ldlV f (k + 1)) ∧
      Frame (A.footOn (InTri false false)) m1 m2) := by
  unfold unblkLdlLowerStep
  rw [hsq]
  have u0 := UpdX.init h1 (ldlV f (k + 1)) ∅
  have dF : Disjoint (A.footOn (InTri false false)) (∅ : Set Nat) := Set.disjoint_empty _
  have e0 := u0.at_old hk (by omega) (by simp [InTri] : InTri false false k k) (by omega)
  rw [show ldlV f k k k = schur f k k k by unfold ldlV; rw [if_neg (by omega)]] at e0
  refine Runs.rd_bind e0 ?_
  have s2 := C15_mvupdate_trm_partial (env := env) (1 : α) (-(1 / schur f k k k)) (fl := { lower := true }) rfl
    (fuel := fuel) (m := m1) (A := A.sub (k + 1) (k + 1) (A.rows - k - 1) (A.rows - k - 1))
    (X := A.sub (k + 1) k (A.rows - k - 1) 1) (Y := A.sub (k + 1) k (A.rows - k - 1) 1)
    (hrec.imp id (Or.imp id (fun h => ⟨h, rfl⟩))) (by rw [View.sub_rows]; omega)
    (hw.sub (by omega) (by omega)) (Or.inr rfl) (Or.inr rfl) (by simp [View.size]) (by simp [View.size])
    (u0.part_old (by omega) (by omega) (by simp [InTri]))
    (u0.block_old (by omega) (by omega) (by simp [InTri]; omega)).toV_col
    (u0.block_old (by omega) (by omega) (by simp [InTri]; omega)).toV_col
    ((View.sub_disj hw (by omega) (by omega) (by omega) (by omega) (by omega)).mono_right
      (View.footOn_sub_foot _ _))
    ((View.sub_disj hw (by omega) (by omega) (by omega) (by omega) (by omega)).mono_right
      (View.footOn_sub_foot _ _))
  refine s2.bind ?_
  rintro ⟨e3, m3⟩ ⟨-, h3, f3⟩
  dsimp only at h3 f3 ⊢
  have u1 := u0.sub hw dF (r := k + 1) (c := k + 1) (nr := A.rows - k - 1) (nc := A.rows - k - 1)
    (by omega) (by omega) (by simp [InTri]) (m' := m3) (h3.congr (fun i j hi hj _ => by
      simp only [ldlV, show ¬ (k + 1 + j < k) by omega, show ¬ (k + 1 + j < k + 1) by omega,
        lt_irrefl, if_false, Nat.add_zero]
      rw [schur_succ, schur_symm hs k k (k + 1 + j)]; ring)) (HoldsOn.weaken_frame f3)
  have s1 := scale_line (X := A.sub (k + 1) k (A.rows - k - 1) 1) (1 / schur f k k k) (Or.inr rfl)
    (hw.sub (by omega) (by omega)) (u1.block_old (r := k + 1) (c := k) (nr := A.rows - k - 1) (nc := 1)
      (by omega) (by omega) (by simp [InTri]; omega))
  refine s1.bind ?_
  rintro ⟨e2, m2⟩ ⟨h2, f2⟩
  dsimp only at h2 f2 ⊢
  have u2 := u1.block hw dF (r := k + 1) (c := k) (nr := A.rows - k - 1) (nc := 1) (by omega) (by omega)
    (by simp [InTri]; omega) (m' := m2) (h2.congr (fun i j hi hj => by
      have : j = 0 := by rw [View.sub_cols] at hj; omega
      subst this
      unfold ldlV
      rw [if_neg (by omega), if_pos (by omega), ldlF_off f (by omega)]
      simp [div_eq_inv_mul])) (HoldsOn.weaken_frame f2)
  refine Runs.pure ⟨u2.fin (fun i j hi hj ht hS => ?_), by simpa using u2.frame⟩
  simp [InTri] at ht hS
  unfold ldlV
  rcases Nat.lt_or_ge j k with h | h
  · rw [if_pos h, if_pos (by omega)]
  · have : i = k ∧ j = k := by omega
    rw [this.1, this.2, if_neg (by omega), if_pos (by omega), ldlF_diag]

theorem unblkLdlLower_spec {env : Env} (hrec : env.recursive = false ∨ env.naive = true ∨ env.blas2min ≠ 1)
    {fuel : Nat} {m : Mem α} {A : View} {f : Nat → Nat → α} (hs : ∀ i j, f i j = f j i) (hw : A.WF)
    (hsq : A.cols = A.rows) (hf : A.rows + 1 < fuel) (hA : HoldsOn m A (InTri false false) f) :
    Runs (unblkLdlLower env fuel m A) (fun r => r.1 = 0 ∧ HoldsOn r.2 A (InTri false false) (ldlF f) ∧
      Frame (A.footOn (InTri false false)) m r.2) := by
  unfold unblkLdlLower
  rw [hsq, min_self]
  refine Runs.bind (P := fun x => HoldsOn x.2 A (InTri false false) (ldlV f A.rows) ∧
      Frame (A.footOn (InTri false false)) m x.2)
    (Runs.forUp1 (fun k (m1 : Mem α) =>
      HoldsOn m1 A (InTri false false) (ldlV f k) ∧ Frame (A.footOn (InTri false false)) m m1)
      (Nat.zero_le _) ⟨hA, Frame.refl _ _⟩ ?_ (fun st hst => hst))
    (fun x hx => Runs.pure ⟨rfl, hx.1.congr (fun i j hi hj _ => by
      unfold ldlV; rw [if_pos (by omega)]), hx.2⟩)
  rintro k m1 - hk ⟨h1, f1⟩
  refine (unblkLdlLowerStep_spec hrec hs hw hsq hf hk h1).mono ?_
  rintro m2 ⟨h3, h4⟩
  exact ⟨h3, f1.trans h4⟩

/-! ## Diagonal scaling -/

theorem diag_right {fv : α → α → α} {fm : α → α} {m : Mem α} {A D : View} {a g : Nat → Nat → α} {d : Nat → α}
    (hw : A.WF) (hA : Holds m A a) (hv : D.isVec) (hD : HoldsV m D d) (hd : Disjoint D.foot A.foot)
    (hs : D.size = A.cols) (hsh : A.rows ≤ 1 ∨ 2 ≤ A.cols)
    (h1 : ∀ i j, i < A.rows → j < A.cols → fv (a i j) (d j) = g i j)
    (h2 : ∀ i j, i < A.rows → j < A.cols → fm (d j) * a i j = g i j) :
    Runs (diagOp fv fm m A D true) (fun r => Holds r.2 A g ∧ Frame A.foot m r.2) := by
  have hD' : DiagHolds m D d := by unfold DiagHolds; rw [if_pos hv]; exact hD
  have hl : diagLen D = A.cols := by unfold diagLen; rw [if_pos hv, hs]
  by_cases h0 : A.size = 0
  · have e : ∃ e, diagOp fv fm m A D true = .ok (e, m) := by
      unfold diagOp diagOf
      dsimp only
      rw [if_pos hv]
      by_cases ha : A.isVec
      · rw [if_pos ha]
        by_cases hn : D.size ≠ A.size
        · rw [if_pos hn]; exact ⟨_, rfl⟩
        · rw [if_neg hn, if_pos h0]; exact ⟨_, rfl⟩
      · rw [if_neg ha]
        simp only [if_true]
        rw [if_neg (by omega), if_pos h0]; exact ⟨_, rfl⟩
    obtain ⟨e, he⟩ := e
    rw [he]
    have : A.rows = 0 ∨ A.cols = 0 := by simpa [View.size] using h0
    exact Runs.ok ⟨fun i j hi hj => by omega, Frame.refl _ _⟩
  have hr : A.rows ≠ 0 ∧ A.cols ≠ 0 := by simpa [View.size] using h0
  by_cases hone : A.rows = 1
  · have hav : A.isVec := Or.inl hone
    refine (diagOp_vector (a := fun k => a 0 k) hw hav ?_ hD' hd (by rw [hl]; simp [View.size, hone])).mono ?_
    · rw [holdsV_iff hav]
      intro i j hi hj
      have : i = 0 := by omega
      subst this
      rw [hA 0 j hi hj]; simp
    · rintro r ⟨-, h3, h4⟩
      refine ⟨?_, h4⟩
      rw [holdsV_iff hav] at h3
      intro i j hi hj
      have : i = 0 := by omega
      subst this
      rw [h3 0 j hi hj, ← h1 0 j hi hj]; simp
  · refine (diagOp_matrix hw (by simp [View.isVec]; omega) hA hD' hd (by simpa using hl)).mono ?_
    rintro r ⟨-, h3, h4⟩
    exact ⟨h3.congr (fun i j hi hj => h2 i j hi hj), h4⟩

theorem diag_left {fv : α → α → α} {fm : α → α} {m : Mem α} {A D : View} {a g : Nat → Nat → α} {d : Nat → α}
    (hw : A.WF) (hA : Holds m A a) (hv : D.isVec) (hD : HoldsV m D d) (hd : Disjoint D.foot A.foot)
    (hs : D.size = A.rows) (hsh : A.cols = 1 ∨ 2 ≤ A.rows ∧ 2 ≤ A.cols)
    (h1 : ∀ i j, i < A.rows → j < A.cols → fv (a i j) (d i) = g i j)
    (h2 : ∀ i j, i < A.rows → j < A.cols → fm (d i) * a i j = g i j) :
    Runs (diagOp fv fm m A D false) (fun r => Holds r.2 A g ∧ Frame A.foot m r.2) := by
  have hD' : DiagHolds m D d := by unfold DiagHolds; rw [if_pos hv]; exact hD
  have hl : diagLen D = A.rows := by unfold diagLen; rw [if_pos hv, hs]
  by_cases hone : A.cols = 1
  · have hav : A.isVec := Or.inr hone
    refine (diagOp_vector (a := fun k => a k 0) hw hav ?_ hD' hd (by rw [hl]; simp [View.size, hone])).mono ?_
    · rw [holdsV_iff hav]
      intro i j hi hj
      have : j = 0 := by omega
      subst this
      rw [hA i 0 hi hj]; simp
    · rintro r ⟨-, h3, h4⟩
      refine ⟨?_, h4⟩
      rw [holdsV_iff hav] at h3
      intro i j hi hj
      have : j = 0 := by omega
      subst this
      rw [h3 i 0 hi hj, ← h1 i 0 hi hj]; simp
  · refine (diagOp_matrix hw (by simp [View.isVec]; omega) hA hD' hd (by simpa using hl)).mono ?_
    rintro r ⟨-, h3, h4⟩
    exact ⟨h3.congr (fun i j hi hj => h2 i j hi hj), h4⟩

omit [DecidableEq α] in
theorem diagOp_diagRow {fv : α → α → α} {fm : α → α} {m : Mem α} {B A : View} {right : Bool} (h : ¬ A.isVec) :
    diagOp fv fm m B A right = diagOp fv fm m B (diagRow A) right := by
  have e : diagOf A = diagOf (diagRow A) := by
    unfold diagOf
    rw [if_neg h, if_pos (show (diagRow A).isVec from Or.inl rfl)]
    rfl
  unfold diagOp
  rw [e]

omit [Field α] [DecidableEq α] in
theorem diagRow_facts {m : Mem α} {V : View} {up : Bool} {g : Nat → Nat → α} (hsq : V.cols = V.rows)
    (h : HoldsOn m V (InTri up false) g) :
    (diagRow V).isVec ∧ (diagRow V).size = V.rows ∧ HoldsV m (diagRow V) (fun k => g k k) ∧
      (diagRow V).foot ⊆ V.footOn (InTri up false) := by
  have e : ∀ k, (diagRow V).vat k = V.at' k k := by
    intro k; simp [diagRow, View.vat, View.inc, View.at']; ring
  have hsz : (diagRow V).size = V.rows := by simp [diagRow, View.size, hsq]
  refine ⟨Or.inl rfl, hsz, fun k hk => ?_, fun p hp => ?_⟩
  · rw [e, h k k (by omega) (by omega) (by cases up <;> simp [InTri])]
  · rw [View.foot_vec (Or.inl rfl)] at hp
    obtain ⟨k, hk, rfl⟩ := hp
    exact ⟨k, k, by omega, by omega, by cases up <;> simp [InTri], e k⟩

omit [Field α] [DecidableEq α] in
theorem inTri_strict (up : Bool) {n m : Nat} : ∀ i j, i < n → j < m → InTri up true i j → InTri up false i j := by
  intro i j _ _
  cases up <;> simp [InTri] <;> omega

/-- Every address of `S` is allocated. -/
def Alloc (S : Set Nat) (m : Mem α) : Prop := ∀ p, p ∈ S → ∃ x, m p = some x

omit [Field α] [DecidableEq α] in
theorem Alloc.frame {S F : Set Nat} {m m' : Mem α} (h : Alloc S m) (hf : Frame F m m') (hd : Disjoint F S) :
    Alloc S m' := fun p hp => by
  rw [hf p (fun h => Set.disjoint_left.mp hd h hp)]; exact h p hp

omit [Field α] [DecidableEq α] in
theorem Alloc.write {S : Set Nat} {V : View} {m m' : Mem α} {g : Nat → Nat → α} (h : Alloc S m)
    (hf : Frame V.foot m m') (hV : Holds m' V g) : Alloc S m' := fun p hp => by
  by_cases hi : p ∈ V.foot
  · obtain ⟨i, j, hi, hj, rfl⟩ := hi
    exact ⟨_, hV i j hi hj⟩
  · rw [hf p hi]; exact h p hp

omit [Field α] [DecidableEq α] in
theorem Alloc.holds [Zero α] {S : Set Nat} {V : View} {m : Mem α} (h : Alloc S m) (hV : V.foot ⊆ S) :
    ∃ g, Holds m V g := by
  have : ∀ i j, ∃ x, i < V.rows → j < V.cols → m (V.at' i j) = some x := by
    intro i j
    by_cases hh : i < V.rows ∧ j < V.cols
    · obtain ⟨x, hx⟩ := h _ (hV ⟨i, j, hh.1, hh.2, rfl⟩)
      exact ⟨x, fun _ _ => hx⟩
    · exact ⟨0, fun h1 h2 => absurd ⟨h1, h2⟩ hh⟩
  choose g hg using this
  exact ⟨g, fun i j hi hj => hg i j hi hj⟩

/-- The work space. -/
def wkset (w ws : Nat) : Set Nat := {p | w ≤ p ∧ p < w + ws}

omit [Field α] [DecidableEq α] in
theorem wk_foot {w ws r c : Nat} (h : r * c ≤ ws) : (⟨w, r, r, c⟩ : View).foot ⊆ wkset w ws := by
  rintro p ⟨i, j, hi, hj, rfl⟩
  simp only [View.at', wkset, Set.mem_setOf_eq] at *
  have : (j + 1) * r ≤ c * r := Nat.mul_le_mul_right _ hj
  rw [Nat.add_mul, one_mul, Nat.mul_comm c r] at this
  omega

/-! ## Upper version: the same elimination from the last row on -/

/-- Reversed indices. -/
def rv (n : Nat) (g : Nat → Nat → α) (i j : Nat) : α := g (n - 1 - i) (n - 1 - j)

omit [Field α] [DecidableEq α] in
theorem rv_symm {f : Nat → Nat → α} (hs : ∀ i j, f i j = f j i) (n i j : Nat) : rv n f i j = rv n f j i := hs _ _

theorem unblkLdlUpperStep_spec {env : Env}
    (hrec : env.recursive = false ∨ env.naive = true ∨ env.blas2min ≠ 1)
    {fuel : Nat} {m1 : Mem α} {A : View} {f : Nat → Nat → α} (hs : ∀ i j, f i j = f j i) (hw : A.WF)
    (hsq : A.cols = A.rows) (hf : A.rows + 1 < fuel) {k p : Nat} (hk : k < A.rows) (hp : p = A.rows - 1 - k)
    (h1 : HoldsOn m1 A (InTri true false) (rv A.rows (ldlV f k))) :
    Runs (unblkLdlUpperStep env fuel A p m1) (fun m2 =>
      HoldsOn m2 A (InTri true false) (rv A.rows (ldlV f (k + 1))) ∧
      Frame (A.footOn (InTri true false)) m1 m2) := by
  unfold unblkLdlUpperStep
  have u0 := UpdX.init h1 (rv A.rows (ldlV f (k + 1))) ∅
  have dF : Disjoint (A.footOn (InTri true false)) (∅ : Set Nat) := Set.disjoint_empty _
  have ep : A.rows - 1 - p = k := by omega
  have e0 := u0.at_old (by omega : p < A.rows) (by omega) (by simp [InTri] : InTri true false p p) (by omega)
  rw [show rv A.rows (ldlV f k) p p = schur f k k k by unfold rv ldlV; rw [ep, if_neg (by omega)]] at e0
  refine Runs.rd_bind e0 ?_
  have s2 := C15_mvupdate_trm_partial (env := env) (1 : α) (-(1 / schur f k k k)) (fl := { upper := true }) rfl
    (fuel := fuel) (m := m1) (A := A.sub 0 0 p p)
    (X := A.sub 0 p p 1) (Y := A.sub 0 p p 1)
    (hrec.imp id (Or.imp id (fun h => ⟨h, rfl⟩))) (by rw [View.sub_rows]; omega)
    (hw.sub (by omega) (by omega)) (Or.inr rfl) (Or.inr rfl) (by simp [View.size]) (by simp [View.size])
    (u0.part_old (by omega) (by omega) (by simp [InTri]))
    (u0.block_old (by omega) (by omega) (by simp [InTri]; omega)).toV_col
    (u0.block_old (by omega) (by omega) (by simp [InTri]; omega)).toV_col
    ((View.sub_disj hw (by omega) (by omega) (by omega) (by omega) (by omega)).mono_right
      (View.footOn_sub_foot _ _))
    ((View.sub_disj hw (by omega) (by omega) (by omega) (by omega) (by omega)).mono_right
      (View.footOn_sub_foot _ _))
  refine s2.bind ?_
  rintro ⟨e3, m3⟩ ⟨-, h3, f3⟩
  dsimp only at h3 f3 ⊢
  have u1 := u0.sub hw dF (r := 0) (c := 0) (nr := p) (nc := p)
    (by omega) (by omega) (by simp [InTri]) (m' := m3) (h3.congr (fun i j hi hj _ => by
      rw [View.sub_rows] at hi
      rw [View.sub_cols] at hj
      simp only [rv, ldlV, Nat.zero_add, Nat.add_zero, ep, show ¬ (A.rows - 1 - j < k) by omega,
        show ¬ (A.rows - 1 - j < k + 1) by omega, lt_irrefl, if_false]
      rw [schur_succ, schur_symm hs k k (A.rows - 1 - j)]; ring)) (HoldsOn.weaken_frame f3)
  have s1 := scale_line (X := A.sub 0 p p 1) (1 / schur f k k k) (Or.inr rfl)
    (hw.sub (by omega) (by omega)) (u1.block_old (r := 0) (c := p) (nr := p) (nc := 1)
      (by omega) (by omega) (by simp [InTri]; omega))
  refine s1.bind ?_
  rintro ⟨e2, m2⟩ ⟨h2, f2⟩
  dsimp only at h2 f2 ⊢
  have u2 := u1.block hw dF (r := 0) (c := p) (nr := p) (nc := 1) (by omega) (by omega)
    (by simp [InTri]; omega) (m' := m2) (h2.congr (fun i j hi hj => by
      rw [View.sub_rows] at hi
      have : j = 0 := by rw [View.sub_cols] at hj; omega
      subst this
      simp only [rv, ldlV, Nat.zero_add, Nat.add_zero, ep, lt_irrefl, if_false, Nat.lt_succ_self, if_true]
      rw [ldlF_off f (by omega)]
      simp [div_eq_inv_mul])) (HoldsOn.weaken_frame f2)
  refine Runs.pure ⟨u2.fin (fun i j hi hj ht hS => ?_), by simpa using u2.frame⟩
  simp [InTri] at ht hS
  unfold rv ldlV
  rcases Nat.lt_or_ge p j with h | h
  · rw [if_pos (by omega), if_pos (by omega)]
  · have : i = p ∧ j = p := by omega
    rw [this.1, this.2, ep, if_neg (by omega), if_pos (by omega), ldlF_diag]

theorem unblkLdlUpper_spec {env : Env} (hrec : env.recursive = false ∨ env.naive = true ∨ env.blas2min ≠ 1)
    {fuel : Nat} {m : Mem α} {A : View} {f : Nat → Nat → α} (hs : ∀ i j, f i j = f j i) (hw : A.WF)
    (hsq : A.cols = A.rows) (hf : A.rows + 1 < fuel) (hA : HoldsOn m A (InTri true false) (rv A.rows f)) :
    Runs (unblkLdlUpper env fuel m A) (fun r => r.1 = 0 ∧ HoldsOn r.2 A (InTri true false) (rv A.rows (ldlF f)) ∧
      Frame (A.footOn (InTri true false)) m r.2) := by
  unfold unblkLdlUpper
  refine Runs.bind (P := fun x => HoldsOn x.2 A (InTri true false) (rv A.rows (ldlV f A.rows)) ∧
      Frame (A.footOn (InTri true false)) m x.2)
    (Runs.forUp1 (fun k (m1 : Mem α) =>
      HoldsOn m1 A (InTri true false) (rv A.rows (ldlV f k)) ∧ Frame (A.footOn (InTri true false)) m m1)
      (Nat.zero_le _) ⟨hA, Frame.refl _ _⟩ ?_ (fun st hst => hst))
    (fun x hx => Runs.pure ⟨rfl, hx.1.congr (fun i j hi hj _ => by
      unfold rv ldlV; rw [if_pos (by omega)]), hx.2⟩)
  rintro k m1 - hk ⟨h1, f1⟩
  refine (unblkLdlUpperStep_spec hrec hs hw hsq hf hk rfl h1).mono ?_
  rintro m2 ⟨h3, h4⟩
  exact ⟨h3, f1.trans h4⟩

/-! ## Blocked versions -/

theorem blkLdlLowerStep_spec (ab : α → α) {env : Env} {c : Cache} (hc : Conf3 env c) {fuel : Nat}
    {m1 : Mem α} {A : View} {f : Nat → Nat → α} (hs : ∀ i j, f i j = f j i) (hw : A.WF)
    (hsq : A.cols = A.rows) (hf : 4 * A.rows + 1 < fuel) {lb k w ws : Nat} (hlb : 2 ≤ lb) (hk : k < A.rows)
    (hws : (A.rows - lb) * lb ≤ ws)
    (hp : ∀ p, p < A.rows → schur f p p p ≠ 0) (R1 : c.Ready m1) (W1 : Alloc (wkset w ws) m1)
    (dAF : Disjoint (A.footOn (InTri false false)) (c.foot ∪ wkset w ws)) (dcw : Disjoint c.foot (wkset w ws))
    (h1 : HoldsOn m1 A (InTri false false) (ldlV f k)) :
    Runs (blkLdlLowerStep ab env fuel A w lb (some c) k m1) (fun m2 =>
      HoldsOn m2 A (InTri false false) (ldlV f (k + lb)) ∧
      Frame (A.footOn (InTri false false) ∪ (c.foot ∪ wkset w ws)) m1 m2 ∧ c.Ready m2 ∧ Alloc (wkset w ws) m2) := by
  unfold blkLdlLowerStep
  rw [hsq]
  dsimp only
  obtain ⟨nb, hnb⟩ : ∃ nb, nb = min lb (A.rows - k) := ⟨_, rfl⟩
  rw [← hnb]
  have hnb1 : 0 < nb := by omega
  have hle : k + nb ≤ A.rows := by omega
  have hdone : A.rows - k - nb = 0 ∨ nb = lb := by omega
  have hwk : (A.rows - k - nb) * nb ≤ ws := by
    rcases hdone with h | h
    · rw [h]; omega
    · rw [h]
      exact (Nat.mul_le_mul_right _ (by omega)).trans hws
  suffices H : Runs _ (fun m2 =>
      HoldsOn m2 A (InTri false false) (ldlV f (k + nb)) ∧
      Frame (A.footOn (InTri false false) ∪ (c.foot ∪ wkset w ws)) m1 m2 ∧ c.Ready m2 ∧ Alloc (wkset w ws) m2) by
    refine H.mono (fun m2 h => ⟨?_, h.2⟩)
    rcases hdone with hd | hd
    · refine h.1.congr (fun i j hi hj _ => ?_)
      unfold ldlV
      rw [if_pos (by omega), if_pos (by omega)]
    · rw [← hd]; exact h.1
  have u0 := UpdX.init h1 (ldlV f (k + nb)) (c.foot ∪ wkset w ws)
  have dsub : ∀ {r cc nr nc : Nat} {U : Nat → Nat → Prop}, r + nr ≤ A.rows → cc + nc ≤ A.cols →
      (∀ i j, i < nr → j < nc → U i j → InTri false false (r + i) (cc + j)) →
      Disjoint ((A.sub r cc nr nc).footOn U) (c.foot ∪ wkset w ws) := fun hr hc hU =>
    dAF.mono_left (View.footOn_sub hr hc hU)
  have dblk : ∀ {r cc nr nc : Nat}, r + nr ≤ A.rows → cc + nc ≤ A.cols →
      (∀ i j, i < nr → j < nc → InTri false false (r + i) (cc + j)) →
      Disjoint (A.sub r cc nr nc).foot (c.foot ∪ wkset w ws) := fun hr hc hU =>
    dAF.mono_left (View.foot_sub_footOn hr hc hU)
  have lc : c.foot ⊆ c.foot ∪ wkset w ws := Set.subset_union_left
  have lw : wkset w ws ⊆ c.foot ∪ wkset w ws := Set.subset_union_right
  -- diagonal block
  have s1 := unblkLdlLower_spec (env := env) hc.hrec (fuel := fuel) (m := m1) (A := A.sub k k nb nb)
    (f := fun i j => schur f k (k + i) (k + j)) (fun i j => schur_symm hs _ _ _)
    (hw.sub (by omega) (by omega)) rfl (by rw [View.sub_rows]; omega)
    ((u0.part_old (U := InTri false false) (by omega) (by omega) (by simp [InTri])).congr (fun i j _ _ _ => by
      unfold ldlV; rw [if_neg (by omega)]))
  refine s1.bind ?_
  rintro ⟨e2, m2⟩ ⟨-, h2, f2⟩
  dsimp only at h2 f2 ⊢
  have u1 := u0.sub hw dAF (r := k) (c := k) (nr := nb) (nc := nb) (by omega) (by omega) (by simp [InTri])
    (m' := m2) (h2.congr (fun i j hi hj _ => by
      rw [View.sub_cols] at hj
      rw [ldlF_shift]; unfold ldlV; rw [if_pos (by omega)])) (HoldsOn.weaken_frame f2)
  have d1 := (dsub (r := k) (cc := k) (nr := nb) (nc := nb) (U := InTri false false) (by omega) (by omega)
    (by simp [InTri]))
  have R2 : c.Ready m2 := R1.frame f2 (d1.mono_right lc).symm
  have W2 := W1.frame f2 (d1.mono_right lw)
  -- block below: triangular solve
  have dD : ∀ i j, i < A.rows - k - nb → j < nb → InTri false false (k + nb + i) (k + j) := by
    simp [InTri]; omega
  have d2 := dblk (r := k + nb) (cc := k) (nr := A.rows - k - nb) (nc := nb) (by omega) (by omega) dD
  have d12 : Disjoint ((A.sub k k nb nb).footOn (InTri false false)) (A.sub (k + nb) k (A.rows - k - nb) nb).foot :=
    (View.sub_disj hw (by omega) (by omega) (by omega) (by omega) (by omega)).mono_left
        (View.footOn_sub_foot _ _)
  have s2 := solveTrm_eq ab hc.min2 (c := c) (m := m2) (B := A.sub (k + nb) k (A.rows - k - nb) nb)
    (A := A.sub k k nb nb) (fl := { right := true, lower := true, unit := true, transA := true }) (fuel := fuel)
    (f := fun i j => ldlV f k (k + nb + i) (k + j))
    (a := fun i j => ldlF f (k + i) (k + j))
    (Z := fun i j => schur f (k + j) (k + nb + i) (k + j))
    ⟨fun _ => rfl, rfl, rfl, hw.sub (by omega) (by omega), rfl, rfl, R2, hc.rb,
      u1.block_old (by omega) (by omega) (by simp [InTri]; omega),
      (h2.congr (fun i j _ _ _ => ldlF_shift f k i j)).mono (inTri_strict _),
      d12.mono_left (View.footOn_mono (inTri_strict _)),
      (d1.mono_right lc).mono_left (View.footOn_mono (inTri_strict _)), d2.mono_right lc⟩
    rfl rfl (Or.inl rfl)
    (by simp only [View.sub_rows, View.sub_cols]; omega)
    (fun i j hi hj => by
      rw [View.sub_cols] at hj
      rw [View.sub_cols]
      simp only [triProd, if_true, ldlV, show ¬ (k + j < k) by omega, if_false]
      rw [← ldl_block hs (nb := nb) (fun p h => hp p (by omega)) (k + nb + i) hj]
      refine Finset.sum_congr rfl (fun p hp' => ?_)
      rw [← trm_shift])
  refine s2.bind ?_
  rintro ⟨e3, m3⟩ ⟨-, h3, f3, R3⟩
  dsimp only at h3 f3 R3 ⊢
  have f3w : Frame ((A.sub (k + nb) k (A.rows - k - nb) nb).foot ∪ c.foot) m2 m3 := f3
  have W3 := W2.frame f3w (Set.disjoint_union_left.mpr ⟨d2.mono_right lw, dcw⟩)
  -- division by the diagonal
  obtain ⟨g1, g2, g3, g4⟩ := diagRow_facts (V := A.sub k k nb nb) rfl
    (h2.frame f3w (Set.disjoint_union_right.mpr ⟨d12, d1.mono_right lc⟩))
  have gd : ∀ j, j < nb → schur f (k + j) (k + j) (k + j) ≠ 0 := fun j hj => hp _ (by omega)
  have s3 := diag_right (fv := fun x y => (1 : α) * (x / y)) (fm := fun y => 1 / (1 * y))
    (g := fun i j => ldlF f (k + nb + i) (k + j)) (hw.sub (by omega) (by omega)) h3 g1 g3
    (d12.mono_left g4) (by rw [g2]; rfl) (by simp only [View.sub_rows, View.sub_cols]; omega)
    (fun i j hi hj => by
      rw [ldlF_diag, schur_shift, ldlF_off f (by rw [View.sub_cols] at hj; omega)]; ring)
    (fun i j hi hj => by
      rw [ldlF_diag, schur_shift, ldlF_off f (by rw [View.sub_cols] at hj; omega)]; ring)
  unfold solveDiag
  refine s3.bind ?_
  rintro ⟨e4, m4⟩ ⟨h4, f4⟩
  dsimp only at h4 f4 ⊢
  have R4 := R3.frame f4 (d2.mono_right lc).symm
  have W4 := W3.frame f4 (d2.mono_right lw)
  have u2 := u1.block hw dAF (r := k + nb) (c := k) (nr := A.rows - k - nb) (nc := nb) (by omega) (by omega)
    dD (m' := m4) (h4.congr (fun i j hi hj => by
      rw [View.sub_cols] at hj
      unfold ldlV; rw [if_pos (by omega)]))
    ((f3w.mono (Set.union_subset_union_right _ lc)).trans (HoldsOn.weaken_frame f4))
  obtain ⟨g1, g2, g3, g4⟩ := diagRow_facts (V := A.sub k k nb nb) rfl
    ((h2.frame f3w (Set.disjoint_union_right.mpr ⟨d12, d1.mono_right lc⟩)).frame f4 d12)
  -- copy to the work space
  have hwf := wk_foot (w := w) hwk
  obtain ⟨w0, hw0⟩ := W4.holds hwf
  have dLA := (d2.mono_right lw).mono_right hwf
  have s4 := C05_mcopy (A := ⟨w, A.rows - k - nb, A.rows - k - nb, nb⟩)
    (B := A.sub (k + nb) k (A.rows - k - nb) nb) (Or.inl (le_refl _)) hw0 h4 dLA rfl rfl
  refine s4.bind ?_
  rintro ⟨e5, m5⟩ ⟨-, h5, f5⟩
  dsimp only at h5 f5 ⊢
  have s5 := diag_right (fv := fun x y => (1 : α) * (x * y)) (fm := fun y => 1 * y)
    (g := fun i j => schur f (k + j) (k + nb + i) (k + j)) (Or.inl (le_refl _)) h5 g1
    (g3.frame g1 f5 ((d1.mono_right lw).mono g4 hwf)) ((d1.mono_right lw).mono g4 hwf) (by rw [g2]; rfl)
    (by dsimp only; omega)
    (fun i j hi hj => by
      dsimp only at hj
      rw [ldlF_diag, schur_shift, ldlF_off f (by omega), one_mul, div_mul_cancel₀ _ (gd j hj)])
    (fun i j hi hj => by
      dsimp only at hj
      rw [ldlF_diag, schur_shift, ldlF_off f (by omega), one_mul, mul_div_cancel₀ _ (gd j hj)])
  unfold multDiag
  refine s5.bind ?_
  rintro ⟨e6, m6⟩ ⟨h6, f6⟩
  dsimp only at h6 f6 ⊢
  have f56 := f5.trans f6
  have R6 := R4.frame f56 (dcw.mono_right hwf)
  have W6 := W4.write f56 h6
  have hA6 := u2.hold.frame f56 ((dAF.mono_right lw).mono_right hwf)
  have u3 : UpdX m1 A (InTri false false) (c.foot ∪ wkset w ws) (ldlV f k) (ldlV f (k + nb)) _ m6 :=
    ⟨hA6, u2.frame.trans (f56.mono (hwf.trans (lw.trans Set.subset_union_right)))⟩
  -- remaining matrix
  have dA22 := dsub (r := k + nb) (cc := k + nb) (nr := A.rows - k - nb) (nc := A.rows - k - nb)
    (U := InTri false false) (by omega) (by omega) (by simp [InTri])
  have s6 := C21_update_trm_partial ab hc.min2 (c := c) (m := m6)
    (C := A.sub (k + nb) (k + nb) (A.rows - k - nb) (A.rows - k - nb))
    (A := ⟨w, A.rows - k - nb, A.rows - k - nb, nb⟩)
    (B := A.sub (k + nb) k (A.rows - k - nb) nb) (K := nb) (1 : α) (-1) (fl := { lower := true, transB := true })
    (fuel := fuel)
    ⟨rfl, rfl, hw.sub (by omega) (by omega), hnb1, rfl, rfl, rfl, rfl, R6, h6,
      h4.frame f56 dLA, u3.part_old (by omega) (by omega) (by simp [InTri]), (dcw.mono_right hwf).symm,
      d2.mono_right lc, dA22.mono_right lc, ((dA22.mono_right lw).mono_right hwf).symm,
      (View.sub_disj hw (by omega) (by omega) (by omega) (by omega) (by omega)).mono_right
        (View.footOn_sub_foot _ _)⟩ (Or.inl rfl) (by simp only [View.sub_rows, View.sub_cols]; omega)
  refine s6.bind ?_
  rintro ⟨e7, m7⟩ ⟨-, h7, f7, R7⟩
  dsimp only at h7 f7 R7 ⊢
  have u4 := u3.sub hw dAF (r := k + nb) (c := k + nb) (nr := A.rows - k - nb) (nc := A.rows - k - nb)
    (by omega) (by omega) (by simp [InTri]) (m' := m7) (h7.congr (fun i j hi hj _ => by
      simp only [ldlV, show ¬ (k + nb + j < k) by omega, show ¬ (k + nb + j < k + nb) by omega,
        if_false, if_true, Bool.false_eq_true, rankSum]
      rw [← ldl_update hs (k := k) (nb := nb) (fun p h => hp p (by omega)) (k + nb + i) (k + nb + j)]
      rw [Finset.sum_congr rfl (fun p hp' => by
        have := Finset.mem_range.mp hp'
        rw [ldlF_off f (by omega)])]
      ring)) (f7.mono (Set.union_subset_union_right _ lc))
  refine Runs.pure ⟨u4.fin (fun i j hi hj ht hS => ?_), u4.frame, R7,
    W6.frame f7 (Set.disjoint_union_left.mpr ⟨dA22.mono_right lw, dcw⟩)⟩
  simp [InTri] at ht hS
  unfold ldlV
  rw [if_pos (by omega), if_pos (by omega)]

theorem blkLdlLower_spec (ab : α → α) {env : Env} {c : Cache} (hc : Conf3 env c) {fuel : Nat}
    {m : Mem α} {A : View} {f : Nat → Nat → α} (hs : ∀ i j, f i j = f j i) (hw : A.WF)
    (hsq : A.cols = A.rows) (hf : 4 * A.rows + 1 < fuel) {lb w ws : Nat} (hlb : 2 ≤ lb)
    (hws : (A.rows - lb) * lb ≤ ws)
    (hp : ∀ p, p < A.rows → schur f p p p ≠ 0) (R : c.Ready m) (W : Alloc (wkset w ws) m)
    (dAF : Disjoint (A.footOn (InTri false false)) (c.foot ∪ wkset w ws)) (dcw : Disjoint c.foot (wkset w ws))
    (hA : HoldsOn m A (InTri false false) f) :
    Runs (blkLdlLower ab env fuel m A w lb (some c)) (fun r => r.1 = 0 ∧
      HoldsOn r.2 A (InTri false false) (ldlF f) ∧
      Frame (A.footOn (InTri false false) ∪ (c.foot ∪ wkset w ws)) m r.2) := by
  unfold blkLdlLower
  refine Runs.bind (P := fun x => HoldsOn x.2 A (InTri false false) (ldlF f) ∧
      Frame (A.footOn (InTri false false) ∪ (c.foot ∪ wkset w ws)) m x.2)
    (Runs.forUp (fun k (m1 : Mem α) => HoldsOn m1 A (InTri false false) (ldlV f k) ∧
      Frame (A.footOn (InTri false false) ∪ (c.foot ∪ wkset w ws)) m m1 ∧ c.Ready m1 ∧ Alloc (wkset w ws) m1)
      (by omega) ⟨hA, Frame.refl _ _, R, W⟩ ?_ (fun k st hk _ hst => ⟨hst.1.congr (fun i j hi hj _ => ?_), hst.2.1⟩))
    (fun x hx => Runs.pure ⟨rfl, hx⟩)
  · rintro k m1 - hk ⟨h1, f1, R1, W1⟩
    refine (blkLdlLowerStep_spec ab hc hs hw hsq hf hlb hk hws hp R1 W1 dAF dcw h1).mono ?_
    rintro m2 ⟨h2, f2, h3⟩
    exact ⟨h2, f1.trans f2, h3⟩
  · unfold ldlV; rw [if_pos (by omega)]

omit [DecidableEq α] in
theorem trm_rv (f : Nat → Nat → α) {k lb j q : Nat} (hj : j < lb) (hq : q < lb) :
    trm true true (rv lb (fun i j => f (k + i) (k + j))) j q =
      trm false true f (k + (lb - 1 - j)) (k + (lb - 1 - q)) := by
  simp only [trm, rv, if_true, Bool.false_eq_true, if_false]
  rcases Nat.lt_trichotomy j q with h | h | h
  · rw [if_neg (by omega), if_pos h, if_neg (by omega), if_pos (by omega)]
  · subst h; simp
  · rw [if_neg (by omega), if_neg (by omega), if_neg (by omega), if_neg (by omega)]


theorem blkLdlUpperStep_spec (ab : α → α) {env : Env} {c : Cache} (hc : Conf3 env c) {fuel : Nat}
    {m1 : Mem α} {A : View} {f : Nat → Nat → α} (hs : ∀ i j, f i j = f j i) (hw : A.WF)
    (hsq : A.cols = A.rows) (hf : 4 * A.rows + 1 < fuel) {lb k p w ws : Nat} (hlb : 2 ≤ lb)
    (hk : k + lb < A.rows) (hpk : p = A.rows - k - lb)
    (hws : (A.rows - lb) * lb ≤ ws) (hev : EvenSplits env c p { upper := true, transB := true })
    (hp : ∀ p, p < A.rows → schur f p p p ≠ 0) (R1 : c.Ready m1) (W1 : Alloc (wkset w ws) m1)
    (dAF : Disjoint (A.footOn (InTri true false)) (c.foot ∪ wkset w ws)) (dcw : Disjoint c.foot (wkset w ws))
    (h1 : HoldsOn m1 A (InTri true false) (rv A.rows (ldlV f k))) :
    Runs (blkLdlUpperStep ab env fuel A w lb (some c) p m1) (fun m2 =>
      HoldsOn m2 A (InTri true false) (rv A.rows (ldlV f (k + lb))) ∧
      Frame (A.footOn (InTri true false) ∪ (c.foot ∪ wkset w ws)) m1 m2 ∧ c.Ready m2 ∧ Alloc (wkset w ws) m2) := by
  unfold blkLdlUpperStep
  dsimp only
  have hwk : p * lb ≤ ws := (Nat.mul_le_mul_right _ (by omega)).trans hws
  have u0 := UpdX.init h1 (rv A.rows (ldlV f (k + lb))) (c.foot ∪ wkset w ws)
  have dsub : ∀ {r cc nr nc : Nat} {U : Nat → Nat → Prop}, r + nr ≤ A.rows → cc + nc ≤ A.cols →
      (∀ i j, i < nr → j < nc → U i j → InTri true false (r + i) (cc + j)) →
      Disjoint ((A.sub r cc nr nc).footOn U) (c.foot ∪ wkset w ws) := fun hr hc hU =>
    dAF.mono_left (View.footOn_sub hr hc hU)
  have dblk : ∀ {r cc nr nc : Nat}, r + nr ≤ A.rows → cc + nc ≤ A.cols →
      (∀ i j, i < nr → j < nc → InTri true false (r + i) (cc + j)) →
      Disjoint (A.sub r cc nr nc).foot (c.foot ∪ wkset w ws) := fun hr hc hU =>
    dAF.mono_left (View.foot_sub_footOn hr hc hU)
  have lc : c.foot ⊆ c.foot ∪ wkset w ws := Set.subset_union_left
  have lw : wkset w ws ⊆ c.foot ∪ wkset w ws := Set.subset_union_right
  have ix : ∀ i, i < lb → A.rows - 1 - (p + i) = k + (lb - 1 - i) := by intro i hi; omega
  -- diagonal block
  have s1 := unblkLdlUpper_spec (env := env) hc.hrec (fuel := fuel) (m := m1) (A := A.sub p p lb lb)
    (f := fun i j => schur f k (k + i) (k + j)) (fun i j => schur_symm hs _ _ _)
    (hw.sub (by omega) (by omega)) rfl (by rw [View.sub_rows]; omega)
    ((u0.part_old (U := InTri true false) (by omega) (by omega) (by simp [InTri])).congr (fun i j hi hj _ => by
      rw [View.sub_rows] at hi; rw [View.sub_cols] at hj
      simp only [rv, ldlV, View.sub_rows]
      rw [ix i hi, ix j hj, if_neg (by omega)]))
  refine s1.bind ?_
  rintro ⟨e2, m2⟩ ⟨-, h2, f2⟩
  dsimp only at h2 f2 ⊢
  have h2' : HoldsOn m2 (A.sub p p lb lb) (InTri true false) (rv lb (fun i j => ldlF f (k + i) (k + j))) :=
    h2.congr (fun i j _ _ _ => by simp only [rv, View.sub_rows]; rw [ldlF_shift])
  have u1 := u0.sub hw dAF (r := p) (c := p) (nr := lb) (nc := lb) (by omega) (by omega) (by simp [InTri])
    (m' := m2) (h2'.congr (fun i j hi hj _ => by
      rw [View.sub_rows] at hi; rw [View.sub_cols] at hj
      simp only [rv, ldlV]
      rw [ix i hi, ix j hj, if_pos (by omega)])) (HoldsOn.weaken_frame f2)
  have d1 := (dsub (r := p) (cc := p) (nr := lb) (nc := lb) (U := InTri true false) (by omega) (by omega)
    (by simp [InTri]))
  have R2 : c.Ready m2 := R1.frame f2 (d1.mono_right lc).symm
  have W2 := W1.frame f2 (d1.mono_right lw)
  -- block above: triangular solve
  have dD : ∀ i j, i < p → j < lb → InTri true false (0 + i) (p + j) := by
    simp [InTri]; omega
  have d2 := dblk (r := 0) (cc := p) (nr := p) (nc := lb) (by omega) (by omega) dD
  have d12 : Disjoint ((A.sub p p lb lb).footOn (InTri true false)) (A.sub 0 p p lb).foot :=
    (View.sub_disj hw (by omega) (by omega) (by omega) (by omega) (by omega)).mono_left
        (View.footOn_sub_foot _ _)
  have s2 := solveTrm_eq ab hc.min2 (c := c) (m := m2) (B := A.sub 0 p p lb)
    (A := A.sub p p lb lb) (fl := { right := true, upper := true, unit := true, transA := true }) (fuel := fuel)
    (f := fun i j => rv A.rows (ldlV f k) (0 + i) (p + j))
    (a := rv lb (fun i j => ldlF f (k + i) (k + j)))
    (Z := fun i j => schur f (k + (lb - 1 - j)) (A.rows - 1 - i) (k + (lb - 1 - j)))
    ⟨fun _ => rfl, rfl, rfl, hw.sub (by omega) (by omega), rfl, rfl, R2, hc.rb,
      u1.block_old (by omega) (by omega) (by simp [InTri]; omega),
      h2'.mono (inTri_strict _),
      d12.mono_left (View.footOn_mono (inTri_strict _)),
      (d1.mono_right lc).mono_left (View.footOn_mono (inTri_strict _)), d2.mono_right lc⟩
    rfl rfl (Or.inl rfl)
    (by simp only [View.sub_rows, View.sub_cols]; omega)
    (fun i j hi hj => by
      rw [View.sub_cols] at hj
      rw [View.sub_cols]
      have e := ldl_block hs (k := k) (nb := lb) (fun p h => hp p (by omega)) (A.rows - 1 - i)
        (j := lb - 1 - j) (by omega)
      rw [← Finset.sum_range_reflect] at e
      simp only [triProd, if_true]
      rw [Finset.sum_congr rfl (fun q hq => by rw [trm_rv (ldlF f) hj (Finset.mem_range.mp hq)]), e]
      simp only [rv, ldlV, Nat.zero_add]
      rw [ix j hj, if_neg (by omega)])
  refine s2.bind ?_
  rintro ⟨e3, m3⟩ ⟨-, h3, f3, R3⟩
  dsimp only at h3 f3 R3 ⊢
  have f3w : Frame ((A.sub 0 p p lb).foot ∪ c.foot) m2 m3 := f3
  have W3 := W2.frame f3w (Set.disjoint_union_left.mpr ⟨d2.mono_right lw, dcw⟩)
  -- division by the diagonal
  obtain ⟨g1, g2, g3, g4⟩ := diagRow_facts (V := A.sub p p lb lb) rfl
    (h2'.frame f3w (Set.disjoint_union_right.mpr ⟨d12, d1.mono_right lc⟩))
  have gd : ∀ j, j < lb → schur f (k + (lb - 1 - j)) (k + (lb - 1 - j)) (k + (lb - 1 - j)) ≠ 0 :=
    fun j hj => hp _ (by omega)
  have s3 := diag_right (fv := fun x y => (1 : α) * (x / y)) (fm := fun y => 1 / (1 * y))
    (g := fun i j => ldlF f (A.rows - 1 - i) (k + (lb - 1 - j))) (hw.sub (by omega) (by omega)) h3 g1 g3
    (d12.mono_left g4) (by rw [g2]; rfl) (by simp only [View.sub_rows, View.sub_cols]; omega)
    (fun i j hi hj => by
      rw [View.sub_rows] at hi; rw [View.sub_cols] at hj
      simp only [rv]
      rw [ldlF_diag, ldlF_off f (by omega)]; ring)
    (fun i j hi hj => by
      rw [View.sub_rows] at hi; rw [View.sub_cols] at hj
      simp only [rv]
      rw [ldlF_diag, ldlF_off f (by omega)]; ring)
  unfold solveDiag
  refine s3.bind ?_
  rintro ⟨e4, m4⟩ ⟨h4, f4⟩
  dsimp only at h4 f4 ⊢
  have R4 := R3.frame f4 (d2.mono_right lc).symm
  have W4 := W3.frame f4 (d2.mono_right lw)
  have u2 := u1.block hw dAF (r := 0) (c := p) (nr := p) (nc := lb) (by omega) (by omega)
    dD (m' := m4) (h4.congr (fun i j hi hj => by
      rw [View.sub_cols] at hj
      simp only [rv, ldlV, Nat.zero_add]
      rw [ix j hj, if_pos (by omega)]))
    ((f3w.mono (Set.union_subset_union_right _ lc)).trans (HoldsOn.weaken_frame f4))
  obtain ⟨g1, g2, g3, g4⟩ := diagRow_facts (V := A.sub p p lb lb) rfl
    ((h2'.frame f3w (Set.disjoint_union_right.mpr ⟨d12, d1.mono_right lc⟩)).frame f4 d12)
  -- copy to the work space
  have hwf := wk_foot (w := w) hwk
  obtain ⟨w0, hw0⟩ := W4.holds hwf
  have dLA := (d2.mono_right lw).mono_right hwf
  have s4 := C05_mcopy (A := ⟨w, p, p, lb⟩)
    (B := A.sub 0 p p lb) (Or.inl (le_refl _)) hw0 h4 dLA rfl rfl
  refine s4.bind ?_
  rintro ⟨e5, m5⟩ ⟨-, h5, f5⟩
  dsimp only at h5 f5 ⊢
  have s5 := diag_right (fv := fun x y => (1 : α) * (x * y)) (fm := fun y => 1 * y)
    (g := fun i j => schur f (k + (lb - 1 - j)) (A.rows - 1 - i) (k + (lb - 1 - j))) (Or.inl (le_refl _)) h5 g1
    (g3.frame g1 f5 ((d1.mono_right lw).mono g4 hwf)) ((d1.mono_right lw).mono g4 hwf) (by rw [g2]; rfl)
    (by dsimp only; omega)
    (fun i j hi hj => by
      dsimp only at hi hj
      simp only [rv]
      rw [ldlF_diag, ldlF_off f (by omega), one_mul, div_mul_cancel₀ _ (gd j hj)])
    (fun i j hi hj => by
      dsimp only at hi hj
      simp only [rv]
      rw [ldlF_diag, ldlF_off f (by omega), one_mul, mul_div_cancel₀ _ (gd j hj)])
  unfold multDiag
  refine s5.bind ?_
  rintro ⟨e6, m6⟩ ⟨h6, f6⟩
  dsimp only at h6 f6 ⊢
  have f56 := f5.trans f6
  have R6 := R4.frame f56 (dcw.mono_right hwf)
  have W6 := W4.write f56 h6
  have hA6 := u2.hold.frame f56 ((dAF.mono_right lw).mono_right hwf)
  have u3 : UpdX m1 A (InTri true false) (c.foot ∪ wkset w ws) (rv A.rows (ldlV f k)) (rv A.rows (ldlV f (k + lb))) _ m6 :=
    ⟨hA6, u2.frame.trans (f56.mono (hwf.trans (lw.trans Set.subset_union_right)))⟩
  -- remaining matrix
  have dA22 := dsub (r := 0) (cc := 0) (nr := p) (nc := p)
    (U := InTri true false) (by omega) (by omega) (by simp [InTri])
  have s6 := C21_update_trm_partial ab hc.min2 (c := c) (m := m6)
    (C := A.sub 0 0 p p) (A := ⟨w, p, p, lb⟩)
    (B := A.sub 0 p p lb) (K := lb) (1 : α) (-1) (fl := { upper := true, transB := true })
    (fuel := fuel)
    ⟨rfl, rfl, hw.sub (by omega) (by omega), by omega, rfl, rfl, rfl, rfl, R6, h6,
      h4.frame f56 dLA, u3.part_old (by omega) (by omega) (by simp [InTri]; omega), (dcw.mono_right hwf).symm,
      d2.mono_right lc, dA22.mono_right lc, ((dA22.mono_right lw).mono_right hwf).symm,
      (View.sub_disj hw (by omega) (by omega) (by omega) (by omega) (by omega)).mono_right
        (View.footOn_sub_foot _ _)⟩ (by simpa using hev) (by simp only [View.sub_rows, View.sub_cols]; omega)
  refine s6.bind ?_
  rintro ⟨e7, m7⟩ ⟨-, h7, f7, R7⟩
  dsimp only at h7 f7 R7 ⊢
  have u4 := u3.sub hw dAF (r := 0) (c := 0) (nr := p) (nc := p)
    (by omega) (by omega) (by simp [InTri]) (m' := m7) (h7.congr (fun i j hi hj _ => by
      rw [View.sub_rows] at hi; rw [View.sub_cols] at hj
      simp only [rv, ldlV, Nat.zero_add, show ¬ (A.rows - 1 - j < k) by omega,
        show ¬ (A.rows - 1 - j < k + lb) by omega, if_false, if_true, Bool.false_eq_true, rankSum]
      rw [← ldl_update hs (k := k) (nb := lb) (fun p h => hp p (by omega)) (A.rows - 1 - i) (A.rows - 1 - j)]
      rw [← Finset.sum_range_reflect (fun p => schur f (k + p) (A.rows - 1 - i) (k + p) * _)]
      rw [Finset.sum_congr rfl (fun q hq => by
        have := Finset.mem_range.mp hq
        rw [ldlF_off f (by omega)])]
      ring)) (f7.mono (Set.union_subset_union_right _ lc))
  refine Runs.pure ⟨u4.fin (fun i j hi hj ht hS => ?_), u4.frame, R7,
    W6.frame f7 (Set.disjoint_union_left.mpr ⟨dA22.mono_right lw, dcw⟩)⟩
  simp [InTri] at ht hS
  unfold rv ldlV
  rw [if_pos (by omega), if_pos (by omega)]

theorem blkLdlUpper_spec (ab : α → α) {env : Env} {c : Cache} (hc : Conf3 env c) {fuel : Nat}
    {m : Mem α} {A : View} {f : Nat → Nat → α} (hs : ∀ i j, f i j = f j i) (hw : A.WF)
    (hsq : A.cols = A.rows) (hf : 4 * A.rows + 1 < fuel) {lb w ws : Nat} (hlb : 2 ≤ lb)
    (hws : (A.rows - lb) * lb ≤ ws)
    (hev : ∀ q, EvenSplits env c (A.rows - q * lb) { upper := true, transB := true })
    (hp : ∀ p, p < A.rows → schur f p p p ≠ 0) (R : c.Ready m) (W : Alloc (wkset w ws) m)
    (dAF : Disjoint (A.footOn (InTri true false)) (c.foot ∪ wkset w ws)) (dcw : Disjoint c.foot (wkset w ws))
    (hA : HoldsOn m A (InTri true false) (rv A.rows f)) :
    Runs (blkLdlUpper ab env fuel m A w lb (some c)) (fun r => r.1 = 0 ∧
      HoldsOn r.2 A (InTri true false) (rv A.rows (ldlF f)) ∧
      Frame (A.footOn (InTri true false) ∪ (c.foot ∪ wkset w ws)) m r.2) := by
  unfold blkLdlUpper
  refine Runs.bind (P := fun x => x.1 ≤ A.rows ∧ HoldsOn x.2 A (InTri true false) (rv A.rows (ldlV f x.1)) ∧
      Frame (A.footOn (InTri true false) ∪ (c.foot ∪ wkset w ws)) m x.2)
    (Runs.forUp (fun k (m1 : Mem α) => (k ≤ A.rows ∧ ∃ q, k = q * lb) ∧
      HoldsOn m1 A (InTri true false) (rv A.rows (ldlV f k)) ∧
      Frame (A.footOn (InTri true false) ∪ (c.foot ∪ wkset w ws)) m m1 ∧ c.Ready m1 ∧ Alloc (wkset w ws) m1)
      (by omega) ⟨⟨Nat.zero_le _, 0, by simp⟩, hA, Frame.refl _ _, R, W⟩ ?_ (fun k st hk _ hst => ⟨hst.1.1, hst.2.1, hst.2.2.1⟩)) ?_
  · rintro k m1 - hk ⟨⟨-, q, hq⟩, h1, f1, R1, W1⟩
    refine (blkLdlUpperStep_spec ab hc hs hw hsq hf hlb (by omega) rfl hws ?_ hp R1 W1 dAF dcw h1).mono ?_
    · have := hev (q + 1)
      rw [Nat.add_mul, one_mul, ← hq, ← Nat.sub_sub] at this
      exact this
    · rintro m2 ⟨h2, f2, h3⟩
      exact ⟨⟨by omega, q + 1, by rw [Nat.add_mul, one_mul, hq]⟩, h2, f1.trans f2, h3⟩
  · rintro ⟨k, m1⟩ ⟨hk, h1, f1⟩
    dsimp only at hk h1 f1 ⊢
    have u0 := UpdX.init h1 (rv A.rows (ldlF f)) (c.foot ∪ wkset w ws)
    split
    · have ix : ∀ i, i < A.rows - k → A.rows - 1 - (0 + i) = k + (A.rows - k - 1 - i) := by intro i hi; omega
      have s1 := unblkLdlUpper_spec (env := env) hc.hrec (fuel := fuel) (m := m1)
        (A := A.sub 0 0 (A.rows - k) (A.rows - k))
        (f := fun i j => schur f k (k + i) (k + j)) (fun i j => schur_symm hs _ _ _)
        (hw.sub (by omega) (by omega)) rfl (by rw [View.sub_rows]; omega)
        ((u0.part_old (U := InTri true false) (by omega) (by omega) (by simp [InTri])).congr
          (fun i j hi hj _ => by
            rw [View.sub_rows] at hi; rw [View.sub_cols] at hj
            simp only [rv, ldlV, View.sub_rows]
            rw [ix i hi, ix j hj, if_neg (by omega)]))
      refine s1.bind ?_
      rintro ⟨e2, m2⟩ ⟨he2, h2, f2⟩
      dsimp only at he2 h2 f2 ⊢
      have u1 := u0.sub hw dAF (r := 0) (c := 0) (nr := A.rows - k) (nc := A.rows - k) (by omega) (by omega)
        (by simp [InTri]) (m' := m2) (h2.congr (fun i j hi hj _ => by
          rw [View.sub_rows] at hi; rw [View.sub_cols] at hj
          simp only [rv, View.sub_rows]
          rw [ldlF_shift, ix i hi, ix j hj]))
        (HoldsOn.weaken_frame f2)
      refine Runs.pure ⟨rfl, u1.fin (fun i j hi hj ht hS => ?_), f1.trans u1.frame⟩
      simp [InTri] at ht hS
      unfold rv ldlV
      rw [if_pos (by omega)]
    · refine Runs.pure ⟨rfl, h1.congr (fun i j hi hj _ => ?_), f1⟩
      unfold rv ldlV
      rw [if_pos (by omega)]

end Armas
