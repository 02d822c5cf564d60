import Verif.InvLemmas
import Verif.Demo

/-!
# C59: inverse of a triangular matrix
-/

namespace Armas.Props

open Finset Armas

variable {α : Type} [Field α] [DecidableEq α]

/-- `x` is the two-sided inverse of the `n x n` matrix `t`. -/
def IsInverse (n : Nat) (t x : Nat → Nat → α) : Prop :=
  ∀ i j, i < n → j < n → ∑ p ∈ range n, t i p * x p j = (if i = j then 1 else 0) ∧
    ∑ p ∈ range n, x i p * t p j = (if i = j then 1 else 0)

theorem TriInv.isInverse {up unit : Bool} {n : Nat} {a g : Nat → Nat → α}
    (h : TriInv up n (trm up false a) g) (hu : unit = true → ∀ i, i < n → a i i = 1) :
    IsInverse n (trm up unit a) (trm up unit g) := by
  have gu : unit = true → ∀ i, i < n → g i i = 1 := by
    intro e i hi
    rw [h.diag_trm hi, hu e i hi, div_one]
  intro i j hi hj
  constructor
  · rw [← h.right i j hi hj]
    refine Finset.sum_congr rfl (fun p hp => ?_)
    rw [Finset.mem_range] at hp
    rw [trm_unit hu hi, trm_unit gu hp, h.trm_eq hp hj]
  · rw [← h.left i j hi hj]
    refine Finset.sum_congr rfl (fun p hp => ?_)
    rw [Finset.mem_range] at hp
    rw [trm_unit gu hi, trm_unit hu hp, h.trm_eq hi hp]

/-- C59: `armas_inverse_trm` replaces the selected triangle of a nonsingular matrix by the triangle of its
inverse, unblocked and for every block size, and changes nothing but the triangle and the copy buffers; the
elements of the other triangle may be unallocated.
Missing: with `ARMAS_UNIT` the stored diagonal has to be one (false otherwise, `C59_unit_false`); in the blocked
algorithm the recursion of `armas_solve_trm` must not be entered (`NoRec`; false otherwise,
`C59_recursion_false`). -/
theorem C59_inverse_trm_partial (ab : α → α) {env : Env} {c : Cache} (hc : Conf3 env c) {lb fuel : Nat}
    {m : Mem α} {A : View} {a : Nat → Nat → α} {fl : Flags} (hfl : fl.lower = !fl.upper) (hw : A.WF)
    (hsq : A.cols = A.rows) (hf : 3 * A.rows + 1 < fuel) (hA : HoldsOn m A (InTri fl.upper false) a)
    (hd : ∀ i, i < A.rows → a i i ≠ 0) (hu : fl.unit = true → ∀ i, i < A.rows → a i i = 1)
    (hlb : lb = 0 ∨ A.cols ≤ lb ∨ NoRec env c lb) (R : c.Ready m)
    (dAc : Disjoint (A.footOn (InTri fl.upper false)) c.foot) :
    Runs (inverseTrm ab env lb fuel m A fl (some c)) (fun r => r.1 = 0 ∧
      (∃ g, HoldsOn r.2 A (InTri fl.upper false) g ∧
        IsInverse A.rows (trm fl.upper fl.unit a) (trm fl.upper fl.unit g)) ∧
      Frame (A.footOn (InTri fl.upper false) ∪ c.foot) m r.2) := by
  have hmin : env.blas2min ≠ 1 ∨ env.naive = true := by
    rcases hc.min2 with h | h
    · left; omega
    · exact Or.inr h.1
  obtain ⟨g, hg⟩ := triInv_exists fl.upper A.rows (t := trm fl.upper false a)
    (fun i j _ _ h => trm_tri fl.upper false a h) (fun i hi => by simpa [trm] using hd i hi)
  have hI := TriInv.isInverse hg hu
  unfold inverseTrm
  rw [if_neg (not_not.mpr hsq.symm)]
  by_cases h0 : A.rows = 0
  · rw [if_pos h0]
    exact Runs.ok ⟨rfl, ⟨a, hA, fun i j hi => by omega⟩, Frame.refl _ _⟩
  rw [if_neg h0, hfl]
  revert hA dAc hg hI
  cases fl.upper <;> intro hA dAc hg hI <;> simp only [Bool.not_true, Bool.not_false, if_true, if_false,
    Bool.false_eq_true] <;> split
  · exact (unblkInvLower_spec ab hmin hw hsq (by omega) hA hd hu hg).mono
      (fun r h => ⟨h.1, ⟨g, h.2.1, hI⟩, h.2.2.mono Set.subset_union_left⟩)
  · rename_i hb
    rw [not_or] at hb
    exact (blkInvLower_spec ab hc hw hsq hf (by omega) (by rcases hlb with h | h | h; exacts [absurd h hb.1, absurd h hb.2, h]) hd hu hg R dAc hA).mono
      (fun r h => ⟨h.1, ⟨g, h.2.1, hI⟩, h.2.2.1⟩)
  · exact (unblkInvUpper_spec ab hmin hw hsq (by omega) hA hd hu hg).mono
      (fun r h => ⟨h.1, ⟨g, h.2.1, hI⟩, h.2.2.mono Set.subset_union_left⟩)
  · rename_i hb
    rw [not_or] at hb
    exact (blkInvUpper_spec ab hc hw hsq hf (by omega) (by rcases hlb with h | h | h; exacts [absurd h hb.1, absurd h hb.2, h]) hd hu hg R dAc hA).mono
      (fun r h => ⟨h.1, ⟨g, h.2.1, hI⟩, h.2.2.1⟩)

/-- A 7x7 lower triangle, blocks of 3, recursion threshold 4. -/
example := C59_inverse_trm_partial (α := ℚ) id (env := ⟨8, 4, false, false⟩) (c := ⟨500, 600, 4, 2, 3, 2, 1⟩)
  ⟨Or.inl (by decide), by decide⟩ (lb := 3) (fuel := 100) (m := tot (fun p => (p + 1 : ℚ))) (A := ⟨0, 9, 7, 7⟩)
  (fl := { lower := true }) rfl (Or.inl (by decide)) rfl (by decide) (HoldsOn.of_holds (holds_tot _ _))
  (fun i _ => Nat.cast_add_one_ne_zero _) (fun h => by simp at h) (Or.inr (Or.inr (Or.inr (Or.inl (by decide)))))
  ⟨by decide, by decide, by decide, by decide, by decide, ⟨_, holds_tot _ _⟩, ⟨_, holds_tot _ _⟩,
    View.disj_below (by decide)⟩
  ((Set.disjoint_union_right.mpr ⟨View.disj_below (by decide), View.disj_below (by decide)⟩).mono_left
    (View.footOn_sub_foot _ _))

omit [Field α] [DecidableEq α] in
/-- C59: a matrix that is not square is refused. -/
theorem C59_size_error [Field α] [DecidableEq α] (ab : α → α) (env : Env) (lb fuel : Nat) (m : Mem α) {A : View}
    (fl : Flags) (cbuf : Option Cache) (h : A.rows ≠ A.cols) :
    inverseTrm ab env lb fuel m A fl cbuf = .ok (-ESIZE, m) := by
  unfold inverseTrm; rw [if_pos h]

example := C59_size_error (α := ℚ) id ⟨8, 4, false, false⟩ 0 10 (tot (fun p => (p : ℚ))) (A := ⟨0, 3, 3, 2⟩)
  { lower := true } none (by decide)

/-! ## Singular matrices -/

/-- The triangle is allocated, its diagonal in the part `D` is that of `a`, nothing else than the triangle
differs from `m`. -/
def Alive (m : Mem α) (A : View) (up : Bool) (a : Nat → Nat → α) (D : Nat → Prop) (m1 : Mem α) : Prop :=
  (∃ h, HoldsOn m1 A (InTri up false) h ∧ ∀ i, i < A.rows → D i → h i i = a i i) ∧
    Frame (A.footOn (InTri up false)) m m1

/-- One column of the triangle was changed. -/
theorem Alive.col {m m1 m2 : Mem α} {A : View} {up : Bool} {a : Nat → Nat → α} {D D' : Nat → Prop} (hw : A.WF)
    (h : Alive m A up a D m1) {r k n : Nat} (hk : k < A.cols) (hr : r + n ≤ A.rows)
    (ht : ∀ i, i < n → InTri up false (r + i) k) {y : Nat → Nat → α}
    (hy : Holds m2 (A.sub r k n 1) y) (hf : Frame (A.sub r k n 1).foot m1 m2)
    (hD : ∀ i, D' i → D i ∧ ¬ (i = k ∧ r ≤ k ∧ k < r + n)) : Alive m A up a D' m2 := by
  obtain ⟨⟨f, hf1, hf2⟩, hfr⟩ := h
  have u := (UpdX.init hf1 (fun i j => if r ≤ i ∧ i < r + n ∧ j = k then y (i - r) 0 else f i j) ∅).block hw
    (by simp) (r := r) (c := k) (nr := n) (nc := 1) (m' := m2) hr (by omega)
    (fun i j hi hj => by obtain rfl : j = 0 := by omega
                         exact ht i hi)
    (hy.congr (fun i j hi hj => by
      rw [View.sub_rows] at hi
      rw [View.sub_cols] at hj
      obtain rfl : j = 0 := by omega
      rw [if_pos ⟨by omega, by omega, rfl⟩, Nat.add_sub_cancel_left])) (hf.mono Set.subset_union_left)
  refine ⟨⟨_, u.hold, fun i hi hDi => ?_⟩, hfr.trans (by simpa using u.frame)⟩
  obtain ⟨h1, h2⟩ := hD i hDi
  split
  · split
    · omega
    · exact hf2 i hi h1
  · exact hf2 i hi h1

theorem unblkInvUpper_status (ab : α → α) {env : Env} (hmin : env.blas2min ≠ 1 ∨ env.naive = true) {fuel : Nat}
    {m : Mem α} {A : View} {a : Nat → Nat → α} (hw : A.WF) (hsq : A.cols = A.rows)
    (hf : A.rows + 1 < fuel) (hA : HoldsOn m A (InTri true false) a) :
    Runs (unblkInvUpper ab env fuel m A false) (fun r => (r.1 = 0 ∧ (∀ i, i < A.rows → a i i ≠ 0) ∨
      r.1 = -1 ∧ ∃ i, i < A.rows ∧ a i i = 0) ∧ Frame (A.footOn (InTri true false)) m r.2) := by
  unfold unblkInvUpper
  rw [hsq, min_self]
  refine Runs.bind (P := fun x => (x.2.1 = 0 ∧ (∀ i, i < A.rows → a i i ≠ 0) ∨
      x.2.1 = -1 ∧ ∃ i, i < A.rows ∧ a i i = 0) ∧ Alive m A true a (fun i => A.rows ≤ i) x.2.2)
    (Runs.forUp1 (fun k (st : Int × Mem α) => (st.1 = 0 ∧ (∀ i, i < k → a i i ≠ 0) ∨
      st.1 = -1 ∧ ∃ i, i < k ∧ a i i = 0) ∧ Alive m A true a (fun i => k ≤ i) st.2) (Nat.zero_le _)
      ⟨Or.inl ⟨rfl, fun i hi => by omega⟩, ⟨a, hA, fun _ _ _ => rfl⟩, Frame.refl _ _⟩ ?_ (fun st hst => hst)) ?_
  · rintro k ⟨err, m1⟩ - hk ⟨he, h1⟩
    unfold unblkInvUpperStep
    dsimp only at he ⊢
    rw [if_neg (by simp)]
    obtain ⟨⟨f, hf1, hf2⟩, hfr⟩ := id h1
    have hx := hf1 k k hk (by omega) (by simp [InTri])
    rw [hf2 k hk (le_refl _)] at hx
    refine Runs.rd_bind hx ?_
    by_cases c : a k k = 0
    · rw [if_pos c]
      exact Runs.pure ⟨Or.inr ⟨rfl, k, by omega, c⟩, ⟨⟨f, hf1, fun i hi h => hf2 i hi (by omega)⟩, hfr⟩⟩
    rw [if_neg c]
    refine Runs.wr_bind hx ?_
    have h2 : Alive m A true a (fun i => k + 1 ≤ i) (m1.set (A.at' k k) (1 / a k k)) := by
      refine h1.col (r := k) (n := 1) (k := k) (y := fun _ _ => 1 / a k k) hw (by omega) (by omega)
        (by simp [InTri]) ?_ ?_ (by intros; omega)
      · intro i j hi hj
        rw [View.sub_rows] at hi
        rw [View.sub_cols] at hj
        obtain rfl : i = 0 := by omega
        obtain rfl : j = 0 := by omega
        rw [View.at_sub]
        exact Mem.set_same _ _ _
      · intro p hp
        refine Mem.set_ne _ _ (fun e => hp ⟨0, 0, Nat.one_pos, Nat.one_pos, ?_⟩)
        rw [View.at_sub]; exact e
    obtain ⟨⟨f', hf1', -⟩, -⟩ := id h2
    have sz : (A.sub 0 k k 1).size = k := by simp [View.size]
    have hb : Holds (m1.set (A.at' k k) (1 / a k k)) (A.sub 0 k k 1) (fun i j => f' (0 + i) (k + j)) := by
      intro i j hi hj
      rw [View.sub_rows] at hi
      rw [View.sub_cols] at hj
      rw [View.at_sub]
      exact hf1' _ _ (by omega) (by omega) (by simp [InTri]; omega)
    have s := C12_mvmult_trm_partial ab hmin (-(1 / a k k)) (fl := { upper := true }) rfl (fuel := fuel)
      (m := m1.set (A.at' k k) (1 / a k k))
      (X := A.sub 0 k k 1) (A := A.sub 0 0 k k) (a := fun i j => f' (0 + i) (0 + j)) (Or.inr rfl)
      (hw.sub (by omega) (by omega)) (hw.sub (by omega) (by omega)) (by rw [sz]; rfl) (by rw [sz]; rfl)
      (by rw [sz]; omega) hb.toV_col
      (hf1'.sub (by omega) (by omega) (by simp [InTri]))
      ((View.sub_disj hw (by omega) (by omega) (by omega) (by omega) (by omega)).mono_left
        (View.footOn_sub_foot _ _))
    refine s.bind ?_
    rintro ⟨e, m3⟩ ⟨-, h3, f3⟩
    rw [holdsV_iff (Or.inr rfl)] at h3
    refine Runs.pure ⟨?_, h2.col hw (by omega) (by omega) (by simp [InTri]; omega) h3 f3 (by intros; omega)⟩
    rcases he with ⟨e1, e2⟩ | ⟨e1, i, e2, e3⟩
    · refine Or.inl ⟨e1, fun i hi => ?_⟩
      rcases Nat.lt_or_ge i k with c1 | c1
      · exact e2 i c1
      · obtain rfl : i = k := by omega
        exact c
    · exact Or.inr ⟨e1, i, by omega, e3⟩
  · rintro ⟨k, err, m1⟩ ⟨he, h1⟩
    exact Runs.pure ⟨he, h1.2⟩

theorem unblkInvLower_status (ab : α → α) {env : Env} (hmin : env.blas2min ≠ 1 ∨ env.naive = true) {fuel : Nat}
    {m : Mem α} {A : View} {a : Nat → Nat → α} (hw : A.WF) (hsq : A.cols = A.rows)
    (hf : A.rows + 1 < fuel) (hA : HoldsOn m A (InTri false false) a) :
    Runs (unblkInvLower ab env fuel m A false) (fun r => (r.1 = 0 ∧ (∀ i, i < A.rows → a i i ≠ 0) ∨
      r.1 = -1 ∧ ∃ i, i < A.rows ∧ a i i = 0) ∧ Frame (A.footOn (InTri false false)) m r.2) := by
  unfold unblkInvLower
  refine Runs.forDown (fun k (st : Int × Mem α) => (st.1 = 0 ∧ (∀ i, k ≤ i → i < A.rows → a i i ≠ 0) ∨
      st.1 = -1 ∧ ∃ i, k ≤ i ∧ i < A.rows ∧ a i i = 0) ∧ Alive m A false a (fun i => i < k) st.2)
      ⟨Or.inl ⟨rfl, fun i hi => by omega⟩, ⟨a, hA, fun _ _ _ => rfl⟩, Frame.refl _ _⟩ ?_ ?_
  · rintro k ⟨err, m1⟩ hk ⟨he, h1⟩
    unfold unblkInvLowerStep
    dsimp only at he ⊢
    obtain ⟨n, hn⟩ : ∃ n, n = A.rows - k - 1 := ⟨_, rfl⟩
    rw [← hn, if_neg (by simp)]
    obtain ⟨⟨f, hf1, hf2⟩, hfr⟩ := id h1
    have hx := hf1 k k hk (by omega) (by simp [InTri])
    rw [hf2 k hk (by omega)] at hx
    refine Runs.rd_bind hx ?_
    by_cases c : a k k = 0
    · rw [if_pos c]
      exact Runs.pure ⟨Or.inr ⟨rfl, k, le_refl _, hk, c⟩, ⟨⟨f, hf1, fun i hi h => hf2 i hi (by omega)⟩, hfr⟩⟩
    rw [if_neg c]
    refine Runs.wr_bind hx ?_
    have h2 : Alive m A false a (fun i => i < k) (m1.set (A.at' k k) (1 / a k k)) := by
      refine h1.col (r := k) (n := 1) (k := k) (y := fun _ _ => 1 / a k k) hw (by omega) (by omega)
        (by simp [InTri]) ?_ ?_ (by intros; omega)
      · intro i j hi hj
        rw [View.sub_rows] at hi
        rw [View.sub_cols] at hj
        obtain rfl : i = 0 := by omega
        obtain rfl : j = 0 := by omega
        rw [View.at_sub]
        exact Mem.set_same _ _ _
      · intro p hp
        refine Mem.set_ne _ _ (fun e => hp ⟨0, 0, Nat.one_pos, Nat.one_pos, ?_⟩)
        rw [View.at_sub]; exact e
    obtain ⟨⟨f', hf1', -⟩, -⟩ := id h2
    have sz : (A.sub (k + 1) k n 1).size = n := by simp [View.size]
    have hb : Holds (m1.set (A.at' k k) (1 / a k k)) (A.sub (k + 1) k n 1)
        (fun i j => f' (k + 1 + i) (k + j)) := by
      intro i j hi hj
      rw [View.sub_rows] at hi
      rw [View.sub_cols] at hj
      rw [View.at_sub]
      exact hf1' _ _ (by omega) (by omega) (by simp [InTri]; omega)
    have s := C12_mvmult_trm_partial ab hmin (-(1 / a k k)) (fl := { lower := true }) rfl (fuel := fuel)
      (m := m1.set (A.at' k k) (1 / a k k))
      (X := A.sub (k + 1) k n 1) (A := A.sub (k + 1) (k + 1) n n)
      (a := fun i j => f' (k + 1 + i) (k + 1 + j)) (Or.inr rfl)
      (hw.sub (by omega) (by omega)) (hw.sub (by omega) (by omega)) (by rw [sz]; rfl) (by rw [sz]; rfl)
      (by rw [sz]; omega) hb.toV_col
      (hf1'.sub (by omega) (by omega) (by simp [InTri]))
      ((View.sub_disj hw (by omega) (by omega) (by omega) (by omega) (by omega)).mono_left
        (View.footOn_sub_foot _ _))
    refine s.bind ?_
    rintro ⟨e, m3⟩ ⟨-, h3, f3⟩
    rw [holdsV_iff (Or.inr rfl)] at h3
    refine Runs.pure ⟨?_, h2.col hw (by omega) (by omega) (by simp [InTri]; omega) h3 f3 (by intros; omega)⟩
    rcases he with ⟨e1, e2⟩ | ⟨e1, i, e2, e3⟩
    · refine Or.inl ⟨e1, fun i hi hi' => ?_⟩
      by_cases c1 : k + 1 ≤ i
      · exact e2 i c1 hi'
      · obtain rfl : i = k := by omega
        exact c
    · exact Or.inr ⟨e1, i, by omega, e3⟩
  · rintro ⟨err, m1⟩ ⟨he, h1⟩
    refine ⟨?_, h1.2⟩
    rcases he with ⟨e1, e2⟩ | ⟨e1, i, -, e2, e3⟩
    · exact Or.inl ⟨e1, fun i hi => e2 i (Nat.zero_le _) hi⟩
    · exact Or.inr ⟨e1, i, e2, e3⟩

/-- C59: the status tells whether the matrix is singular: the unblocked algorithm without `ARMAS_UNIT` returns 0
when no diagonal element is zero and -1 otherwise, for every content; it stays inside the triangle.
Missing: the blocked algorithm, which divides by the zero. -/
theorem C59_singular_partial (ab : α → α) {env : Env} (hmin : env.blas2min ≠ 1 ∨ env.naive = true) {lb fuel : Nat}
    {m : Mem α} {A : View} {a : Nat → Nat → α} {fl : Flags} (hfl : fl.lower = !fl.upper) (hw : A.WF)
    (hsq : A.cols = A.rows) (hf : A.rows + 1 < fuel) (hA : HoldsOn m A (InTri fl.upper false) a)
    (hun : fl.unit = false) (hlb : lb = 0 ∨ A.cols ≤ lb) (cbuf : Option Cache) :
    Runs (inverseTrm ab env lb fuel m A fl cbuf) (fun r =>
      (r.1 = 0 ∧ (∀ i, i < A.rows → a i i ≠ 0) ∨ r.1 = -1 ∧ ∃ i, i < A.rows ∧ a i i = 0) ∧
      Frame (A.footOn (InTri fl.upper false)) m r.2) := by
  unfold inverseTrm
  rw [if_neg (not_not.mpr hsq.symm)]
  by_cases h0 : A.rows = 0
  · rw [if_pos h0]
    exact Runs.ok ⟨Or.inl ⟨rfl, fun i hi => by omega⟩, Frame.refl _ _⟩
  rw [if_neg h0, if_pos hlb, hfl, hun]
  revert hA
  cases fl.upper <;> intro hA
  · exact unblkInvLower_status ab hmin hw hsq hf hA
  · exact unblkInvUpper_status ab hmin hw hsq hf hA

example := C59_singular_partial (α := ℚ) id (env := ⟨8, 4, false, false⟩) (Or.inl (by decide)) (lb := 0)
  (fuel := 100) (m := tot (fun p => (p : ℚ))) (A := ⟨0, 9, 7, 7⟩)
  (fl := { upper := true }) rfl (Or.inl (by decide)) rfl (by decide) (HoldsOn.of_holds (holds_tot _ _)) rfl
  (Or.inl rfl) none

/-- A property that every pass of a loop keeps. -/
theorem forUp_keep {σ : Type} {n s : Nat} {body : Nat → σ → Res σ} (P : σ → Prop)
    (h : ∀ i st st', body i st = .ok st' → P st → P st') : ∀ (f i : Nat) (st : σ) (r : Nat × σ), forUpN f i n s body st = .ok r → P st → P r.2 := by
  intro f
  induction f with
  | zero => intro i st r e; simp [forUpN] at e
  | succ f ih =>
    intro i st r e hp
    unfold forUpN at e
    by_cases c : i < n
    · rw [if_pos c] at e
      cases hb : body i st with
      | ok st' => rw [hb] at e; exact ih _ _ _ e (h i st st' hb hp)
      | ub => rw [hb] at e; cases e
      | diverge => rw [hb] at e; cases e
    · rw [if_neg c] at e
      cases e
      exact hp

/-- What the first pass of a loop establishes and every pass keeps. -/
theorem forUp_first {σ : Type} {n s : Nat} {body : Nat → σ → Res σ} {st : σ} {r : Nat × σ} (P : σ → Prop) (hn : 0 < n)
    (h0 : ∀ st', body 0 st = .ok st' → P st') (h : ∀ i st st', body i st = .ok st' → P st → P st')
    (e : forUp 0 n s body st = .ok r) : P r.2 := by
  unfold forUp at e
  by_cases c : 0 < n ∧ s = 0
  · rw [if_pos c] at e; cases e
  rw [if_neg c, forUpN, if_pos hn] at e
  cases hb : body 0 st with
  | ok st' => rw [hb] at e; exact forUp_keep P h _ _ _ _ e (h0 st' hb)
  | ub => rw [hb] at e; cases e
  | diverge => rw [hb] at e; cases e

theorem bind_ok {β γ : Type} {x : Res β} {f : β → Res γ} {r : γ} (e : (x >>= f) = .ok r) : ∃ a, x = .ok a ∧ f a = .ok r := by
  cases x with
  | ok a => exact ⟨a, rfl, e⟩
  | ub => cases e
  | diverge => cases e

/-- The blocked algorithm reports a zero on the diagonal of the block it visits first (the first one of an upper, the last one of a lower
triangle): whenever it returns, it returns -1; later blocks do not take the report back. -/
theorem C59_singular_blocked_partial (ab : α → α) {env : Env} (hmin : env.blas2min ≠ 1 ∨ env.naive = true) {lb fuel : Nat}
    {m : Mem α} {A : View} {a : Nat → Nat → α} {fl : Flags} (hfl : fl.lower = !fl.upper) (hw : A.WF)
    (hsq : A.cols = A.rows) (hf : A.rows + 1 < fuel) (hA : HoldsOn m A (InTri fl.upper false) a)
    (hun : fl.unit = false) (hlb : 0 < lb ∧ lb < A.cols) (cbuf : Option Cache) {i : Nat}
    (hi : if fl.upper then i < lb else A.rows - lb ≤ i ∧ i < A.rows) (h0 : a i i = 0) :
    ∀ r, inverseTrm ab env lb fuel m A fl cbuf = .ok r → r.1 = -1 := by
  intro r e
  unfold inverseTrm at e
  rw [if_neg (not_not.mpr hsq.symm), if_neg (by omega), if_neg (by omega), hfl, hun] at e
  revert hA hi e
  cases fl.upper <;> intro hA hi e
  · simp only [Bool.not_false, if_true] at e
    unfold blkInvLower at e
    obtain ⟨q, hl, e⟩ := bind_ok e
    cases e
    refine forUp_first (fun st : Int × Mem α => st.1 = -1) (by omega) ?_ ?_ hl
    · intro st' hs
      unfold blkInvLowerStep at hs
      obtain ⟨⟨e1, m1⟩, k1, hs⟩ := bind_ok hs
      obtain ⟨⟨e2, m2⟩, k2, hs⟩ := bind_ok hs
      obtain ⟨⟨e3, m3⟩, k3, hs⟩ := bind_ok hs
      cases hs
      unfold multTrm at k1
      rw [if_pos (Or.inl (by simp [View.size, View.sub]))] at k1
      cases k1
      unfold solveTrm at k2
      rw [if_pos (Or.inl (by simp [View.size, View.sub]))] at k2
      cases k2
      dsimp only at k3 ⊢
      rw [Nat.sub_zero, Nat.min_eq_left (by omega)] at k3
      obtain ⟨⟨e4, m4⟩, he, hst, -⟩ := unblkInvLower_status ab hmin (fuel := fuel) (m := m) (A := A.sub (A.rows - lb) (A.rows - lb) lb lb)
        (a := fun p q => a ((A.rows - lb) + p) ((A.rows - lb) + q)) (hw.sub (by omega) (by omega)) rfl (by show lb + 1 < fuel; omega) (by
          intro p q hp hq hpq
          rw [View.at_sub]
          exact hA _ _ (by simp only [View.sub] at hp; omega) (by simp only [View.sub] at hq; omega) ((inTri_shift _ _ _ _ _).mpr hpq))
      rw [he] at k3
      cases k3
      rcases hst with ⟨-, h⟩ | ⟨h, -⟩
      · refine absurd ?_ (h (i - (A.rows - lb)) (by show i - (A.rows - lb) < lb; simp at hi; omega))
        simp at hi
        rw [show A.rows - lb + (i - (A.rows - lb)) = i by omega, h0]
      · simp only at h
        rw [h]
        rfl
    · rintro k ⟨err, m'⟩ st' hs h
      unfold blkInvLowerStep at hs
      obtain ⟨⟨e1, m1⟩, k1, hs⟩ := bind_ok hs
      obtain ⟨⟨e2, m2⟩, k2, hs⟩ := bind_ok hs
      obtain ⟨⟨e3, m3⟩, k3, hs⟩ := bind_ok hs
      cases hs
      dsimp only at h ⊢
      rw [h, if_neg (fun h => absurd h.2 (by decide))]
  · simp only [Bool.not_true, Bool.false_eq_true, if_false] at e
    unfold blkInvUpper at e
    obtain ⟨q, hl, e⟩ := bind_ok e
    cases e
    refine forUp_first (fun st : Int × Mem α => st.1 = -1) (by omega) ?_ ?_ hl
    · intro st' hs
      unfold blkInvUpperStep at hs
      obtain ⟨⟨e1, m1⟩, k1, hs⟩ := bind_ok hs
      obtain ⟨⟨e2, m2⟩, k2, hs⟩ := bind_ok hs
      obtain ⟨⟨e3, m3⟩, k3, hs⟩ := bind_ok hs
      cases hs
      unfold multTrm at k1
      rw [if_pos (Or.inl (by simp [View.size, View.sub]))] at k1
      cases k1
      unfold solveTrm at k2
      rw [if_pos (Or.inl (by simp [View.size, View.sub]))] at k2
      cases k2
      dsimp only at k3 ⊢
      rw [Nat.sub_zero, Nat.sub_zero, hsq, min_self, Nat.min_eq_left (by omega)] at k3
      obtain ⟨⟨e4, m4⟩, he, hst, -⟩ := unblkInvUpper_status ab hmin (fuel := fuel) (m := m) (A := A.sub 0 0 lb lb)
        (a := fun p q => a (0 + p) (0 + q)) (hw.sub (by omega) (by omega)) rfl (by show lb + 1 < fuel; omega) (by
          intro p q hp hq hpq
          rw [View.at_sub]
          exact hA _ _ (by simp only [View.sub] at hp; omega) (by simp only [View.sub] at hq; omega) ((inTri_shift _ _ _ _ _).mpr hpq))
      rw [he] at k3
      cases k3
      rcases hst with ⟨-, h⟩ | ⟨h, -⟩
      · refine absurd ?_ (h (i) (by show i < lb; simp at hi; omega))
        simp at hi
        rw [Nat.zero_add, h0]
      · simp only at h
        rw [h]
        rfl
    · rintro k ⟨err, m'⟩ st' hs h
      unfold blkInvUpperStep at hs
      obtain ⟨⟨e1, m1⟩, k1, hs⟩ := bind_ok hs
      obtain ⟨⟨e2, m2⟩, k2, hs⟩ := bind_ok hs
      obtain ⟨⟨e3, m3⟩, k3, hs⟩ := bind_ok hs
      cases hs
      dsimp only at h ⊢
      rw [h, if_neg (fun h => absurd h.2 (by decide))]

example : ∃ m', inverseTrm id ⟨8, 4, false, false⟩ 3 100 (tot (fun p => if p = 10 then 0 else (p : ℚ) + 1)) ⟨0, 9, 7, 7⟩ { upper := true }
    (some ⟨100, 200, 4, 2, 3, 2, 1⟩) = .ok (-1, m') := by
  cases h : inverseTrm id ⟨8, 4, false, false⟩ 3 100 (tot (fun p => if p = 10 then 0 else (p : ℚ) + 1)) ⟨0, 9, 7, 7⟩ { upper := true }
    (some ⟨100, 200, 4, 2, 3, 2, 1⟩) with
  | ok r =>
    have := C59_singular_blocked_partial (α := ℚ) id (Or.inl (by decide)) (m := tot (fun p => if p = 10 then 0 else (p : ℚ) + 1))
      rfl (Or.inl (by decide)) rfl (by decide) (HoldsOn.of_holds (holds_tot _ _)) rfl (by decide) _ (i := 1) (by decide) rfl r h
    exact ⟨r.2, by rw [← this]⟩
  | ub =>
    have : (match inverseTrm id ⟨8, 4, false, false⟩ 3 100 (tot (fun p => if p = 10 then 0 else (p : ℚ) + 1)) ⟨0, 9, 7, 7⟩ { upper := true }
      (some ⟨100, 200, 4, 2, 3, 2, 1⟩) with | .ok _ => true | _ => false) = true := by decide +kernel
    rw [h] at this; cases this
  | diverge =>
    have : (match inverseTrm id ⟨8, 4, false, false⟩ 3 100 (tot (fun p => if p = 10 then 0 else (p : ℚ) + 1)) ⟨0, 9, 7, 7⟩ { upper := true }
      (some ⟨100, 200, 4, 2, 3, 2, 1⟩) with | .ok _ => true | _ => false) = true := by decide +kernel
    rw [h] at this; cases this

/-! ## Where it is false -/

/-- The cell `p` of the memory after a run. -/
def peek {β : Type} (r : Res (Int × Mem β)) (p : Nat) : Option β :=
  match r with
  | .ok (_, m) => m p
  | _ => none

/-- The run ends with status 0. -/
def okay {β : Type} (r : Res (Int × Mem β)) : Bool :=
  match r with
  | .ok (e, _) => e == 0
  | _ => false

theorem okay_ok {β : Type} {r : Res (Int × Mem β)} (h : okay r = true) : ∃ m', r = .ok (0, m') ∧ ∀ p, m' p = peek r p := by
  rcases r with ⟨e, m'⟩ | _ | _
  · obtain rfl : e = 0 := by simpa [okay] using h
    exact ⟨m', rfl, fun _ => rfl⟩
  · simp [okay] at h
  · simp [okay] at h

/-- C59 is false with `ARMAS_UNIT` if the stored diagonal is not one (as in a packed LU factorization): the
flag is not handed to `armas_mvmult_trm`, which multiplies with the stored diagonal.  Here the unit upper triangle
with the element 1 above the diagonal and 2 stored at position (0,0); the inverse has -1, the code stores -2. -/
theorem C59_unit_false : ∃ (m : Mem ℚ) (A : View) (a : Nat → Nat → ℚ), Holds m A a ∧ A.WF ∧ A.rows = 2 ∧ A.cols = 2 ∧
    ∃ m', inverseTrm id ⟨8, 4, false, false⟩ 64 30 m A { upper := true, unit := true } none = .ok (0, m') ∧
      ∀ g, HoldsOn m' A (InTri true true) g → ¬ IsInverse 2 (trm true true a) (trm true true g) := by
  refine ⟨tot (fun p => if p = 0 then 2 else 1), ⟨0, 2, 2, 2⟩, _, holds_tot _ _, Or.inl (by decide), rfl, rfl, _, rfl,
    fun g hg h => ?_⟩
  have e := hg 0 1 (by decide) (by decide) (by simp [InTri])
  have e2 := (h 0 1 (by decide) (by decide)).1
  have e3 : g 0 1 = -2 := by
    refine Option.some.inj (e.symm.trans ?_)
    decide +kernel
  simp [Finset.sum_range_succ, trm, View.at', e3] at e2
  norm_num at e2

/-- C59 is false in the blocked algorithm when the recursion of `armas_solve_trm` is entered with the factor -1
(block size not below the recursion threshold, see `C19_recursive_alpha_false`): the upper triangle of ones, block
size 2 and threshold 2; the inverse has 0 at position (1,3), the code stores -2 and reports success. -/
theorem C59_recursion_false : ∃ (m : Mem ℚ) (A : View) (a : Nat → Nat → ℚ) (env : Env) (c : Cache), Holds m A a ∧
    A.WF ∧ A.rows = 4 ∧ A.cols = 4 ∧ Conf3 env c ∧ c.Ready m ∧ Disjoint A.foot c.foot ∧ (∀ i, i < 4 → a i i ≠ 0) ∧
    ∃ m', inverseTrm id env 2 30 m A { upper := true } (some c) = .ok (0, m') ∧
      ∀ g, HoldsOn m' A (InTri true false) g → ¬ IsInverse 4 (trm true false a) (trm true false g) := by
  obtain ⟨m', hm, hp⟩ := okay_ok (r := inverseTrm id ⟨8, 2, false, true⟩ 2 30 (tot fun _ => (1 : ℚ)) ⟨0, 4, 4, 4⟩
    { upper := true } (some ⟨100, 200, 4, 2, 3, 2, 1⟩)) (by decide +kernel)
  refine ⟨tot (fun _ => 1), ⟨0, 4, 4, 4⟩, _, ⟨8, 2, false, true⟩, ⟨100, 200, 4, 2, 3, 2, 1⟩, holds_tot _ _,
    Or.inl (by decide), rfl, rfl, ⟨Or.inl (by decide), by decide⟩,
    ⟨by decide, by decide, by decide, by decide, by decide, ⟨_, holds_tot _ _⟩, ⟨_, holds_tot _ _⟩,
      View.disj_below (by decide)⟩,
    Set.disjoint_union_right.mpr ⟨View.disj_below (by decide), View.disj_below (by decide)⟩,
    fun _ _ => one_ne_zero, m', hm, fun g hg h => ?_⟩
  have e := hg 1 3 (by decide) (by decide) (by simp [InTri])
  have f := hg 2 3 (by decide) (by decide) (by simp [InTri])
  have d := hg 3 3 (by decide) (by decide) (by simp [InTri])
  rw [hp] at e f d
  have e2 := (h 1 3 (by decide) (by decide)).1
  have e3 : g 1 3 = -2 := Option.some.inj (e.symm.trans (by decide +kernel))
  have f3 : g 2 3 = -1 := Option.some.inj (f.symm.trans (by decide +kernel))
  have d3 : g 3 3 = 1 := Option.some.inj (d.symm.trans (by decide +kernel))
  simp [Finset.sum_range_succ, trm, e3, f3, d3] at e2

end Armas.Props
