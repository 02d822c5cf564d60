import Verif.MsetLemmas
import Verif.Props.MatOps
import Verif.Demo
import Mathlib.Data.Rat.Defs

/-!
# Properties of the functions that set elements and of diagonal scaling

* C58: setting values of a triangle.
* C48: multiplication with a diagonal matrix and with its inverse.
-/

namespace Armas.Props

open Armas

variable {α : Type}

/-! ## C58 -/

/-- The elements of `A` in the index set `T`. -/
def Sel (A : View) (T : Nat → Nat → Prop) (i j : Nat) : Prop := i < A.rows ∧ j < A.cols ∧ T i j

/-- C58 (triangles): `armas_set_values` and `armas_set_all` with `ARMAS_UPPER` or `ARMAS_LOWER` (strict
part with `ARMAS_UNIT`) call the value function exactly once for each element of the selected triangle or
trapezoid, store the result there, and access no other memory. -/
theorem C58_set_triangle [One α] {m : Mem α} {A : View} {a : Nat → Nat → α} {gen : Nat → Nat → Nat → α}
    {upper unit : Bool} (hw : A.WF) (h : HoldsOn m A (InTri upper unit) a) :
    Runs (setElems gen m A (if upper then .upper else .lower) unit) (fun r => r.1 = 0 ∧ ∃ num,
      NumInv num (Sel A (InTri upper unit)) r.2.2 ∧
      HoldsOn r.2.1 A (InTri upper unit) (fun i j => gen i j (num i j)) ∧
      Frame (A.footOn (InTri upper unit)) m r.2.1) := by
  have fin : ∀ s : Mem α × Nat, (∃ num, SetInv m A (InTri upper unit) a gen num
      (fun i j => Sel A (InTri upper unit) i j ∧ j < A.cols) s.1 s.2) → ∃ num,
      NumInv num (Sel A (InTri upper unit)) s.2 ∧
      HoldsOn s.1 A (InTri upper unit) (fun i j => gen i j (num i j)) ∧
      Frame (A.footOn (InTri upper unit)) m s.1 := by
    rintro s ⟨num, hI⟩
    have hI' := hI.congr (S' := Sel A (InTri upper unit)) (fun i j => ⟨fun c => c.1, fun c => ⟨c, c.2.1⟩⟩)
    exact ⟨num, ⟨hI'.lt, hI'.inj, hI'.surj⟩, hI'.upd.all (fun i j hi hj ht => ⟨hi, hj, ht⟩), hI'.upd.frame⟩
  have ini : SetInv m A (InTri upper unit) a gen (fun _ _ => 0)
      (fun i j => Sel A (InTri upper unit) i j ∧ j < 0) m 0 := (SetInv.init h).congr (by simp)
  unfold setElems
  cases upper
  · simp only [Bool.false_eq_true, if_false]
    refine Runs.bind (Runs.forUp1 (fun j s => ∃ num, SetInv m A (InTri false unit) a gen num
      (fun i q => Sel A (InTri false unit) i q ∧ q < j) s.1 s.2) (Nat.zero_le _) ⟨_, ini⟩ ?_
      (Q := fun x => ∃ num, SetInv m A (InTri false unit) a gen num
      (fun i j => Sel A (InTri false unit) i j ∧ j < A.cols) x.2.1 x.2.2) (fun st hst => hst))
      (fun x hx => Runs.pure ⟨rfl, fin _ hx⟩)
    rintro j ⟨m', c⟩ _ hj ⟨num, hI⟩
    dsimp only at hI
    refine Runs.bind (P := fun s => ∃ num, SetInv m A (InTri false unit) a gen num
      (fun i q => Sel A (InTri false unit) i q ∧ (q < j ∨ (q = j ∧ i = j))) s.1 s.2) ?_ ?_
    · split
      · rename_i hc
        have hu : unit = false := by simpa using hc.2
        subst hu
        refine (setGen_step hw hI hc.1 hj (by simp [InTri]) (by simp)).mono (fun s ⟨n, hs⟩ =>
          ⟨n, hs.congr (fun p q => ?_)⟩)
        constructor
        · rintro (c | ⟨rfl, rfl⟩)
          · exact ⟨c.1, Or.inl c.2⟩
          · exact ⟨⟨hc.1, hj, by simp [InTri]⟩, Or.inr ⟨rfl, rfl⟩⟩
        · rintro ⟨c, d | d⟩
          · exact Or.inl ⟨c, d⟩
          · exact Or.inr ⟨d.2, d.1⟩
      · rename_i hc
        refine Runs.pure ⟨num, hI.congr (fun p q => ?_)⟩
        constructor
        · rintro c; exact ⟨c.1, Or.inl c.2⟩
        · rintro ⟨c, d | ⟨rfl, rfl⟩⟩
          · exact ⟨c, d⟩
          · exfalso
            obtain ⟨c1, c2, c3⟩ := c
            apply hc
            refine ⟨c1, ?_⟩
            rintro rfl
            simp [InTri] at c3
    · rintro ⟨m1, c1⟩ ⟨num1, hI1⟩
      refine (setGen_col hw hI1 (j := j) (i0 := j + 1) (i1 := A.rows) (le_refl _) hj ?_ ?_).bind
        (fun x ⟨n, hx⟩ => Runs.pure ⟨n, hx.congr (fun p q => ?_)⟩)
      · intro i h1 _
        cases unit <;> simp [InTri] <;> omega
      · rintro i h1 _ ⟨_, h2⟩; omega
      · constructor
        · rintro (⟨c, d⟩ | ⟨d1, d2, rfl⟩)
          · exact ⟨c, by omega⟩
          · refine ⟨⟨d2, hj, ?_⟩, by omega⟩
            cases unit <;> simp [InTri] <;> omega
        · rintro ⟨c, d⟩
          by_cases e : q < j ∨ q = j ∧ p = j
          · exact Or.inl ⟨c, e⟩
          · right
            have c3 := c.2.2
            have : q ≤ p := by cases unit <;> simp [InTri] at c3 <;> omega
            exact ⟨by omega, c.1, by omega⟩
  · simp only [if_true]
    refine Runs.bind (Runs.forUp1 (fun j s => ∃ num, SetInv m A (InTri true unit) a gen num
      (fun i q => Sel A (InTri true unit) i q ∧ q < j) s.1 s.2) (Nat.zero_le _) ⟨_, ini⟩ ?_
      (Q := fun x => ∃ num, SetInv m A (InTri true unit) a gen num
      (fun i j => Sel A (InTri true unit) i j ∧ j < A.cols) x.2.1 x.2.2) (fun st hst => hst))
      (fun x hx => Runs.pure ⟨rfl, fin _ hx⟩)
    rintro j ⟨m', c⟩ _ hj ⟨num, hI⟩
    dsimp only at hI
    refine Runs.bind (P := fun (x : Nat × Mem α × Nat) => ∃ num, SetInv m A (InTri true unit) a gen num
      (fun i q => Sel A (InTri true unit) i q ∧ (q < j ∨ (q = j ∧ i < j))) x.2.1 x.2.2) ?_ ?_
    · refine (setGen_col hw hI (j := j) (i0 := 0) (i1 := min j A.rows) (by omega) hj ?_ ?_).mono
        (fun x ⟨n, hx⟩ => ⟨n, hx.congr (fun p q => ?_)⟩)
      · intro i h1 _
        cases unit <;> simp [InTri] <;> omega
      · rintro i h1 _ ⟨_, h2⟩; omega
      · constructor
        · rintro (⟨c, d⟩ | ⟨d1, d2, rfl⟩)
          · exact ⟨c, by omega⟩
          · refine ⟨⟨by omega, hj, ?_⟩, by omega⟩
            cases unit <;> simp [InTri] <;> omega
        · rintro ⟨c, d⟩
          rcases d with d | d
          · exact Or.inl ⟨c, d⟩
          · right
            have := c.1
            exact ⟨by omega, by omega, by omega⟩
    · rintro ⟨i1, m1, c1⟩ ⟨num1, hI1⟩
      dsimp only at hI1 ⊢
      split
      · rename_i hc
        have hu : unit = false := by simpa using hc.2
        subst hu
        refine (setGen_step hw hI1 hc.1 hj (by simp [InTri]) (by simp)).mono (fun s ⟨n, hs⟩ =>
          ⟨n, hs.congr (fun p q => ?_)⟩)
        constructor
        · rintro (c | ⟨rfl, rfl⟩)
          · exact ⟨c.1, by omega⟩
          · exact ⟨⟨hc.1, hj, by simp [InTri]⟩, by omega⟩
        · rintro ⟨c, d⟩
          have c3 := c.2.2
          simp only [InTri, Bool.false_eq_true, if_true, if_false] at c3
          by_cases e : p = j ∧ q = j
          · exact Or.inr e
          · exact Or.inl ⟨c, by omega⟩
      · rename_i hc
        refine Runs.pure ⟨num1, hI1.congr (fun p q => ?_)⟩
        constructor
        · rintro c; exact ⟨c.1, by omega⟩
        · rintro ⟨c, d⟩
          refine ⟨c, ?_⟩
          obtain ⟨c1, c2, c3⟩ := c
          cases unit
          · simp only [InTri, Bool.false_eq_true, if_true, if_false] at c3
            have : ¬ j < A.rows := fun e => hc ⟨e, by simp⟩
            omega
          · simp only [InTri, if_true] at c3
            omega

example := C58_set_triangle (α := ℤ) (m := tot (fun p => (p : ℤ))) (A := ⟨3, 6, 5, 4⟩)
  (gen := fun i j k => i + 10 * j + 100 * k) (upper := false) (unit := true) (Or.inl (by decide))
  (HoldsOn.of_holds (holds_tot _ _))
example := C58_set_triangle (α := ℤ) (m := tot (fun p => (p : ℤ))) (A := ⟨3, 6, 3, 7⟩)
  (gen := fun i j k => i + 10 * j + 100 * k) (upper := true) (unit := false) (Or.inl (by decide))
  (HoldsOn.of_holds (holds_tot _ _))

/-- C58 (whole matrix): without flags every element is set, once. -/
theorem C58_set_all [One α] {m : Mem α} {A : View} {a : Nat → Nat → α} {gen : Nat → Nat → Nat → α}
    {unit : Bool} (hw : A.WF) (h : Holds m A a) :
    Runs (setElems gen m A .all unit) (fun r => r.1 = 0 ∧ ∃ num,
      NumInv num (Sel A (fun _ _ => True)) r.2.2 ∧
      Holds r.2.1 A (fun i j => gen i j (num i j)) ∧ Frame A.foot m r.2.1) := by
  unfold setElems
  refine Runs.bind (Runs.forUp1 (fun j s => ∃ num, SetInv m A (fun _ _ => True) a gen num
      (fun i q => Sel A (fun _ _ => True) i q ∧ q < j) s.1 s.2) (Nat.zero_le _)
      ⟨_, (SetInv.init (HoldsOn.of_holds h)).congr (by simp)⟩ ?_
      (Q := fun x => ∃ num, SetInv m A (fun _ _ => True) a gen num
      (fun i j => Sel A (fun _ _ => True) i j ∧ j < A.cols) x.2.1 x.2.2) (fun st hst => hst)) ?_
  · rintro j ⟨m', c⟩ _ hj ⟨num, hI⟩
    dsimp only at hI
    refine (setGen_col hw hI (j := j) (i0 := 0) (i1 := A.rows) (le_refl _) hj (by simp) ?_).bind
      (fun x ⟨n, hx⟩ => Runs.pure ⟨n, hx.congr (fun p q => ?_)⟩)
    · rintro i h1 _ ⟨_, h2⟩; omega
    · constructor
      · rintro (⟨c, d⟩ | ⟨d1, d2, rfl⟩)
        · exact ⟨c, by omega⟩
        · exact ⟨⟨d2, hj, trivial⟩, by omega⟩
      · rintro ⟨c, d⟩
        by_cases e : q < j
        · exact Or.inl ⟨c, e⟩
        · exact Or.inr ⟨by omega, c.1, by omega⟩
  · rintro x ⟨num, hI⟩
    have hI' := hI.congr (S' := Sel A (fun _ _ => True)) (fun i j => ⟨fun c => c.1, fun c => ⟨c, c.2.1⟩⟩)
    exact Runs.pure ⟨rfl, num, ⟨hI'.lt, hI'.inj, hI'.surj⟩,
      fun i j hi hj => hI'.upd.at_new hi hj trivial ⟨hi, hj, trivial⟩,
      hI'.upd.frame.mono (View.footOn_sub_foot _ _)⟩

example := C58_set_all (α := ℤ) (m := tot (fun p => (p : ℤ))) (A := ⟨3, 6, 5, 4⟩)
  (gen := fun i j k => i + 10 * j + 100 * k) (unit := true) (Or.inl (by decide)) (holds_tot _ _)

/-- C58 (symmetric): with `ARMAS_SYMM` the value function is called once for each element of the lower
triangle (below the diagonal with `ARMAS_UNIT`, which sets the diagonal to one), the result is symmetric; a
matrix that is not square is rejected. -/
theorem C58_set_symm [One α] {m : Mem α} {A : View} {a : Nat → Nat → α} {gen : Nat → Nat → Nat → α}
    {unit : Bool} (hw : A.WF) (h : Holds m A a) :
    (A.rows = A.cols → Runs (setElems gen m A .symm unit) (fun r => r.1 = 0 ∧ ∃ num,
      NumInv num (Sel A (InTri false unit)) r.2.2 ∧
      (∀ i j, i < A.rows → j ≤ i → r.2.1 (A.at' i j) = r.2.1 (A.at' j i) ∧ r.2.1 (A.at' i j) =
        some (if i = j ∧ unit = true then 1 else gen i j (num i j))) ∧ Frame A.foot m r.2.1)) ∧
    (A.rows ≠ A.cols → setElems gen m A .symm unit = .ok (-1, m, 0)) := by
  refine ⟨fun hs => (setSym_spec hw hs h).mono ?_, fun hs => ?_⟩
  · rintro r ⟨h0, num, hn, hh, hf⟩
    refine ⟨h0, num, hn.congr (fun i j => ?_), fun i j hi hj => ?_, hf⟩
    · unfold Sel InTri
      cases unit <;> simp <;> omega
    · have e1 := hh i j hi (by omega)
      have e2 := hh j i (by omega) (by omega)
      unfold symGen at e1 e2
      rw [max_eq_left hj, min_eq_right hj] at e1
      rw [max_eq_right hj, min_eq_left hj] at e2
      simp only [eq_comm (a := j)] at e2
      exact ⟨e1.trans e2.symm, e1⟩
  · unfold setElems; simp [hs]

example := C58_set_symm (α := ℤ) (m := tot (fun p => (p : ℤ))) (A := ⟨3, 6, 5, 5⟩)
  (gen := fun i j k => i + 10 * j + 100 * k) (unit := true) (Or.inl (by decide)) (holds_tot _ _)

/-- Elements changed by `armas_make_trm`: the opposite strict triangle and, with `ARMAS_UNIT`, the
diagonal. -/
def TrmPart (upper unit : Bool) (i j : Nat) : Prop :=
  (if upper then j < i else i < j) ∨ (i = j ∧ unit = true)

/-- C58 (`armas_make_trm`), all cases except `ARMAS_UPPER|ARMAS_UNIT` for a wide matrix: the opposite
triangle is set to zero, with `ARMAS_UNIT` the diagonal is set to one, no other memory is accessed.
Full claim: for all shapes; see `C58_make_trm_upper_false`. -/
theorem C58_make_trm_partial [Zero α] [One α] {m : Mem α} {A : View} {a : Nat → Nat → α}
    {upper unit : Bool} (hw : A.WF) (hsh : upper = true → unit = true → A.cols ≤ A.rows)
    (h : HoldsOn m A (TrmPart upper unit) a) :
    Runs (makeTrm m A (if upper then .upper else .lower) unit) (fun m' =>
      HoldsOn m' A (TrmPart upper unit) (fun i j => if i = j then 1 else 0) ∧
      Frame (A.footOn (TrmPart upper unit)) m m') := by
  have step : ∀ {m' : Mem α} {S : Nat → Nat → Prop} {i j : Nat},
      UpdOn m A (TrmPart upper unit) a (fun i j => if i = j then 1 else 0) S m' →
      i < A.rows → j < A.cols → TrmPart upper unit i j →
      Runs (wr m' (A.at' i j) (if i = j then 1 else 0)) (fun m'' =>
        UpdOn m A (TrmPart upper unit) a (fun i j => if i = j then 1 else 0)
          (fun p q => S p q ∨ (p = i ∧ q = j)) m'') := by
    intro m' S i j hu hi hj ht
    obtain ⟨v, hv⟩ := hu.at_some hi hj ht
    exact Runs.wr hv (hu.set hw hi hj ht rfl)
  have ini : UpdOn m A (TrmPart upper unit) a (fun i j => if i = j then 1 else 0)
      (fun _ q => q < 0) m := (UpdOn.init h _).congr (by intros; omega)
  unfold makeTrm
  cases upper
  · simp only [Bool.false_eq_true, if_false]
    refine Runs.bind (Runs.forUp1 (fun j m' => UpdOn m A (TrmPart false unit) a
      (fun i j => if i = j then 1 else 0) (fun _ q => q < j) m') (Nat.zero_le _) ini ?_
      (Q := fun x => UpdOn m A (TrmPart false unit) a (fun i j => if i = j then 1 else 0)
        (fun _ q => q < A.cols) x.2) (fun st hst => hst))
      (fun x hx => Runs.pure ⟨hx.all (fun i j _ hj _ => hj), hx.frame⟩)
    intro j m' _ hj hu
    refine Runs.bind (Runs.forUp1 (fun i m' => UpdOn m A (TrmPart false unit) a
      (fun i j => if i = j then 1 else 0) (fun p q => q < j ∨ (q = j ∧ p < i)) m') (Nat.zero_le _)
      (hu.congr (by intros; omega)) ?_
      (Q := fun x => UpdOn m A (TrmPart false unit) a (fun i j => if i = j then 1 else 0)
        (fun p q => q < j ∨ (q = j ∧ p < min A.rows j)) x.2) (fun st hst => hst)) ?_
    · intro i m1 _ hi hu1
      have := step hu1 (i := i) (j := j) (by omega) hj (Or.inl (by simp; omega))
      rw [if_neg (by omega)] at this
      exact this.mono (fun m2 h2 => h2.congr (fun p q _ _ _ => by omega))
    · rintro ⟨i1, m1⟩ hu1
      dsimp only at hu1 ⊢
      split
      · rename_i hc
        have := step hu1 (i := j) (j := j) hc.2 hj (Or.inr ⟨rfl, hc.1⟩)
        rw [if_pos rfl] at this
        refine this.mono (fun m2 h2 => h2.congr (fun p q hp hq ht => ?_))
        unfold TrmPart at ht
        simp only [Bool.false_eq_true, if_false] at ht
        omega
      · rename_i hc
        refine Runs.pure (hu1.congr (fun p q hp hq ht => ?_))
        unfold TrmPart at ht
        simp only [Bool.false_eq_true, if_false] at ht
        rcases ht with ht | ⟨rfl, ht⟩
        · omega
        · have : ¬ j < A.rows := fun e => hc ⟨ht, e⟩
          omega
  · simp only [if_true]
    refine Runs.bind (Runs.forUp1 (fun j m' => UpdOn m A (TrmPart true unit) a
      (fun i j => if i = j then 1 else 0) (fun _ q => q < j) m') (Nat.zero_le _) ini ?_
      (Q := fun x => UpdOn m A (TrmPart true unit) a (fun i j => if i = j then 1 else 0)
        (fun _ q => q < A.cols) x.2) (fun st hst => hst))
      (fun x hx => Runs.pure ⟨hx.all (fun i j _ hj _ => hj), hx.frame⟩)
    intro j m' _ hj hu
    refine Runs.bind (P := fun m1 => UpdOn m A (TrmPart true unit) a
      (fun i j => if i = j then 1 else 0) (fun p q => q < j ∨ (q = j ∧ p < j + 1)) m1) ?_ ?_
    · split
      · rename_i hc
        have := step hu (i := j) (j := j) (by have := hsh rfl hc; omega) hj (Or.inr ⟨rfl, hc⟩)
        rw [if_pos rfl] at this
        refine this.mono (fun m2 h2 => h2.congr (fun p q hp hq ht => ?_))
        unfold TrmPart at ht
        simp only [if_true] at ht
        omega
      · rename_i hc
        refine Runs.pure (hu.congr (fun p q hp hq ht => ?_))
        unfold TrmPart at ht
        simp only [if_true] at ht
        rcases ht with ht | ⟨rfl, ht⟩
        · omega
        · exact absurd ht hc
    · intro m1 hu1
      by_cases hjr : j + 1 ≤ A.rows
      · refine Runs.bind (Runs.forUp1 (fun i m' => UpdOn m A (TrmPart true unit) a
          (fun i j => if i = j then 1 else 0) (fun p q => q < j ∨ (q = j ∧ p < i)) m') hjr
          hu1 ?_ (Q := fun x => UpdOn m A (TrmPart true unit) a (fun i j => if i = j then 1 else 0)
          (fun p q => q < j ∨ (q = j ∧ p < A.rows)) x.2) (fun st hst => hst)) ?_
        · intro i m1 hi1 hi hu1
          have := step hu1 (i := i) (j := j) (by omega) hj (Or.inl (by simp; omega))
          rw [if_neg (by omega)] at this
          exact this.mono (fun m2 h2 => h2.congr (fun p q _ _ _ => by omega))
        · rintro ⟨i1, m2⟩ hu2
          exact Runs.pure (hu2.congr (fun p q hp hq ht => by omega))
      · rw [forUp_eq, if_neg (by omega)]
        exact Runs.pure (hu1.congr (fun p q hp hq ht => by omega))

example := C58_make_trm_partial (α := ℤ) (m := tot (fun p => (p : ℤ))) (A := ⟨3, 6, 5, 4⟩)
  (upper := true) (unit := true) (Or.inl (by decide)) (by decide) (HoldsOn.of_holds (holds_tot _ _))
example := C58_make_trm_partial (α := ℤ) (m := tot (fun p => (p : ℤ))) (A := ⟨3, 6, 3, 7⟩)
  (upper := false) (unit := true) (Or.inl (by decide)) (by decide) (HoldsOn.of_holds (holds_tot _ _))

/-- C58 is false for `armas_make_trm` with `ARMAS_UPPER|ARMAS_UNIT` of a wide matrix: for a 1x2 matrix in
an allocation of two elements memory behind the matrix is written. -/
theorem C58_make_trm_upper_false : makeTrm (cells 2) ⟨0, 1, 1, 2⟩ .upper true = .ub := by rfl

/-! ## C48 -/

/-- Argument `D` has the diagonal elements `d`: a vector, or the diagonal of a matrix. -/
def DiagHolds (m : Mem α) (D : View) (d : Nat → α) : Prop :=
  if D.isVec then HoldsV m D d else ∀ k, k < min D.rows D.cols → m (D.at' k k) = some (d k)

/-- Number of diagonal elements of argument `D`. -/
def diagLen (D : View) : Nat := if D.isVec then D.size else min D.rows D.cols

theorem diagOf_facts {m : Mem α} {D : View} {d : Nat → α} (h : DiagHolds m D d) :
    (diagOf D).size = diagLen D ∧ (diagOf D).isVec ∧ (diagOf D).foot ⊆ D.foot ∧ HoldsV m (diagOf D) d := by
  unfold diagOf diagLen DiagHolds at *
  split
  · rename_i hv
    rw [if_pos hv] at h
    exact ⟨rfl, hv, fun _ h => h, h⟩
  · rename_i hv
    rw [if_neg hv] at h
    have e : ∀ k, (⟨D.base, D.step + 1, 1, min D.rows D.cols⟩ : View).vat k = D.at' k k := by
      intro k; simp [View.vat, View.inc, View.at']; ring
    refine ⟨by simp [View.size], Or.inl rfl, ?_, ?_⟩
    · intro p hp
      rw [View.foot_vec (Or.inl rfl)] at hp
      obtain ⟨k, hk, rfl⟩ := hp
      rw [e]
      have hk : k < 1 * min D.rows D.cols := hk
      exact View.at_mem_foot (by omega) (by omega)
    · intro k hk
      have hk : k < 1 * min D.rows D.cols := hk
      rw [e]; exact h k (by omega)

theorem diagOp_vector [CommRing α] {fv : α → α → α} {fm : α → α} {m : Mem α} {A D : View} {a d : Nat → α}
    {right : Bool} (hw : A.WF) (hv : A.isVec) (hA : HoldsV m A a) (hD : DiagHolds m D d)
    (hd : Disjoint D.foot A.foot) (hs : diagLen D = A.size) :
    Runs (diagOp fv fm m A D right) (fun r => r.1 = 0 ∧ HoldsV r.2 A (fun k => fv (a k) (d k)) ∧
      Frame A.foot m r.2) := by
  obtain ⟨h1, h2, h3, h4⟩ := diagOf_facts hD
  unfold diagOp
  dsimp only
  rw [if_pos hv, if_neg (by omega)]
  split
  · rename_i h0
    exact Runs.ok ⟨rfl, fun k hk => by omega, Frame.refl _ _⟩
  refine Runs.bind (Runs.forUp1 (fun k m' => UpdV m A a (fun k => fv (a k) (d k)) (fun l => l < k) m')
    (Nat.zero_le _) (UpdV.init_lt hA _) ?_ (Q := fun x =>
    UpdV m A a (fun k => fv (a k) (d k)) (fun l => l < (diagOf D).size) x.2) (fun st hst => hst))
    (fun x hx => Runs.pure ⟨rfl, hx.done (by omega), hx.frame⟩)
  intro k m' _ hk hu
  have e := hu.old (k := k) (by omega) (by omega)
  refine Runs.rd_bind e (Runs.rd_bind (hu.other h4 h2 (hd.mono_left h3) k hk) (Runs.wr e ?_))
  exact hu.set_lt hv hw (by omega) rfl

theorem scale_line [CommRing α] {m : Mem α} {X : View} {f : Nat → Nat → α} (c : α) (hv : X.isVec)
    (hw : X.WF) (h : Holds m X f) :
    Runs (scale m X c) (fun r => Holds r.2 X (fun i j => c * f i j) ∧ Frame X.foot m r.2) := by
  classical
  unfold scale
  split
  · rename_i h0
    have : X.rows = 0 ∨ X.cols = 0 := by simpa [View.size] using h0
    exact Runs.ok ⟨fun i j hi hj => by omega, Frame.refl _ _⟩
  · have := scaleUnsafe_any c hw h
    unfold scaleUnsafe at this
    rw [if_pos hv] at this
    exact this.bind (fun m' hm' => Runs.pure hm')

theorem diagOp_matrix [CommRing α] {fv : α → α → α} {fm : α → α} {m : Mem α} {A D : View}
    {a : Nat → Nat → α} {d : Nat → α}
    {right : Bool} (hw : A.WF) (hv : ¬ A.isVec) (hA : Holds m A a) (hD : DiagHolds m D d)
    (hd : Disjoint D.foot A.foot) (hs : diagLen D = if right then A.cols else A.rows) :
    Runs (diagOp fv fm m A D right) (fun r => r.1 = 0 ∧
      Holds r.2 A (fun i j => fm (d (if right then j else i)) * a i j) ∧ Frame A.foot m r.2) := by
  obtain ⟨h1, h2, h3, h4⟩ := diagOf_facts hD
  unfold diagOp
  dsimp only
  rw [if_neg hv]
  by_cases h0 : A.size = 0
  · have : A.rows = 0 ∨ A.cols = 0 := by simpa [View.size] using h0
    cases right
    · simp only [Bool.false_eq_true, if_false] at hs ⊢
      rw [if_neg (by omega), if_pos h0]
      exact Runs.ok ⟨rfl, fun i j hi hj => by omega, Frame.refl _ _⟩
    · simp only [if_true] at hs ⊢
      rw [if_neg (by omega), if_pos h0]
      exact Runs.ok ⟨rfl, fun i j hi hj => by omega, Frame.refl _ _⟩
  cases right
  · simp only [Bool.false_eq_true, if_false] at hs ⊢
    rw [if_neg (by omega), if_neg h0]
    refine Runs.bind (Runs.forUp1 (fun k m' => Upd m A a (fun i j => fm (d i) * a i j) (fun i _ => i < k) m')
      (Nat.zero_le _) ((Upd.init hA _).congr (by simp)) ?_ (Q := fun x =>
      Upd m A a (fun i j => fm (d i) * a i j) (fun i _ => i < (diagOf D).size) x.2) (fun st hst => hst))
      (fun x hx => Runs.pure ⟨rfl, hx.holds.congr (fun i j hi hj => by rw [if_pos (by omega)]), hx.frame⟩)
    intro k m' _ hk hu
    refine Runs.rd_bind (hu.other h4 h2 (hd.mono_left h3) k hk) ?_
    refine (scale_line (X := A.sub k 0 1 A.cols) (fm (d k)) (Or.inl rfl) (hw.sub (by omega) (by omega))
      (hu.block_old (r := k) (c := 0) (nr := 1) (nc := A.cols) (by omega) (by omega)
        (by intros; omega))).bind (fun r hr => Runs.pure ?_)
    refine (hu.block hw (r := k) (c := 0) (nr := 1) (nc := A.cols) (by omega) (by omega)
      (hr.1.congr (fun i j hi hj => ?_)) hr.2).congr (fun i j hi hj => by omega)
    have hi : i < 1 := hi
    have : i = 0 := by omega
    subst this; rfl
  · simp only [if_true] at hs ⊢
    rw [if_neg (by omega), if_neg h0]
    refine Runs.bind (Runs.forUp1 (fun k m' => Upd m A a (fun i j => fm (d j) * a i j) (fun _ j => j < k) m')
      (Nat.zero_le _) ((Upd.init hA _).congr (by simp)) ?_ (Q := fun x =>
      Upd m A a (fun i j => fm (d j) * a i j) (fun _ j => j < (diagOf D).size) x.2) (fun st hst => hst))
      (fun x hx => Runs.pure ⟨rfl, hx.holds.congr (fun i j hi hj => by rw [if_pos (by omega)]), hx.frame⟩)
    intro k m' _ hk hu
    refine Runs.rd_bind (hu.other h4 h2 (hd.mono_left h3) k hk) ?_
    refine (scale_line (X := A.sub 0 k A.rows 1) (fm (d k)) (Or.inr rfl) (hw.sub (by omega) (by omega))
      (hu.block_old (r := 0) (c := k) (nr := A.rows) (nc := 1) (by omega) (by omega)
        (by intros; omega))).bind (fun r hr => Runs.pure ?_)
    refine (hu.block hw (r := 0) (c := k) (nr := A.rows) (nc := 1) (by omega) (by omega)
      (hr.1.congr (fun i j hi hj => ?_)) hr.2).congr (fun i j hi hj => by omega)
    have hj : j < 1 := hj
    have : j = 0 := by omega
    subst this; rfl

/-- C48 (`armas_mult_diag`): a vector operand becomes `alpha*diag(D)*x`, a matrix operand
`alpha*diag(D)*A` or (`ARMAS_RIGHT`) `alpha*A*diag(D)`, and nothing else changes. -/
theorem C48_mult_diag [CommRing α] {m : Mem α} {A D : View} {a : Nat → Nat → α} {d : Nat → α} {alpha : α}
    {right : Bool} (hw : A.WF) (hv : ¬ A.isVec) (hA : Holds m A a) (hD : DiagHolds m D d)
    (hd : Disjoint D.foot A.foot) (hs : diagLen D = if right then A.cols else A.rows) :
    Runs (multDiag m A alpha D right) (fun r => r.1 = 0 ∧
      Holds r.2 A (fun i j => if right then alpha * (a i j * d j) else alpha * (d i * a i j)) ∧
      Frame A.foot m r.2) := by
  refine (diagOp_matrix hw hv hA hD hd hs).mono (fun r h => ⟨h.1, h.2.1.congr (fun i j _ _ => ?_), h.2.2⟩)
  cases right <;> simp <;> ring

example := C48_mult_diag (α := ℤ) (m := tot (fun p => (p : ℤ))) (A := ⟨3, 6, 5, 4⟩) (D := ⟨100, 7, 5, 7⟩)
  (alpha := 3) (right := false) (d := fun k => ((100 + k + k * 7 : Nat) : ℤ)) (Or.inl (by decide))
  (by decide) (holds_tot _ _) (by unfold DiagHolds; rw [if_neg (by decide)]; intro k _; rfl)
  (View.disj_below (by decide)).symm (by rfl)

/-- C48 (`armas_mult_diag`, vector operand). -/
theorem C48_mult_diag_vector [CommRing α] {m : Mem α} {A D : View} {a d : Nat → α} {alpha : α}
    {right : Bool} (hw : A.WF) (hv : A.isVec) (hA : HoldsV m A a) (hD : DiagHolds m D d)
    (hd : Disjoint D.foot A.foot) (hs : diagLen D = A.size) :
    Runs (multDiag m A alpha D right) (fun r => r.1 = 0 ∧ HoldsV r.2 A (fun k => alpha * (d k * a k)) ∧
      Frame A.foot m r.2) :=
  (diagOp_vector hw hv hA hD hd hs).mono (fun r h => ⟨h.1, h.2.1.congr (fun k _ => by ring), h.2.2⟩)

example := C48_mult_diag_vector (α := ℤ) (m := tot (fun p => (p : ℤ))) (A := ⟨3, 6, 1, 5⟩)
  (D := ⟨100, 7, 5, 1⟩) (alpha := 3) (right := false) (Or.inl (by decide)) (by decide) (holdsV_tot _ _)
  (by unfold DiagHolds; rw [if_pos (by decide)]; exact holdsV_tot _ _)
  (View.disj_below (by decide)).symm (by rfl)

/-- C48 (`armas_solve_diag`, vector operand): the result `y` satisfies `diag(D)*y = alpha*x`. -/
theorem C48_solve_diag_vector [Field α] {m : Mem α} {A D : View} {a d : Nat → α} {alpha : α}
    {right : Bool} (hw : A.WF) (hv : A.isVec) (hA : HoldsV m A a) (hD : DiagHolds m D d)
    (hd : Disjoint D.foot A.foot) (hs : diagLen D = A.size) (hn : ∀ k, k < A.size → d k ≠ 0) :
    Runs (solveDiag m A alpha D right) (fun r => r.1 = 0 ∧ (∃ y, HoldsV r.2 A y ∧
      ∀ k, k < A.size → d k * y k = alpha * a k) ∧ Frame A.foot m r.2) :=
  (diagOp_vector hw hv hA hD hd hs).mono (fun r h => ⟨h.1, ⟨_, h.2.1, fun k hk => by
    have := hn k hk
    field_simp⟩, h.2.2⟩)

example := C48_solve_diag_vector (α := ℚ) (m := tot (fun p => (p : ℚ))) (A := ⟨3, 6, 1, 5⟩)
  (D := ⟨100, 7, 5, 1⟩) (d := fun k => ((100 + k : Nat) : ℚ)) (alpha := 3) (right := false)
  (Or.inl (by decide)) (by decide) (holdsV_tot _ _)
  (by
    unfold DiagHolds; rw [if_pos (by decide)]
    intro k _; simp [tot, View.vat, View.inc])
  (View.disj_below (by decide)).symm (by rfl) (fun k _ => by positivity)

/-- C48 (`armas_solve_diag`, matrix operand) with `alpha*alpha = 1`: the result `X` satisfies
`diag(D)*X = alpha*A` or (`ARMAS_RIGHT`) `X*diag(D) = alpha*A`.
Full claim: for every `alpha`; see `C48_solve_diag_false`. -/
theorem C48_solve_diag_partial [Field α] {m : Mem α} {A D : View} {a : Nat → Nat → α} {d : Nat → α}
    {alpha : α} {right : Bool} (hw : A.WF) (hv : ¬ A.isVec) (hA : Holds m A a) (hD : DiagHolds m D d)
    (hd : Disjoint D.foot A.foot) (hs : diagLen D = if right then A.cols else A.rows)
    (hn : ∀ k, k < diagLen D → d k ≠ 0) (ha : alpha * alpha = 1) :
    Runs (solveDiag m A alpha D right) (fun r => r.1 = 0 ∧ (∃ x, Holds r.2 A x ∧
      ∀ i j, i < A.rows → j < A.cols →
        (if right then x i j * d j = alpha * a i j else d i * x i j = alpha * a i j)) ∧
      Frame A.foot m r.2) := by
  have hne : alpha ≠ 0 := by rintro rfl; simp at ha
  have ha' : alpha ^ 2 = 1 := by rw [pow_two, ha]
  refine (diagOp_matrix hw hv hA hD hd hs).mono (fun r h => ⟨h.1, ⟨_, h.2.1, fun i j hi hj => ?_⟩, h.2.2⟩)
  cases right
  · simp only [Bool.false_eq_true, if_false] at hs ⊢
    have := hn i (by omega)
    field_simp
    rw [ha', one_mul]
  · simp only [if_true] at hs ⊢
    have := hn j (by omega)
    field_simp
    rw [ha', one_mul]

/-- C48 is false for `armas_solve_diag` with a matrix operand: the result solves `diag(D)*X*alpha = A`
(`alpha` divides instead of multiplying), which differs from the claim whenever `alpha*alpha ≠ 1` and `A`
is not zero. -/
theorem C48_solve_diag_false [Field α] {m : Mem α} {A D : View} {a : Nat → Nat → α} {d : Nat → α}
    {alpha : α} (hw : A.WF) (hv : ¬ A.isVec) (hA : Holds m A a) (hD : DiagHolds m D d)
    (hd : Disjoint D.foot A.foot) (hs : diagLen D = A.rows)
    (hn : ∀ k, k < diagLen D → d k ≠ 0) (ha : alpha * alpha ≠ 1) (h0 : alpha ≠ 0)
    {i j : Nat} (hi : i < A.rows) (hj : j < A.cols) (hne : a i j ≠ 0) :
    Runs (solveDiag m A alpha D false) (fun r => ∃ x, Holds r.2 A x ∧ d i * x i j ≠ alpha * a i j) := by
  refine (diagOp_matrix hw hv hA hD hd (by simpa using hs)).mono (fun r h => ⟨_, h.2.1, ?_⟩)
  simp only [Bool.false_eq_true, if_false]
  have h1 := hn i (by omega)
  intro e
  apply ha
  field_simp at e
  rw [pow_two] at e
  exact e.symm

theorem diag_demo : DiagHolds (tot (fun p => (p : ℚ))) ⟨100, 7, 5, 7⟩
    (fun k => ((100 + k + k * 7 : Nat) : ℚ)) := by
  unfold DiagHolds; rw [if_neg (by decide)]; intro k _; rfl

example := C48_solve_diag_partial (α := ℚ) (m := tot (fun p => (p : ℚ))) (A := ⟨3, 6, 5, 4⟩)
  (D := ⟨100, 7, 5, 7⟩) (alpha := -1) (right := false) (Or.inl (by decide)) (by decide) (holds_tot _ _)
  diag_demo (View.disj_below (by decide)).symm (by rfl) (fun k _ => by positivity) (by norm_num)

example := C48_solve_diag_false (α := ℚ) (m := tot (fun p => (p : ℚ))) (A := ⟨3, 6, 5, 4⟩)
  (D := ⟨100, 7, 5, 7⟩) (alpha := 2) (Or.inl (by decide)) (by decide) (holds_tot _ _)
  diag_demo (View.disj_below (by decide)).symm (by rfl) (fun k _ => by positivity) (by norm_num)
  (by norm_num) (i := 1) (j := 1) (by decide) (by decide) (by norm_num [View.at'])

end Armas.Props
