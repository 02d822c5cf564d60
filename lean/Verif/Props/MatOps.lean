import Verif.MsetLemmas
import Verif.Demo
import Mathlib.Data.Rat.Defs

/-!
# Properties of the element-wise matrix operations

* C51: scaling or shifting a triangle changes exactly that triangle.
* C52: element-wise sum of matrices.
* C53: comparison within tolerances.
-/

namespace Armas.Props

open Armas

variable {α : Type}

/-! ## C51 -/

/-- C51 (whole matrix): `armas_mscale` without triangle flags multiplies all elements and changes nothing
else. -/
theorem C51_mscale_all [CommRing α] [DecidableEq α] {m : Mem α} {A : View} {a : Nat → Nat → α} {alpha : α}
    {unit : Bool} (hw : A.WF) (h : Holds m A a) :
    Runs (mscale m A alpha .all unit) (fun r => r.1 = 0 ∧ Holds r.2 A (fun i j => alpha * a i j) ∧
      Frame A.foot m r.2) ∧
    (A.rows = A.cols → Runs (mscale m A alpha .symm unit) (fun r => r.1 = 0 ∧
      Holds r.2 A (fun i j => alpha * a i j) ∧ Frame A.foot m r.2)) := by
  have key := scaleUnsafe_any alpha hw h
  refine ⟨key.bind (fun m' hm' => Runs.pure ⟨rfl, hm'⟩), fun hs => ?_⟩
  unfold mscale
  dsimp only
  rw [if_neg (not_not.mpr hs)]
  exact key.bind (fun m' hm' => Runs.pure ⟨rfl, hm'⟩)

example := C51_mscale_all (α := ℤ) (m := tot (fun p => (p : ℤ))) (A := ⟨3, 6, 5, 5⟩) (alpha := 3)
  (unit := true) (Or.inl (by decide)) (holds_tot _ _)

/-- C51 (`armas_mscale`, lower), except for tall matrices with `ARMAS_UNIT`: exactly the elements on and
below the diagonal (below it with `ARMAS_UNIT`) are multiplied; only these are read or written.
Full claim: for all shapes; see `C51_lower_unit_tall_false`. -/
theorem C51_mscale_lower_partial [CommRing α] [DecidableEq α] {m : Mem α} {A : View} {a : Nat → Nat → α}
    {alpha : α} {unit : Bool} (hw : A.WF) (hsh : unit = false ∨ A.rows ≤ A.cols)
    (h : HoldsOn m A (InTri false unit) a) :
    Runs (mscale m A alpha .lower unit) (fun r => r.1 = 0 ∧
      HoldsOn r.2 A (InTri false unit) (fun i j => alpha * a i j) ∧
      Frame (A.footOn (InTri false unit)) m r.2) := by
  unfold mscale
  have tri : ∀ i j, InTri false unit i j ↔ j + uno unit ≤ i := by
    intro i j; cases unit <;> simp [InTri, uno] <;> omega
  refine (colLoop (φ := fun x => alpha * x) (vecScale_op alpha) hw h (fun c => c + uno unit)
    (fun c => A.rows - c - uno unit) (c1 := A.cols - uno unit) (by omega) (fun c hc => by omega)
    (fun i j _ h1 _ => (tri i j).mpr h1)).bind (fun x hx => Runs.pure ⟨rfl, ?_, hx.frame⟩)
  refine hx.all (fun i j hi hj ht => ?_)
  rw [tri] at ht
  have hu : uno unit = 0 ∨ A.rows ≤ A.cols := by
    rcases hsh with e | e
    · left; simp [e, uno]
    · right; exact e
  omega

example := C51_mscale_lower_partial (α := ℤ) (m := tot (fun p => (p : ℤ))) (A := ⟨3, 6, 5, 4⟩)
  (alpha := 3) (unit := false) (Or.inl (by decide)) (Or.inl rfl) (HoldsOn.of_holds (holds_tot _ _))
example := C51_mscale_lower_partial (α := ℤ) (m := tot (fun p => (p : ℤ))) (A := ⟨3, 6, 5, 6⟩)
  (alpha := 3) (unit := true) (Or.inl (by decide)) (Or.inr (by decide)) (HoldsOn.of_holds (holds_tot _ _))

/-- C51 is false for the strictly lower part of tall matrices: `armas_mscale` and `armas_madd` with
`ARMAS_LOWER|ARMAS_UNIT` leave the last column as it was, although its elements below the diagonal belong
to the selected part. -/
theorem C51_lower_unit_tall_false [CommRing α] [DecidableEq α] {m : Mem α} {A : View} {a : Nat → Nat → α}
    {alpha : α} (hw : A.WF) (hsh : A.cols < A.rows) (hc : 0 < A.cols) (h : Holds m A a) :
    InTri false true A.cols (A.cols - 1) ∧
    Runs (mscale m A alpha .lower true) (fun r => r.2 (A.at' A.cols (A.cols - 1)) =
      some (a A.cols (A.cols - 1))) ∧
    (A.cols ≠ 1 → Runs (madd m A alpha .lower true) (fun r => r.2 (A.at' A.cols (A.cols - 1)) =
      some (a A.cols (A.cols - 1)))) := by
  have tri : ∀ i j, InTri false true i j ↔ j + 1 ≤ i := by
    intro i j; simp [InTri]
  refine ⟨(tri _ _).mpr (by omega), ?_, fun h1 => ?_⟩
  · unfold mscale
    refine (colLoop (φ := fun x => alpha * x) (vecScale_op alpha) hw (T := fun _ _ => True)
      (HoldsOn.of_holds h) (fun c => c + 1) (fun c => A.rows - c - 1) (c1 := A.cols - 1) (by omega)
      (fun c hc => by omega) (fun i j _ h1 _ => trivial)).bind (fun x hx => Runs.pure ?_)
    exact hx.at_old hsh (by omega) trivial (by omega)
  · unfold madd
    rw [if_neg (by rintro (c | c) <;> omega)]
    refine (colLoop (φ := fun x => x + alpha) (vecAdd_op alpha) hw (T := fun _ _ => True)
      (HoldsOn.of_holds h) (fun c => c + 1) (fun c => A.rows - c - 1) (c1 := A.cols - 1) (by omega)
      (fun c hc => by omega) (fun i j _ h1 _ => trivial)).bind (fun x hx => Runs.pure ?_)
    exact hx.at_old hsh (by omega) trivial (by omega)

example := C51_lower_unit_tall_false (α := ℤ) (m := tot (fun p => (p : ℤ))) (A := ⟨3, 6, 3, 2⟩)
  (alpha := 3) (Or.inl (by decide)) (by decide) (by decide) (holds_tot _ _)

/-- C51 is false for `armas_mscale` with `ARMAS_UPPER`: on every square matrix only the elements of the
diagonal are multiplied, all others of the triangle keep their value. -/
theorem C51_mscale_upper_false [CommRing α] [DecidableEq α] {m : Mem α} {A : View} {a : Nat → Nat → α}
    {alpha : α} (hw : A.WF) (hs : A.rows = A.cols) (h : Holds m A a) :
    Runs (mscale m A alpha .upper false) (fun r => r.1 = 0 ∧
      Holds r.2 A (fun i j => if i = j then alpha * a i j else a i j)) := by
  unfold mscale
  simp only [uno, Bool.false_eq_true, if_false, Nat.add_zero, Nat.sub_zero]
  refine Runs.bind (Runs.forUp1 (fun c m' => Upd m A a (fun i j => alpha * a i j)
    (fun i j => i = j ∧ i < c) m') (by omega) ((Upd.init h _).congr (by intros; simp)) ?_ (n := A.rows) (Q := fun x =>
      Upd m A a (fun i j => alpha * a i j) (fun i j => i = j ∧ i < A.rows) x.2) (fun st hst => hst))
    (fun x hx => Runs.pure ⟨rfl, hx.holds.congr (fun i j hi hj => ?_)⟩)
  · intro c m' _ hc hu
    have e := hu.old (i := c) (j := c) hc (by omega) (by omega)
    have ev : (A.sub c c 1 (A.rows - c)).vat 0 = A.at' c c := by
      simp [View.vat, View.sub, View.at']; ring
    have e' : m' ((A.sub c c 1 (A.rows - c)).vat 0) = some (a c c) := by rw [ev]; exact e
    unfold vecScale
    rw [forUp_eq, if_neg (by omega)]
    refine Runs.bind (Runs.ok (Q := fun x => x = ((0 : Nat), m')) rfl) ?_
    rintro _ rfl
    change Runs (do
      let x ← rd m' ((A.sub c c 1 (A.rows - c)).vat 0)
      wr m' ((A.sub c c 1 (A.rows - c)).vat 0) (x * alpha)) _
    refine Runs.rd_bind e' (Runs.wr e' ?_)
    rw [ev]
    exact (hu.set hw hc (by omega) (mul_comm _ _)).congr (fun i j _ _ => by omega)
  · have : (i = j ∧ i < A.rows) ↔ i = j := by omega
    simp only [this]

example := C51_mscale_upper_false (α := ℤ) (m := tot (fun p => (p : ℤ))) (A := ⟨3, 6, 5, 5⟩)
  (alpha := 3) (Or.inl (by decide)) rfl (holds_tot _ _)

/-- Memory that consists of the first `n` cells. -/
def cells (n : Nat) : Mem ℤ := fun p => if p < n then some (p : ℤ) else none

/-- C51 is false for `armas_mscale` with `ARMAS_UPPER|ARMAS_UNIT`: for a 2x2 matrix in an allocation of four
elements it accesses memory behind it. -/
theorem C51_mscale_upper_unit_false :
    Holds (cells 4) ⟨0, 2, 2, 2⟩ (fun i j => ((i + 2 * j : Nat) : ℤ)) ∧
    mscale (cells 4) ⟨0, 2, 2, 2⟩ 2 .upper true = .ub := by
  refine ⟨?_, by rfl⟩
  intro i j hi hj
  have hi : i < 2 := hi
  have hj : j < 2 := hj
  have e : (⟨0, 2, 2, 2⟩ : View).at' i j = i + 2 * j := by simp [View.at']; ring
  rw [e, cells, if_pos (by omega)]

/-- C51 (`armas_madd`, whole matrix). -/
theorem C51_madd_all [AddCommGroup α] {m : Mem α} {A : View} {a : Nat → Nat → α} {alpha : α}
    {unit : Bool} (hw : A.WF) (h : Holds m A a) :
    Runs (madd m A alpha .all unit) (fun r => r.1 = 0 ∧ Holds r.2 A (fun i j => a i j + alpha) ∧
      Frame A.foot m r.2) ∧
    (A.rows = A.cols → Runs (madd m A alpha .symm unit) (fun r => r.1 = 0 ∧
      Holds r.2 A (fun i j => a i j + alpha) ∧ Frame A.foot m r.2)) := by
  unfold madd
  by_cases hv : A.isVec
  · rw [if_pos hv, if_pos hv]
    have key := vecAdd_op alpha m A (fun k => if A.rows = 1 then a 0 k else a k 0) hv hw ((holdsV_iff hv).mpr (h.congr (fun i j hi hj => by
      by_cases h1 : A.rows = 1
      · rw [if_pos h1]; congr 1 <;> omega
      · have h2 : A.cols = 1 := hv.resolve_left h1
        rw [if_neg h1]; congr 1 <;> omega)))
    have fin : ∀ m' : Mem α, HoldsV m' A (fun k => (if A.rows = 1 then a 0 k else a k 0) + alpha) →
        Holds m' A (fun i j => a i j + alpha) := by
      intro m' h1
      rw [holdsV_iff hv] at h1
      refine h1.congr (fun i j hi hj => ?_)
      by_cases h1 : A.rows = 1
      · have : i = 0 := by omega
        subst this; simp [h1]
      · have h2 : A.cols = 1 := by rcases hv with e | e; exact absurd e h1; exact e
        have : j = 0 := by omega
        subst this; simp [h1]
    exact ⟨key.bind (fun m' hm' => Runs.pure ⟨rfl, fin _ hm'.1, hm'.2⟩),
      fun _ => key.bind (fun m' hm' => Runs.pure ⟨rfl, fin _ hm'.1, hm'.2⟩)⟩
  · rw [if_neg hv, if_neg hv]
    have key := colLoop (φ := fun x => x + alpha) (vecAdd_op alpha) hw (T := fun _ _ => True)
      (HoldsOn.of_holds h) (fun _ => 0) (fun _ => A.rows) (c1 := A.cols) (by omega)
      (fun c hc => by omega) (fun i j _ h1 _ => trivial)
    have fin : ∀ x : Nat × Mem α, UpdOn m A (fun _ _ => True) a (fun i j => a i j + alpha)
        (fun i j => j < A.cols ∧ 0 ≤ i ∧ i < 0 + A.rows) x.2 →
        Holds x.2 A (fun i j => a i j + alpha) ∧ Frame A.foot m x.2 :=
      fun x hx => ⟨fun i j hi hj => hx.at_new hi hj trivial (by omega),
        hx.frame.mono (View.footOn_sub_foot _ _)⟩
    refine ⟨key.bind (fun x hx => Runs.pure ⟨rfl, fin x hx⟩), fun hs => ?_⟩
    dsimp only
    rw [if_neg (not_not.mpr hs)]
    exact key.bind (fun x hx => Runs.pure ⟨rfl, fin x hx⟩)

example := C51_madd_all (α := ℤ) (m := tot (fun p => (p : ℤ))) (A := ⟨3, 6, 5, 5⟩) (alpha := 3)
  (unit := true) (Or.inl (by decide)) (holds_tot _ _)

/-- C51 (`armas_madd`, lower), for matrices that are not vectors and, with `ARMAS_UNIT`, not tall. -/
theorem C51_madd_lower_partial [AddCommGroup α] {m : Mem α} {A : View} {a : Nat → Nat → α}
    {alpha : α} {unit : Bool} (hw : A.WF) (hv : ¬ A.isVec) (hsh : unit = false ∨ A.rows ≤ A.cols)
    (h : HoldsOn m A (InTri false unit) a) :
    Runs (madd m A alpha .lower unit) (fun r => r.1 = 0 ∧
      HoldsOn r.2 A (InTri false unit) (fun i j => a i j + alpha) ∧
      Frame (A.footOn (InTri false unit)) m r.2) := by
  unfold madd
  rw [if_neg hv]
  have tri : ∀ i j, InTri false unit i j ↔ j + uno unit ≤ i := by
    intro i j; cases unit <;> simp [InTri, uno] <;> omega
  refine (colLoop (φ := fun x => x + alpha) (vecAdd_op alpha) hw h (fun c => c + uno unit)
    (fun c => A.rows - c - uno unit) (c1 := A.cols - uno unit) (by omega) (fun c hc => by omega)
    (fun i j _ h1 _ => (tri i j).mpr h1)).bind (fun x hx => Runs.pure ⟨rfl, ?_, hx.frame⟩)
  refine hx.all (fun i j hi hj ht => ?_)
  rw [tri] at ht
  have hu : uno unit = 0 ∨ A.rows ≤ A.cols := by
    rcases hsh with e | e
    · left; simp [e, uno]
    · right; exact e
  omega

example := C51_madd_lower_partial (α := ℤ) (m := tot (fun p => (p : ℤ))) (A := ⟨3, 6, 5, 4⟩)
  (alpha := 3) (unit := false) (Or.inl (by decide)) (by decide) (Or.inl rfl)
  (HoldsOn.of_holds (holds_tot _ _))

/-- C51 (`armas_madd`, upper), for matrices that are neither vectors nor wide and without `ARMAS_UNIT`. -/
theorem C51_madd_upper_partial [AddCommGroup α] {m : Mem α} {A : View} {a : Nat → Nat → α}
    {alpha : α} (hw : A.WF) (hv : ¬ A.isVec) (hsh : A.cols ≤ A.rows)
    (h : HoldsOn m A (InTri true false) a) :
    Runs (madd m A alpha .upper false) (fun r => r.1 = 0 ∧
      HoldsOn r.2 A (InTri true false) (fun i j => a i j + alpha) ∧
      Frame (A.footOn (InTri true false)) m r.2) := by
  unfold madd
  rw [if_neg hv]
  have tri : ∀ i j, InTri true false i j ↔ i ≤ j := by intro i j; simp [InTri]
  refine (colLoop (φ := fun x => x + alpha) (vecAdd_op alpha) hw h (fun _ => 0)
    (fun c => c + 1) (c1 := A.cols) (by omega) (fun c hc => by omega)
    (fun i j _ _ h1 => (tri i j).mpr (by omega))).bind (fun x hx => Runs.pure ⟨rfl, ?_, hx.frame⟩)
  refine hx.all (fun i j hi hj ht => ?_)
  rw [tri] at ht
  omega

example := C51_madd_upper_partial (α := ℤ) (m := tot (fun p => (p : ℤ))) (A := ⟨3, 6, 5, 4⟩)
  (alpha := 3) (Or.inl (by decide)) (by decide) (by decide) (HoldsOn.of_holds (holds_tot _ _))

/-- C51 is false for `armas_madd` with `ARMAS_UPPER`: for a wide matrix (2x3 in an allocation of six
elements) and with `ARMAS_UNIT` (2x2 in an allocation of four) memory behind the matrix is accessed. -/
theorem C51_madd_upper_false :
    madd (cells 6) ⟨0, 2, 2, 3⟩ 1 .upper false = .ub ∧
    madd (cells 4) ⟨0, 2, 2, 2⟩ 1 .upper true = .ub := ⟨by rfl, by rfl⟩

/-- C51 is false for `armas_madd` on vectors: the flags are ignored, so that with `ARMAS_UPPER` all
elements of a column are incremented, not only the first one. -/
theorem C51_madd_vector_false [AddCommGroup α] {m : Mem α} {A : View} {a : Nat → α}
    {alpha : α} {part : Part} {unit : Bool} (hw : A.WF) (hv : A.isVec) (h : HoldsV m A a) :
    Runs (madd m A alpha part unit) (fun r => r.1 = 0 ∧ HoldsV r.2 A (fun k => a k + alpha)) := by
  unfold madd
  rw [if_pos hv]
  exact (vecAdd_op alpha m A _ hv hw h).bind (fun m' hm' => Runs.pure ⟨rfl, hm'.1⟩)

example := C51_madd_vector_false (α := ℤ) (m := tot (fun p => (p : ℤ))) (A := ⟨3, 6, 5, 1⟩)
  (alpha := 3) (part := .upper) (unit := false) (Or.inl (by decide)) (by decide) (holdsV_tot _ _)

/-! ## C52 -/

/-- C52 (whole matrix): without triangle flags `armas_mplus` computes `alpha*A + beta*op(B)` for operands
that are not both vectors and `B` not 1x1; with `ARMAS_ABS` of the absolute values. -/
theorem C52_all_partial [CommRing α] {absf : α → α} {m : Mem α} {A B : View} {a b : Nat → Nat → α}
    {alpha beta : α} {unit trans abs : Bool} (hw : A.WF) (hA : Holds m A a) (hB : Holds m B b)
    (hd : Disjoint B.foot A.foot) (hv : ¬ (A.isVec ∧ B.isVec)) (h1 : B.size ≠ 1)
    (hr : A.rows = if trans then B.cols else B.rows) (hc : A.cols = if trans then B.rows else B.cols) :
    Runs (mplus absf m alpha A beta B .all unit trans abs) (fun r => r.1 = 0 ∧
      Holds r.2 A (fun i j => alpha * (if abs then absf (a i j) else a i j) +
        beta * (if abs then absf (if trans then b j i else b i j) else (if trans then b j i else b i j))) ∧
      Frame A.foot m r.2) := by
  unfold mplus
  by_cases h0 : A.size = 0 ∨ B.size = 0
  · rw [if_pos h0]
    have hs : A.size = B.size := by
      unfold View.size; rw [hr, hc]; cases trans <;> simp [Nat.mul_comm]
    have : A.rows = 0 ∨ A.cols = 0 := by
      have : A.size = 0 := by omega
      simpa [View.size] using this
    exact Runs.ok ⟨rfl, fun i j hi hj => by omega, Frame.refl _ _⟩
  · rw [if_neg h0, if_neg h1, if_neg hv, if_neg (by cases trans <;> simp_all),
      if_neg (by cases trans <;> simp_all)]
    have hst := plusAt_step (ab := if abs then absf else id) (alpha := alpha) (beta := beta)
      (T := fun _ _ => True) (a := a) hw hr hc (HoldsOn.of_holds hB)
      (hd.mono (View.footOn_sub_foot _ _) (View.footOn_sub_foot _ _))
    refine (maddAll_spec hst hA).bind (fun m' hm' => Runs.pure ⟨rfl, hm'.1.congr (fun i j hi hj => ?_),
      hm'.2⟩)
    cases abs <;> rfl

example := C52_all_partial (α := ℤ) (absf := fun x => |x|) (m := tot (fun p => (p : ℤ)))
  (A := ⟨3, 6, 5, 4⟩) (B := ⟨100, 9, 4, 5⟩) (alpha := 2) (beta := 3) (unit := false) (trans := true)
  (abs := false) (Or.inl (by decide)) (holds_tot _ _) (holds_tot _ _)
  (View.disj_below (by decide)).symm (by decide) (by decide) rfl rfl

/-- C52 (triangles), not transposed, same restrictions: exactly the lower (upper) triangle or trapezoid
with the diagonal is computed, and only this part of `A` and `B` is accessed. -/
theorem C52_triangle_partial [CommRing α] {absf : α → α} {m : Mem α} {A B : View} {a b : Nat → Nat → α}
    {alpha beta : α} {upper unit abs : Bool} (hw : A.WF) (hA : HoldsOn m A (InTri upper false) a)
    (hB : HoldsOn m B (InTri upper false) b)
    (hd : Disjoint (B.footOn (InTri upper false)) (A.footOn (InTri upper false)))
    (hv : ¬ (A.isVec ∧ B.isVec)) (h1 : B.size ≠ 1) (hr : A.rows = B.rows) (hc : A.cols = B.cols) :
    Runs (mplus absf m alpha A beta B (if upper then .upper else .lower) unit false abs) (fun r => r.1 = 0 ∧
      HoldsOn r.2 A (InTri upper false) (fun i j => alpha * (if abs then absf (a i j) else a i j) +
        beta * (if abs then absf (b i j) else b i j)) ∧
      Frame (A.footOn (InTri upper false)) m r.2) := by
  unfold mplus
  by_cases h0 : A.size = 0 ∨ B.size = 0
  · rw [if_pos h0]
    have hs : A.size = B.size := by unfold View.size; rw [hr, hc]
    have : A.rows = 0 ∨ A.cols = 0 := by
      have : A.size = 0 := by omega
      simpa [View.size] using this
    exact Runs.ok ⟨rfl, fun i j hi hj => by omega, Frame.refl _ _⟩
  · rw [if_neg h0, if_neg h1, if_neg hv, if_neg (by simp), if_neg (by simp [hr, hc])]
    have eu : InTri true false = fun i j => i ≤ j := by funext i j; simp [InTri]
    have el : InTri false false = fun i j => j ≤ i := by funext i j; simp [InTri]
    have hst : StepOK m A (InTri upper false) a _ (plusAt (if abs then absf else id) false alpha A beta B) :=
      plusAt_step (b := b) (by exact hw) (by simpa using hr) (by simpa using hc) (by simpa using hB)
        (by simpa using hd)
    cases upper
    · rw [el] at *
      refine (maddLower_spec hst hA).bind (fun m' hm' => Runs.pure ⟨rfl,
        hm'.1.congr (fun i j hi hj _ => ?_), hm'.2⟩)
      cases abs <;> rfl
    · rw [eu] at *
      refine (maddUpper_spec hst hA).bind (fun m' hm' => Runs.pure ⟨rfl,
        hm'.1.congr (fun i j hi hj _ => ?_), hm'.2⟩)
      cases abs <;> rfl

example := C52_triangle_partial (α := ℤ) (absf := fun x => |x|) (m := tot (fun p => (p : ℤ)))
  (A := ⟨3, 6, 5, 4⟩) (B := ⟨100, 9, 5, 4⟩) (alpha := 2) (beta := 3) (upper := false) (unit := false)
  (abs := true) (Or.inl (by decide)) (HoldsOn.of_holds (holds_tot _ _)) (HoldsOn.of_holds (holds_tot _ _))
  ((View.disj_below (by decide)).symm.mono (View.footOn_sub_foot _ _) (View.footOn_sub_foot _ _))
  (by decide) (by decide) rfl rfl

/-- C52 (vectors): two vectors of the same length are added; the flags have no effect. -/
theorem C52_vector_partial [CommRing α] {absf : α → α} {m : Mem α} {A B : View} {a b : Nat → α}
    {alpha beta : α} {part : Part} {unit trans abs : Bool} (hw : A.WF) (hAv : A.isVec) (hBv : B.isVec)
    (hA : HoldsV m A a) (hB : HoldsV m B b) (hd : Disjoint B.foot A.foot) (h1 : B.size ≠ 1)
    (hs : A.size = B.size) :
    Runs (mplus absf m alpha A beta B part unit trans abs) (fun r => r.1 = 0 ∧
      HoldsV r.2 A (fun k => alpha * a k + beta * b k) ∧ Frame A.foot m r.2) := by
  unfold mplus
  by_cases h0 : A.size = 0 ∨ B.size = 0
  · rw [if_pos h0]
    exact Runs.ok ⟨rfl, fun k hk => by omega, Frame.refl _ _⟩
  · rw [if_neg h0, if_neg h1, if_pos ⟨hAv, hBv⟩, axpby, if_neg (not_not.mpr ⟨hBv, hAv⟩),
      if_neg (by omega)]
    refine (axpbyUnsafe_spec alpha beta hBv hAv hw hs.le hB hA hd).bind (fun m' hm' =>
      Runs.pure ⟨rfl, hm'.1.congr (fun k _ => by ring), hm'.2⟩)

example := C52_vector_partial (α := ℤ) (absf := fun x => |x|) (m := tot (fun p => (p : ℤ)))
  (A := ⟨3, 6, 5, 1⟩) (B := ⟨100, 9, 1, 5⟩) (alpha := 2) (beta := 3) (part := .all) (unit := false)
  (trans := false) (abs := false) (Or.inl (by decide)) (by decide) (by decide) (holdsV_tot _ _)
  (holdsV_tot _ _) (View.disj_below (by decide)).symm (by decide) rfl

/-- C52 is false for a 1x1 operand `B`: `alpha` is ignored, also for 1x1 `A`. -/
theorem C52_scalar_false [CommRing α] {absf : α → α} {m : Mem α} {A B : View} {a : Nat → Nat → α} {b : α}
    {alpha beta : α} {unit trans abs : Bool} (hw : A.WF) (hA : Holds m A a)
    (hB : m (B.at' 0 0) = some b) (h0 : A.size ≠ 0) (h1 : B.size = 1) :
    Runs (mplus absf m alpha A beta B .all unit trans abs) (fun r => r.1 = 0 ∧
      Holds r.2 A (fun i j => a i j + beta * b)) := by
  unfold mplus
  rw [if_neg (by omega), if_pos h1, rd_ok hB, Res.ok_bind]
  exact ((C51_madd_all hw hA).1).mono (fun r h => ⟨h.1, h.2.1⟩)

example := C52_scalar_false (α := ℤ) (absf := fun x => |x|) (m := tot (fun p => (p : ℤ)))
  (A := ⟨3, 6, 5, 4⟩) (B := ⟨100, 9, 1, 1⟩) (alpha := 2) (beta := 3) (unit := false) (trans := false)
  (abs := false) (Or.inl (by decide)) (holds_tot _ _) rfl (by decide) rfl

/-- C52 is false for triangles with `ARMAS_TRANS`: the operand is not transposed, so that (lower triangle)
the elements of the lower instead of the upper triangle of `B` are added. -/
theorem C52_triangle_trans_false [CommRing α] {absf : α → α} {m : Mem α} {A B : View}
    {a b : Nat → Nat → α} {alpha beta : α} {unit : Bool} (hw : A.WF)
    (hA : Holds m A a) (hB : Holds m B b) (hd : Disjoint B.foot A.foot)
    (hn : 2 ≤ A.rows) (hr : A.rows = B.rows) (hc : A.cols = B.cols) (hsq : A.rows = A.cols) :
    Runs (mplus absf m alpha A beta B .lower unit true false) (fun r => r.1 = 0 ∧
      HoldsOn r.2 A (InTri false false) (fun i j => alpha * a i j + beta * b i j)) := by
  have key := C52_triangle_partial (absf := absf) (alpha := alpha) (beta := beta) (upper := false)
    (unit := unit) (abs := false) hw (HoldsOn.of_holds hA) (HoldsOn.of_holds hB)
    (hd.mono (View.footOn_sub_foot _ _) (View.footOn_sub_foot _ _))
    (by rintro ⟨c | c, _⟩ <;> omega) (by
      unfold View.size
      intro e
      have := Nat.eq_one_of_mul_eq_one_right e
      omega) hr hc
  simp only [Bool.false_eq_true, if_false] at key
  have e : mplus absf m alpha A beta B .lower unit true false =
      mplus absf m alpha A beta B .lower unit false false := by
    unfold mplus
    simp only [Bool.false_eq_true, false_and, if_false, true_and, not_true_eq_false, not_false_eq_true,
      if_neg (show ¬ (A.rows ≠ B.cols ∨ A.cols ≠ B.rows) by omega),
      if_neg (show ¬ (A.rows ≠ B.rows ∨ A.cols ≠ B.cols) by omega)]
  rw [e]
  exact key.mono (fun r h => ⟨h.1, h.2.1⟩)

example := C52_triangle_trans_false (α := ℤ) (absf := fun x => |x|) (m := tot (fun p => (p : ℤ)))
  (A := ⟨3, 6, 5, 5⟩) (B := ⟨100, 9, 5, 5⟩) (alpha := 2) (beta := 3) (unit := false)
  (Or.inl (by decide)) (holds_tot _ _) (holds_tot _ _)
  (View.disj_below (by decide)).symm (by decide) rfl rfl rfl

/-! ## C53 -/

/-- C53: `armas_intolerance` returns one exactly if the sizes agree and every element is within the
tolerance; the strides have no influence. -/
theorem C53_intolerance [Field α] [LinearOrder α] [IsStrictOrderedRing α] {m : Mem α} {A B : View}
    {a b : Nat → Nat → α} {atol rtol : α} (hA : Holds m A a) (hB : Holds m B b) :
    Runs (intolerance (fun x => |x|) m A B atol rtol) (fun r => r = true ↔
      (A.rows = B.rows ∧ A.cols = B.cols ∧
        ∀ i j, i < A.rows → j < A.cols → |a i j - b i j| ≤ atol + rtol * |b i j|)) := by
  unfold intolerance
  split
  · rename_i hne
    refine Runs.ok ⟨by simp, fun h => ?_⟩
    rcases hne with e | e
    · exact absurd h.1 e
    · exact absurd h.2.1 e
  rename_i he
  have hr : A.rows = B.rows := by by_contra c; exact he (Or.inl c)
  have hc : A.cols = B.cols := by by_contra c; exact he (Or.inr c)
  refine Runs.bind (Runs.forUp1 (fun j r => r = true ↔ ∀ i q, i < A.rows → q < j →
    |a i q - b i q| ≤ atol + rtol * |b i q|) (Nat.zero_le _) (by simp) ?_ (Q := fun x => x.2 = true ↔
    ∀ i q, i < A.rows → q < A.cols → |a i q - b i q| ≤ atol + rtol * |b i q|) (fun st hst => hst))
    (fun x hx => Runs.pure (hx.trans ⟨fun h => ⟨hr, hc, h⟩, fun h => h.2.2⟩))
  intro j r _ hj hI
  refine Runs.bind (Runs.forUp1 (fun i r => r = true ↔ (∀ i q, i < A.rows → q < j →
    |a i q - b i q| ≤ atol + rtol * |b i q|) ∧ ∀ p, p < i → |a p j - b p j| ≤ atol + rtol * |b p j|)
    (Nat.zero_le _) (by rw [hI]; simp) ?_ (Q := fun x => x.2 = true ↔
    ∀ i q, i < A.rows → q < j + 1 → |a i q - b i q| ≤ atol + rtol * |b i q|) ?_)
    (fun x hx => Runs.pure hx)
  · intro i r _ hi hI
    by_cases hrt : r = true
    · rw [if_neg (by simp [hrt])]
      refine Runs.rd_bind (hA i j hi hj) (Runs.rd_bind (hB i j (by omega) (by omega)) ?_)
      have h1 := hI.mp hrt
      dsimp only
      split
      · rename_i hgt
        refine Runs.pure ⟨by simp, fun h => ?_⟩
        exact absurd (h.2 i (by omega)) (not_le.mpr hgt)
      · rename_i hgt
        refine Runs.pure ⟨fun _ => ⟨h1.1, fun p hp => ?_⟩, fun _ => rfl⟩
        rcases Nat.lt_or_eq_of_le (Nat.le_of_lt_succ hp) with hp | rfl
        · exact h1.2 p hp
        · exact not_lt.mp hgt
    · rw [if_pos hrt]
      refine Runs.ok ⟨fun h => absurd h hrt, fun h => ?_⟩
      exact hI.mpr ⟨h.1, fun p hp => h.2 p (by omega)⟩
  · intro r hr
    rw [hr]
    constructor
    · rintro ⟨h1, h2⟩ i q hi hq
      rcases Nat.lt_or_eq_of_le (Nat.le_of_lt_succ hq) with hq | rfl
      · exact h1 i q hi hq
      · exact h2 i hi
    · intro h
      exact ⟨fun i q hi hq => h i q hi (by omega), fun p hp => h p j hp (by omega)⟩

example := C53_intolerance (α := ℚ) (m := tot (fun p => (p : ℚ))) (A := ⟨3, 6, 5, 4⟩)
  (B := ⟨3, 9, 5, 4⟩) (atol := 1) (rtol := 2) (holds_tot _ _) (holds_tot _ _)

/-- C53 (reflexivity): with non-negative tolerances a matrix is within tolerance of every matrix with the
same elements, in particular of itself. -/
theorem C53_reflexive [Field α] [LinearOrder α] [IsStrictOrderedRing α] {m : Mem α} {A B : View}
    {a : Nat → Nat → α} {atol rtol : α} (hA : Holds m A a) (hB : Holds m B a) (hr : A.rows = B.rows)
    (hc : A.cols = B.cols) (h1 : 0 ≤ atol) (h2 : 0 ≤ rtol) :
    Runs (intolerance (fun x => |x|) m A B atol rtol) (fun r => r = true) := by
  refine (C53_intolerance (atol := atol) (rtol := rtol) hA hB).mono (fun r hrr => ?_)
  rw [hrr]
  refine ⟨hr, hc, fun i j _ _ => ?_⟩
  rw [sub_self, abs_zero]
  positivity

example := C53_reflexive (α := ℚ) (m := tot (fun p => (p : ℚ))) (A := ⟨3, 6, 5, 4⟩)
  (B := ⟨3, 6, 5, 4⟩) (atol := 1) (rtol := 2) (holds_tot _ _) (holds_tot _ _) rfl rfl (by norm_num)
  (by norm_num)

end Armas.Props
