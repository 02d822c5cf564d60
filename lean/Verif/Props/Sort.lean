import Verif.SortLemmas
import Verif.Demo
import Mathlib.Algebra.Order.Group.Unbundled.Abs
import Mathlib.Algebra.Order.Group.Int

/-!
# C49: sorting of vectors

`PermN n σ` says that `σ` permutes the positions below `n`; `InOrder` is the order asked for.
-/

namespace Armas.Props

open Armas

variable {α : Type} [LinearOrder α]

/-- Ascending for `updown > 0`, descending otherwise. -/
def InOrder (updown : Int) (n : Nat) (f : Nat → α) : Prop :=
  ∀ i j, i < j → j < n → if updown > 0 then f i ≤ f j else f j ≤ f i

theorem Sorted.inOrder {updown : Int} {n : Nat} {f : Nat → α} (h : Sorted (decide (updown > 0)) n f) :
    InOrder updown n f := by
  intro i j hij hj
  have := h i j hij hj
  simpa [leq] using this

/-- C49, `armas_sort_vec`: for every vector, also with repeated elements, the result is a permutation of the
input in the requested order; nothing else is written. -/
theorem C49_sort {m : Mem α} {X : View} {x : Nat → α} (hv : X.isVec) (hw : X.WF) (h : HoldsV m X x) (updown : Int) :
    Runs (sortVec m X updown) (fun m' => ∃ σ : Equiv.Perm Nat, PermN X.size σ ∧ HoldsV m' X (x ∘ σ) ∧
      InOrder updown X.size (x ∘ σ) ∧ Frame X.foot m m') := by
  unfold sortVec
  refine (isort_spec (key := id) (fun _ => rfl) hv hw h).mono ?_
  rintro m' ⟨y, σ, h1, h2, h3, -, h4, h5⟩
  have : y = x ∘ σ := funext h3
  subst this
  exact ⟨σ, h2, h1, Sorted.inOrder h4, h5⟩

/-- A row vector of stride 3 with repeated elements. -/
example := C49_sort (α := ℤ) (m := tot (fun p => (p % 4 : ℤ))) (X := ⟨0, 3, 1, 10⟩) (Or.inl rfl) (Or.inl (by decide))
  (holdsV_tot _ _) (-1)

/-- `armas_abs_sort_vec`: the absolute values of the result are in order and a permutation of those of the input,
and every element of the result is one of the input or its absolute value.
Partial: the result is not a permutation of the input, see `C49_abs_false`. -/
theorem C49_abs_partial [AddGroup α] [AddLeftMono α] [AddRightMono α] {m : Mem α} {X : View} {x : Nat → α}
    (hv : X.isVec) (hw : X.WF) (h : HoldsV m X x) (updown : Int) :
    Runs (absSortVec (fun a => |a|) m X updown) (fun m' => ∃ (y : Nat → α) (σ : Equiv.Perm Nat), PermN X.size σ ∧
      HoldsV m' X y ∧ (∀ i, y i = x (σ i) ∨ y i = |x (σ i)|) ∧
      InOrder updown X.size (fun i => |y i|) ∧ Frame X.foot m m') := by
  unfold absSortVec
  refine (isort_spec (key := fun a => |a|) (fun a => abs_abs a) hv hw h).mono ?_
  rintro m' ⟨y, σ, h1, h2, -, h3, h4, h5⟩
  exact ⟨y, σ, h2, h1, h3, Sorted.inOrder h4, h5⟩

example := C49_abs_partial (α := ℤ) (m := tot (fun p => (p % 4 : ℤ) - 2)) (X := ⟨0, 3, 1, 10⟩) (Or.inl rfl)
  (Or.inl (by decide)) (holdsV_tot _ _) 1

/-- The sign of elements is lost: `(1, -2)` becomes `(1, 2)`. -/
theorem C49_abs_false :
    ∃ m', absSortVec (fun a : ℤ => |a|) (tot (fun p => if p = 1 then -2 else 1)) ⟨0, 2, 2, 1⟩ 1 = .ok m' ∧
      ¬ ∃ σ : Equiv.Perm Nat, HoldsV m' ⟨0, 2, 2, 1⟩ ((fun p => if p = 1 then -2 else 1) ∘ σ) := by
  obtain ⟨r, hr⟩ : ∃ r, r = absSortVec (fun a : ℤ => |a|) (tot (fun p => if p = 1 then -2 else 1)) ⟨0, 2, 2, 1⟩ 1 :=
    ⟨_, rfl⟩
  have h1 : (match r with | .ok m => m 1 | _ => none) = some 2 := by rw [hr]; decide +kernel
  rw [← hr]
  revert h1
  cases r with
  | ub => simp
  | diverge => simp
  | ok m' =>
    intro h1
    refine ⟨m', rfl, ?_⟩
    rintro ⟨σ, h⟩
    have := h 1 (by decide)
    dsimp only at h1
    rw [show (View.vat ⟨0, 2, 2, 1⟩ 1) = 1 from rfl, h1] at this
    simp only [Function.comp, Option.some.injEq] at this
    split at this <;> omega

/-- C49, `armas_qsort_vec`: a vector of distinct elements is permuted to the requested order.
Partial: not for vectors with repeated elements (`C49_qsort_diverges`), and the element behind the last one must be
readable if there are 8 elements or more (`C49_qsort_oob`). -/
theorem C49_qsort_partial {m : Mem α} {X : View} {x : Nat → α} (hv : X.isVec) (hw : X.WF) (h : HoldsV m X x)
    (hpast : 8 ≤ X.size → ∃ u, m (X.vat X.size) = some u)
    (hinj : ∀ p q, p < X.size → q < X.size → x p = x q → p = q) (updown : Int) {fuel : Nat} (hf : X.size + 1 < fuel) :
    Runs (qsortVec fuel m X updown) (fun r => r.1 = 0 ∧ ∃ σ : Equiv.Perm Nat, PermN X.size σ ∧
      HoldsV r.2 X (x ∘ σ) ∧ InOrder updown X.size (x ∘ σ) ∧ Frame X.foot m r.2) := by
  unfold qsortVec
  rw [if_neg (not_not.mpr hv)]
  refine (qsort_spec fuel hv hw h hpast hinj hf).bind ?_
  rintro m' ⟨σ, h1, h2, h3, h4⟩
  exact Runs.pure ⟨rfl, σ, h2, h1, Sorted.inOrder h3, h4⟩

example := C49_qsort_partial (α := ℤ) (m := tot (fun p => (100 - p : ℤ))) (X := ⟨0, 3, 1, 20⟩) (Or.inl rfl)
  (Or.inl (by decide)) (holdsV_tot _ _) (fun _ => ⟨_, rfl⟩)
  (fun p q _ _ e => by simp only [View.vat, View.inc] at e; simp at e; exact e) 1 (fuel := 30) (by decide)

theorem partLoop_const {asc : Bool} {X : View} (hv : X.isVec) (hw : X.WF) {c : α} (h3 : 3 ≤ X.size) : ∀ (fuel : Nat)
    (m : Mem α), HoldsV m X (fun _ => c) → partLoop asc X X.size c fuel 1 (X.size - 1) m = .diverge := by
  have hb : before asc c c = false := by
    unfold before; split <;> simp
  intro fuel
  induction fuel with
  | zero => intro m _; rfl
  | succ fuel ih =>
    intro m h
    rw [partLoop]
    have e1 : scanUp asc m X c (X.size - 1) 1 = .ok 1 := by
      obtain ⟨d, hd⟩ : ∃ d, X.size - 1 = d + 1 := ⟨X.size - 2, by omega⟩
      rw [hd, scanUp, rd_ok (h 1 (by omega)), Res.ok_bind, if_neg (by simp [hb])]; rfl
    have e2 : scanDown asc m X c (X.size - 1) = .ok (X.size - 1) := by
      obtain ⟨d, hd⟩ : ∃ d, X.size - 1 = d + 1 := ⟨X.size - 2, by omega⟩
      rw [hd, scanDown, rd_ok (h _ (by omega)), Res.ok_bind, if_neg (by simp [hb])]; rfl
    rw [e1, Res.ok_bind, e2, Res.ok_bind, if_neg (by omega), rd_ok (h 1 (by omega)), Res.ok_bind,
      rd_ok (h _ (by omega)), Res.ok_bind]
    obtain ⟨m1, w1, g1, -⟩ := h.wr hv hw (show 1 < X.size by omega) c
    obtain ⟨m2, w2, g2, -⟩ := g1.wr hv hw (show X.size - 1 < X.size by omega) c
    rw [w1, Res.ok_bind, w2, Res.ok_bind]
    refine ih m2 (g2.congr' (fun k _ => ?_))
    simp [Function.update_apply]

/-- Quicksort never returns on a vector of 8 or more equal elements: the scans stop at once, equal elements are
exchanged and neither index moves. -/
theorem C49_qsort_diverges {m : Mem α} {X : View} {c : α} (hv : X.isVec) (hw : X.WF) (h : HoldsV m X (fun _ => c))
    (h8 : 8 ≤ X.size) (updown : Int) (fuel : Nat) : qsortVec fuel m X updown = .diverge := by
  unfold qsortVec
  rw [if_neg (not_not.mpr hv)]
  cases fuel with
  | zero => rfl
  | succ fuel =>
    rw [qsort, if_neg (by omega)]
    dsimp only
    rw [rd_ok (h _ (by omega)), Res.ok_bind, rd_ok (h 0 (by omega)), Res.ok_bind]
    obtain ⟨m1, w1, g1, -⟩ := h.wr hv hw (show X.size / 2 < X.size by omega) c
    obtain ⟨m2, w2, g2, -⟩ := g1.wr hv hw (show 0 < X.size by omega) c
    rw [w1, Res.ok_bind, w2, Res.ok_bind, partLoop_const hv hw (by omega) _ m2 (g2.congr' (fun k _ => ?_))]
    · rfl
    · simp [Function.update_apply]

example := C49_qsort_diverges (α := ℤ) (m := tot (fun _ => 5)) (X := ⟨0, 8, 8, 1⟩) (c := 5) (Or.inr rfl)
  (Or.inl (by decide)) (holdsV_tot _ _) (by decide) 1 1000

/-- If the middle element is the largest of 8 the first scan reads behind the vector: undefined when, as here, just
the 8 elements `0, 1, 2, 3, 100, 5, 6, 7` are allocated. -/
theorem C49_qsort_oob :
    qsortVec 20 (fun p => if p < 8 then some (if p = 4 then 100 else (p : ℤ)) else none) ⟨0, 8, 8, 1⟩ 1 = .ub := by
  obtain ⟨r, hr⟩ : ∃ r, r = qsortVec 20 (fun p => if p < 8 then some (if p = 4 then 100 else (p : ℤ)) else none)
    ⟨0, 8, 8, 1⟩ 1 := ⟨_, rfl⟩
  have h : (match (generalizing := false) r with | .ub => true | _ => false) = true := by rw [hr]; decide +kernel
  rw [← hr]
  cases r with
  | ub => rfl
  | diverge => simp at h
  | ok r => simp at h

/-- Not a vector: `-ARMAS_ENEED_VECTOR`, nothing is written. -/
theorem C49_qsort_error {m : Mem α} {X : View} (hv : ¬ X.isVec) (updown : Int) (fuel : Nat) :
    qsortVec fuel m X updown = .ok (-ENEED_VECTOR, m) := if_pos hv

example := C49_qsort_error (α := ℤ) (m := tot (fun _ => 5)) (X := ⟨0, 8, 2, 3⟩) (by decide) 1 9

/-- C49, `armas_sort_eigenvec`: one permutation brings the eigenvalues in the requested order and is applied to the
columns of `U`, the rows of `V` and the elements or columns of `C`; nothing else is written. -/
theorem C49_eigenvec {m : Mem α} {D : View} {U V C : Option View} {d : Nat → α} {u v : Nat → Nat → α}
    {cv : Nat → α} {cm : Nat → Nat → α} (hv : D.isVec) (hw : D.WF) (hd : EigDisj D U V C) (hD : HoldsV m D d)
    (hU : ∀ U', U = some U' → U'.WF ∧ D.size ≤ U'.cols ∧ Holds m U' u)
    (hV : ∀ V', V = some V' → V'.WF ∧ D.size ≤ V'.rows ∧ Holds m V' v)
    (hC : ∀ C', C = some C' → C'.WF ∧ if C'.isVec then D.size ≤ C'.size ∧ HoldsV m C' cv else
      D.size ≤ C'.cols ∧ Holds m C' cm) {updown : Int} (hu : updown ≠ 0) :
    Runs (sortEigenvec m D U V C updown) (fun r => r.1 = 0 ∧ (∃ σ : Equiv.Perm Nat, PermN D.size σ ∧
      HoldsV r.2 D (d ∘ σ) ∧ InOrder updown D.size (d ∘ σ) ∧
      (∀ U', U = some U' → Holds r.2 U' (fun i j => u i (σ j))) ∧
      (∀ V', V = some V' → Holds r.2 V' (fun i j => v (σ i) j)) ∧
      (∀ C', C = some C' → if C'.isVec then HoldsV r.2 C' (cv ∘ σ) else Holds r.2 C' (fun i j => cm i (σ j)))) ∧
      Frame (D.foot ∪ ofoot U ∪ ofoot V ∪ ofoot C) m r.2) := by
  unfold sortEigenvec
  rw [if_neg (not_not.mpr hv)]
  split
  · rename_i h0
    obtain ⟨h1, h2, h3⟩ := h0
    rw [Option.isNone_iff_eq_none] at h1 h2 h3
    subst h1; subst h2; subst h3
    refine (C49_sort hv hw hD updown).bind ?_
    rintro m' ⟨σ, h1, h2, h3, h4⟩
    refine Runs.pure ⟨rfl, ⟨σ, h1, h2, h3, by simp, by simp, by simp⟩, h4.mono ?_⟩
    exact fun x hx => Or.inl (Or.inl (Or.inl hx))
  · refine Runs.bind (P := fun r : Nat × Mem α =>
      (∃ σ, EigInv (decide (0 ≤ updown)) D U V C d u v cv cm (D.size - 1) r.2 σ) ∧
      Frame (D.foot ∪ ofoot U ∪ ofoot V ∪ ofoot C) m r.2) ?_ ?_
    · refine Runs.forUp1 (fun k m' => (∃ σ, EigInv (decide (0 ≤ updown)) D U V C d u v cv cm k m' σ) ∧
        Frame (D.foot ∪ ofoot U ∪ ofoot V ∪ ofoot C) m m') (Nat.zero_le _)
        ⟨⟨1, PermN.one _, hD, fun U' e => ?_, fun V' e => ?_, fun C' e => ?_, by intros; omega⟩, Frame.refl _ _⟩ ?_
        (fun st h => h)
      · obtain ⟨a, b, c⟩ := hU U' e; exact ⟨a, b, by rw [permLines_one]; exact c⟩
      · obtain ⟨a, b, c⟩ := hV V' e; exact ⟨a, b, by rw [permLines_one]; exact c⟩
      · obtain ⟨a, b⟩ := hC C' e; exact ⟨a, by rw [permLines_one]; exact b⟩
      · rintro k m1 - hk ⟨⟨σ, h1⟩, f1⟩
        refine (sortEigenStep_spec hv hw hd (by omega) h1).mono ?_
        rintro m2 ⟨h2, f2⟩
        exact ⟨h2, f1.trans f2⟩
    · rintro ⟨_, m1⟩ ⟨⟨σ, h1⟩, f1⟩
      refine Runs.pure ⟨rfl, ⟨σ, h1.perm, h1.hD, ?_, ?_, ?_, ?_⟩, f1⟩
      · intro i j hij hj
        have := h1.ord i j (by omega) hij hj
        have e : (0 ≤ updown) ↔ updown > 0 := by omega
        simpa [leq, e] using this
      · intro U' e
        have := (h1.hU U' e).2.2
        exact this.congr (fun i j _ _ => by simp [permLines])
      · intro V' e
        have := (h1.hV V' e).2.2
        exact this.congr (fun i j _ _ => by simp [permLines])
      · intro C' e
        have := (h1.hC C' e).2
        split
        · rename_i hc; rw [if_pos hc] at this; exact this.2
        · rename_i hc; rw [if_neg hc] at this
          exact this.2.congr (fun i j _ _ => by simp [permLines])

/-- Four eigenvalues with repetitions, column eigenvectors, row eigenvectors and a vector. -/
example := C49_eigenvec (α := ℤ) (m := tot (fun p => (p % 3 : ℤ))) (D := ⟨0, 4, 4, 1⟩) (U := some ⟨10, 5, 5, 4⟩)
  (V := some ⟨100, 4, 4, 6⟩) (C := some ⟨200, 2, 1, 4⟩) (cm := fun _ _ => 0) (Or.inr rfl) (Or.inl (by decide))
  ⟨View.disj_below (by decide), View.disj_below (by decide), View.disj_below (by decide),
    View.disj_below (by decide), View.disj_below (by decide), View.disj_below (by decide)⟩ (holdsV_tot _ _)
  (by rintro _ ⟨⟩; exact ⟨Or.inl (by decide), by decide, holds_tot _ _⟩)
  (by rintro _ ⟨⟩; exact ⟨Or.inl (by decide), by decide, holds_tot _ _⟩)
  (by rintro _ ⟨⟩; exact ⟨Or.inl (by decide), by rw [if_pos (show View.isVec ⟨200, 2, 1, 4⟩ from Or.inl rfl)]; exact ⟨by decide, holdsV_tot _ _⟩⟩)
  (updown := 1) (by decide)

end Armas.Props
