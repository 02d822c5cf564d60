import Verif.GivensLemmas
import Verif.Demo

/-!
# C50: plane rotations
-/

namespace Armas.Props

open Armas

variable {α : Type} [CommRing α] [DecidableEq α]

/-- Rotation of rows (`left`) or columns `p` and `q` of `a`. -/
def planeRot (left : Bool) (c s : α) (p q : Nat) (a : Nat → Nat → α) (i j : Nat) : α :=
  if left then
    if i = p then c * a p j + s * a q j else if i = q then c * a q j - s * a p j else a i j
  else
    if j = p then c * a i p + s * a i q else if j = q then c * a i q - s * a i p else a i j

/-- Rotations `0, 1, …, n-1`, in this order; number `k` acts on lines `start + k` and `start + k + 1`. -/
def rotsFwd (left : Bool) (start : Nat) (c s : Nat → α) : Nat → (Nat → Nat → α) → Nat → Nat → α
  | 0, a => a
  | n + 1, a => planeRot left (c n) (s n) (start + n) (start + n + 1) (rotsFwd left start c s n a)

/-- The same rotations in the order `n-1, …, 1, 0`. -/
def rotsBwd (left : Bool) (start : Nat) (c s : Nat → α) : Nat → (Nat → Nat → α) → Nat → Nat → α
  | 0, a => a
  | n + 1, a => rotsBwd left start c s n (planeRot left (c n) (s n) (start + n) (start + n + 1) a)

/-- Sum of squares of column `k` (`left`) or row `k` of an `r × n` matrix. -/
def sumSq (left : Bool) (r n : Nat) (a : Nat → Nat → α) (k : Nat) : α :=
  if left then ∑ i ∈ Finset.range r, a i k ^ 2 else ∑ j ∈ Finset.range n, a k j ^ 2

private def swp (left : Bool) (b : Nat → Nat → α) (i j : Nat) : α := if left then b i j else b j i

omit [DecidableEq α] in
private theorem swp_rot (left : Bool) (c s : α) (p len : Nat) (b : Nat → Nat → α) (i j : Nat)
    (hk : (if left then j else i) < len) :
    swp left (rotB c s p (p + 1) 0 len b) i j = planeRot left c s p (p + 1) (swp left b) i j := by
  cases left
  · simp only [Bool.false_eq_true, if_false] at hk
    simp [swp, rotB, planeRot, hk]
  · simp only [if_true] at hk
    simp [swp, rotB, planeRot, hk]

omit [DecidableEq α] in
private theorem sum_two (n p q : Nat) (hp : p < n) (hq : q < n) (hpq : p ≠ q) (f g : Nat → α)
    (h : f p + f q = g p + g q) (ho : ∀ i, i ≠ p → i ≠ q → f i = g i) :
    ∑ i ∈ Finset.range n, f i = ∑ i ∈ Finset.range n, g i := by
  have key : ∀ u : Nat → α, ∑ i ∈ Finset.range n, u i =
      u p + u q + ∑ i ∈ ((Finset.range n).erase p).erase q, u i := by
    intro u
    rw [← Finset.add_sum_erase _ _ (Finset.mem_range.mpr hp),
      ← Finset.add_sum_erase _ _ (Finset.mem_erase.mpr ⟨hpq.symm, Finset.mem_range.mpr hq⟩), add_assoc]
  rw [key f, key g, h]
  congr 1
  refine Finset.sum_congr rfl fun i hi => ?_
  rw [Finset.mem_erase, Finset.mem_erase] at hi
  exact ho i hi.2.1 hi.1

omit [DecidableEq α] in
private theorem sumSq_rot (left : Bool) (r n : Nat) (c s : α) (h1 : c ^ 2 + s ^ 2 = 1) (p q : Nat)
    (hp : p < if left then r else n) (hq : q < if left then r else n) (hpq : p ≠ q) (a : Nat → Nat → α) (k : Nat) :
    sumSq left r n (planeRot left c s p q a) k = sumSq left r n a k := by
  cases left
  · simp only [sumSq, Bool.false_eq_true, if_false] at hp hq ⊢
    refine sum_two n p q hp hq hpq _ _ ?_ ?_
    · simp only [planeRot, Bool.false_eq_true, if_false, if_true, if_neg hpq.symm]
      linear_combination (a k p ^ 2 + a k q ^ 2) * h1
    · intro i h1 h2
      simp only [planeRot, Bool.false_eq_true, if_false, if_neg h1, if_neg h2]
  · simp only [sumSq, if_true] at hp hq ⊢
    refine sum_two r p q hp hq hpq _ _ ?_ ?_
    · simp only [planeRot, if_true, if_neg hpq.symm]
      linear_combination (a p k ^ 2 + a q k ^ 2) * h1
    · intro i h1 h2
      simp only [planeRot, if_true, if_neg h1, if_neg h2]

private theorem gvStep_spec' {left : Bool} {m : Mem α} {A C S : View} {a : Nat → Nat → α} {c s : α} {n k : Nat}
    (hw : A.WF) (h : Holds m A a) (hc : m (C.vat n) = some c) (hs : m (S.vat n) = some s)
    (hk : k + 1 < if left then A.rows else A.cols) :
    Runs (gvStep left A C S n k m)
      (fun m' => Holds m' A (planeRot left c s k (k + 1) a) ∧ Frame A.foot m m') := by
  have hL : LHolds left m A (swp left a) := by
    rw [lholds_iff]
    intro i j hi hj
    rw [h i j hi hj]
    cases left <;> rfl
  refine (gvStep_spec hw hL hc hs hk).mono fun m' h' => ⟨?_, h'.2⟩
  intro i j hi hj
  have e := lholds_iff.mp h'.1 i j hi hj
  have e2 := swp_rot left c s k (linelen left A) (swp left a) i j (by cases left; exacts [hi, hj])
  have e3 : swp left (swp left a) = a := by funext i j; cases left <;> rfl
  rw [e3] at e2
  rw [e, ← e2]
  rfl

/-- C50, partial: if the last rotation asked for acts on lines inside the matrix (`start + nrot` is less than the number of
lines), `armas_gvupdate` applies exactly the rotations requested, in the order requested, reads and writes only `A` (besides
reading the parameters) and, if every pair of parameters has `c² + s² = 1`, keeps the sum of squares of every column (`left`) or
row.  The forward direction returns the number of rotations; the backward direction returns `0`.
Missing: `start + nrot` at the number of lines or beyond, where the statement fails (`C50_boundary_false`), and the count returned
in the backward direction (`C50_count_false`). -/
theorem C50_update_partial {left bwd : Bool} {m : Mem α} {A C S : View} {a : Nat → Nat → α} {c s : Nat → α}
    {start nrot : Nat} (hw : A.WF) (hCv : C.isVec) (hSv : S.isVec) (hnC : nrot ≤ C.size) (hnS : nrot ≤ S.size)
    (hin : nrot = 0 ∨ start + nrot < if left then A.rows else A.cols)
    (hA : Holds m A a) (hC : HoldsV m C c) (hS : HoldsV m S s)
    (dC : Disjoint A.foot C.foot) (dS : Disjoint A.foot S.foot) :
    Runs (gvupdate left bwd m A start C S nrot) (fun r =>
      r.1 = (if bwd then 0 else (nrot : Int)) ∧
      Frame A.foot m r.2 ∧
      ∃ a' : Nat → Nat → α, Holds r.2 A a' ∧
        (∀ i j, i < A.rows → j < A.cols → a' i j =
          (if bwd then rotsBwd left start c s nrot a else rotsFwd left start c s nrot a) i j) ∧
        ((∀ n, n < nrot → c n ^ 2 + s n ^ 2 = 1) → ∀ k, (k < if left then A.cols else A.rows) →
          sumSq left A.rows A.cols a' k = sumSq left A.rows A.cols a k)) := by
  have hcnt : min nrot (min (if left then A.rows else A.cols) (start + nrot) - start) = nrot := by omega
  have fC : ∀ {m'}, Frame A.foot m m' → ∀ n, n < nrot → m' (C.vat n) = some (c n) := fun hF n hn =>
    (hC.frame hCv hF dC.symm) n (by omega)
  have fS : ∀ {m'}, Frame A.foot m m' → ∀ n, n < nrot → m' (S.vat n) = some (s n) := fun hF n hn =>
    (hS.frame hSv hF dS.symm) n (by omega)
  unfold gvupdate
  simp only [hcnt]
  cases bwd
  · simp only [Bool.false_eq_true, if_false]
    refine Runs.bind (P := fun r : Nat × Mem α => r.1 = nrot ∧ Frame A.foot m r.2 ∧
      Holds r.2 A (rotsFwd left start c s nrot a)) ?_ ?_
    · refine Runs.forUp1 (I := fun n m' => Frame A.foot m m' ∧ Holds m' A (rotsFwd left start c s n a))
        (Nat.zero_le _) ⟨Frame.refl _ _, hA⟩ ?_ (fun st h => ⟨rfl, h⟩)
      rintro n m' - hn ⟨hF, hH⟩
      refine (gvStep_spec' hw hH (fC hF n hn) (fS hF n hn) (by omega)).mono fun m'' h => ⟨hF.trans h.2, h.1⟩
    · rintro ⟨n, m'⟩ ⟨e, hF, hH⟩
      dsimp only at e hF hH ⊢
      subst e
      refine Runs.pure ⟨rfl, hF, _, hH, fun i j _ _ => rfl, ?_⟩
      intro h1 k hk
      have key : ∀ l, l ≤ n → sumSq left A.rows A.cols (rotsFwd left start c s l a) k =
          sumSq left A.rows A.cols a k := by
        intro l
        induction l with
        | zero => intro _; rfl
        | succ l ih =>
          intro hl
          rw [rotsFwd, sumSq_rot left _ _ _ _ (h1 l hl) _ _ (by omega) (by omega) (by omega), ih (by omega)]
      exact key n le_rfl
  · simp only [if_true]
    have hs0 : ∀ i, nrot - nrot + i = i := by omega
    have he : nrot ≠ 0 → min (if left then A.rows else A.cols) (start + nrot) - nrot = start := by omega
    refine Runs.bind (P := fun m' => Frame A.foot m m' ∧
      Holds m' A (rotsBwd left start c s nrot a) ∧ ((∀ n, n < nrot → c n ^ 2 + s n ^ 2 = 1) → ∀ k,
        sumSq left A.rows A.cols (rotsBwd left start c s nrot a) k = sumSq left A.rows A.cols a k)) ?_ ?_
    · refine Runs.forDown (I := fun n m' => Frame A.foot m m' ∧ ∃ b, Holds m' A b ∧
        rotsBwd left start c s n b = rotsBwd left start c s nrot a ∧
        ((∀ n, n < nrot → c n ^ 2 + s n ^ 2 = 1) → ∀ k,
          sumSq left A.rows A.cols b k = sumSq left A.rows A.cols a k)) ?_ ?_ ?_
      · exact ⟨Frame.refl _ _, a, hA, rfl, fun _ _ => rfl⟩
      · rintro n m' hn ⟨hF, b, hH, hb, hsq⟩
        have he' := he (by omega)
        rw [he', hs0]
        refine (gvStep_spec' hw hH (fC hF n hn) (fS hF n hn) (by omega)).mono fun m'' h =>
          ⟨hF.trans h.2, _, h.1, hb, ?_⟩
        intro h1 k
        rw [sumSq_rot left _ _ _ _ (h1 n hn) _ _ (by omega) (by omega) (by omega), hsq h1]
      · rintro m' ⟨hF, b, hH, hb, hsq⟩
        rw [rotsBwd] at hb
        subst hb
        exact ⟨hF, hH, hsq⟩
    · rintro m' ⟨hF, hH, hsq⟩
      refine Runs.pure ⟨by simp, hF, _, hH, fun i j _ _ => rfl, fun h1 k _ => hsq h1 k⟩

-- three backward rotations of rows 1..4 of a 5x3 matrix
example := C50_update_partial (α := ℤ) (left := true) (bwd := true) (m := tot (fun p => (p : ℤ))) (A := ⟨0, 6, 5, 3⟩)
  (C := ⟨50, 4, 4, 1⟩) (S := ⟨60, 4, 4, 1⟩) (start := 1) (nrot := 3) (Or.inl (by decide)) (Or.inr rfl) (Or.inr rfl)
  (by decide) (by decide) (Or.inr (by decide)) (holds_tot _ _) (holdsV_tot _ _) (holdsV_tot _ _)
  (View.disj_below (by decide)) (View.disj_below (by decide))

/-- C50, single rotation, partial: `armas_gvleft`/`armas_gvright` with two different lines rotate elements `from … from+n-1` of
the two lines, with equal lines multiply these elements by `c`; only those change.
Missing: with two different lines the number of elements is not cut at the end of the line (`C50_single_false`). -/
theorem C50_single_partial {left : Bool} {m : Mem α} {A : View} {a : Nat → Nat → α} (c s : α) {p q f n : Nat}
    (hw : A.WF) (hA : Holds m A a) (hp : p < if left then A.rows else A.cols)
    (hq : q < if left then A.rows else A.cols) (hn : p = q ∨ f + n ≤ if left then A.cols else A.rows) :
    Runs (gvOne left m A c s p q f n) (fun m' => Frame A.foot m m' ∧ ∃ a' : Nat → Nat → α, Holds m' A a' ∧
      ∀ i j, i < A.rows → j < A.cols → a' i j =
        if f ≤ (if left then j else i) ∧ (if left then j else i) < f + n then
          if p = q then (if (if left then i else j) = p then c * a i j else a i j)
          else planeRot left c s p q a i j
        else a i j) := by
  have hL : LHolds left m A (swp left a) := by
    rw [lholds_iff]
    intro i j hi hj
    rw [hA i j hi hj]
    cases left <;> rfl
  refine (gvOne_spec c s hw hL hp hq hn).mono fun m' h' => ⟨h'.2, _, lholds_iff.mp h'.1, ?_⟩
  intro i j hi hj
  by_cases hpq : p = q
  · subst hpq
    simp only [if_true]
    cases left
    · by_cases hr : f ≤ i ∧ i < f + n <;> by_cases hj : j = p <;> simp [scaleB, swp, hr, hj]
    · by_cases hr : f ≤ j ∧ j < f + n <;> by_cases hj : i = p <;> simp [scaleB, swp, hr, hj]
  · simp only [if_neg hpq]
    cases left
    · by_cases hr : f ≤ i ∧ i < f + n <;> simp [rotB, swp, planeRot, hr]
    · by_cases hr : f ≤ j ∧ j < f + n <;> simp [rotB, swp, planeRot, hr]

example := C50_single_partial (α := ℤ) (left := false) (m := tot (fun p => (p : ℤ))) (A := ⟨0, 6, 5, 3⟩) 3 4
  (p := 2) (q := 0) (f := 1) (n := 3) (Or.inl (by decide)) (holds_tot _ _) (by decide) (by decide) (Or.inr (by decide))

/-- A 2×2 matrix (elements 0, 1, 2, 3) in cells 0..3 and parameters `c = 0`, `s = 1` in cells 10.. and 20... -/
def rotDemo (extra : Bool) : Mem ℤ := fun p =>
  if p < 4 then some p else if 10 ≤ p ∧ p < 13 then some 0 else if 20 ≤ p ∧ p < 23 then some 1
  else if extra ∧ p = 4 then some 7 else none

/-- Negation of C50 at the boundary: `rows - start = 2` rotations of a 2×2 matrix (the documented maximum,
`src/lapack/givens.c:222-224`) touch a row that does not exist.  With the matrix alone in memory this is undefined behaviour; with a cell
after the matrix that cell is overwritten. -/
theorem C50_boundary_false :
    (∀ bwd, gvupdate true bwd (rotDemo false) ⟨0, 2, 2, 2⟩ 0 ⟨10, 3, 3, 1⟩ ⟨20, 3, 3, 1⟩ 2 = .ub) ∧
    (∃ m', gvupdate true false (rotDemo true) ⟨0, 2, 2, 2⟩ 0 ⟨10, 3, 3, 1⟩ ⟨20, 3, 3, 1⟩ 2 = .ok (2, m') ∧
      4 ∉ (⟨0, 2, 2, 2⟩ : View).foot ∧ m' 4 ≠ rotDemo true 4) := by
  refine ⟨?_, ?_⟩
  · intro bwd
    cases bwd <;> rfl
  · refine ⟨_, rfl, ?_, ?_⟩
    · rintro ⟨i, j, hi, hj, h⟩
      simp only [View.at'] at h hi hj
      omega
    · decide

/-- Negation of C50 for the count: one backward rotation is applied and the value returned is `0`. -/
theorem C50_count_false :
    ∃ m', gvupdate true true (rotDemo false) ⟨0, 2, 2, 2⟩ 0 ⟨10, 3, 3, 1⟩ ⟨20, 3, 3, 1⟩ 1 = .ok (0, m') ∧
      m' 0 ≠ rotDemo false 0 :=
  ⟨_, rfl, by decide⟩

/-- `armas_gvleft` with two rows does not cut the number of columns: three columns from column 0 of a 2×2 matrix. -/
theorem C50_single_false : gvOne true (rotDemo false) ⟨0, 2, 2, 2⟩ 0 1 0 1 0 3 = .ub := by rfl

end Armas.Props
