import Verif.PivotSortLemmas
import Verif.Demo

/-!
# Properties of pivot vectors

* C23: applying a pivot vector forward permutes the rows (columns) of a matrix, the same way for every
  column (row); backward application undoes it.
* C24: `armas_pivot_sort` computes a permutation that orders the vector by magnitude.
-/

namespace Armas.Props

open Armas

variable {α : Type}

/-- C23, specification of forward pivoting: take the lines `0, 1, …, N-1` and for `k = 0, 1, …, n-1`
exchange what is at positions `k` and `ix k - 1` (nothing if `ix k` is not in `1..N`).  The line found at
position `i` in the end is `fwdPerm N ix n i`. -/
theorem C23_fwdPerm_step (N : Nat) (ix : Nat → Int) (n i : Nat) :
    fwdPerm N ix 0 i = i ∧
    fwdPerm N ix (n + 1) i = fwdPerm N ix n
      (if 0 < ix n ∧ ix n ≤ N then
        (if i = n then (ix n - 1).toNat else if i = (ix n - 1).toNat then n else i) else i) := by
  refine ⟨rfl, ?_⟩
  rw [fwdPerm, Equiv.Perm.mul_apply, pivTau]
  split
  · rw [Equiv.swap_apply_def]
  · rfl

/-- The first column after pivoting the rows of three by `[3, 3]`. -/
example : (List.range 3).map (fwdPerm 3 (fun _ => 3) 2) = [2, 0, 1] := by decide

/-- C23 (forward): `armas_pivot_rows`, `armas_pivot_cols` and `armas_pivot` with the row and column
kinds permute the rows (columns) by the permutation of the pivot vector, the same for all columns (rows);
nothing outside of the matrix changes. -/
theorem C23_forward {m : Mem α} {A : View} {a : Nat → Nat → α} {P : Piv} {col : Bool} (hw : A.WF)
    (h : Holds m A a) (hn : P.n ≤ (if col then A.cols else A.rows)) :
    let N := if col then A.cols else A.rows
    (∀ i, i < N → fwdPerm N P.ix P.n i < N) ∧
    ∀ r ∈ [pivotLines col m A P true, pivot m A P (if col then .cols else .rows) true],
      Runs r (fun x => x.1 = 0 ∧
        Holds x.2 A (fun i j => if col then a i (fwdPerm N P.ix P.n j) else a (fwdPerm N P.ix P.n i) j) ∧
        Frame A.foot m x.2) := by
  refine ⟨fun i hi => fwdPerm_lt hn hi, fun r hr => ?_⟩
  simp only [List.mem_cons, List.not_mem_nil, or_false] at hr
  have key := applyPivots_fwd (col := col) hw h hn
  rcases hr with rfl | rfl
  · rw [pivotLines, if_neg (by rw [nLines]; omega)]
    exact key.bind (fun m' hm' => Runs.pure ⟨rfl, hm'⟩)
  · rw [pivot_lines hn]
    exact key.bind (fun m' hm' => Runs.pure ⟨rfl, hm'⟩)

example := C23_forward (α := ℤ) (m := tot (fun p => (p : ℤ))) (A := ⟨3, 6, 5, 4⟩) (P := ⟨3, fun _ => 4⟩)
  (col := false) (Or.inl (by decide)) (holds_tot _ _) (by decide)

/-- C23 (restore), for pivot vectors as long as the matrix: applying the pivot vector forward and then
backward leaves the matrix as it was.  Full claim: for every pivot vector accepted by the functions;
see `C23_short_false`. -/
theorem C23_restore_partial {m : Mem α} {A : View} {a : Nat → Nat → α} {P : Piv} {col : Bool} (hw : A.WF)
    (h : Holds m A a) (hn : P.n = if col then A.cols else A.rows) :
    Runs (pivotLines col m A P true) (fun x => Runs (pivotLines col x.2 A P false) (fun y =>
      y.1 = 0 ∧ Holds y.2 A a ∧ Frame A.foot m y.2)) ∧
    Runs (pivot m A P (if col then .cols else .rows) true) (fun x =>
      Runs (pivot x.2 A P (if col then .cols else .rows) false) (fun y =>
        y.1 = 0 ∧ Holds y.2 A a ∧ Frame A.foot m y.2)) := by
  have hle : P.n ≤ nLines col A := by rw [nLines]; omega
  have key : Runs (applyPivots col m A P true) (fun m1 => Runs (applyPivots col m1 A P false) (fun m2 =>
      Holds m2 A a ∧ Frame A.foot m m2)) := by
    refine (applyPivots_fwd (col := col) hw h hle).mono (fun m1 ⟨h1, f1⟩ => ?_)
    refine (applyPivots_bwd (col := col) hw h1 hle).mono (fun m2 ⟨h2, f2⟩ => ⟨?_, f1.trans f2⟩)
    rw [show nLines col A - P.n = 0 by rw [nLines]; omega, permLines_mul, fwd_bwd, permLines_one] at h2
    exact h2
  constructor
  · rw [pivotLines, if_neg (by omega)]
    refine key.bind (fun m1 hm1 => Runs.pure ?_)
    rw [pivotLines, if_neg (by omega)]
    exact hm1.bind (fun m2 hm2 => Runs.pure ⟨rfl, hm2⟩)
  · rw [pivot_lines hle]
    refine key.bind (fun m1 hm1 => Runs.pure ?_)
    rw [pivot_lines hle]
    exact hm1.bind (fun m2 hm2 => Runs.pure ⟨rfl, hm2⟩)

example := C23_restore_partial (α := ℤ) (m := tot (fun p => (p : ℤ))) (A := ⟨3, 6, 3, 4⟩)
  (P := ⟨3, fun k => if k = 0 then 3 else 0⟩) (col := false) (Or.inl (by decide)) (holds_tot _ _) (by decide)

/-- C23 (backward, general): what backward application does for a pivot vector shorter than the matrix:
pivot `k` is applied at line `N - n + k`, not at line `k`. -/
theorem C23_backward {m : Mem α} {A : View} {a : Nat → Nat → α} {P : Piv} {col : Bool} (hw : A.WF)
    (h : Holds m A a) (hn : P.n ≤ (if col then A.cols else A.rows)) :
    let N := if col then A.cols else A.rows
    (∀ i, i < N → bwdPerm N P.ix (N - P.n) P.n i < N) ∧
    Runs (pivotLines col m A P false) (fun x => x.1 = 0 ∧
        Holds x.2 A (fun i j => if col then a i (bwdPerm N P.ix (N - P.n) P.n j)
          else a (bwdPerm N P.ix (N - P.n) P.n i) j) ∧
        Frame A.foot m x.2) := by
  refine ⟨fun i hi => bwdPerm_lt (by omega) hi, ?_⟩
  rw [pivotLines, if_neg (by rw [nLines]; omega)]
  exact (applyPivots_bwd (col := col) hw h hn).bind (fun m' hm' => Runs.pure ⟨rfl, hm'⟩)

example := C23_backward (α := ℤ) (m := tot (fun p => (p : ℤ))) (A := ⟨3, 6, 5, 4⟩) (P := ⟨3, fun _ => 4⟩)
  (col := false) (Or.inl (by decide)) (holds_tot _ _) (by decide)

/-- C23 is false for a pivot vector shorter than the matrix: `[2]` applied forward and then backward to a
matrix of two rows (the pivot vector of the LU factorization of a 2x1 matrix) exchanges the rows once, as
the backward pass takes the single pivot for the one of the last row. -/
theorem C23_short_false {A : View} {m : Mem ℤ} {a : Nat → Nat → ℤ} (hw : A.WF) (hr : A.rows = 2)
    (hc : A.cols = 1) (h : Holds m A a) :
    Runs (pivotLines false m A ⟨1, fun _ => 2⟩ true) (fun x =>
      Runs (pivotLines false x.2 A ⟨1, fun _ => 2⟩ false) (fun y =>
        Holds y.2 A (fun i j => a (1 - i) j))) := by
  have hle : 1 ≤ nLines false A := by simp [nLines, hr]
  rw [pivotLines, if_neg (by rw [nLines]; simp [hr])]
  refine (applyPivots_fwd (col := false) (P := ⟨1, fun _ => 2⟩) hw h hle).bind
    (fun m1 ⟨h1, _⟩ => Runs.pure ?_)
  rw [pivotLines, if_neg (by rw [nLines]; simp [hr])]
  refine (applyPivots_bwd (col := false) (P := ⟨1, fun _ => 2⟩) hw h1 hle).bind
    (fun m2 ⟨h2, _⟩ => Runs.pure ?_)
  refine h2.congr (fun i j hi hj => ?_)
  have hi' : i = 0 ∨ i = 1 := by omega
  simp only [permLines_mul, nLines, hr]
  rcases hi' with rfl | rfl
  · change a (fwdPerm 2 (fun _ => 2) 1 (bwdPerm 2 (fun _ => 2) 1 1 0)) j = _
    rw [show fwdPerm 2 (fun _ => 2) 1 (bwdPerm 2 (fun _ => 2) 1 1 0) = 1 by decide]
  · change a (fwdPerm 2 (fun _ => 2) 1 (bwdPerm 2 (fun _ => 2) 1 1 1)) j = _
    rw [show fwdPerm 2 (fun _ => 2) 1 (bwdPerm 2 (fun _ => 2) 1 1 1) = 0 by decide]

example := C23_short_false (m := tot (fun p => (p : ℤ))) (A := ⟨3, 6, 2, 1⟩) (Or.inl (by decide)) rfl rfl
  (holds_tot _ _)

/-- C23 (symmetric, forward), for pivots in `1..N`: `armas_pivot` with `ARMAS_PIVOT_UPPER`
(`ARMAS_PIVOT_LOWER`) applies the permutation to the rows and the columns of the symmetric matrix given
by the triangle; only the triangle is read and written.  Full claim: also with zero entries meaning no
interchange; see `C23_sym_zero_false`. -/
theorem C23_sym_forward_partial {m : Mem α} {A : View} {a : Nat → Nat → α} {P : Piv} {upper : Bool}
    (hw : A.WF) (hs : A.rows = A.cols) (h : HoldsOn m A (InTri upper false) a) (hn : P.n ≤ A.rows)
    (hP : ∀ k, k < P.n → 1 ≤ P.ix k ∧ P.ix k ≤ A.rows) :
    Runs (pivot m A P (if upper then .upper else .lower) true) (fun x => x.1 = 0 ∧
      HoldsOn x.2 A (InTri upper false)
        (fun i j => symm upper a (fwdPerm A.rows P.ix P.n i) (fwdPerm A.rows P.ix P.n j)) ∧
      Frame (A.footOn (InTri upper false)) m x.2) := by
  have key := applySym_fwd hw hs h hn hP
  rw [pivot_sym hn]
  exact key.bind (fun m' hm' => Runs.pure ⟨rfl, hm'⟩)

example := C23_sym_forward_partial (α := ℤ) (m := tot (fun p => (p : ℤ))) (A := ⟨3, 6, 5, 5⟩)
  (P := ⟨3, fun k => k + 2⟩) (upper := true) (Or.inl (by decide)) rfl (HoldsOn.of_holds (holds_tot _ _)) (by decide)
  (by intro k hk; simp only at hk ⊢; omega)

/-- C23 (symmetric, restore), for pivot vectors as long as the matrix with entries in `1..N`. -/
theorem C23_sym_restore_partial {m : Mem α} {A : View} {a : Nat → Nat → α} {P : Piv} {upper : Bool}
    (hw : A.WF) (hs : A.rows = A.cols) (h : HoldsOn m A (InTri upper false) a) (hn : P.n = A.rows)
    (hP : ∀ k, k < P.n → 1 ≤ P.ix k ∧ P.ix k ≤ A.rows) :
    Runs (pivot m A P (if upper then .upper else .lower) true) (fun x =>
      Runs (pivot x.2 A P (if upper then .upper else .lower) false) (fun y => y.1 = 0 ∧
        HoldsOn y.2 A (InTri upper false) a ∧ Frame (A.footOn (InTri upper false)) m y.2)) := by
  have key : Runs (applySym upper m A P true) (fun m1 => Runs (applySym upper m1 A P false) (fun m2 =>
      HoldsOn m2 A (InTri upper false) a ∧ Frame (A.footOn (InTri upper false)) m m2)) := by
    refine (applySym_fwd hw hs h (by omega) hP).mono (fun m1 ⟨h1, f1⟩ => ?_)
    refine (applySym_bwd hw hs h1 (by omega) hP).mono (fun m2 ⟨h2, f2⟩ => ⟨?_, f1.trans f2⟩)
    rw [show A.rows - P.n = 0 by omega, permSym_mul, fwd_bwd] at h2
    exact h2.congr (fun i j _ _ ht => permSym_one ht)
  rw [pivot_sym hn.le]
  refine key.bind (fun m1 hm1 => Runs.pure ?_)
  rw [pivot_sym hn.le]
  exact hm1.bind (fun m2 hm2 => Runs.pure ⟨rfl, hm2⟩)

example := C23_sym_restore_partial (α := ℤ) (m := tot (fun p => (p : ℤ))) (A := ⟨3, 6, 5, 5⟩)
  (P := ⟨5, fun k => 5 - k⟩) (upper := false) (Or.inl (by decide)) rfl (HoldsOn.of_holds (holds_tot _ _)) rfl
  (by intro k hk; simp only at hk ⊢; omega)

/-- C23 (symmetric) is false for zero entries: while the row and column kinds skip them, the symmetric
kinds access the element in front of the matrix. -/
theorem C23_sym_zero_false {m : Mem α} {A : View} {P : Piv} {upper : Bool} (hr : P.n ≤ A.rows)
    (hn : 0 < P.n) (h0 : P.ix 0 = 0) :
    pivot m A P (if upper then .upper else .lower) true = .ub := by
  have key : applySym upper m A P true = .ub := by
    unfold applySym
    rw [if_pos rfl, forUp_eq, if_pos hn, if_pos (by omega), Piv.get, if_pos hn, h0, pivotSymOne,
      if_neg (by omega), if_pos (by omega)]
    rfl
  rw [pivot_sym hr, key, Res.ub_bind]

example := C23_sym_zero_false (α := ℤ) (m := tot (fun p => (p : ℤ))) (A := ⟨3, 6, 5, 5⟩)
  (P := ⟨2, fun _ => 0⟩) (upper := true) (by decide) (by decide) rfl

/-- C24: with a pivot vector at least as long as the vector, `armas_pivot_sort` returns zero and leaves
in the pivot vector the numbers `1..n` in an order that sorts the vector by absolute value, ascending for
`direction > 0`, descending for `direction < 0`; entries behind stay as they were. -/
theorem C24_sort_partial [AddGroup α] [LinearOrder α] {m : Mem α} {D : View} {d : Nat → α} {P : Piv}
    {dir : Int} (hv : D.isVec) (h : HoldsV m D d) (hn : D.size ≤ P.n) :
    Runs (pivotSort m D P dir) (fun r => r.1 = 0 ∧ r.2.n = P.n ∧ ∃ σ : Equiv.Perm Nat,
      (∀ k, D.size ≤ k → σ k = k) ∧
      (∀ k, k < D.size → σ k < D.size ∧ r.2.ix k = σ k + 1) ∧
      (∀ k, D.size ≤ k → r.2.ix k = P.ix k) ∧
      ∀ i j, i < j → j < D.size →
        (dir > 0 → |d (σ i)| ≤ |d (σ j)|) ∧ (dir < 0 → |d (σ j)| ≤ |d (σ i)|)) := by
  refine (pivotSort_spec (dir := dir) hv h hn).mono ?_
  rintro r ⟨h0, σ, hI⟩
  refine ⟨h0, hI.n, σ, hI.fix, fun k hk => ⟨?_, hI.val k hk⟩, hI.rest, fun i j hij hj => ?_⟩
  · by_contra hc
    have := σ.injective (hI.fix (σ k) (by omega))
    omega
  · exact ⟨(hI.ord i j hij hj).2, (hI.ord i j hij hj).1⟩

example := C24_sort_partial (α := ℤ) (m := tot (fun p => (p : ℤ) * (p - 5))) (D := ⟨3, 4, 1, 6⟩)
  (P := ⟨7, fun _ => 0⟩) (dir := -1) (by decide) (holdsV_tot _ _) (by decide)

/-- C24 is false for a pivot vector shorter than the vector, which is not checked: the missing entries are
read as zero and the vector is accessed in front of its first element. -/
theorem C24_short_false [AddGroup α] [LinearOrder α] {m : Mem α} {D : View} {P : Piv} {dir : Int}
    (hv : D.isVec) (hs : 2 ≤ D.size) (hn : P.n ≤ 1) : pivotSort m D P dir = .ub := by
  unfold pivotSort
  rw [if_neg (not_not.mpr hv)]
  have h1 : Runs (forUp 0 D.size 1 (fun k (P : Piv) => .ok (P.set k (k + 1))) P) (fun x => x.2.n ≤ 1) := by
    refine Runs.forUp1 (fun _ P => P.n ≤ 1) (by omega) hn ?_ (fun _ h => h)
    intro k P' _ _ hP'
    refine Runs.ok ?_
    rw [Piv.set]; split <;> exact hP'
  obtain ⟨x, e, hx⟩ := h1
  rw [e, Res.ok_bind]
  obtain ⟨_, P1⟩ := x
  dsimp only at hx ⊢
  rw [forUp_eq, if_pos (by omega), if_pos (by omega), Piv.get, if_neg (by omega), absAt, if_pos (by omega)]
  rfl

example := C24_short_false (α := ℤ) (m := tot (fun p => (p : ℤ))) (D := ⟨3, 4, 1, 6⟩)
  (P := ⟨1, fun _ => 0⟩) (dir := -1) (by decide) (by decide) (by decide)

end Armas.Props
