import Verif.Trxm
import Verif.GemmLemmas
import Verif.TrsvLemmas

/-! # Specifications of the triangular matrix-matrix product and solve

Line coordinates: a function `g p q` gives element `q` of line `p`, and `opM right g` the matrix. -/

namespace Armas

open Finset

variable {α : Type}

/-- Number of lines. -/
def View.nl (B : View) (r : Bool) : Nat := if r then B.cols else B.rows
/-- Length of a line. -/
def View.wd (B : View) (r : Bool) : Nat := if r then B.rows else B.cols

section lines
variable {r : Bool} {B : View} {p n : Nat}

@[simp] theorem lines_nl : (lines r B p n).nl r = n := by cases r <;> rfl
@[simp] theorem lines_wd : (lines r B p n).wd r = B.wd r := by cases r <;> rfl

theorem lines_rows : (lines r B p n).rows = if r then B.rows else n := by cases r <;> rfl
theorem lines_cols : (lines r B p n).cols = if r then n else B.cols := by cases r <;> rfl

theorem lines_foot (h : p + n ≤ B.nl r) : (lines r B p n).foot ⊆ B.foot := by
  cases r
  · exact View.sub_foot (by simpa [View.nl] using h) (by omega)
  · exact View.sub_foot (by omega) (by simpa [View.nl] using h)

theorem lines_disj (hw : B.WF) {p' n' : Nat} (h : p + n ≤ B.nl r) (h' : p' + n' ≤ B.nl r)
    (hd : p + n ≤ p' ∨ p' + n' ≤ p) : Disjoint (lines r B p n).foot (lines r B p' n').foot := by
  cases r <;> simp only [View.nl, Bool.false_eq_true, if_true, if_false] at h h'
  · exact View.sub_disj hw h (by omega) h' (by omega) (by omega)
  · exact View.sub_disj hw (by omega) h (by omega) h' (by omega)

theorem lines_wf (hw : B.WF) (h : p + n ≤ B.nl r) : (lines r B p n).WF := by
  cases r
  · exact hw.sub (by simpa [View.nl] using h) (by omega)
  · exact hw.sub (by omega) (by simpa [View.nl] using h)

theorem lines_all : lines r B 0 (B.nl r) = B := by
  cases r <;> exact View.sub_zero B

theorem lines_lines {p' n' : Nat} : lines r (lines r B p n) p' n' = lines r B (p + p') n' := by
  cases r <;> simp [lines, View.sub_sub]

theorem line_isVec : (lines r B p 1).isVec := by cases r <;> simp [lines, View.isVec]

theorem line_size : (lines r B p 1).size = B.wd r := by cases r <;> simp [lines, View.size, View.wd]

theorem lines_size : (lines r B p n).size = n * B.wd r := by
  cases r <;> simp [lines, View.size, View.wd, mul_comm]

theorem Holds.lines {m : Mem α} {g : Nat → Nat → α} (h : Holds m B (opM r g)) (hp : p + n ≤ B.nl r) :
    Holds m (Armas.lines r B p n) (opM r (fun i q => g (p + i) q)) := by
  cases r <;> simp only [View.nl, Bool.false_eq_true, if_true, if_false] at hp
  · exact (h.sub hp (by omega)).congr (by intros; simp [opM])
  · exact (h.sub (by omega) hp).congr (by intros; simp [opM])

theorem Holds.line {m : Mem α} {g : Nat → Nat → α} (h : Holds m B (opM r g)) (hp : p < B.nl r) :
    HoldsV m (Armas.lines r B p 1) (g p) := by
  rw [holdsV_iff line_isVec]
  refine (h.lines (p := p) (n := 1) (by omega)).congr ?_
  intro i j hi hj
  cases r <;> simp only [lines_rows, lines_cols, Bool.false_eq_true, if_true, if_false] at hi hj
  · obtain rfl : i = 0 := by omega
    simp [opM]
  · obtain rfl : j = 0 := by omega
    simp [opM]

/-- The lines `p … p+n-1` were replaced. -/
theorem Holds.setLines {m m' : Mem α} {g h : Nat → Nat → α} {S : Set Nat} (hB : Holds m B (opM r g))
    (hw : B.WF) (hp : p + n ≤ B.nl r) (hl : Holds m' (Armas.lines r B p n) (opM r h))
    (hf : Frame ((Armas.lines r B p n).foot ∪ S) m m') (hd : Disjoint B.foot S) :
    Holds m' B (opM r (fun i q => if p ≤ i ∧ i < p + n then h (i - p) q else g i q)) := by
  cases r <;> simp only [View.nl, Bool.false_eq_true, if_true, if_false] at hp
  · refine (hB.patch' hw (r := p) (c := 0) (nr := n) (nc := B.cols) hp (by omega) hl hf hd).congr ?_
    intro i j hi hj
    simp only [opM, Bool.false_eq_true, if_false, Nat.sub_zero]
    congr 1
    simp only [eq_iff_iff]
    omega
  · refine (hB.patch' hw (r := 0) (c := p) (nr := B.rows) (nc := n) (by omega) hp hl hf hd).congr ?_
    intro i j hi hj
    simp only [opM, if_true, Nat.sub_zero]
    congr 1
    simp only [eq_iff_iff]
    omega

theorem partLines_fwd {nb : Nat} (h : nb ≤ B.nl r) :
    partLines r B nb true = (lines r B 0 nb, lines r B nb (B.nl r - nb)) := by
  cases r <;> simp only [View.nl, Bool.false_eq_true, if_true, if_false] at h ⊢ <;>
    simp [partLines, partition1x2, partition2x1, lines, Nat.not_lt.mpr h]

theorem partLines_bwd {nb : Nat} (h : nb ≤ B.nl r) :
    partLines r B nb false = (lines r B 0 (B.nl r - nb), lines r B (B.nl r - nb) nb) := by
  cases r <;> simp only [View.nl, Bool.false_eq_true, if_true, if_false] at h ⊢ <;>
    simp [partLines, partition1x2, partition2x1, lines, Nat.not_lt.mpr h]

end lines

/-- Line `p` was replaced by the values of a vector. -/
theorem Holds.setLine {m m' : Mem α} {r : Bool} {B : View} {p : Nat} {g : Nat → Nat → α} {h : Nat → α}
    (hB : Holds m B (opM r g))
    (hw : B.WF) (hp : p < B.nl r) (hl : HoldsV m' (Armas.lines r B p 1) h)
    (hf : Frame (Armas.lines r B p 1).foot m m') :
    Holds m' B (opM r (fun i q => if i = p then h q else g i q)) := by
  rw [holdsV_iff line_isVec] at hl
  have hl' : Holds m' (Armas.lines r B p 1) (opM r (fun _ q => h q)) := by
    refine hl.congr ?_
    intro i j hi hj
    cases r <;> simp only [lines_rows, lines_cols, Bool.false_eq_true, if_true, if_false] at hi hj
    · obtain rfl : i = 0 := by omega
      simp [opM]
    · obtain rfl : j = 0 := by omega
      simp [opM]
  refine (hB.setLines hw (by omega) hl' (hf.mono Set.subset_union_left) (S := ∅) (by simp)).congr ?_
  intro i j _ _
  have : ∀ i, (p ≤ i ∧ i < p + 1) = (i = p) := fun i => by simp only [eq_iff_iff]; omega
  simp only [this]

section ring
variable [CommRing α] [DecidableEq α]

theorem lineGemv (ab : α → α) {env : Env} (hmin : env.blas2min ≠ 1) {fuel : Nat} {m : Mem α}
    {r : Bool} {B X : View} {p s n : Nat} {g : Nat → Nat → α} {x : Nat → α} (beta alpha : α)
    (hw : B.WF) (hB : Holds m B (opM r g)) (hx : HoldsV m X x) (hXv : X.isVec) (hX : X.size = n)
    (hd : Disjoint X.foot B.foot) (hp : p < B.nl r) (hs : s + n ≤ B.nl r) (hps : p < s ∨ s + n ≤ p)
    (hn : 0 < n) (hf : B.wd r < fuel) :
    Runs (mvmultUnsafe ab env fuel m beta (lines r B p 1) alpha (lines r B s n) X {transA := !r})
      (fun m' => Holds m' B (opM r (fun i q => if i = p then
        beta * g p q + alpha * ∑ k ∈ range n, g (s + k) q * x k else g i q)) ∧ Frame B.foot m m') := by
  have hfl : (lines r B p 1).foot ⊆ B.foot := lines_foot (by omega)
  rcases Nat.eq_zero_or_pos (B.wd r) with hwd | hwd
  · have e : mvmultUnsafe ab env fuel m beta (lines r B p 1) alpha (lines r B s n) X {transA := !r} = .ok m := by
      unfold mvmultUnsafe
      rw [if_pos (by rw [lines_size, hwd, Nat.mul_zero])]
    rw [e]
    refine Runs.ok ⟨fun i j hi hj => ?_, Frame.refl _ _⟩
    cases r <;> simp only [View.wd, Bool.false_eq_true, if_true, if_false] at hwd <;> omega
  refine (mvmultUnsafe_spec ab hmin (Y := lines r B p 1) (A := lines r B s n) (X := X) (y := g p) (x := x)
    (a := opM r (fun i q => g (s + i) q)) (fl := {transA := !r}) beta alpha rfl (Or.inr ?_)
    (by rw [line_size]; exact hf) line_isVec (lines_wf hw (by omega)) hXv ?_ ?_ (hB.line hp)
    (hB.lines hs) hx (lines_disj hw hs (by omega) (by omega))
    (hd.mono_right hfl)).mono ?_
  · rw [lines_size]; exact Nat.mul_ne_zero (by omega) (by omega)
  · rw [line_size]; cases r <;> simp [View.opRows, lines, View.wd]
  · rw [hX]; cases r <;> simp [View.opCols, lines]
  · rintro m' ⟨h1, h2⟩
    refine ⟨(hB.setLine hw hp h1 h2).congr ?_, h2.mono hfl⟩
    intro i j _ _
    rw [hX]
    cases r <;> simp [opM, opA]

theorem lineScale {m : Mem α} {r : Bool} {B : View} {p : Nat} {g : Nat → Nat → α} (beta : α)
    (hw : B.WF) (hB : Holds m B (opM r g)) (hp : p < B.nl r) :
    Runs (if beta ≠ 1 then scaleUnsafe m (lines r B p 1) beta else pure m)
      (fun m' => Holds m' B (opM r (fun i q => if i = p then beta * g p q else g i q)) ∧
        Frame B.foot m m') := by
  refine (scaleUnsafe_vec beta line_isVec (lines_wf hw (by omega)) (hB.line hp)).mono ?_
  rintro m' ⟨h1, h2⟩
  exact ⟨hB.setLine hw hp h1 h2, h2.mono (lines_foot (by omega))⟩

/-- Reading the diagonal. -/
theorem trmmScale_spec {m : Mem α} {A : View} (alpha : α) {unit : Bool} {i : Nat} {d : α}
    (hu : unit = true → d = 1) (hA : unit = false → m (A.at' i i) = some d) :
    trmmScale m A alpha unit i = .ok (alpha * d) := by
  unfold trmmScale
  cases unit
  · simp [rd_ok (hA rfl)]
  · simp [hu rfl]

theorem sum_upper (E : Nat → Nat → α) (f : Nat → α) {n i s : Nat} (hs : s ≤ n)
    (h : ∀ k, k < s → E i k = 0) :
    ∑ k ∈ range n, E i k * f k = ∑ k ∈ range (n - s), E i (s + k) * f (s + k) := by
  rw [sum_split _ hs, Finset.sum_eq_zero, zero_add]
  intro k hk
  rw [h k (Finset.mem_range.mp hk), zero_mul]

theorem sum_lower (E : Nat → Nat → α) (f : Nat → α) {n i s : Nat} (hs : s ≤ n)
    (h : ∀ k, s ≤ k → k < n → E i k = 0) :
    ∑ k ∈ range n, E i k * f k = ∑ k ∈ range s, E i k * f k := by
  rw [sum_split _ hs, Finset.sum_eq_zero (s := range (n - s)), add_zero]
  intro k hk
  rw [h (s + k) (by omega) (by have := Finset.mem_range.mp hk; omega), zero_mul]

/-- Lines in increasing order, coefficient matrix upper triangular. -/
theorem trmmUp_spec (ab : α → α) {env : Env} (hmin : env.blas2min ≠ 1) {fuel : Nat} {m : Mem α}
    {r : Bool} {B A : View} {f E : Nat → Nat → α} {a0 : Nat → View} (alpha : α) {unit : Bool}
    (hw : B.WF) (hB : Holds m B (opM r f)) (hn : A.cols = B.nl r) (h0 : 0 < A.cols)
    (hf : B.wd r < fuel)
    (hE : ∀ i k, i < A.cols → k < i → E i k = 0)
    (hu : ∀ i, i < A.cols → unit = true → E i i = 1)
    (hdg : ∀ i, i < A.cols → unit = false → m (A.at' i i) = some (E i i) ∧ A.at' i i ∉ B.foot)
    (ha : ∀ i, i < A.cols - 1 → HoldsV m (a0 i) (fun k => E i (i + 1 + k)) ∧ (a0 i).isVec ∧
      (a0 i).size = A.cols - i - 1 ∧ Disjoint (a0 i).foot B.foot) :
    Runs (trmmUp ab env fuel r a0 m B alpha A unit) (fun m' =>
      Holds m' B (opM r (fun i q => alpha * ∑ k ∈ range A.cols, E i k * f k q)) ∧
        Frame B.foot m m') := by
  unfold trmmUp
  rw [if_neg (by omega)]
  set g : Nat → Nat → α := fun i q => alpha * ∑ k ∈ range A.cols, E i k * f k q with hg
  have hsc : ∀ {m'}, Frame B.foot m m' → ∀ i, i < A.cols →
      trmmScale m' A alpha unit i = .ok (alpha * E i i) := by
    intro m' hfr i hi
    refine trmmScale_spec alpha (hu i hi) (fun h => ?_)
    rw [hfr _ (hdg i hi h).2]; exact (hdg i hi h).1
  have hgp : ∀ p q, p < A.cols → g p q = alpha * E p p * f p q +
      alpha * ∑ k ∈ range (A.cols - p - 1), f (p + 1 + k) q * E p (p + 1 + k) := by
    intro p q hp
    rw [hg]
    dsimp only
    obtain ⟨d, hd⟩ : ∃ d, A.cols - p = d + 1 := ⟨A.cols - p - 1, by omega⟩
    rw [sum_upper E (fun k => f k q) (s := p) (by omega) (fun k hk => hE p k (by omega) hk), hd,
      Finset.sum_range_succ', Nat.add_zero, Nat.add_sub_cancel, mul_add, add_comm, mul_assoc]
    congr 2
    refine Finset.sum_congr rfl (fun k _ => ?_)
    rw [mul_comm, show p + 1 + k = p + (k + 1) by omega]
  refine Runs.bind (Runs.forUp1 (fun i m' => Holds m' B (opM r (fun p q => if p < i then g p q else f p q)) ∧
    Frame B.foot m m') (by omega) ⟨hB.congr (by intros; simp), Frame.refl _ _⟩ ?_
    (Q := fun p => p.1 = A.cols - 1 ∧
      Holds p.2 B (opM r (fun i q => if i < A.cols - 1 then g i q else f i q)) ∧ Frame B.foot m p.2)
    (fun m' h => ⟨rfl, h⟩)) ?_
  · rintro i m1 - hi ⟨h1, h2⟩
    rw [hsc h2 i (by omega), Res.ok_bind]
    obtain ⟨hx, hv, hs, hd⟩ := ha i hi
    refine (lineGemv ab hmin (alpha * E i i) alpha hw h1 (hx.frame hv h2 hd) hv hs hd (p := i) (s := i + 1)
      (by omega) (by omega) (by omega) (by omega) hf).mono ?_
    rintro m2 ⟨h3, h4⟩
    refine ⟨h3.congr ?_, h2.trans h4⟩
    have key : ∀ p q, (if p = i then alpha * E i i * (if i < i then g i q else f i q) + alpha *
        ∑ k ∈ range (A.cols - i - 1), (if i + 1 + k < i then g (i + 1 + k) q else f (i + 1 + k) q) * E i (i + 1 + k)
        else if p < i then g p q else f p q) = if p < i + 1 then g p q else f p q := by
      intro p q
      by_cases hp : p = i
      · subst hp
        rw [if_pos rfl, if_neg (by omega), if_pos (by omega), hgp _ _ (by omega)]
        congr 2
        refine Finset.sum_congr rfl (fun k hk => ?_)
        rw [if_neg (by omega)]
      · rw [if_neg hp]
        by_cases h : p < i
        · rw [if_pos h, if_pos (by omega)]
        · rw [if_neg h, if_neg (by omega)]
    intro p q _ _
    cases r <;> exact key _ _
  · rintro ⟨i, m1⟩ ⟨hi, h1, h2⟩
    dsimp only at hi h1 h2 ⊢
    subst hi
    unfold trmmLast
    rw [hsc h2 _ (by omega), Res.ok_bind]
    have hls := lineScale (alpha * E (A.cols - 1) (A.cols - 1)) hw h1 (p := A.cols - 1) (by omega)
    rw [show (if alpha * E (A.cols - 1) (A.cols - 1) = 1 then pure m1 else
        scaleUnsafe m1 (lines r B (A.cols - 1) 1) (alpha * E (A.cols - 1) (A.cols - 1))) =
        (if alpha * E (A.cols - 1) (A.cols - 1) ≠ 1 then
        scaleUnsafe m1 (lines r B (A.cols - 1) 1) (alpha * E (A.cols - 1) (A.cols - 1)) else pure m1) by
      split <;> simp_all]
    refine hls.mono ?_
    rintro m2 ⟨h3, h4⟩
    refine ⟨h3.congr ?_, h2.trans h4⟩
    have key : ∀ p q, p < A.cols → (if p = A.cols - 1 then alpha * E (A.cols - 1) (A.cols - 1) *
        (if A.cols - 1 < A.cols - 1 then g (A.cols - 1) q else f (A.cols - 1) q)
        else if p < A.cols - 1 then g p q else f p q) = g p q := by
      intro p q hpn
      by_cases hp : p = A.cols - 1
      · rw [if_pos hp, if_neg (by omega), hg]
        dsimp only
        rw [sum_upper E (fun k => f k q) (s := p) (by omega) (fun k hk => hE p k (by omega) hk),
          show A.cols - p = 1 by omega]
        simp [hp, mul_assoc]
      · rw [if_neg hp, if_pos (by omega)]
    intro p q hp hq
    cases r <;> simp only [View.nl, Bool.false_eq_true, if_true, if_false] at hn
    · exact key _ _ (by omega)
    · exact key _ _ (by omega)

/-- Lines in decreasing order, coefficient matrix lower triangular. -/
theorem trmmDown_spec (ab : α → α) {env : Env} (hmin : env.blas2min ≠ 1) {fuel : Nat} {m : Mem α}
    {r : Bool} {B A : View} {f E : Nat → Nat → α} {a0 : Nat → View} (alpha : α) {unit : Bool}
    (hw : B.WF) (hB : Holds m B (opM r f)) (hn : A.cols = B.nl r) (h0 : 0 < A.cols)
    (hf : B.wd r < fuel)
    (hE : ∀ i k, i < k → k < A.cols → E i k = 0)
    (hu : ∀ i, i < A.cols → unit = true → E i i = 1)
    (hdg : ∀ i, i < A.cols → unit = false → m (A.at' i i) = some (E i i) ∧ A.at' i i ∉ B.foot)
    (ha : ∀ i, 0 < i → i < A.cols → HoldsV m (a0 i) (fun k => E i k) ∧ (a0 i).isVec ∧
      (a0 i).size = i ∧ Disjoint (a0 i).foot B.foot) :
    Runs (trmmDown ab env fuel r a0 m B alpha A unit) (fun m' =>
      Holds m' B (opM r (fun i q => alpha * ∑ k ∈ range A.cols, E i k * f k q)) ∧
        Frame B.foot m m') := by
  unfold trmmDown
  rw [if_neg (by omega)]
  set g : Nat → Nat → α := fun i q => alpha * ∑ k ∈ range A.cols, E i k * f k q with hg
  have hsc : ∀ {m'}, Frame B.foot m m' → ∀ i, i < A.cols →
      trmmScale m' A alpha unit i = .ok (alpha * E i i) := by
    intro m' hfr i hi
    refine trmmScale_spec alpha (hu i hi) (fun h => ?_)
    rw [hfr _ (hdg i hi h).2]; exact (hdg i hi h).1
  have hgp : ∀ p q, p < A.cols → g p q = alpha * E p p * f p q + alpha * ∑ k ∈ range p, f k q * E p k := by
    intro p q hp
    rw [hg]
    dsimp only
    rw [sum_lower E (fun k => f k q) (s := p + 1) (by omega) (fun k hk hk' => hE p k (by omega) hk'),
      Finset.sum_range_succ, mul_add, add_comm, mul_assoc]
    simp only [mul_comm]
  refine Runs.bind (Runs.forDown (fun i m' => Holds m' B (opM r (fun p q => if p ≤ i then f p q else g p q)) ∧
    Frame B.foot m m') ⟨hB.congr ?_, Frame.refl _ _⟩ ?_
    (Q := fun m' => Holds m' B (opM r (fun i q => if i ≤ 0 then f i q else g i q)) ∧ Frame B.foot m m')
    (fun m' h => h)) ?_
  · intro i j hi hj
    cases r <;> simp only [View.nl, Bool.false_eq_true, if_true, if_false] at hn <;>
      simp only [opM, Bool.false_eq_true, if_true, if_false] <;> rw [if_pos (by omega)]
  · rintro i m1 hi ⟨h1, h2⟩
    rw [hsc h2 (i + 1) (by omega), Res.ok_bind]
    obtain ⟨hx, hv, hs, hd⟩ := ha (i + 1) (by omega) (by omega)
    refine (lineGemv ab hmin (alpha * E (i + 1) (i + 1)) alpha hw h1 (hx.frame hv h2 hd) hv hs hd
      (p := i + 1) (s := 0) (by omega) (by omega) (by omega) (by omega) hf).mono ?_
    rintro m2 ⟨h3, h4⟩
    refine ⟨h3.congr ?_, h2.trans h4⟩
    have key : ∀ p q, (if p = i + 1 then alpha * E (i + 1) (i + 1) * (if i + 1 ≤ i + 1 then f (i + 1) q else g (i + 1) q)
        + alpha * ∑ k ∈ range (i + 1), (if 0 + k ≤ i + 1 then f (0 + k) q else g (0 + k) q) * E (i + 1) k
        else if p ≤ i + 1 then f p q else g p q) = if p ≤ i then f p q else g p q := by
      intro p q
      by_cases hp : p = i + 1
      · subst hp
        rw [if_pos rfl, if_pos (le_refl _), if_neg (by omega), hgp _ _ (by omega)]
        congr 2
        refine Finset.sum_congr rfl (fun k hk => ?_)
        have := Finset.mem_range.mp hk
        rw [if_pos (by omega), Nat.zero_add]
      · rw [if_neg hp]
        by_cases h : p ≤ i
        · rw [if_pos h, if_pos (by omega)]
        · rw [if_neg h, if_neg (by omega)]
    intro p q _ _
    cases r <;> exact key _ _
  · rintro m1 ⟨h1, h2⟩
    unfold trmmLast
    rw [hsc h2 _ (by omega), Res.ok_bind]
    have hls := lineScale (alpha * E 0 0) hw h1 (p := 0) (by omega)
    rw [show (if alpha * E 0 0 = 1 then pure m1 else scaleUnsafe m1 (lines r B 0 1) (alpha * E 0 0)) =
        (if alpha * E 0 0 ≠ 1 then scaleUnsafe m1 (lines r B 0 1) (alpha * E 0 0) else pure m1) by
      split <;> simp_all]
    refine hls.mono ?_
    rintro m2 ⟨h3, h4⟩
    refine ⟨h3.congr ?_, h2.trans h4⟩
    have key : ∀ p q, p < A.cols → (if p = 0 then alpha * E 0 0 *
        (if 0 ≤ 0 then f 0 q else g 0 q) else if p ≤ 0 then f p q else g p q) = g p q := by
      intro p q hpn
      by_cases hp : p = 0
      · subst hp
        rw [if_pos rfl, if_pos (by omega), hgp _ _ h0]
        simp
      · rw [if_neg hp, if_neg (by omega)]
    intro p q hp hq
    cases r <;> simp only [View.nl, Bool.false_eq_true, if_true, if_false] at hn
    · exact key _ _ (by omega)
    · exact key _ _ (by omega)

/-! ## Coefficients -/

omit [DecidableEq α] in
theorem opM_zero_of {x : Bool} {u : Bool} (unit : Bool) (a : Nat → Nat → α) {i k : Nat}
    (h : if u = x then i < k else k < i) : opM x (trm u unit a) i k = 0 := opA_trm_zero unit a h

/-- Coefficient of line `k` in the new line `i`. -/
def trE (fl : Flags) (a : Nat → Nat → α) (i k : Nat) : α :=
  opM (fl.right ^^ fl.transA) (trm fl.upper fl.unit a) i k

omit [DecidableEq α] in
theorem trE_shift (fl : Flags) (a : Nat → Nat → α) (n i j : Nat) :
    trE fl (fun i j => a (n + i) (n + j)) i j = trE fl a (n + i) (n + j) := by
  unfold trE opM; split <;> simp [trm_shift]

omit [DecidableEq α] in
theorem trE_diag (fl : Flags) (a : Nat → Nat → α) (i : Nat) :
    trE fl a i i = if fl.unit then 1 else a i i := by
  unfold trE opM trm; simp

/-- Order of the lines: first to last. -/
def Flags.up (fl : Flags) : Bool := fl.right ^^ fl.transA ^^ fl.upper

omit [DecidableEq α] in
theorem trE_up {fl : Flags} (h : fl.up = true) (a : Nat → Nat → α) {i k : Nat} (hk : k < i) :
    trE fl a i k = 0 := by
  unfold trE
  refine opM_zero_of _ _ ?_
  unfold Flags.up at h
  rw [if_neg ?_]
  · exact hk
  · intro e; rw [e] at h; simp at h

omit [DecidableEq α] in
theorem trE_down {fl : Flags} (h : fl.up = false) (a : Nat → Nat → α) {i k : Nat} (hk : i < k) :
    trE fl a i k = 0 := by
  unfold trE
  refine opM_zero_of _ _ ?_
  unfold Flags.up at h
  rw [if_pos ?_]
  · exact hk
  · revert h; cases fl.right <;> cases fl.transA <;> cases fl.upper <;> simp

/-- A block strictly inside of the triangle. -/
theorem offHolds {m : Mem α} {A : View} {fl : Flags} {a : Nat → Nat → α}
    (hA : HoldsOn m A (InTri fl.upper fl.unit) a) {i k n0 n1 : Nat}
    (hd : if fl.up then i + n1 ≤ k else k + n0 ≤ i)
    (hi : (if fl.right ^^ fl.transA then k + n0 else i + n1) ≤ A.rows)
    (hk : (if fl.right ^^ fl.transA then i + n1 else k + n0) ≤ A.cols) :
    Holds m (if fl.right ^^ fl.transA then A.sub k i n0 n1 else A.sub i k n1 n0)
      (opM (fl.right ^^ fl.transA) (fun p q => trE fl a (i + p) (k + q))) := by
  unfold trE
  unfold Flags.up at hd
  generalize (fl.right ^^ fl.transA) = x at *
  cases x <;> simp only [Bool.false_eq_true, if_true, if_false, Bool.false_xor, Bool.true_xor] at hi hk hd ⊢
  · refine (hA.block hi hk ?_).congr ?_
    · intro p q hp hq
      unfold InTri
      cases hu : fl.upper <;> rw [hu] at hd <;> simp only [Bool.false_eq_true, if_true, if_false] at hd ⊢ <;>
        split <;> omega
    · intro p q hp hq
      simp only [View.sub_rows, View.sub_cols] at hp hq
      unfold opM trm
      cases hu : fl.upper <;> rw [hu] at hd <;> simp only [Bool.false_eq_true, if_true, if_false] at hd ⊢ <;>
        rw [if_neg (by omega), if_pos (by omega)]
  · refine (hA.block hi hk ?_).congr ?_
    · intro p q hp hq
      unfold InTri
      cases hu : fl.upper <;> rw [hu] at hd <;> simp only [Bool.false_eq_true, if_true, if_false, Bool.not_true, Bool.not_false] at hd ⊢ <;>
        split <;> omega
    · intro p q hp hq
      simp only [View.sub_rows, View.sub_cols] at hp hq
      unfold opM trm
      cases hu : fl.upper <;> rw [hu] at hd <;> simp only [Bool.false_eq_true, if_true, if_false, Bool.not_true, Bool.not_false] at hd ⊢ <;>
        rw [if_neg (by omega), if_pos (by omega)]

omit [CommRing α] [DecidableEq α] in
theorem offFoot {A : View} {fl : Flags} {i k n0 n1 : Nat}
    (hd : if fl.up then i + n1 ≤ k else k + n0 ≤ i)
    (hi : (if fl.right ^^ fl.transA then k + n0 else i + n1) ≤ A.rows)
    (hk : (if fl.right ^^ fl.transA then i + n1 else k + n0) ≤ A.cols) :
    (if fl.right ^^ fl.transA then A.sub k i n0 n1 else A.sub i k n1 n0).foot ⊆
      A.footOn (InTri fl.upper fl.unit) := by
  unfold Flags.up at hd
  generalize (fl.right ^^ fl.transA) = x at *
  cases x <;> simp only [Bool.false_eq_true, if_true, if_false, Bool.false_xor, Bool.true_xor] at hi hk hd ⊢
  all_goals
    refine View.foot_sub_footOn hi hk ?_
    intro p q hp hq
    unfold InTri
    cases hu : fl.upper <;> rw [hu] at hd <;>
      simp only [Bool.false_eq_true, if_true, if_false, Bool.not_true, Bool.not_false] at hd ⊢ <;>
      split <;> omega

/-- A vector strictly inside of the triangle. -/
theorem offVec {m : Mem α} {A : View} {fl : Flags} {a : Nat → Nat → α}
    (hA : HoldsOn m A (InTri fl.upper fl.unit) a) {i k n : Nat}
    (hd : if fl.up then i < k else k + n ≤ i)
    (hi : (if fl.right ^^ fl.transA then k + n else i + 1) ≤ A.rows)
    (hk : (if fl.right ^^ fl.transA then i + 1 else k + n) ≤ A.cols) :
    HoldsV m (if fl.right ^^ fl.transA then A.sub k i n 1 else A.sub i k 1 n)
      (fun q => trE fl a i (k + q)) := by
  rw [holdsV_iff (by split <;> simp [View.isVec])]
  refine (offHolds hA (i := i) (k := k) (n0 := n) (n1 := 1) (by split at hd <;> rename_i h <;> simp [h] <;> omega) hi hk).congr ?_
  intro p q hp hq
  unfold opM
  split at hp <;> rename_i h <;> simp only [h, if_true, View.sub_rows, View.sub_cols] at hp hq ⊢
  · obtain rfl : q = 0 := by omega
    simp
  · obtain rfl : p = 0 := by omega
    simp

theorem trmmUnb_spec (ab : α → α) {env : Env} (hmin : env.blas2min ≠ 1) {fuel : Nat} {m : Mem α}
    {B A : View} {f a : Nat → Nat → α} (alpha : α) {fl : Flags}
    (hw : B.WF) (hB : Holds m B (opM fl.right f)) (hn : A.cols = B.nl fl.right) (hsq : A.rows = A.cols)
    (h0 : 0 < A.cols) (hf : B.wd fl.right < fuel)
    (hA : HoldsOn m A (InTri fl.upper fl.unit) a)
    (hd : Disjoint (A.footOn (InTri fl.upper fl.unit)) B.foot) :
    Runs (trmmUnb ab env fuel m B alpha A fl) (fun m' =>
      Holds m' B (opM fl.right (fun i q => alpha * ∑ k ∈ range A.cols, trE fl a i k * f k q)) ∧
        Frame B.foot m m') := by
  have hu : ∀ i, i < A.cols → fl.unit = true → trE fl a i i = 1 := by
    intro i _ h; rw [trE_diag, h]; simp
  have hdg : ∀ i, i < A.cols → fl.unit = false → m (A.at' i i) = some (trE fl a i i) ∧ A.at' i i ∉ B.foot := by
    intro i hi h
    have hin : InTri fl.upper fl.unit i i := by unfold InTri; rw [h]; simp
    refine ⟨?_, fun hm => Set.disjoint_left.mp hd ⟨i, i, by omega, hi, hin, rfl⟩ hm⟩
    rw [hA i i (by omega) hi hin, trE_diag, h]; simp
  have hup : fl.up = true → ∀ i, i < A.cols - 1 →
      HoldsV m (if fl.right ^^ fl.transA then A.sub (i + 1) i (A.cols - i - 1) 1 else
        A.sub i (i + 1) 1 (A.cols - i - 1)) (fun k => trE fl a i (i + 1 + k)) ∧
      (if fl.right ^^ fl.transA then A.sub (i + 1) i (A.cols - i - 1) 1 else
        A.sub i (i + 1) 1 (A.cols - i - 1)).isVec ∧
      (if fl.right ^^ fl.transA then A.sub (i + 1) i (A.cols - i - 1) 1 else
        A.sub i (i + 1) 1 (A.cols - i - 1)).size = A.cols - i - 1 ∧
      Disjoint (if fl.right ^^ fl.transA then A.sub (i + 1) i (A.cols - i - 1) 1 else
        A.sub i (i + 1) 1 (A.cols - i - 1)).foot B.foot := by
    intro h i hi
    refine ⟨offVec hA (by simp [h]) (by split <;> omega) (by split <;> omega),
      by split <;> simp [View.isVec], by split <;> simp, hd.mono_left (offFoot (by simp [h]) ?_ ?_)⟩ <;>
      split <;> omega
  have hdn : fl.up = false → ∀ i, 0 < i → i < A.cols →
      HoldsV m (if fl.right ^^ fl.transA then A.sub 0 i i 1 else A.sub i 0 1 i) (fun k => trE fl a i k) ∧
      (if fl.right ^^ fl.transA then A.sub 0 i i 1 else A.sub i 0 1 i).isVec ∧
      (if fl.right ^^ fl.transA then A.sub 0 i i 1 else A.sub i 0 1 i).size = i ∧
      Disjoint (if fl.right ^^ fl.transA then A.sub 0 i i 1 else A.sub i 0 1 i).foot B.foot := by
    intro h i _ hi
    refine ⟨(offVec hA (k := 0) (n := i) (by simp [h]) (by split <;> omega) (by split <;> omega)).congr
      (by intros; simp),
      by split <;> simp [View.isVec], by split <;> simp, hd.mono_left (offFoot (by simp [h]) ?_ ?_)⟩ <;>
      split <;> omega
  have U : fl.up = true → Runs (trmmUp ab env fuel fl.right (fun i => if fl.right ^^ fl.transA then
      A.sub (i + 1) i (A.cols - i - 1) 1 else A.sub i (i + 1) 1 (A.cols - i - 1)) m B alpha A fl.unit) (fun m' =>
      Holds m' B (opM fl.right (fun i q => alpha * ∑ k ∈ range A.cols, trE fl a i k * f k q)) ∧
        Frame B.foot m m') := fun h =>
    trmmUp_spec ab hmin alpha hw hB hn h0 hf (fun i k _ hk => trE_up h a hk) hu hdg (hup h)
  have D : fl.up = false → Runs (trmmDown ab env fuel fl.right (fun i => if fl.right ^^ fl.transA then
      A.sub 0 i i 1 else A.sub i 0 1 i) m B alpha A fl.unit) (fun m' =>
      Holds m' B (opM fl.right (fun i q => alpha * ∑ k ∈ range A.cols, trE fl a i k * f k q)) ∧
        Frame B.foot m m') := fun h =>
    trmmDown_spec ab hmin alpha hw hB hn h0 hf (fun i k hk _ => trE_down h a hk) hu hdg (hdn h)
  unfold trmmUnb
  unfold Flags.up at U D
  clear hup hdn
  generalize (fun m' => Holds m' B (opM fl.right (fun i q => alpha * ∑ k ∈ range A.cols, trE fl a i k * f k q)) ∧
        Frame B.foot m m') = Q at *
  revert U D
  cases fl.right <;> cases fl.upper <;> cases fl.transA <;> intro U D <;> first | exact U rfl | exact D rfl

/-! ## Off-diagonal blocks -/

theorem offBlock_spec (ab : α → α) {c : Cache} {m : Mem α} {r trans : Bool} {B A0 : View}
    {g e : Nat → Nat → α} {p n1 s n0 : Nat} (alpha : α)
    (hw : B.WF) (hc : c.Ready m) (hrb : c.rb ≤ c.MB) (hB : Holds m B (opM r g))
    (hA : Holds m A0 (opM (r ^^ trans) e))
    (hr : A0.rows = if r ^^ trans then n0 else n1) (hcl : A0.cols = if r ^^ trans then n1 else n0)
    (hp : p + n1 ≤ B.nl r) (hs : s + n0 ≤ B.nl r) (hps : p + n1 ≤ s ∨ s + n0 ≤ p)
    (hdA : Disjoint A0.foot c.foot) (hdAB : Disjoint A0.foot B.foot) (hdB : Disjoint B.foot c.foot) :
    Runs (offBlock ab r m (lines r B p n1) alpha A0 (lines r B s n0) trans false c) (fun m' =>
      Holds m' B (opM r (fun i q => if p ≤ i ∧ i < p + n1 then
        g i q + alpha * ∑ k ∈ range n0, e (i - p) k * g (s + k) q else g i q)) ∧
      Frame (B.foot ∪ c.foot) m m' ∧ c.Ready m') := by
  have hl1 : (lines r B p n1).foot ⊆ B.foot := lines_foot hp
  have hl0 : (lines r B s n0).foot ⊆ B.foot := lines_foot hs
  have fin : ∀ m', Holds m' (lines r B p n1) (opM r (fun i q => g (p + i) q + alpha * ∑ k ∈ range n0,
      e i k * g (s + k) q)) → Frame ((lines r B p n1).foot ∪ c.foot) m m' → c.Ready m' →
      Holds m' B (opM r (fun i q => if p ≤ i ∧ i < p + n1 then
        g i q + alpha * ∑ k ∈ range n0, e (i - p) k * g (s + k) q else g i q)) ∧
      Frame (B.foot ∪ c.foot) m m' ∧ c.Ready m' := by
    intro m' h1 h2 h3
    refine ⟨(hB.setLines hw hp h1 h2 hdB).congr ?_, h2.mono (Set.union_subset_union_left _ hl1), h3⟩
    have key : ∀ i q, (if p ≤ i ∧ i < p + n1 then g (p + (i - p)) q + alpha * ∑ k ∈ range n0,
        e (i - p) k * g (s + k) q else g i q) = if p ≤ i ∧ i < p + n1 then g i q + alpha * ∑ k ∈ range n0,
        e (i - p) k * g (s + k) q else g i q := by
      intro i q
      by_cases h : p ≤ i ∧ i < p + n1
      · rw [if_pos h, if_pos h, show p + (i - p) = i by omega]
      · rw [if_neg h, if_neg h]
    intro i q _ _
    cases r <;> exact key _ _
  have h1 := hB.lines (p := p) (n := n1) hp
  have h0 := hB.lines (p := s) (n := n0) hs
  have hw1 := lines_wf (r := r) hw hp
  have d10 := lines_disj (r := r) hw hs hp (by omega)
  unfold offBlock
  cases r <;> simp only [Bool.false_eq_true, if_true, if_false, Bool.false_xor, Bool.true_xor] at *
  · refine (multKernelNc_spec ab {transA := trans, absA := false, absB := false} alpha hw1 hc hrb hA h0 h1 hdA
      (hdB.mono_left hl0) (hdB.mono_left hl1) (hdAB.mono_right hl1) d10 ?_ ?_ ?_).mono ?_
    · cases trans <;> simp [lines, hr, hcl]
    · simp [lines]
    · cases trans <;> simp [lines, hr, hcl]
    · rintro m' ⟨k1, k2, k3⟩
      refine fin m' (k1.congr ?_) k2 k3
      intro i q _ _
      cases trans <;> simp [opM, Flags.elt, hr, hcl]
  · refine (multKernelNc_spec ab {transB := trans, absA := false, absB := false} alpha hw1 hc hrb h0 hA h1
      (hdB.mono_left hl0) hdA (hdB.mono_left hl1) d10 (hdAB.mono_right hl1) ?_ ?_ ?_).mono ?_
    · simp [lines]
    · cases trans <;> simp [lines, hr, hcl]
    · cases trans <;> simp [lines, hr, hcl]
    · rintro m' ⟨k1, k2, k3⟩
      refine fin m' (k1.congr ?_) k2 k3
      intro i q _ _
      cases trans <;> simp [opM, Flags.elt, lines, mul_comm]

/-! ## Preconditions of the recursive and blocked versions -/

/-- `B` has as many lines as the square matrix `A` rows; only the triangle of `A` is allocated; `A`, `B`
and the copy buffers are disjoint. -/
structure TrPre (c : Cache) (m : Mem α) (B A : View) (f a : Nat → Nat → α) (fl : Flags) : Prop where
  wf : B.WF
  ready : c.Ready m
  rb : c.rb ≤ c.MB
  hB : Holds m B (opM fl.right f)
  hn : A.cols = B.nl fl.right
  hsq : A.rows = A.cols
  h0 : 0 < A.cols
  hA : HoldsOn m A (InTri fl.upper fl.unit) a
  dAB : Disjoint (A.footOn (InTri fl.upper fl.unit)) B.foot
  dAc : Disjoint (A.footOn (InTri fl.upper fl.unit)) c.foot
  dBc : Disjoint B.foot c.foot

/-- `B` holds `g`, nothing but `B` and the buffers changed since `m`. -/
structure TrMid (c : Cache) (m : Mem α) (B : View) (r : Bool) (g : Nat → Nat → α) (m' : Mem α) : Prop where
  hold : Holds m' B (opM r g)
  frame : Frame (B.foot ∪ c.foot) m m'
  ready : c.Ready m'

omit [CommRing α] [DecidableEq α] in
theorem TrMid.congr {c : Cache} {m m' : Mem α} {B : View} {r : Bool} {g h : Nat → Nat → α}
    (H : TrMid c m B r g m') (e : ∀ i q, i < B.nl r → q < B.wd r → g i q = h i q) : TrMid c m B r h m' := by
  refine ⟨H.hold.congr ?_, H.frame, H.ready⟩
  intro i q hi hq
  cases r <;> simp only [opM, Bool.false_eq_true, if_true, if_false] <;> apply e <;> simpa [View.nl, View.wd]

namespace TrPre
variable {c : Cache} {m m' : Mem α} {B A : View} {f a g : Nat → Nat → α} {fl : Flags}

omit [CommRing α] [DecidableEq α] in
theorem init (H : TrPre c m B A f a fl) : TrMid c m B fl.right f m := ⟨H.hB, Frame.refl _ _, H.ready⟩

omit [CommRing α] [DecidableEq α] in
theorem holdsA (H : TrPre c m B A f a fl) (h : TrMid c m B fl.right g m') :
    HoldsOn m' A (InTri fl.upper fl.unit) a :=
  H.hA.frame h.frame (Set.disjoint_union_right.mpr ⟨H.dAB, H.dAc⟩)

omit [CommRing α] [DecidableEq α] in
/-- A diagonal block. -/
theorem block (H : TrPre c m B A f a fl) (h : TrMid c m B fl.right g m') {p n1 : Nat} {g' : Nat → Nat → α}
    (hp : p + n1 ≤ A.cols) (h1 : 0 < n1) (e : ∀ i q, i < n1 → g (p + i) q = g' i q) :
    TrPre c m' (lines fl.right B p n1) (A.sub p p n1 n1) g' (fun i j => a (p + i) (p + j)) fl := by
  have hfA : (A.sub p p n1 n1).footOn (InTri fl.upper fl.unit) ⊆ A.footOn (InTri fl.upper fl.unit) :=
    View.footOn_sub (by have := H.hsq; omega) (by omega) (fun i j _ _ hij => (inTri_shift _ _ _ _ _).mpr hij)
  have hfB : (lines fl.right B p n1).foot ⊆ B.foot := lines_foot (by rw [← H.hn]; omega)
  refine ⟨lines_wf H.wf (by rw [← H.hn]; omega), h.ready, H.rb, ?_, by simp, rfl, h1, ?_,
    H.dAB.mono hfA hfB, H.dAc.mono_left hfA, H.dBc.mono_left hfB⟩
  · refine (h.hold.lines (by rw [← H.hn]; omega)).congr ?_
    intro i q hi hq
    rw [lines_rows] at hi
    rw [lines_cols] at hq
    revert hi hq
    cases fl.right <;> intro hi hq <;> simp only [opM, Bool.false_eq_true, if_true, if_false] at hi hq ⊢
    · exact e i q hi
    · exact e q i hq
  · exact (H.holdsA h).sub (by have := H.hsq; omega) (by omega) (fun i j _ _ hij => (inTri_shift _ _ _ _ _).mpr hij)

omit [CommRing α] [DecidableEq α] in
/-- A subroutine replaced the lines of a block. -/
theorem absorb (H : TrPre c m B A f a fl) (h : TrMid c m B fl.right g m') {p n1 : Nat} {h' : Nat → Nat → α}
    {m'' : Mem α} (hp : p + n1 ≤ A.cols) (hm : TrMid c m' (lines fl.right B p n1) fl.right h' m'') :
    TrMid c m B fl.right (fun i q => if p ≤ i ∧ i < p + n1 then h' (i - p) q else g i q) m'' := by
  have hfB : (lines fl.right B p n1).foot ⊆ B.foot := lines_foot (by rw [← H.hn]; omega)
  exact ⟨h.hold.setLines H.wf (by rw [← H.hn]; omega) hm.hold hm.frame H.dBc,
    h.frame.trans (hm.frame.mono (Set.union_subset_union_left _ hfB)), hm.ready⟩

/-- An off-diagonal block is applied. -/
theorem off (ab : α → α) (H : TrPre c m B A f a fl) (h : TrMid c m B fl.right g m') {p n1 s n0 : Nat} {trans : Bool}
    (beta : α) (hp : p + n1 ≤ A.cols) (hs : s + n0 ≤ A.cols)
    (hps : if fl.up then p + n1 ≤ s else s + n0 ≤ p) (ht : (fl.right ^^ trans) = (fl.right ^^ fl.transA)) :
    Runs (offBlock ab fl.right m' (lines fl.right B p n1) beta
        (if fl.right ^^ fl.transA then A.sub s p n0 n1 else A.sub p s n1 n0) (lines fl.right B s n0) trans false c)
      (TrMid c m B fl.right (fun i q => if p ≤ i ∧ i < p + n1 then
        g i q + beta * ∑ k ∈ range n0, trE fl a i (s + k) * g (s + k) q else g i q)) := by
  have hi : (if fl.right ^^ fl.transA then s + n0 else p + n1) ≤ A.rows := by
    rw [H.hsq]; split <;> omega
  have hk : (if fl.right ^^ fl.transA then p + n1 else s + n0) ≤ A.cols := by split <;> omega
  have hfo := offFoot (A := A) (fl := fl) hps hi hk
  refine (offBlock_spec ab (r := fl.right) (trans := trans) (B := B)
    (e := fun i k => trE fl a (p + i) (s + k)) beta H.wf h.ready H.rb h.hold
    (by rw [ht]; exact offHolds (H.holdsA h) hps hi hk) (by rw [ht]; split <;> rfl) (by rw [ht]; split <;> rfl)
    (by rw [← H.hn]; omega) (by rw [← H.hn]; omega) (by split at hps <;> omega)
    (H.dAc.mono_left hfo) (H.dAB.mono_left hfo) H.dBc).mono ?_
  rintro m2 ⟨h1, h2, h3⟩
  refine TrMid.congr ⟨h1, h.frame.trans h2, h3⟩ (fun i q _ _ => ?_)
  by_cases hin : p ≤ i ∧ i < p + n1
  · rw [if_pos hin, if_pos hin, show p + (i - p) = i by omega]
  · rw [if_neg hin, if_neg hin]

end TrPre

theorem sumUp {fl : Flags} (h : fl.up = true) (a : Nat → Nat → α) (x : Nat → α) {p n1 n i : Nat} (hp : p ≤ i)
    (hn : p + n1 ≤ n) :
    ∑ k ∈ range n, trE fl a i k * x k = ∑ k ∈ range n1, trE fl a i (p + k) * x (p + k) +
      ∑ k ∈ range (n - p - n1), trE fl a i (p + n1 + k) * x (p + n1 + k) := by
  rw [sum_upper (trE fl a) x (s := p) (by omega) (fun k hk => trE_up h a (by omega)),
    sum_split (fun k => trE fl a i (p + k) * x (p + k)) (show n1 ≤ n - p by omega)]
  simp only [Nat.add_assoc]

theorem sumDown {fl : Flags} (h : fl.up = false) (a : Nat → Nat → α) (x : Nat → α) {p n1 n i : Nat}
    (hp : i < p + n1) (hn : p + n1 ≤ n) :
    ∑ k ∈ range n, trE fl a i k * x k = ∑ k ∈ range n1, trE fl a i (p + k) * x (p + k) +
      ∑ k ∈ range p, trE fl a i k * x k := by
  rw [sum_lower (trE fl a) x (s := p + n1) (by omega) (fun k hk _ => trE_down h a (by omega)),
    sum_split _ (show p ≤ p + n1 by omega), add_comm]
  simp only [Nat.add_sub_cancel_left]

/-- New lines of `trmm`. -/
def trmmVal (fl : Flags) (alpha : α) (n : Nat) (a f : Nat → Nat → α) (i q : Nat) : α :=
  alpha * ∑ k ∈ range n, trE fl a i k * f k q

/-- Product with the diagonal block, then the off-diagonal block: the lines are finished. -/
theorem trmmStepUp (ab : α → α) {c : Cache} {m m' : Mem α} {B A : View} {f a g : Nat → Nat → α} {fl : Flags}
    (alpha : α) (H : TrPre c m B A f a fl) (hup : fl.up = true) (h : TrMid c m B fl.right g m') {p n1 : Nat}
    (hp : p + n1 ≤ A.cols) (hg : ∀ i q, p ≤ i → g i q = f i q) {trans : Bool}
    (ht : (fl.right ^^ trans) = (fl.right ^^ fl.transA)) {m1 : Mem α}
    (hm : TrMid c m' (lines fl.right B p n1) fl.right
      (trmmVal fl alpha n1 (fun i j => a (p + i) (p + j)) (fun i q => f (p + i) q)) m1) :
    Runs (offBlock ab fl.right m1 (lines fl.right B p n1) alpha
        (if fl.right ^^ fl.transA then A.sub (p + n1) p (A.cols - p - n1) n1
          else A.sub p (p + n1) n1 (A.cols - p - n1))
        (lines fl.right B (p + n1) (A.cols - p - n1)) trans false c)
      (TrMid c m B fl.right (fun i q => if p ≤ i ∧ i < p + n1 then trmmVal fl alpha A.cols a f i q else g i q)) := by
  refine (H.off ab (H.absorb h hp hm) alpha hp (by omega) (by simp [hup]) ht).mono (fun m2 k => k.congr ?_)
  intro i q _ _
  by_cases hin : p ≤ i ∧ i < p + n1
  · simp only [if_pos hin]
    unfold trmmVal
    rw [sumUp hup a (fun k => f k q) hin.1 hp, mul_add]
    congr 1
    · congr 1
      refine Finset.sum_congr rfl (fun k _ => ?_)
      rw [trE_shift, show p + (i - p) = i by omega]
    · congr 1
      refine Finset.sum_congr rfl (fun k _ => ?_)
      rw [if_neg (by omega), hg _ _ (by omega)]
  · simp only [if_neg hin]

theorem trmmStepDown (ab : α → α) {c : Cache} {m m' : Mem α} {B A : View} {f a g : Nat → Nat → α} {fl : Flags}
    (alpha : α) (H : TrPre c m B A f a fl) (hup : fl.up = false) (h : TrMid c m B fl.right g m') {p n1 : Nat}
    (hp : p + n1 ≤ A.cols) (hg : ∀ i q, i < p + n1 → g i q = f i q) {trans : Bool}
    (ht : (fl.right ^^ trans) = (fl.right ^^ fl.transA)) {m1 : Mem α}
    (hm : TrMid c m' (lines fl.right B p n1) fl.right
      (trmmVal fl alpha n1 (fun i j => a (p + i) (p + j)) (fun i q => f (p + i) q)) m1) :
    Runs (offBlock ab fl.right m1 (lines fl.right B p n1) alpha
        (if fl.right ^^ fl.transA then A.sub 0 p p n1 else A.sub p 0 n1 p)
        (lines fl.right B 0 p) trans false c)
      (TrMid c m B fl.right (fun i q => if p ≤ i ∧ i < p + n1 then trmmVal fl alpha A.cols a f i q else g i q)) := by
  refine (H.off ab (H.absorb h hp hm) alpha hp (by omega) (by simp [hup]) ht).mono (fun m2 k => k.congr ?_)
  intro i q _ _
  by_cases hin : p ≤ i ∧ i < p + n1
  · simp only [if_pos hin]
    unfold trmmVal
    rw [sumDown hup a (fun k => f k q) hin.2 hp, mul_add]
    congr 1
    · congr 1
      refine Finset.sum_congr rfl (fun k _ => ?_)
      rw [trE_shift, show p + (i - p) = i by omega]
    · congr 1
      refine Finset.sum_congr rfl (fun k hk => ?_)
      have := Finset.mem_range.mp hk
      rw [Nat.zero_add, if_neg (by omega), hg _ _ (by omega)]
  · simp only [if_neg hin]

theorem trmmFwdRec_spec (ab : α → α) {env : Env} (hmin : 2 ≤ env.blas2min) {c : Cache} (alpha : α) {fl : Flags}
    (hup : fl.up = true) : ∀ (fuel : Nat) {m : Mem α} {B A : View} {f a : Nat → Nat → α},
      TrPre c m B A f a fl → A.cols + B.wd fl.right < fuel →
      Runs (trmmFwdRec ab env fl.right alpha fl c fuel m B A)
        (TrMid c m B fl.right (trmmVal fl alpha A.cols a f)) := by
  intro fuel
  induction fuel with
  | zero => intro m B A f a _ h; omega
  | succ fuel ih =>
    intro m B A f a H hf
    have h0 := H.h0
    unfold trmmFwdRec
    by_cases hlt : A.cols < env.blas2min
    · rw [if_pos hlt]
      refine (trmmUnb_spec ab (by omega) alpha H.wf H.hB H.hn H.hsq H.h0 (by omega) H.hA H.dAB).mono ?_
      rintro m' ⟨h1, h2⟩
      exact ⟨h1, h2.mono Set.subset_union_left, H.ready.frame h2 H.dBc.symm⟩
    · rw [if_neg hlt]
      dsimp only
      rw [partLines_fwd (by rw [← H.hn]; omega)]
      simp only [partition2x2, H.hsq, ← H.hn]
      obtain ⟨n1, hn1⟩ : ∃ n1, A.cols / 2 = n1 := ⟨_, rfl⟩
      rw [hn1]
      have Hb := H.block H.init (p := 0) (n1 := n1) (g' := fun i q => f (0 + i) q) (by omega) (by omega)
        (fun i q _ => rfl)
      refine Runs.bind (ih Hb (by simp; omega)) (fun m1 hm => ?_)
      have := trmmStepUp ab alpha H hup H.init (p := 0) (n1 := n1) (by omega) (fun _ _ _ => rfl)
        (trans := if fl.upper then fl.right else !fl.right) (by
          revert hup; unfold Flags.up
          cases fl.right <;> cases fl.upper <;> cases fl.transA <;> simp) hm
      refine Runs.bind (P := TrMid c m B fl.right (fun i q => if 0 ≤ i ∧ i < 0 + n1 then
        trmmVal fl alpha A.cols a f i q else f i q)) ?_ (fun m2 h2 => ?_)
      · simp only [Nat.zero_add, Nat.sub_zero] at this ⊢
        revert this hup
        unfold Flags.up
        generalize TrMid c m B fl.right (fun i q => if 0 ≤ i ∧ i < n1 then
          trmmVal fl alpha A.cols a f i q else f i q) = Q
        cases fl.right <;> cases fl.upper <;> cases fl.transA <;> intro hup this <;>
          first
          | exact absurd hup (by decide)
          | (simp only [Bool.xor_self, Bool.xor_false, Bool.xor_true, Bool.not_true, Bool.not_false,
              Bool.false_eq_true, if_true, if_false] at this ⊢; exact this)
      · have Hb2 := H.block h2 (p := n1) (n1 := A.cols - n1) (g' := fun i q => f (n1 + i) q) (by omega) (by omega)
          (fun i q _ => by rw [if_neg (by omega)])
        refine (ih Hb2 (by simp; omega)).mono (fun m3 h3 => (H.absorb h2 (by omega) h3).congr ?_)
        intro i q hi _
        rw [← H.hn] at hi
        by_cases hin : n1 ≤ i ∧ i < n1 + (A.cols - n1)
        · rw [if_pos hin]
          unfold trmmVal
          rw [sumUp hup a (fun k => f k q) (p := n1) (n1 := A.cols - n1) hin.1 (by omega)]
          congr 1
          rw [show A.cols - n1 - (A.cols - n1) = 0 by omega]
          simp only [Finset.range_zero, Finset.sum_empty, add_zero]
          refine Finset.sum_congr rfl (fun k _ => ?_)
          rw [trE_shift, show n1 + (i - n1) = i by omega]
        · rw [if_neg hin, if_pos (by omega)]

theorem trmmBwdRec_spec (ab : α → α) {env : Env} (hmin : 2 ≤ env.blas2min) {c : Cache} (alpha : α) {fl : Flags}
    (hup : fl.up = false) : ∀ (fuel : Nat) {m : Mem α} {B A : View} {f a : Nat → Nat → α},
      TrPre c m B A f a fl → A.cols + B.wd fl.right < fuel →
      Runs (trmmBwdRec ab env fl.right alpha fl c fuel m B A)
        (TrMid c m B fl.right (trmmVal fl alpha A.cols a f)) := by
  intro fuel
  induction fuel with
  | zero => intro m B A f a _ h; omega
  | succ fuel ih =>
    intro m B A f a H hf
    have h0 := H.h0
    unfold trmmBwdRec
    by_cases hlt : A.cols < env.blas2min
    · rw [if_pos hlt]
      refine (trmmUnb_spec ab (by omega) alpha H.wf H.hB H.hn H.hsq H.h0 (by omega) H.hA H.dAB).mono ?_
      rintro m' ⟨h1, h2⟩
      exact ⟨h1, h2.mono Set.subset_union_left, H.ready.frame h2 H.dBc.symm⟩
    · rw [if_neg hlt]
      dsimp only
      rw [partLines_bwd (by rw [← H.hn]; omega)]
      simp only [partition2x2, H.hsq, ← H.hn]
      obtain ⟨n1, hn1⟩ : ∃ n1, A.cols / 2 = n1 := ⟨_, rfl⟩
      obtain ⟨p, hp⟩ : ∃ p, A.cols - n1 = p := ⟨_, rfl⟩
      rw [hn1, hp]
      have Hb := H.block H.init (p := p) (n1 := n1) (g' := fun i q => f (p + i) q) (by omega) (by omega)
        (fun i q _ => rfl)
      refine Runs.bind (ih Hb (by simp; omega)) (fun m1 hm => ?_)
      have := trmmStepDown ab alpha H hup H.init (p := p) (n1 := n1) (by omega) (fun _ _ _ => rfl)
        (trans := if fl.upper then !fl.right else fl.right) (by
          revert hup; unfold Flags.up
          cases fl.right <;> cases fl.upper <;> cases fl.transA <;> simp) hm
      refine Runs.bind (P := TrMid c m B fl.right (fun i q => if p ≤ i ∧ i < p + n1 then
        trmmVal fl alpha A.cols a f i q else f i q)) ?_ (fun m2 h2 => ?_)
      · revert this hup
        unfold Flags.up
        generalize TrMid c m B fl.right (fun i q => if p ≤ i ∧ i < p + n1 then
          trmmVal fl alpha A.cols a f i q else f i q) = Q
        cases fl.right <;> cases fl.upper <;> cases fl.transA <;> intro hup this <;>
          first
          | exact absurd hup (by decide)
          | (simp only [Bool.xor_self, Bool.xor_false, Bool.xor_true, Bool.not_true, Bool.not_false,
              Bool.false_eq_true, if_true, if_false] at this ⊢; exact this)
      · have Hb2 := H.block h2 (p := 0) (n1 := p) (g' := f) (by omega) (by omega)
          (fun i q _ => by rw [if_neg (by omega), Nat.zero_add])
        refine (ih Hb2 (by simp; omega)).mono (fun m3 h3 => (H.absorb h2 (by omega) h3).congr ?_)
        intro i q hi _
        rw [← H.hn] at hi
        by_cases hin : 0 ≤ i ∧ i < 0 + p
        · rw [if_pos hin]
          unfold trmmVal
          rw [sumDown hup a (fun k => f k q) (p := 0) (n1 := p) hin.2 (by omega)]
          simp [View.sub]
        · rw [if_neg hin, if_pos (by omega)]

theorem trmmRecursive_spec (ab : α → α) {env : Env} (hmin : 2 ≤ env.blas2min) {c : Cache} (alpha : α) {fl : Flags}
    (hfl : fl.lower = !fl.upper) {fuel : Nat} {m : Mem α} {B A : View} {f a : Nat → Nat → α}
    (H : TrPre c m B A f a fl) (hf : A.cols + B.wd fl.right < fuel) :
    Runs (trmmRecursive ab env fuel m B alpha A fl c)
        (TrMid c m B fl.right (trmmVal fl alpha A.cols a f)) := by
  have h1 : fl.up = true → _ := fun hup => trmmFwdRec_spec ab hmin alpha hup fuel H hf
  have h2 : fl.up = false → _ := fun hup => trmmBwdRec_spec ab hmin alpha hup fuel H hf
  unfold trmmRecursive
  revert h1 h2
  rw [hfl]
  unfold Flags.up
  generalize TrMid c m B fl.right (trmmVal fl alpha A.cols a f) = Q
  cases fl.right <;> cases fl.upper <;> cases fl.transA <;> intro h1 h2 <;>
    first
    | (replace h1 := h1 rfl
       simp only [Bool.xor_self, Bool.xor_false, Bool.xor_true, Bool.not_true, Bool.not_false,
         Bool.false_eq_true, if_true, if_false] at h1 ⊢; exact h1)
    | (replace h2 := h2 rfl
       simp only [Bool.xor_self, Bool.xor_false, Bool.xor_true, Bool.not_true, Bool.not_false,
         Bool.false_eq_true, if_true, if_false] at h2 ⊢; exact h2)

/-! ## Blocked version -/

theorem trmmBlkUp_spec (ab : α → α) {env : Env} (hmin : 2 ≤ env.blas2min) {c : Cache} (alpha : α) {fl : Flags}
    (hfl : fl.lower = !fl.upper) (habs : fl.absA = false) (hup : fl.up = true)
    {fuel : Nat} {m : Mem α} {B A : View} {f a : Nat → Nat → α}
    (H : TrPre c m B A f a fl) (hf : A.cols + B.wd fl.right < fuel) {trans : Bool}
    (ht : (fl.right ^^ trans) = (fl.right ^^ fl.transA)) :
    Runs (trmmBlkUp ab env fuel fl.right (fun i n => if fl.right ^^ fl.transA then A.sub (i + n) i (A.cols - i - n) n
          else A.sub i (i + n) n (A.cols - i - n)) trans m B alpha A fl c)
        (TrMid c m B fl.right (trmmVal fl alpha A.cols a f)) := by
  unfold trmmBlkUp
  refine Runs.bind (Runs.forUp (fun i m' => TrMid c m B fl.right
      (fun p q => if p < i then trmmVal fl alpha A.cols a f p q else f p q) m') H.ready.nb
      (H.init.congr (by intros; simp)) ?_ (Q := fun p => TrMid c m B fl.right (trmmVal fl alpha A.cols a f) p.2)
      (fun k m' hk _ h => h.congr (fun i q hi _ => by rw [← H.hn] at hi; rw [if_pos (by omega)])))
      (fun p hp => Runs.pure hp)
  rintro i m1 - hi h
  have hnb := H.ready.nb
  obtain ⟨n1, hn1⟩ : ∃ n1, (if A.cols - i < c.NB then A.cols - i else c.NB) = n1 := ⟨_, rfl⟩
  simp only [hn1]
  have hn : n1 = min (A.cols - i) c.NB := by rw [← hn1]; split <;> omega
  have Hb := H.block h (p := i) (n1 := n1) (g' := fun k q => f (i + k) q) (by omega) (by omega)
        (fun k q _ => by rw [if_neg (by omega)])
  refine Runs.bind (trmmRecursive_spec ab hmin alpha hfl Hb (by simp; omega)) (fun m2 hm => ?_)
  rw [habs]
  refine (trmmStepUp ab alpha H hup h (by omega) (fun k q hk => by rw [if_neg (by omega)]) ht hm).mono
    (fun m3 h3 => h3.congr ?_)
  intro k q hk _
  rw [← H.hn] at hk
  by_cases hin : i ≤ k ∧ k < i + n1
  · rw [if_pos hin, if_pos (by omega)]
  · rw [if_neg hin]
    by_cases h4 : k < i
    · rw [if_pos h4, if_pos (by omega)]
    · rw [if_neg h4, if_neg (by omega)]

theorem trmmBlkDown_spec (ab : α → α) {env : Env} (hmin : 2 ≤ env.blas2min) {c : Cache} (alpha : α) {fl : Flags}
    (hfl : fl.lower = !fl.upper) (habs : fl.absA = false) (hup : fl.up = false)
    {fuel : Nat} {m : Mem α} {B A : View} {f a : Nat → Nat → α}
    (H : TrPre c m B A f a fl) (hf : A.cols + B.wd fl.right < fuel) {trans : Bool}
    (ht : (fl.right ^^ trans) = (fl.right ^^ fl.transA)) :
    Runs (trmmBlkDown ab env fuel fl.right (fun i n => if fl.right ^^ fl.transA then A.sub 0 i i n
          else A.sub i 0 n i) trans m B alpha A fl c)
        (TrMid c m B fl.right (trmmVal fl alpha A.cols a f)) := by
  unfold trmmBlkDown
  refine Runs.bind (Runs.forUp (fun t m' => TrMid c m B fl.right
      (fun p q => if A.cols - t ≤ p then trmmVal fl alpha A.cols a f p q else f p q) m') H.ready.nb
      (H.init.congr (fun i q hi _ => by rw [← H.hn] at hi; rw [if_neg (by omega)])) ?_
      (Q := fun p => TrMid c m B fl.right (trmmVal fl alpha A.cols a f) p.2)
      (fun k m' hk _ h => h.congr (fun i q hi _ => by rw [if_pos (by omega)])))
      (fun p hp => Runs.pure hp)
  rintro t m1 - hi h
  have hnb := H.ready.nb
  obtain ⟨i, hi'⟩ : ∃ i, A.cols - t = i := ⟨_, rfl⟩
  simp only [hi'] at h ⊢
  obtain ⟨n1, hn1⟩ : ∃ n1, (if i < c.NB then i else c.NB) = n1 := ⟨_, rfl⟩
  simp only [hn1]
  have hn : n1 = min i c.NB := by rw [← hn1]; split <;> omega
  obtain ⟨p, hp⟩ : ∃ p, i - n1 = p := ⟨_, rfl⟩
  simp only [hp]
  have Hb := H.block h (p := p) (n1 := n1) (g' := fun k q => f (p + k) q) (by omega) (by omega)
        (fun k q _ => by rw [if_neg (by omega)])
  refine Runs.bind (trmmRecursive_spec ab hmin alpha hfl Hb (by simp; omega)) (fun m2 hm => ?_)
  rw [habs]
  refine (trmmStepDown ab alpha H hup h (by omega) (fun k q hk => by rw [if_neg (by omega)]) ht hm).mono
    (fun m3 h3 => h3.congr ?_)
  intro k q hk _
  rw [← H.hn] at hk
  by_cases hin : p ≤ k ∧ k < p + n1
  · rw [if_pos hin, if_pos (by omega)]
  · rw [if_neg hin]
    by_cases h4 : i ≤ k
    · rw [if_pos h4, if_pos (by omega)]
    · rw [if_neg h4, if_neg (by omega)]

theorem trmmBlk_spec (ab : α → α) {env : Env} (hmin : 2 ≤ env.blas2min) {c : Cache} (alpha : α) {fl : Flags}
    (hfl : fl.lower = !fl.upper) (habs : fl.absA = false)
    {fuel : Nat} {m : Mem α} {B A : View} {f a : Nat → Nat → α}
    (H : TrPre c m B A f a fl) (hf : A.cols + B.wd fl.right < fuel) :
    Runs (trmmBlk ab env fuel m B alpha A fl c)
        (TrMid c m B fl.right (trmmVal fl alpha A.cols a f)) := by
  have h1 : fl.up = true → _ := fun hup => trmmBlkUp_spec ab hmin alpha hfl habs hup H hf
    (trans := fl.transA) rfl
  have h2 : fl.up = false → _ := fun hup => trmmBlkDown_spec ab hmin alpha hfl habs hup H hf
    (trans := fl.transA) rfl
  unfold trmmBlk
  revert h1 h2
  unfold Flags.up
  generalize TrMid c m B fl.right (trmmVal fl alpha A.cols a f) = Q
  cases fl.right <;> cases fl.upper <;> cases fl.transA <;> intro h1 h2 <;>
    first
    | (replace h1 := h1 rfl
       simp only [Bool.xor_self, Bool.xor_false, Bool.xor_true, Bool.not_true, Bool.not_false,
         Bool.false_eq_true, if_true, if_false] at h1 ⊢; exact h1)
    | (replace h2 := h2 rfl
       simp only [Bool.xor_self, Bool.xor_false, Bool.xor_true, Bool.not_true, Bool.not_false,
         Bool.false_eq_true, if_true, if_false] at h2 ⊢; exact h2)

end ring

end Armas
