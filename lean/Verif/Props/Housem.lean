import Verif.HousemVec

/-!
# C123: multiplication with a product of Householder reflectors

See `properties.jsonl`.
-/

namespace Armas.Props

open Armas Finset

variable {α : Type} [Field α] [DecidableEq α]

/-- Arguments of `armas_housemult_w`; the scalars are 2 for reflectors that are not scaled to one on the diagonal. -/
structure HousemArgs (env : Env) (m : Mem α) (unit right : Bool) (X tau P : View) (f : Nat → Nat → α) (t : Nat → α) (w ws : Nat) : Prop where
  min2 : 2 ≤ env.blas2min ∨ (env.naive = true ∧ env.recursive = false)
  wf : X.WF
  mat : X.rows ≠ 1 ∧ X.cols ≠ 1
  size : (if right then X.cols else X.rows) = P.rows
  sh : P.cols ≤ P.rows
  col : unit = true → tau.cols = 1 ∧ tau.rows = P.cols
  work : (if right then X.rows else X.cols) ≤ ws
  hP : Holds m P f
  ht : ∀ k, k < P.cols → if unit then m (tau.at' k 0) = some (t k) else t k = 2
  hW : WAlloc m w ws
  dX : Disjoint X.foot (P.foot ∪ hmCells unit tau P.cols ∪ wcells w ws)
  dP : Disjoint (P.foot ∪ hmCells unit tau P.cols) (wcells w ws)

/-- C123, `armas_housemult_w` for a matrix `X` with either `ARMAS_LEFT` or `ARMAS_RIGHT`: with `Q = H_0 H_1 ... H_{N-1}` the product of the reflectors in the columns of
`P`, scaled or not, `X` becomes `Q X`, or `Qᵀ X` with `ARMAS_TRANS`; with `ARMAS_RIGHT` it becomes `X Q = (Qᵀ Xᵀ)ᵀ`, or `X Qᵀ`.  Only `X` and the work space are written. -/
theorem C123_housemult_partial (ab : α → α) {env : Env} {m : Mem α} {unit right : Bool} {X tau P : View} {f b : Nat → Nat → α} {t : Nat → α}
    {w ws : Nat} (H : HousemArgs env m unit right X tau P f t w ws) (hX : Holds m X b) (trans : Bool) {fuel : Nat} (hf : P.rows < fuel)
    (hf' : (if right then X.rows else X.cols) < fuel) :
    Runs (housemultW ab env fuel m X tau P unit trans (!right) right w ws) (fun r => r.1 = 0 ∧ Frame (X.foot ∪ wcells w ws) m r.2 ∧
      Holds r.2 X (fun i j =>
        if right then (if trans then hmProd unit P.rows P.cols t f (fun p q => b q p) j i else hmProdT unit P.rows P.cols t f (fun p q => b q p) j i)
        else (if trans then hmProdT unit P.rows P.cols t f b i j else hmProd unit P.rows P.cols t f b i j))) := by
  obtain ⟨min2, wf, mat, size, sh, col, work, hP, ht, hW, dX, dP⟩ := H
  have hv : ¬ X.isVec := fun h => h.elim mat.1 mat.2
  have hR : HoldsR right m X (fun i j => if right then b j i else b i j) := by
    refine Holds.congr hX fun i j _ _ => ?_
    cases right <;> rfl
  have en : (if (!right) = true then X.cols else X.rows) = rwid right X := by cases right <;> rfl
  unfold housemultW
  dsimp only
  rw [en, if_neg ?_, if_neg (by rw [not_not]; exact size), if_neg ?_]
  · refine Runs.bind (hmult_spec ab min2 (trans := trans) ⟨wf, size, sh, hP, ht, hW, dX, dP.symm⟩ hv work hf hf' hR) ?_
    rintro m' ⟨h1, h2⟩
    refine Runs.pure ⟨rfl, h2, Holds.congr h1 fun i j _ _ => ?_⟩
    cases right <;> cases trans <;> rfl
  · rintro ⟨-, h, -⟩
    have : rwid right X ≤ ws := work
    omega
  · rintro ⟨hu, h⟩
    exact h (by rw [View.size, (col hu).1, (col hu).2, Nat.mul_one])

/-- For scaled reflectors the products are those of `armas_qrmult_w` (C64). -/
theorem C123_unit (M d : Nat) (t : Nat → α) (f b : Nat → Nat → α) :
    hmProd true M d t f b = qrProd M d t f b ∧ hmProdT true M d t f b = qrProdT M d t f b := by
  have e : ∀ k, hmw true f k = qrw f k := fun k => by
    funext i
    simp only [hmw, qrw, if_true]
  induction d generalizing b with
  | zero => exact ⟨rfl, rfl⟩
  | succ d ih => exact ⟨by rw [hmProd, qrProd, e, (ih _).1], by rw [hmProdT, qrProdT, e, (ih _).2]⟩

example := C123_unit 7 3 (fun k => (k + 2 : ℚ)) (fun i j => i + j) (fun i j => i * j)

/-- Concrete arguments. -/
theorem housemArgs_demo (unit right : Bool) : HousemArgs (α := ℚ) ⟨8, 8, false, true⟩ (tot fun p => (p : ℚ)) unit right
    ⟨0, 8, if right then 6 else 7, if right then 7 else 6⟩ ⟨160, 3, 3, 1⟩ ⟨100, 8, 7, 3⟩ (fun i j => (100 + i + j * 8 : ℕ))
    (fun k => if unit then (160 + k : ℕ) else 2) 200 6 := by
  cases right <;> cases unit
  all_goals
    exact {
      min2 := Or.inl (by decide)
      wf := Or.inl (by decide)
      mat := by decide
      size := rfl
      sh := by decide
      col := fun _ => ⟨rfl, rfl⟩
      work := by decide
      hP := holds_tot _ _
      ht := fun k _ => by simp [tot, View.at']
      hW := fun _ _ => ⟨_, rfl⟩
      dX := Set.disjoint_left.mpr (by
        rintro p ⟨i, j, hi, hj, rfl⟩ ((⟨i', j', hi', hj', h⟩ | h) | ⟨h1, h2⟩)
        · simp [View.at'] at *; omega
        · simp only [hmCells, Bool.false_eq_true, if_false, if_true] at h
          first
          | exact h
          | (obtain ⟨k, hk, h⟩ := h; simp [View.at'] at *; omega)
        · simp [View.at'] at *; omega)
      dP := Set.disjoint_left.mpr (by
        rintro p (⟨i, j, hi, hj, rfl⟩ | h) ⟨h1, h2⟩
        · simp [View.at'] at *; omega
        · simp only [hmCells, Bool.false_eq_true, if_false, if_true] at h
          first
          | exact h
          | (obtain ⟨k, hk, rfl⟩ := h; simp [View.at'] at *; omega)) }

example := C123_housemult_partial id (housemArgs_demo true true) (holds_tot _ _) true (fuel := 30) (by decide) (by decide)
example := C123_housemult_partial id (housemArgs_demo false false) (holds_tot _ _) false (fuel := 30) (by decide) (by decide)

/-- Arguments of `armas_housemult_w` for a vector: a column from the left, a row from the right. -/
structure HousemVecArgs (m : Mem α) (unit right : Bool) (X tau P : View) (f : Nat → Nat → α) (t : Nat → α) : Prop where
  wf : X.WF
  vec : (if right then X.rows else X.cols) = 1
  size : (if right then X.cols else X.rows) = P.rows
  sh : P.cols ≤ P.rows
  col : unit = true → tau.cols = 1 ∧ tau.rows = P.cols
  hP : Holds m P f
  ht : ∀ k, k < P.cols → if unit then m (tau.at' k 0) = some (t k) else t k = 2
  dX : Disjoint X.foot (P.foot ∪ hmCells unit tau P.cols)

/-- C123, `armas_housemult_w` for a column vector from the left or a row vector from the right, with the same products as for a matrix.  No work space is needed or written and
the flag `ARMAS_LEFT` makes no difference. -/
theorem C123_vector_partial (ab : α → α) (env : Env) {m : Mem α} {unit right : Bool} {X tau P : View} {f b : Nat → Nat → α} {t : Nat → α}
    (H : HousemVecArgs m unit right X tau P f t) (hX : Holds m X b) (trans left : Bool) (w ws : Nat) {fuel : Nat} (hf : P.rows < fuel) :
    Runs (housemultW ab env fuel m X tau P unit trans left right w ws) (fun r => r.1 = 0 ∧ Frame X.foot m r.2 ∧
      Holds r.2 X (fun i j =>
        if right then (if trans then hmProd unit P.rows P.cols t f (fun p q => b q p) j i else hmProdT unit P.rows P.cols t f (fun p q => b q p) j i)
        else (if trans then hmProdT unit P.rows P.cols t f b i j else hmProd unit P.rows P.cols t f b i j))) := by
  obtain ⟨wf, vec, size, sh, col, hP, ht, dX⟩ := H
  have hv : X.isVec := by
    cases right
    · exact Or.inr vec
    · exact Or.inl vec
  have hR : HoldsR right m X (fun i j => if right then b j i else b i j) := by
    refine Holds.congr hX fun i j _ _ => ?_
    cases right <;> rfl
  have e0 : wcells w 0 = ∅ := by
    ext p
    simp only [wcells, Set.mem_setOf_eq, Set.mem_empty_iff_false, iff_false]
    omega
  unfold housemultW
  dsimp only
  rw [if_neg ?_, if_neg (by rw [not_not]; exact size), if_neg fun h => h.1 hv]
  · refine Runs.bind (hmultVec_spec (w := w) ab (trans := trans) ⟨wf, size, sh, hP, ht, fun p hp => absurd hp (by omega), by rw [e0, Set.union_empty]; exact dX,
      by rw [e0]; exact Set.empty_disjoint _⟩ vec hf hR) ?_
    rintro m' ⟨h1, h2⟩
    refine Runs.pure ⟨rfl, h2, Holds.congr h1 fun i j _ _ => ?_⟩
    cases right <;> cases trans <;> rfl
  · rintro ⟨hu, h⟩
    exact h (by rw [View.size, (col hu).1, (col hu).2, Nat.mul_one])

/-- Concrete arguments. -/
theorem housemVecArgs_demo (unit right : Bool) : HousemVecArgs (α := ℚ) (tot fun p => (p : ℚ)) unit right
    ⟨0, 8, if right then 1 else 7, if right then 7 else 1⟩ ⟨160, 3, 3, 1⟩ ⟨100, 8, 7, 3⟩ (fun i j => (100 + i + j * 8 : ℕ))
    (fun k => if unit then (160 + k : ℕ) else 2) := by
  cases right <;> cases unit
  all_goals
    exact {
      wf := Or.inl (by decide)
      vec := rfl
      size := rfl
      sh := by decide
      col := fun _ => ⟨rfl, rfl⟩
      hP := holds_tot _ _
      ht := fun k _ => by simp [tot, View.at']
      dX := Set.disjoint_left.mpr (by
        rintro p ⟨i, j, hi, hj, rfl⟩ (⟨i', j', hi', hj', h⟩ | h)
        · simp [View.at'] at *; omega
        · simp only [hmCells, Bool.false_eq_true, if_false, if_true] at h
          first
          | exact h
          | (obtain ⟨k, hk, h⟩ := h; simp [View.at'] at *; omega)) }

example := C123_vector_partial id ⟨8, 8, false, true⟩ (housemVecArgs_demo true true) (holds_tot _ _) true false 0 0 (fuel := 30) (by decide)
example := C123_vector_partial id ⟨8, 8, false, true⟩ (housemVecArgs_demo false false) (holds_tot _ _) false true 0 0 (fuel := 30) (by decide)

/-- C123: a `tau` of another size (for scaled reflectors) and an `X` that does not match are refused without a change. -/
theorem C123_errors (ab : α → α) (env : Env) (fuel : Nat) (m : Mem α) (X tau P : View) (unit trans left right : Bool) (w ws : Nat) :
    (unit = true → tau.rows * tau.cols ≠ P.cols → housemultW ab env fuel m X tau P unit trans left right w ws = .ok (-1, m)) ∧
    ((unit = true → tau.rows * tau.cols = P.cols) → (if right then X.cols else X.rows) ≠ P.rows →
      housemultW ab env fuel m X tau P unit trans left right w ws = .ok (-1, m)) := by
  unfold housemultW
  dsimp only
  refine ⟨fun h h' => if_pos ⟨h, h'⟩, fun h h' => ?_⟩
  rw [if_neg fun c => c.2 (h c.1), if_pos h']

example := (C123_errors (α := ℚ) id ⟨8, 8, false, true⟩ 30 (tot fun _ => 1) ⟨0, 8, 6, 6⟩ ⟨160, 3, 3, 1⟩ ⟨100, 8, 7, 3⟩ true true true false 200 6).2
  (fun _ => rfl) (by decide)

/-- One pass with a work vector of the wrong length changes nothing. -/
theorem hmultStep_short (ab : α → α) {env : Env} {fuel : Nat} {m : Mem α} {unit : Bool} {X tau P w : View} {k : Nat} (hw : w.size ≠ X.cols) {x v : α}
    (h1 : hmTau unit m tau k = .ok x) (h2 : hmV0 unit m P k = .ok v) :
    hmultStep ab env fuel unit false X tau P w k m = .ok m := by
  have s1 : (X.sub k 0 1 X.cols).size = X.cols := by simp [View.size]
  have a1 : ∀ (b c : α) (Y Z : View), Y.size ≠ Z.size → ∃ e, axpby m b Y c Z = .ok (e, m) := by
    intro b c Y Z h
    unfold axpby
    by_cases hv : Z.isVec ∧ Y.isVec
    · exact ⟨_, by rw [if_neg (not_not.mpr hv), if_pos h.symm]⟩
    · exact ⟨_, if_pos hv⟩
  obtain ⟨e1, q1⟩ := a1 0 v w (X.sub k 0 1 X.cols) (by rw [s1]; exact hw)
  obtain ⟨e3, q3⟩ := a1 1 (-x * v) (X.sub k 0 1 X.cols) w (by rw [s1]; exact hw.symm)
  obtain ⟨e2, q2⟩ : ∃ e, mvmult ab env fuel m 1 w 1 (X.sub (k + 1) 0 (X.rows - k - 1) X.cols) (P.sub (k + 1) k (P.rows - k - 1) 1) { transA := true } =
      .ok (e, m) := by
    unfold mvmult
    by_cases c1 : (X.sub (k + 1) 0 (X.rows - k - 1) X.cols).size = 0 ∨ (P.sub (k + 1) k (P.rows - k - 1) 1).size = 0 ∨ w.size = 0
    · exact ⟨_, if_pos c1⟩
    rw [if_neg c1]
    by_cases c2 : (P.sub (k + 1) k (P.rows - k - 1) 1).isVec ∧ w.isVec
    · rw [if_neg (not_not.mpr c2)]
      exact ⟨_, if_pos (by simp only [if_true, View.sub_cols]; exact fun h => hw h.1.symm)⟩
    · exact ⟨_, if_pos c2⟩
  obtain ⟨e4, q4⟩ : ∃ e, mvupdate env fuel m 1 (X.sub (k + 1) 0 (X.rows - k - 1) X.cols) (-x) (P.sub (k + 1) k (P.rows - k - 1) 1) w = .ok (e, m) := by
    unfold mvupdate
    by_cases c1 : (X.sub (k + 1) 0 (X.rows - k - 1) X.cols).size = 0 ∨ (P.sub (k + 1) k (P.rows - k - 1) 1).size = 0 ∨ w.size = 0
    · exact ⟨_, if_pos c1⟩
    rw [if_neg c1]
    by_cases c2 : (P.sub (k + 1) k (P.rows - k - 1) 1).isVec
    · rw [if_neg (not_not.mpr c2)]
      by_cases c3 : w.isVec
      · rw [if_neg (not_not.mpr c3)]
        exact ⟨_, if_pos (Or.inl fun h => hw h.symm)⟩
      · exact ⟨_, if_pos c3⟩
    · exact ⟨_, if_pos c2⟩
  unfold hmultStep
  simp only [Bool.false_eq_true, if_false, Bool.not_false, h1, h2, axpy, Res.ok_bind, q1, q2, q3, q4]
  rfl

/-- That multiplication from the left is the default, as documented (`src/lapack/housem.c:300`), is false: without `ARMAS_LEFT` the work vector gets as many elements as
`X` has rows (`:325`, `:348`); if `X` is not square every call on it is refused, the return values are not looked at, and the function returns 0 with `X` unchanged. -/
theorem C123_default_false (ab : α → α) {env : Env} {m : Mem α} {unit : Bool} {X tau P : View} {f : Nat → Nat → α} {t : Nat → α}
    {w ws : Nat} (H : HousemArgs env m unit false X tau P f t w ws) (hs : X.rows ≠ X.cols) (trans : Bool) (fuel : Nat) :
    Runs (housemultW ab env fuel m X tau P unit trans false false w ws) (fun r => r.1 = 0 ∧ r.2 = m) := by
  obtain ⟨min2, wf, mat, size, sh, col, work, hP, ht, hW, dX, dP⟩ := H
  have hv : ¬ X.isVec := fun h => h.elim mat.1 mat.2
  unfold housemultW
  simp only [Bool.false_eq_true, if_false] at size ⊢
  rw [if_neg ?_, if_neg (not_not.mpr size), if_neg fun h => hs h.2.2.2]
  · refine Runs.bind (P := fun m' => m' = m) ?_ (fun m' h => Runs.pure ⟨rfl, h⟩)
    unfold hmult
    refine Runs.bind (P := fun r => r.2 = m) ?_ (fun r h => Runs.pure h)
    refine Runs.forUp1 (i := 0) (n := P.cols) (I := fun _ m' => m' = m) (Nat.zero_le _) rfl ?_ (fun _ h => h)
    rintro d m' - hd rfl
    dsimp only
    rw [if_neg hv]
    obtain ⟨k, hk⟩ : ∃ k, k = if trans = false then P.cols - 1 - d else d := ⟨_, rfl⟩
    have hk' : k < P.cols := by rw [hk]; split <;> omega
    rw [← hk]
    have r1 : hmTau unit m' tau k = .ok (t k) := by
      have := ht k hk'
      cases unit
      · simp only [Bool.false_eq_true, if_false] at this
        rw [this]; rfl
      · simp only [if_true] at this
        simp only [hmTau, if_true, rd, this]
    have r2 : hmV0 unit m' P k = .ok (if unit then 1 else f k k) := by
      cases unit
      · simp only [hmV0, Bool.false_eq_true, if_false, rd, hP k k (by omega) hk']
      · rfl
    rw [hmultStep_short ab (by simpa [View.size] using hs) r1 r2]
    exact Runs.ok rfl
  · rintro ⟨hu, h⟩
    exact h (by rw [View.size, (col hu).1, (col hu).2, Nat.mul_one])

example := C123_default_false id (housemArgs_demo true false) (by decide) true 30

/-- That a row vector (which matches one reflector of length one from the left) is multiplied is false: the code for vectors changes its first element only
(`src/lapack/housem.c:122-133`).  Here `Q = -1` and `X = (1 1)` becomes `(-1 1)`. -/
theorem C123_row_false : ∃ m : Mem ℚ, m 0 = some 1 ∧ m 1 = some 1 ∧ m 20 = some 2 ∧
    (match housemultW id ⟨8, 8, false, true⟩ 8 m ⟨0, 1, 1, 2⟩ ⟨20, 1, 1, 1⟩ ⟨10, 1, 1, 1⟩ true false true false 30 4 with
      | .ok (e, m') => e == 0 && m' 0 == some (-1) && m' 1 == some 1
      | _ => false) = true :=
  ⟨fun p => if p = 20 then some 2 else some 1, rfl, rfl, rfl, by decide +kernel⟩

end Armas.Props
