import Verif.CholUpd
import Verif.Tri
import Verif.Blas1Lemmas
import Mathlib.Tactic.FieldSimp
import Mathlib.Tactic.Linarith
import Mathlib.Tactic.LinearCombination
import Mathlib.Tactic.Positivity
import Mathlib.Algebra.BigOperators.Group.Finset.Basic

/-!
# Lemmas on the rank-one update of a Cholesky factor
-/

namespace Armas

open Classical

theorem gvrotg_spec (a b : ℝ) :
    let g := gvrotg a b
    g.1 ^ 2 + g.2.1 ^ 2 = 1 ∧ g.1 * a + g.2.1 * b = g.2.2 ∧ g.1 * b - g.2.1 * a = 0 ∧ (0 < a → 0 < g.2.2) ∧
      (0 ≤ a → (a ≠ 0 ∨ 0 ≤ b) → 0 ≤ g.2.2) := by
  unfold gvrotg
  by_cases hb : b = 0
  · subst hb; simp
  by_cases ha : a = 0
  · subst ha; simp [hb]
  simp only [if_neg hb, if_neg ha]
  by_cases hab : |b| > |a|
  · simp only [if_pos hab]
    have hu : 0 < 1 + a / b * (a / b) := add_pos_of_pos_of_nonneg one_pos (mul_self_nonneg _)
    have hs := Real.sq_sqrt hu.le
    have hp := Real.sqrt_pos.mpr hu
    generalize hue : Real.sqrt (1 + a / b * (a / b)) = u at hs hp
    generalize hve : (if b < 0 then -u else u) = v
    have hv2 : v ^ 2 = 1 + a / b * (a / b) := by
      rw [← hs, ← hve]; split <;> ring
    have hv0 : v ≠ 0 := by
      rw [← hve]; split
      · exact neg_ne_zero.mpr hp.ne'
      · exact hp.ne'
    have hbv : 0 < b * v := by
      rw [← hve]; split
      · rename_i h; nlinarith
      · rename_i h
        exact mul_pos (lt_of_le_of_ne (not_lt.mp h) (Ne.symm hb)) hp
    have hv2' : v ^ 2 * b ^ 2 = b ^ 2 + a ^ 2 := by rw [hv2]; field_simp
    refine ⟨?_, ?_, ?_, fun _ => hbv, fun _ _ => hbv.le⟩
    · field_simp; linear_combination -hv2'
    · field_simp; linear_combination -hv2'
    · field_simp; ring
  · simp only [if_neg hab]
    have hu : 0 < 1 + b / a * (b / a) := add_pos_of_pos_of_nonneg one_pos (mul_self_nonneg _)
    have hs := Real.sq_sqrt hu.le
    have hp := Real.sqrt_pos.mpr hu
    generalize hue : Real.sqrt (1 + b / a * (b / a)) = v at hs hp
    have hv0 := hp.ne'
    have hv2' : v ^ 2 * a ^ 2 = a ^ 2 + b ^ 2 := by rw [hs]; field_simp
    refine ⟨?_, ?_, ?_, fun h => mul_pos h hp, fun h _ => mul_nonneg h hp.le⟩
    · field_simp; linear_combination -hv2'
    · field_simp; linear_combination -hv2'
    · field_simp; ring

theorem gvrotgAvx_eq (a b : ℝ) : gvrotgAvx a b = gvrotg a b := by
  unfold gvrotgAvx gvrotg
  by_cases hb : b = 0
  · rw [if_pos hb, if_pos hb]
  by_cases ha : a = 0
  · rw [if_neg hb, if_neg hb, if_pos ha, if_pos ha]
  simp only [if_neg hb, if_neg ha]
  by_cases hab : |b| > |a|
  · simp only [if_pos hab]
    by_cases h : b < 0
    · simp only [if_pos h]
      simp [add_comm, div_eq_mul_inv, mul_comm, inv_neg]
    · simp only [if_neg h]
      simp [add_comm, div_eq_mul_inv, mul_comm]
  · simp only [if_neg hab]
    simp [add_comm, div_eq_mul_inv, mul_comm]

theorem gvrotVec_spec {m : Mem ℝ} {X Y : View} {x y : Nat → ℝ} (c s : ℝ) (hX : X.isVec) (hY : Y.isVec) (wX : X.WF)
    (wY : Y.WF) (hxy : X.size = Y.size) (d : Disjoint X.foot Y.foot) (hx : HoldsV m X x) (hy : HoldsV m Y y) :
    Runs (gvrotVec m X Y c s) (fun m' => HoldsV m' X (fun k => c * x k + s * y k) ∧
      HoldsV m' Y (fun k => c * y k - s * x k) ∧ Frame (X.foot ∪ Y.foot) m m') := by
  refine Runs.bind (P := fun r : Nat × Mem ℝ => HoldsV r.2 X (fun k => c * x k + s * y k) ∧
      HoldsV r.2 Y (fun k => c * y k - s * x k) ∧ Frame (X.foot ∪ Y.foot) m r.2) ?_ (fun r hr => Runs.pure hr)
  refine Runs.forUp1 (I := fun n m' => HoldsV m' X (fun k => if k < n then c * x k + s * y k else x k) ∧
      HoldsV m' Y (fun k => if k < n then c * y k - s * x k else y k) ∧ Frame (X.foot ∪ Y.foot) m m')
    (Nat.zero_le _) ⟨fun k hk => ?_, fun k hk => ?_, Frame.refl _ _⟩ ?_ ?_
  · simp [hx k hk]
  · simp [hy k hk]
  · rintro n m' - hn ⟨h1, h2, hF⟩
    have e1 := h1 n hn
    have e2 := h2 n (hxy ▸ hn)
    beta_reduce at e1 e2
    rw [if_neg (lt_irrefl n)] at e1 e2
    have hXY : ∀ k l, k < X.size → l < Y.size → X.vat k ≠ Y.vat l := fun k l hk hl e =>
      Set.disjoint_left.mp d (View.vat_mem_foot hX hk) (e ▸ View.vat_mem_foot hY hl)
    refine Runs.rd_bind e1 (Runs.rd_bind e2 ?_)
    simp only [gvrotate]
    refine Runs.wr_bind e1 (Runs.wr (v := y n) ?_ ⟨?_, ?_, ?_⟩)
    · rw [Mem.set_ne _ _ (hXY n n hn (hxy ▸ hn)).symm]; exact e2
    · intro k hk
      rw [Mem.set_ne _ _ (hXY k n hk (hxy ▸ hn))]
      by_cases h : k = n
      · subst h; beta_reduce; rw [Mem.set_same, if_pos (by omega)]
      · rw [Mem.set_ne _ _ (fun e => h (View.vat_inj hX wX hk hn e)), h1 k hk]
        congr 1
        beta_reduce
        by_cases h' : k < n
        · rw [if_pos h', if_pos (by omega)]
        · rw [if_neg h', if_neg (by omega)]
    · intro k hk
      by_cases h : k = n
      · subst h; beta_reduce; rw [Mem.set_same, if_pos (by omega)]
      · rw [Mem.set_ne _ _ (fun e => h (View.vat_inj hY wY hk (hxy ▸ hn) e)), Mem.set_ne _ _ (hXY n k hn hk).symm, h2 k hk]
        congr 1
        beta_reduce
        by_cases h' : k < n
        · rw [if_pos h', if_pos (by omega)]
        · rw [if_neg h', if_neg (by omega)]
    · exact hF.trans ((Frame.set (Or.inl (View.vat_mem_foot hX hn)) _).trans
        (Frame.set (Or.inr (View.vat_mem_foot hY (hxy ▸ hn))) _))
  · rintro m' ⟨h1, h2, hF⟩
    refine ⟨fun k hk => ?_, fun k hk => ?_, hF⟩
    · exact (h1 k hk).trans (by beta_reduce; rw [if_pos hk])
    · exact (h2 k hk).trans (by beta_reduce; rw [if_pos (hxy ▸ hk)])

/-- Cell of element `(i,j)`, `j ≤ i`, of the lower factor: stored transposed in the upper variant. -/
def lcell (upper : Bool) (A : View) (i j : Nat) : Nat := if upper then A.at' j i else A.at' i j

/-- Columns of the factor below the diagonal. -/
def luVec (upper : Bool) (A : View) (k : Nat) : View :=
  if upper then A.sub k (k + 1) 1 (A.cols - k - 1) else A.sub (k + 1) k (A.rows - k - 1) 1

theorem luVec_isVec (upper : Bool) (A : View) (k : Nat) : (luVec upper A k).isVec := by
  cases upper
  · exact Or.inr rfl
  · exact Or.inl rfl

theorem luVec_size {upper : Bool} {A : View} (k : Nat) (sq : A.rows = A.cols) : (luVec upper A k).size = A.rows - k - 1 := by
  cases upper <;> simp [luVec, sq]

theorem luVec_vat {upper : Bool} {A : View} {k t : Nat} (sq : A.rows = A.cols) (ht : t < A.rows - k - 1) :
    (luVec upper A k).vat t = lcell upper A (k + 1 + t) k := by
  rw [(luVec_isVec upper A k).vat_eq (by rw [luVec_size k sq]; exact ht)]
  cases upper
  · simp only [luVec, lcell, View.at', View.sub, Bool.false_eq_true, if_false]
    split
    · have : t = 0 := by omega
      subst this; ring
    · ring
  · simp only [luVec, lcell, View.at', View.sub, if_true]
    ring

theorem lcell_inj {upper : Bool} {A : View} (hw : A.WF) (sq : A.rows = A.cols) {i j i' j' : Nat} (hi : i < A.rows) (hj : j < A.rows)
    (hi' : i' < A.rows) (hj' : j' < A.rows) (e : lcell upper A i j = lcell upper A i' j') : i = i' ∧ j = j' := by
  cases upper
  · exact View.at_inj hw hi (sq ▸ hj) hi' (sq ▸ hj') e
  · exact (View.at_inj hw hj (sq ▸ hi) hj' (sq ▸ hi') e).symm

theorem lcell_mem {upper : Bool} {A : View} (sq : A.rows = A.cols) {i j : Nat} (hi : i < A.rows) (hj : j ≤ i) :
    lcell upper A i j ∈ A.footOn (fun i j => InTri upper false i j) := by
  cases upper
  · refine ⟨i, j, hi, by omega, ?_, rfl⟩
    simp [InTri]; omega
  · refine ⟨j, i, by omega, by omega, ?_, rfl⟩
    simp [InTri]; omega

theorem luVec_foot {upper : Bool} {A : View} {k : Nat} (sq : A.rows = A.cols) :
    (luVec upper A k).foot = {p | ∃ i, k < i ∧ i < A.rows ∧ p = lcell upper A i k} := by
  rw [View.foot_vec (luVec_isVec _ _ _)]
  ext p
  constructor
  · rintro ⟨t, ht, rfl⟩
    rw [luVec_size k sq] at ht
    exact ⟨k + 1 + t, by omega, by omega, luVec_vat sq ht⟩
  · rintro ⟨i, h1, h2, rfl⟩
    refine ⟨i - k - 1, by rw [luVec_size k sq]; omega, ?_⟩
    rw [luVec_vat sq (by omega)]
    congr 1; omega


/-- Contents of the factor. -/
def THolds (upper : Bool) (m : Mem ℝ) (A : View) (l : Nat → Nat → ℝ) : Prop :=
  ∀ i j, i < A.rows → j ≤ i → m (lcell upper A i j) = some (l i j)

theorem tholds_iff {upper : Bool} {m : Mem ℝ} {A : View} {l : Nat → Nat → ℝ} (sq : A.rows = A.cols) :
    THolds upper m A l ↔ HoldsOn m A (fun i j => InTri upper false i j) (fun i j => if upper then l j i else l i j) := by
  cases upper
  · constructor
    · intro h i j hi hj ht
      exact h i j hi (by simpa [InTri] using ht)
    · intro h i j hi hj
      exact h i j hi (by omega) (by simpa [InTri] using hj)
  · constructor
    · intro h i j hi hj ht
      exact h j i (by omega) (by simpa [InTri] using ht)
    · intro h i j hi hj
      exact h j i (by omega) (by omega) (by simpa [InTri] using hj)

theorem cholUpdStep_spec {upper : Bool} {m : Mem ℝ} {A X : View} {l : Nat → Nat → ℝ} {x : Nat → ℝ} {k : Nat}
    (hw : A.WF) (sq : A.rows = A.cols) (hk : k < A.rows) (xr : X.rows = 1) (xc : X.cols = A.rows) (wX : X.WF)
    (d : Disjoint (A.footOn (fun i j => InTri upper false i j)) X.foot)
    (hA : THolds upper m A l) (hX : HoldsV m X x) :
    Runs (cholUpdStep upper A X k m) (fun m' =>
      THolds upper m' A (fun i j => if j = k then (gvrotg (l k k) (x k)).1 * l i k + (gvrotg (l k k) (x k)).2.1 * x i else l i j) ∧
      HoldsV m' X (fun i => if k < i then (gvrotg (l k k) (x k)).1 * x i - (gvrotg (l k k) (x k)).2.1 * l i k else x i) ∧
      Frame (A.footOn (fun i j => InTri upper false i j) ∪ X.foot) m m') := by
  have hkk : lcell upper A k k = A.at' k k := by cases upper <;> rfl
  have ea := hA k k hk le_rfl
  rw [hkk] at ea
  have xsz : X.size = A.rows := by simp [View.size, xr, xc]
  have vX : X.isVec := Or.inl xr
  have xat : ∀ i, X.vat i = X.at' 0 i := by intro i; simp [View.vat, View.inc, xr, View.at']
  have ex : m ((X.sub 0 k X.rows 1).at' 0 0) = some (x k) := by
    rw [View.at_sub, ← hX k (by omega), xat]; rfl
  unfold cholUpdStep
  refine Runs.rd_bind ea (Runs.rd_bind ex ?_)
  generalize hg : gvrotg (l k k) (x k) = g
  obtain ⟨c, s, r⟩ := g
  have hr : r = c * l k k + s * x k := by
    have := (gvrotg_spec (l k k) (x k)).2.1
    rw [hg] at this; exact this.symm
  dsimp only
  refine Runs.wr_bind ea ?_
  have dcx : ∀ i j t, i < A.rows → j ≤ i → t < A.rows → lcell upper A i j ≠ X.vat t := fun i j t hi hj ht e =>
    Set.disjoint_left.mp d (lcell_mem sq hi hj) (e ▸ View.vat_mem_foot vX (by omega))
  have hV : HoldsV (m.set (A.at' k k) r) (luVec upper A k) (fun t => l (k + 1 + t) k) := by
    intro t ht
    rw [luVec_size k sq] at ht
    rw [luVec_vat sq ht, ← hkk, Mem.set_ne _ _ (fun e => by
      have := (lcell_inj hw sq (by omega) hk hk hk e).1; omega), hA _ _ (by omega) (by omega)]
  have ysz : (X.sub 0 (k + 1) X.rows (X.cols - k - 1)).size = A.rows - k - 1 := by simp [View.size, xr, xc]
  have vY : (X.sub 0 (k + 1) X.rows (X.cols - k - 1)).isVec := Or.inl xr
  have yat : ∀ t, (X.sub 0 (k + 1) X.rows (X.cols - k - 1)).vat t = X.vat (k + 1 + t) := by
    intro t
    simp only [View.vat, View.inc, View.sub, xr, if_true]; ring
  have hY : HoldsV (m.set (A.at' k k) r) (X.sub 0 (k + 1) X.rows (X.cols - k - 1)) (fun t => x (k + 1 + t)) := by
    intro t ht
    rw [ysz] at ht
    rw [yat, ← hkk, Mem.set_ne _ _ (dcx k k _ hk le_rfl (by omega)).symm, hX _ (by omega)]
  have yfoot : (X.sub 0 (k + 1) X.rows (X.cols - k - 1)).foot ⊆ X.foot :=
    View.sub_foot (by omega) (by omega)
  have vfoot : (luVec upper A k).foot ⊆ A.footOn (fun i j => InTri upper false i j) := by
    rw [luVec_foot sq]
    rintro p ⟨i, h1, h2, rfl⟩
    exact lcell_mem sq h2 (by omega)
  have wV : (luVec upper A k).WF := by
    cases upper
    · exact Or.inr (le_refl 1)
    · by_cases h : A.cols - k - 1 ≤ 1
      · exact Or.inr h
      · refine Or.inl ?_
        rcases hw with h' | h'
        · show 1 ≤ A.step
          omega
        · omega
  have wY : (X.sub 0 (k + 1) X.rows (X.cols - k - 1)).WF := View.WF.sub wX (by omega) (by omega)
  have key := gvrotVec_spec c s (luVec_isVec upper A k) vY wV wY (by rw [luVec_size k sq, ysz])
    ((d.mono_left vfoot).mono_right yfoot) hV hY
  refine key.mono ?_
  rintro m' ⟨h1, h2, h3⟩
  have hF0 : Frame (A.footOn (fun i j => InTri upper false i j) ∪ X.foot) m (m.set (A.at' k k) r) :=
    Frame.set (Or.inl (hkk ▸ lcell_mem sq hk le_rfl)) _
  refine ⟨?_, ?_, hF0.trans (h3.mono (Set.union_subset_union vfoot yfoot))⟩
  · intro i j hi hj
    beta_reduce
    by_cases hjk : j = k
    · subst hjk
      rw [if_pos rfl]
      by_cases hij : i = j
      · subst hij
        rw [h3, hkk, Mem.set_same, hr]
        rintro (h | h)
        · rw [luVec_foot sq] at h
          obtain ⟨i', a1, a2, e⟩ := h
          have := (lcell_inj hw sq hi hi a2 hi e).1
          omega
        · rw [View.foot_vec vY] at h
          obtain ⟨t, ht, e⟩ := h
          rw [ysz] at ht
          exact dcx i i (i + 1 + t) hi le_rfl (by omega) (by rw [e, yat])
      · have := h1 (i - j - 1) (by rw [luVec_size j sq]; omega)
        rw [luVec_vat sq (by omega)] at this
        beta_reduce at this
        rw [show j + 1 + (i - j - 1) = i by omega] at this
        exact this
    · rw [if_neg hjk, h3, ← hkk, Mem.set_ne _ _ (fun e => hjk (lcell_inj hw sq hi (by omega) hk hk e).2), hA i j hi hj]
      rintro (h | h)
      · rw [luVec_foot sq] at h
        obtain ⟨i', a1, a2, e⟩ := h
        exact hjk (lcell_inj hw sq hi (by omega) a2 hk e).2
      · rw [View.foot_vec vY] at h
        obtain ⟨t, ht, e⟩ := h
        rw [ysz] at ht
        exact dcx i j (k + 1 + t) hi hj (by omega) (by rw [e, yat])
  · intro i hi
    beta_reduce
    by_cases hki : k < i
    · rw [if_pos hki]
      have := h2 (i - k - 1) (by rw [ysz]; omega)
      beta_reduce at this
      rw [yat, show k + 1 + (i - k - 1) = i by omega] at this
      exact this
    · rw [if_neg hki, h3, ← hkk, Mem.set_ne _ _ (dcx k k i hk le_rfl (by omega)).symm, hX i hi]
      rintro (h | h)
      · rw [luVec_foot sq] at h
        obtain ⟨i', a1, a2, e⟩ := h
        exact dcx i' k i a2 (by omega) (by omega) e.symm
      · rw [View.foot_vec vY] at h
        obtain ⟨t, ht, e⟩ := h
        rw [ysz] at ht
        rw [yat] at e
        have := View.vat_inj vX wX hi (by omega) e
        omega

/-- `L Lᵀ + x xᵀ`, where `L` is the lower triangle of `l` and only the elements of `x` from `k` on count. -/
noncomputable def gramK (n k : Nat) (l : Nat → Nat → ℝ) (x : Nat → ℝ) (i i' : Nat) : ℝ :=
  ∑ j ∈ Finset.range n, (if j ≤ i then l i j else 0) * (if j ≤ i' then l i' j else 0) +
    (if k ≤ i then x i else 0) * (if k ≤ i' then x i' else 0)

theorem gramK_step {n k : Nat} (hk : k < n) (l : Nat → Nat → ℝ) (x : Nat → ℝ) {c s : ℝ} (h1 : c ^ 2 + s ^ 2 = 1)
    (h0 : c * x k - s * l k k = 0) (i i' : Nat) :
    gramK n (k + 1) (fun i j => if j = k then c * l i k + s * x i else l i j)
      (fun i => if k < i then c * x i - s * l i k else x i) i i' = gramK n k l x i i' := by
  unfold gramK
  rw [← Finset.add_sum_erase _ _ (Finset.mem_range.mpr hk), ← Finset.add_sum_erase (Finset.range n) _ (Finset.mem_range.mpr hk)]
  have hrest : ∑ j ∈ (Finset.range n).erase k, (if j ≤ i then (if j = k then c * l i k + s * x i else l i j) else 0) *
      (if j ≤ i' then (if j = k then c * l i' k + s * x i' else l i' j) else 0) =
      ∑ j ∈ (Finset.range n).erase k, (if j ≤ i then l i j else 0) * (if j ≤ i' then l i' j else 0) := by
    refine Finset.sum_congr rfl fun j hj => ?_
    have := (Finset.mem_erase.mp hj).1
    simp only [if_neg this]
  rw [hrest]
  simp only [if_true]
  have tx : ∀ i, (if k + 1 ≤ i then (if k < i then c * x i - s * l i k else x i) else 0) =
      if k ≤ i then c * x i - s * l i k else 0 := by
    intro i
    by_cases h : k + 1 ≤ i
    · rw [if_pos h, if_pos (by omega), if_pos (by omega)]
    · rw [if_neg h]
      by_cases h' : k ≤ i
      · have : i = k := by omega
        subst this; rw [if_pos le_rfl, h0]
      · rw [if_neg h']
  rw [tx i, tx i']
  by_cases a : k ≤ i <;> by_cases b : k ≤ i' <;> simp only [a, b, if_true, if_false] <;> try ring
  linear_combination (l i k * l i' k + x i * x i') * h1

end Armas
