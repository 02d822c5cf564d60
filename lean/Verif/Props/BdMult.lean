import Verif.BdMult
import Verif.BdMultLemmas
import Verif.Props.HessMult
import Verif.Props.LqMult
import Verif.Props.Bired

/-!
# C115: multiplication with the orthogonal matrices of a bidiagonal reduction

See `properties.jsonl`.
-/

namespace Armas.Props

open Finset

section field

variable {α : Type} [Field α] [DecidableEq α]

/-- Arguments of `armas_bdmult_w` for a matrix of order `n` that is made of `k` reflectors in `A` and `tau`; the code looks at no size of `tau`. -/
structure BdMultArgs (env : Env) (c : Cache) (m : Mem α) (right : Bool) (C A tau : View) (f : Nat → Nat → α) (t : Nat → α) (n k w ws : Nat) : Prop where
  conf : Conf3 env c
  min2 : 2 ≤ env.blas2min ∨ (env.naive = true ∧ env.recursive = false)
  wf : C.WF
  size : (if right then C.cols else C.rows) = n
  work : (if right then C.rows else C.cols) ≤ ws
  ready : c.Ready m
  hA : Holds m A f
  ht : ∀ l, l < k → m (tau.at' l 0) = some (t l)
  hW : WAlloc m w ws
  dC : Disjoint C.foot (A.foot ∪ tcells tau k ∪ wcells w ws ∪ c.foot)
  dA : Disjoint (A.foot ∪ tcells tau k) (wcells w ws ∪ c.foot)
  dW : Disjoint (wcells w ws) c.foot

omit [DecidableEq α] in
theorem BdMultArgs.dF {env : Env} {c : Cache} {m : Mem α} {right : Bool} {C A tau : View} {f : Nat → Nat → α} {t : Nat → α} {n k w ws : Nat}
    (H : BdMultArgs env c m right C A tau f t n k w ws) : Disjoint A.foot (C.foot ∪ wcells w ws ∪ c.foot) := by
  rw [Set.disjoint_union_right, Set.disjoint_union_right]
  exact ⟨⟨(H.dC.mono_right fun q h => Or.inl (Or.inl (Or.inl h))).symm, H.dA.mono (fun q h => Or.inl h) fun q h => Or.inl h⟩,
    H.dA.mono (fun q h => Or.inl h) fun q h => Or.inr h⟩

omit [DecidableEq α] in
theorem tcells_sub0 (tau : View) (k : Nat) : tcells (tau.sub 0 0 k 1) k = tcells tau k := by
  ext q
  constructor <;> rintro ⟨l, hl, rfl⟩ <;> exact ⟨l, hl, by rw [View.at_sub, Nat.zero_add]⟩

omit [DecidableEq α] in
theorem at_sub0 (tau : View) (k l : Nat) : (tau.sub 0 0 k 1).at' l 0 = tau.at' l 0 := by rw [View.at_sub, Nat.zero_add]

/-- Multiplication of all but the first row (column) of `C` by the reflectors in the rows of `A` right of the superdiagonal. -/
theorem lqRest_spec (ab : α → α) {env : Env} {c : Cache} {m : Mem α} {right : Bool} {C A tau : View} {f b : Nat → Nat → α} {t : Nat → α}
    {n w ws : Nat} (H : BdMultArgs env c m right C A tau f t n (n - 1) w ws) (hn : 0 < n) (hc : A.cols = n) (hr : n ≤ A.rows) (last : ∀ k, k + 2 = n → t k = 0)
    (hC : Holds m C b) (trans : Bool) (elb : Nat)
    (i1 : ((if right then C.rows else C.cols) + elb) * elb ≤ INT_MAX)
    (i2 : (if right then C.rows else C.cols) * (if right then C.rows else C.cols) ≤ INT_MAX) {fuel : Nat}
    (hf : n < fuel) (hf' : 3 * (if right then C.rows else C.cols) < fuel) :
    Runs (lqmultW ab env elb fuel m (bdRest right C) (A.sub 0 1 (n - 1) (n - 1)) (tau.sub 0 0 (n - 1) 1) (!trans) right w ws (some c)) (fun r => r.1 = 0 ∧
      Frame (C.foot ∪ wcells w ws ∪ c.foot) m r.2 ∧
      Holds r.2 C (applied right trans (hessProd n (n - 1) t fun i j => f j i) (hessProdT n (n - 1) t fun i j => f j i) b) ∧ c.Ready r.2) := by
  obtain ⟨conf, min2, wf, size, work, ready, hA, ht, hW, dC, dA, dW⟩ := H
  obtain ⟨p, rfl⟩ : ∃ p, n = p + 1 := ⟨n - 1, by omega⟩
  rw [Nat.add_sub_cancel] at *
  have sA : (A.sub 0 1 p p).foot ⊆ A.foot := View.sub_foot (by omega) (by omega)
  have hA' : Holds m (A.sub 0 1 p p) (fun i j => (fun i j => f j (i + 1)) j i) := (hA.part (by omega) (by omega)).congr fun i j _ _ => by
    rw [Nat.add_comm 1 j, Nat.zero_add]
  have ht' : ∀ k, k < p → m ((tau.sub 0 0 p 1).at' k 0) = some (t k) := by
    intro k hk
    rw [at_sub0]
    exact ht k hk
  have dA' : Disjoint ((A.sub 0 1 p p).foot ∪ tcells (tau.sub 0 0 p 1) p) (wcells w ws ∪ c.foot) := by
    rw [tcells_sub0]
    exact dA.mono_left (Set.union_subset_union_left _ sA)
  have dC' : ∀ X : Set Nat, X ⊆ C.foot → Disjoint X ((A.sub 0 1 p p).foot ∪ tcells (tau.sub 0 0 p 1) p ∪ wcells w ws ∪ c.foot) := by
    intro X hX
    rw [tcells_sub0]
    exact dC.mono hX (Set.union_subset_union_left _ (Set.union_subset_union_left _ (Set.union_subset_union_left _ sA)))
  have nC : ∀ i j, i < C.rows → j < C.cols → C.at' i j ∉ wcells w ws ∧ C.at' i j ∉ c.foot := by
    intro i j hi hj
    have := Set.disjoint_left.mp dC (View.at_mem_foot hi hj)
    exact ⟨fun h => this (Or.inl (Or.inr h)), fun h => this (Or.inr h)⟩
  unfold bdRest applied
  cases right
  · simp only [Bool.false_eq_true, if_false] at size work i1 i2 hf' ⊢
    rw [size, Nat.add_sub_cancel]
    have sC : (C.sub 1 0 p C.cols).foot ⊆ C.foot := View.sub_foot (by omega) (by omega)
    have hC' : Holds m (C.sub 1 0 p C.cols) (fun i j => b (i + 1) j) := (hC.part (by omega) (by omega)).congr fun i j _ _ => by
      rw [Nat.add_comm 1 i, Nat.zero_add]
    refine (C94_lqmult_partial ab (right := false) (C := C.sub 1 0 p C.cols) (A := A.sub 0 1 p p) (tau := tau.sub 0 0 p 1) (b := fun i j => b (i + 1) j)
      ⟨conf, min2, wf.sub (by omega) (by omega), rfl, le_refl _, ⟨rfl, rfl⟩, work, ready, hA', ht', fun k hk hk' => last k (by
        rw [View.sub_cols] at hk'; omega), hW, dC' _ sC, dA', dW⟩ hC' (!trans) elb i1 i2 (by rw [View.sub_cols]; omega) hf').mono ?_
    rintro ⟨e, m'⟩ ⟨he, F, hR, rdy⟩
    dsimp only at he F hR rdy ⊢
    refine ⟨he, F.mono (Set.union_subset_union_left _ (Set.union_subset_union_left _ sC)), ?_, rdy⟩
    intro i j hi hj
    rw [size] at hi
    rcases i with _ | i
    · rw [F _ ?_, hC 0 j (by omega) hj]
      · cases trans
        · simp [hessProd_zero]
        · simp [hessProdT_zero]
      · rintro ((h | h) | h)
        · rw [View.mem_sub_foot wf (by omega) (by omega) (by omega) hj] at h; omega
        · exact (nC 0 j (by omega) hj).1 h
        · exact (nC 0 j (by omega) hj).2 h
    · have := hR i j (by rw [View.sub_rows]; omega) hj
      rw [View.at_sub, Nat.zero_add, Nat.add_comm 1 i] at this
      rw [this]
      simp only [View.sub_rows, View.sub_cols, Bool.false_eq_true, if_false]
      rw [hessProd_succ, hessProdT_succ]
      cases trans <;> rfl
  · simp only [if_true] at size work i1 i2 hf' ⊢
    rw [size, Nat.add_sub_cancel]
    have sC : (C.sub 0 1 C.rows p).foot ⊆ C.foot := View.sub_foot (by omega) (by omega)
    have hC' : Holds m (C.sub 0 1 C.rows p) (fun i j => b i (j + 1)) := (hC.part (by omega) (by omega)).congr fun i j _ _ => by
      rw [Nat.add_comm 1 j, Nat.zero_add]
    refine (C94_lqmult_partial ab (right := true) (C := C.sub 0 1 C.rows p) (A := A.sub 0 1 p p) (tau := tau.sub 0 0 p 1) (b := fun i j => b i (j + 1))
      ⟨conf, min2, wf.sub (by omega) (by omega), rfl, le_refl _, ⟨rfl, rfl⟩, work, ready, hA', ht', fun k hk hk' => last k (by
        rw [View.sub_cols] at hk'; omega), hW, dC' _ sC, dA', dW⟩ hC' (!trans) elb i1 i2 (by rw [View.sub_cols]; omega) hf').mono ?_
    rintro ⟨e, m'⟩ ⟨he, F, hR, rdy⟩
    dsimp only at he F hR rdy ⊢
    refine ⟨he, F.mono (Set.union_subset_union_left _ (Set.union_subset_union_left _ sC)), ?_, rdy⟩
    intro i j hi hj
    rw [size] at hj
    rcases j with _ | j
    · rw [F _ ?_, hC i 0 hi (by omega)]
      · cases trans
        · simp [hessProdT_zero]
        · simp [hessProd_zero]
      · rintro ((h | h) | h)
        · rw [View.mem_sub_foot wf (by omega) (by omega) hi (by omega)] at h; omega
        · exact (nC i 0 hi (by omega)).1 h
        · exact (nC i 0 hi (by omega)).2 h
    · have := hR i j hi (by rw [View.sub_cols]; omega)
      rw [View.at_sub, Nat.zero_add, Nat.add_comm 1 j] at this
      rw [this]
      simp only [View.sub_rows, View.sub_cols, if_true]
      rw [hessProd_succ, hessProdT_succ]
      cases trans <;> rfl

/-- C115, `armas_bdmult_w` with `ARMAS_MULTQ` for at least as many rows as columns: `C` becomes `Q C`, `Qᵀ C`, `C Q` or `C Qᵀ` with `Q = H_0 H_1 ...`, the
product of the reflectors below the diagonal of `A`.  For a square `A` the last scalar must be zero, as the reduction leaves it. -/
theorem C115_tall_q_partial (ab : α → α) {env : Env} {c : Cache} {m : Mem α} {right : Bool} {C A tau : View} {f b : Nat → Nat → α} {t : Nat → α}
    {w ws : Nat} (H : BdMultArgs env c m right C A tau f t A.rows A.cols w ws) {lower : Bool} (sh : A.cols < A.rows ∨ (A.rows = A.cols ∧ lower = false))
    (last : ∀ k, k < A.cols → k + 1 = A.rows → t k = 0) (hC : Holds m C b) (trans : Bool) (elb : Nat)
    (i1 : ((if right then C.rows else C.cols) + elb) * elb ≤ INT_MAX)
    (i2 : (if right then C.rows else C.cols) * (if right then C.rows else C.cols) ≤ INT_MAX) {fuel : Nat}
    (hf : A.rows < fuel) (hf' : 3 * (if right then C.rows else C.cols) < fuel) :
    Runs (bdmultW ab env elb fuel m C A tau true false trans right lower w ws (some c)) (fun r => r.1 = 0 ∧ Frame (C.foot ∪ wcells w ws ∪ c.foot) m r.2 ∧
      Holds r.2 C (applied right trans (qrProd A.rows A.cols t f) (qrProdT A.rows A.cols t f) b) ∧ c.Ready r.2) := by
  obtain ⟨conf, min2, wf, size, work, ready, hA, ht, hW, dC, dA, dW⟩ := H
  have e : bdTall A lower = true := by
    unfold bdTall
    rcases sh with h | ⟨h, rfl⟩
    · simp [h]
    · simp [h]
  unfold bdmultW
  rw [e]
  refine (C65_qrmult_partial ab (right := right) (C := C) (A := A) (tau := tau.sub 0 0 A.cols 1) (b := b) (t := t)
    ⟨conf, min2, wf, size, by omega, ⟨rfl, rfl⟩, work, ready, hA, fun k hk => by rw [at_sub0]; exact ht k hk, last, hW, by rw [tcells_sub0]; exact dC,
      by rw [tcells_sub0]; exact dA, dW⟩ hC trans elb i1 i2 hf hf').mono ?_
  rintro ⟨e, m'⟩ ⟨he, F, hR, rdy⟩
  exact ⟨he, F, hR, rdy⟩

/-- C115, `armas_bdmult_w` with `ARMAS_MULTP` for at least as many rows as columns: `C` becomes `P C`, `Pᵀ C`, `C P` or `C Pᵀ` with `P = G_0 G_1 ... G_{n-2}`,
the product of the reflectors right of the superdiagonal of `A`. -/
theorem C115_tall_p_partial (ab : α → α) {env : Env} {c : Cache} {m : Mem α} {right : Bool} {C A tau : View} {f b : Nat → Nat → α} {t : Nat → α}
    {n w ws : Nat} (H : BdMultArgs env c m right C A tau f t n (n - 1) w ws) (hn : 0 < n) (hc : A.cols = n) {lower : Bool}
    (sh : A.cols < A.rows ∨ (A.rows = A.cols ∧ lower = false))
    (last : ∀ k, k + 2 = n → t k = 0) (hC : Holds m C b) (trans : Bool) (elb : Nat)
    (i1 : ((if right then C.rows else C.cols) + elb) * elb ≤ INT_MAX)
    (i2 : (if right then C.rows else C.cols) * (if right then C.rows else C.cols) ≤ INT_MAX) {fuel : Nat}
    (hf : n < fuel) (hf' : 3 * (if right then C.rows else C.cols) < fuel) :
    Runs (bdmultW ab env elb fuel m C A tau false true trans right lower w ws (some c)) (fun r => r.1 = 0 ∧ Frame (C.foot ∪ wcells w ws ∪ c.foot) m r.2 ∧
      Holds r.2 C (applied right trans (hessProd n (n - 1) t fun i j => f j i) (hessProdT n (n - 1) t fun i j => f j i) b) ∧ c.Ready r.2) := by
  have e : bdTall A lower = true := by
    unfold bdTall
    rcases sh with h | ⟨h, rfl⟩
    · simp [h]
    · simp [h]
  unfold bdmultW
  rw [e]
  show Runs (lqmultW ab env elb fuel m (bdRest right C) (A.sub 0 1 (A.cols - 1) (A.cols - 1)) (tau.sub 0 0 (A.cols - 1) 1) (!trans) right w ws (some c)) _
  rw [hc]
  exact lqRest_spec ab H hn hc (by omega) last hC trans elb i1 i2 hf hf'

/-- C115, `armas_bdmult_w` with `ARMAS_MULTQ` for fewer rows than columns: the same with `Q = H_0 H_1 ... H_{n-2}`, the product of the reflectors below the
subdiagonal of `A`. -/
theorem C115_wide_q_partial (ab : α → α) {env : Env} {c : Cache} {m : Mem α} {right : Bool} {C A tau : View} {f b : Nat → Nat → α} {t : Nat → α}
    {n w ws : Nat} (H : BdMultArgs env c m right C A tau f t n (n - 1) w ws) (hn : 0 < n) (hr : A.rows = n) {lower : Bool}
    (sh : A.rows < A.cols ∨ (A.rows = A.cols ∧ lower = true))
    (last : ∀ k, k + 2 = n → t k = 0) (hC : Holds m C b) (trans : Bool) (elb : Nat)
    (i1 : ((if right then C.rows else C.cols) + elb) * elb ≤ INT_MAX)
    (i2 : (if right then C.rows else C.cols) * (if right then C.rows else C.cols) ≤ INT_MAX) {fuel : Nat}
    (hf : n < fuel) (hf' : 3 * (if right then C.rows else C.cols) < fuel) :
    Runs (bdmultW ab env elb fuel m C A tau true false trans right lower w ws (some c)) (fun r => r.1 = 0 ∧ Frame (C.foot ∪ wcells w ws ∪ c.foot) m r.2 ∧
      Holds r.2 C (applied right trans (hessProd n (n - 1) t f) (hessProdT n (n - 1) t f) b) ∧ c.Ready r.2) := by
  obtain ⟨conf, min2, wf, size, work, ready, hA, ht, hW, dC, dA, dW⟩ := H
  have e : bdTall A lower = false := by
    unfold bdTall
    rcases sh with h | ⟨h, rfl⟩
    · simp; omega
    · simp [h]
  have sA : (A.sub 0 0 n n).foot ⊆ A.foot := View.sub_foot (by omega) (by omega)
  have h := C110_hessmult_partial ab (right := right) (C := C) (A := A.sub 0 0 n n) (tau := tau) (f := f) (t := t) (n := n)
    ⟨conf, min2, wf, ⟨rfl, rfl, hn⟩, size, work, ready, (hA.part (by omega) (by omega)).congr fun i j _ _ => by rw [Nat.zero_add, Nat.zero_add],
      fun k hk => ht k (by omega), last, hW,
      dC.mono_right (Set.union_subset_union_left _ (Set.union_subset_union_left _ (Set.union_subset_union_left _ sA))),
      dA.mono_left (Set.union_subset_union_left _ sA), dW⟩ hC trans elb i1 i2 hf hf'
  unfold hessmultW at h
  rw [View.sub_sub, View.sub_rows, View.sub_cols, Nat.zero_add, Nat.zero_add] at h
  unfold bdmultW
  rw [e]
  show Runs (qrmultW ab env elb fuel m (bdRest right C) (A.sub 1 0 (A.rows - 1) (A.rows - 1)) (tau.sub 0 0 (A.rows - 1) 1) trans right w ws (some c)) _
  rw [hr]
  exact h

/-- C115, `armas_bdmult_w` with `ARMAS_MULTP` for fewer rows than columns: the same with `P = G_0 G_1 ...`, the product of the reflectors right of the
diagonal of `A`.  For a square `A` the last scalar must be zero. -/
theorem C115_wide_p_partial (ab : α → α) {env : Env} {c : Cache} {m : Mem α} {right : Bool} {C A tau : View} {f b : Nat → Nat → α} {t : Nat → α}
    {w ws : Nat} (H : BdMultArgs env c m right C A tau f t A.cols A.rows w ws) {lower : Bool} (sh : A.rows < A.cols ∨ (A.rows = A.cols ∧ lower = true))
    (last : ∀ k, k < A.rows → k + 1 = A.cols → t k = 0) (hC : Holds m C b) (trans : Bool) (elb : Nat)
    (i1 : ((if right then C.rows else C.cols) + elb) * elb ≤ INT_MAX)
    (i2 : (if right then C.rows else C.cols) * (if right then C.rows else C.cols) ≤ INT_MAX) {fuel : Nat}
    (hf : A.cols < fuel) (hf' : 3 * (if right then C.rows else C.cols) < fuel) :
    Runs (bdmultW ab env elb fuel m C A tau false true trans right lower w ws (some c)) (fun r => r.1 = 0 ∧ Frame (C.foot ∪ wcells w ws ∪ c.foot) m r.2 ∧
      Holds r.2 C (applied right trans (qrProd A.cols A.rows t fun i j => f j i) (qrProdT A.cols A.rows t fun i j => f j i) b) ∧ c.Ready r.2) := by
  obtain ⟨conf, min2, wf, size, work, ready, hA, ht, hW, dC, dA, dW⟩ := H
  have e : bdTall A lower = false := by
    unfold bdTall
    rcases sh with h | ⟨h, rfl⟩
    · simp; omega
    · simp [h]
  unfold bdmultW
  rw [e]
  refine (C94_lqmult_partial ab (right := right) (C := C) (A := A) (tau := tau.sub 0 0 A.rows 1) (b := b) (t := t) (f := fun i j => f j i)
    ⟨conf, min2, wf, size, by omega, ⟨rfl, rfl⟩, work, ready, hA, fun k hk => by rw [at_sub0]; exact ht k hk, last, hW, by rw [tcells_sub0]; exact dC,
      by rw [tcells_sub0]; exact dA, dW⟩ hC (!trans) elb i1 i2 hf hf').mono ?_
  rintro ⟨e, m'⟩ ⟨he, F, hR, rdy⟩
  refine ⟨he, F, Holds.congr hR fun i j _ _ => ?_, rdy⟩
  unfold applied
  cases right <;> cases trans <;> rfl

/-- Concrete arguments: all elements are one, but the scalar `z` is zero. -/
theorem bdMult_demo (right : Bool) (z r c k cr cc n : Nat) (hr : r ≤ 7) (hc : c ≤ 7) (hcr : cr ≤ 7) (hcc : cc ≤ 7) (hk : k ≤ 7) (hn : (if right then cc else cr) = n)
    (hz : z < 7) : BdMultArgs (α := ℚ) ⟨8, 8, false, true⟩ ⟨1000, 1100, 4, 4, 3, 3, 1⟩ (tot fun p => if p = 160 + z then 0 else 1) right ⟨0, 8, cr, cc⟩
    ⟨100, 8, r, c⟩ ⟨160, 7, 7, 1⟩ (fun _ _ => 1) (fun k => if k = z then 0 else 1) n k 200 20 where
  conf := ⟨Or.inl (by decide), by decide⟩
  min2 := Or.inl (by decide)
  wf := Or.inl (by simp; omega)
  size := hn
  work := by simp only []; split_ifs <;> omega
  ready := ⟨by decide, by decide, by decide, by decide, by decide, ⟨_, holds_tot _ _⟩, ⟨_, holds_tot _ _⟩, View.disj_below (by decide)⟩
  hA := fun i j hi hj => by
    have h1 : i < r := hi
    have h2 : j < c := hj
    have : View.at' ⟨100, 8, r, c⟩ i j ≠ 160 + z := by simp [View.at']; omega
    simp [tot, this]
  ht := fun l hl => by
    by_cases c : l = z
    · subst c; simp [tot, View.at']
    · have : View.at' ⟨160, 7, 7, 1⟩ l 0 ≠ 160 + z := by simp [View.at']; omega
      simp [tot, this, c]
  hW := fun _ _ => ⟨_, rfl⟩
  dC := Set.disjoint_left.mpr (by
    rintro p ⟨i, j, hi, hj, rfl⟩ (((⟨i', j', hi', hj', h⟩ | ⟨k, hk, h⟩) | ⟨h1, h2⟩) | ⟨i', j', hi', hj', h⟩ | ⟨i', j', hi', hj', h⟩) <;>
      simp [View.at', Cache.A, Cache.B] at * <;> omega)
  dA := Set.disjoint_left.mpr (by
    rintro p (⟨i, j, hi, hj, rfl⟩ | ⟨k, hk, rfl⟩) (⟨h1, h2⟩ | ⟨i', j', hi', hj', h⟩ | ⟨i', j', hi', hj', h⟩) <;>
      simp [View.at', Cache.A, Cache.B] at * <;> omega)
  dW := Set.disjoint_left.mpr (by
    rintro p ⟨h1, h2⟩ (⟨i', j', hi', hj', h⟩ | ⟨i', j', hi', hj', h⟩) <;> simp [View.at', Cache.A, Cache.B] at * <;> omega)

theorem bdC_demo (z cr cc : Nat) : Holds (tot (α := ℚ) fun p => if p = 160 + z then 0 else 1) ⟨0, 8, cr, cc⟩ (fun i j => if 0 + i + j * 8 = 160 + z then 0 else 1) :=
  fun _ _ _ _ => rfl

example := C115_tall_q_partial (α := ℚ) id (A := ⟨100, 8, 5, 5⟩) (bdMult_demo false 4 5 5 5 5 6 5 (by decide) (by decide) (by decide) (by decide) (by decide) rfl (by decide))
  (lower := false) (Or.inr ⟨rfl, rfl⟩) (fun k _ hk => if_pos (by simpa using hk)) (bdC_demo 4 5 6) true 2 (by decide) (by decide) (fuel := 30) (by decide) (by decide)

example := C115_tall_p_partial (α := ℚ) id (A := ⟨100, 8, 6, 5⟩) (bdMult_demo true 3 6 5 4 6 5 5 (by decide) (by decide) (by decide) (by decide) (by decide) rfl (by decide))
  (by decide) rfl (lower := true) (Or.inl (by decide)) (fun k hk => if_pos (by omega)) (bdC_demo 3 6 5) true 2 (by decide) (by decide) (fuel := 30) (by decide) (by decide)

example := C115_wide_q_partial (α := ℚ) id (A := ⟨100, 8, 4, 6⟩) (bdMult_demo false 2 4 6 3 4 6 4 (by decide) (by decide) (by decide) (by decide) (by decide) rfl (by decide))
  (by decide) rfl (lower := false) (Or.inl (by decide)) (fun k hk => if_pos (by omega)) (bdC_demo 2 4 6) false 2 (by decide) (by decide) (fuel := 30) (by decide) (by decide)

example := C115_wide_p_partial (α := ℚ) id (A := ⟨100, 8, 5, 5⟩) (bdMult_demo true 4 5 5 5 6 5 5 (by decide) (by decide) (by decide) (by decide) (by decide) rfl (by decide))
  (lower := true) (Or.inr ⟨rfl, rfl⟩) (fun k _ hk => if_pos (by simpa using hk)) (bdC_demo 4 6 5) false 2 (by decide) (by decide) (fuel := 30) (by decide) (by decide)

/-- C115: neither or both of `ARMAS_MULTQ` and `ARMAS_MULTP` is an error, without a change. -/
theorem C115_errors (ab : α → α) (env : Env) (elb fuel : Nat) (m : Mem α) (C A tau : View) (both trans right lower : Bool) (w ws : Nat) (cbuf : Option Cache) :
    bdmultW ab env elb fuel m C A tau both both trans right lower w ws cbuf = .ok (-EINVAL, m) := by
  unfold bdmultW
  cases bdTall A lower <;> cases both <;> rfl

example := C115_errors (α := ℚ) id ⟨8, 8, false, true⟩ 2 30 (tot fun _ => 1) ⟨0, 8, 5, 6⟩ ⟨100, 8, 5, 5⟩ ⟨160, 7, 7, 1⟩ true false false false 200 20 none

/-- C115: a vector `tau` that is too short is not refused, against the comment "sizes are checked in QR/LQ functions" (`src/lapack/biredm.c:161`): those get
a part of `tau` that was given the expected size (`src/lapack/biredm.c:170, 175, 192, 201`).  With one scalar for two reflectors the code reads behind `tau`. -/
theorem C115_tau_false : ∃ (m : Mem ℚ) (C A tau : View), C.rows = 3 ∧ C.cols = 2 ∧ A.rows = 3 ∧ A.cols = 2 ∧ tau.rows = 1 ∧ tau.cols = 1 ∧
    Holds m C (fun _ _ => 1) ∧ Holds m A (fun _ _ => 1) ∧ Holds m tau (fun _ _ => 1) ∧ WAlloc m 200 20 ∧
    bdmultW id ⟨8, 8, false, true⟩ 0 30 m C A tau true false true false false 200 20 none = .ub := by
  refine ⟨fun p => if p = 161 then none else some 1, ⟨0, 8, 3, 2⟩, ⟨100, 8, 3, 2⟩, ⟨160, 1, 1, 1⟩, rfl, rfl, rfl, rfl, rfl, rfl, ?_, ?_, ?_, ?_,
    isUb_eq (by decide +kernel)⟩
  · intro i j hi hj
    have h1 : i < 3 := hi
    have h2 : j < 2 := hj
    exact if_neg (by simp [View.at']; omega)
  · intro i j hi hj
    have h1 : i < 3 := hi
    have h2 : j < 2 := hj
    exact if_neg (by simp [View.at']; omega)
  · intro i j hi hj
    have h1 : i < 1 := hi
    have h2 : j < 1 := hj
    exact if_neg (by simp [View.at']; omega)
  · intro k hk
    exact ⟨1, if_neg (by omega)⟩

end field

/-- What is needed beside `BdArgs` to reduce `A` and multiply a copy `C` of it with both orthogonal matrices. -/
structure BdDriverArgs (env : Env) (c : Cache) (m : Mem ℝ) (A C tauq taup : View) (a : Nat → Nat → ℝ) (n w ws w' ws' : Nat) : Prop where
  red : BdArgs env m A tauq taup a n w ws
  conf : Conf3 env c
  ready : c.Ready m
  wC : C.WF
  sC : C.rows = A.rows ∧ C.cols = A.cols
  hC : Holds m C a
  hW' : WAlloc m w' ws'
  work' : A.rows ≤ ws' ∧ A.cols ≤ ws'
  dC : Disjoint C.foot (A.foot ∪ tcells tauq n ∪ tcells taup n ∪ wcells w ws ∪ c.foot)
  dc : Disjoint (A.foot ∪ tcells tauq n ∪ tcells taup n ∪ wcells w ws) c.foot
  dW' : Disjoint (A.foot ∪ C.foot ∪ tcells tauq n ∪ tcells taup n ∪ wcells w ws ∪ c.foot) (wcells w' ws')

/-- Arguments of the first multiplication. -/
theorem BdDriverArgs.first {env : Env} {c : Cache} {m m1 : Mem ℝ} {A C tauq taup : View} {a f : Nat → Nat → ℝ} {n w ws w' ws' : Nat}
    (H : BdDriverArgs env c m A C tauq taup a n w ws w' ws') (F : Frame (A.foot ∪ tcells tauq n ∪ tcells taup n ∪ wcells w (A.rows + A.cols)) m m1)
    (hA : Holds m1 A f) (hW : WAlloc m1 w ws) {tau : View} {t : Nat → ℝ} {k : Nat} (hk : k ≤ n) (ht : ∀ l, l < n → m1 (tau.at' l 0) = some (t l))
    (htau : tau = tauq ∨ tau = taup) (right : Bool) :
    BdMultArgs env c m1 right C A tau f t (if right then A.cols else A.rows) k w ws ∧ Holds m1 C a ∧ WAlloc m1 w' ws' := by
  obtain ⟨⟨min2, wf, hn, hws, -, hq, hp, hW0, dA, dqp, dt⟩, conf, ready, wC, sC, hC, hW', work', dC, dc, dW'⟩ := H
  have sW : wcells w (A.rows + A.cols) ⊆ wcells w ws := fun p hp => ⟨hp.1, by have := hp.2; omega⟩
  have F' : Frame (A.foot ∪ tcells tauq n ∪ tcells taup n ∪ wcells w ws) m m1 := F.mono (Set.union_subset_union_right _ sW)
  have st : tcells tau k ⊆ tcells tauq n ∪ tcells taup n := by
    rintro q ⟨l, hl, rfl⟩
    rcases htau with rfl | rfl
    · exact Or.inl ⟨l, by omega, rfl⟩
    · exact Or.inr ⟨l, by omega, rfl⟩
  have sQ : A.foot ∪ tcells tau k ⊆ A.foot ∪ tcells tauq n ∪ tcells taup n := by
    rw [Set.union_assoc]
    exact Set.union_subset_union_right _ st
  refine ⟨⟨conf, min2, wC, ?_, ?_, ready.frame F' dc.symm, hA, fun l hl => ht l (by omega), hW, ?_, ?_, ?_⟩, hC.frame F' (dC.mono_right fun q h => Or.inl h), ?_⟩
  · cases right
    · simpa using sC.1
    · simpa using sC.2
  · cases right
    · simp; omega
    · simp; omega
  · exact dC.mono_right (Set.union_subset_union_left _ (Set.union_subset_union_left _ sQ))
  · rw [Set.disjoint_union_right]
    refine ⟨?_, dc.mono_left fun q h => Or.inl (sQ h)⟩
    rw [Set.disjoint_union_left]
    exact ⟨dA.mono_right fun q h => Or.inr h, dt.mono_left st⟩
  · exact dc.mono_left fun q h => Or.inr h
  · refine hW'.frame F' (dW'.symm.mono_right ?_)
    rintro q (((h | h) | h) | h)
    · exact Or.inl (Or.inl (Or.inl (Or.inl (Or.inl h))))
    · exact Or.inl (Or.inl (Or.inl (Or.inr h)))
    · exact Or.inl (Or.inl (Or.inr h))
    · exact Or.inl (Or.inr h)

/-- Arguments of the second multiplication. -/
theorem BdDriverArgs.second {env : Env} {c : Cache} {m m1 m2 : Mem ℝ} {A C tauq taup : View} {a f : Nat → Nat → ℝ} {n w ws w' ws' : Nat}
    (H : BdDriverArgs env c m A C tauq taup a n w ws w' ws') (F : Frame (C.foot ∪ wcells w ws ∪ c.foot) m1 m2) (rdy : c.Ready m2)
    (hA : Holds m1 A f) (hW : WAlloc m1 w' ws') {tau : View} {t : Nat → ℝ} {k : Nat} (hk : k ≤ n) (ht : ∀ l, l < n → m1 (tau.at' l 0) = some (t l))
    (htau : tau = tauq ∨ tau = taup) (right : Bool) :
    BdMultArgs env c m2 right C A tau f t (if right then A.cols else A.rows) k w' ws' := by
  obtain ⟨⟨min2, wf, hn, hws, -, hq, hp, hW0, dA, dqp, dt⟩, conf, ready, wC, sC, hC, hW', work', dC, dc, dW'⟩ := H
  have st : tcells tau k ⊆ tcells tauq n ∪ tcells taup n := by
    rintro q ⟨l, hl, rfl⟩
    rcases htau with rfl | rfl
    · exact Or.inl ⟨l, by omega, rfl⟩
    · exact Or.inr ⟨l, by omega, rfl⟩
  have sQ : A.foot ∪ tcells tau k ⊆ A.foot ∪ tcells tauq n ∪ tcells taup n := by
    rw [Set.union_assoc]
    exact Set.union_subset_union_right _ st
  have sX : A.foot ∪ tcells tau k ⊆ A.foot ∪ C.foot ∪ tcells tauq n ∪ tcells taup n ∪ wcells w ws ∪ c.foot := by
    intro q h
    rcases sQ h with (h | h) | h
    · exact Or.inl (Or.inl (Or.inl (Or.inl (Or.inl h))))
    · exact Or.inl (Or.inl (Or.inl (Or.inr h)))
    · exact Or.inl (Or.inl (Or.inr h))
  have dF : Disjoint (A.foot ∪ tcells tau k) (C.foot ∪ wcells w ws ∪ c.foot) := by
    rw [Set.disjoint_union_right, Set.disjoint_union_right]
    refine ⟨⟨(dC.mono_right fun q h => Or.inl (Or.inl (sQ h))).symm, ?_⟩, dc.mono_left fun q h => Or.inl (sQ h)⟩
    rw [Set.disjoint_union_left]
    exact ⟨dA.mono_right fun q h => Or.inr h, dt.mono_left st⟩
  refine ⟨conf, min2, wC, ?_, ?_, rdy, hA.frame F (dF.mono_left fun q h => Or.inl h), fun l hl => ?_, ?_, ?_, ?_, ?_⟩
  · cases right
    · simpa using sC.1
    · simpa using sC.2
  · cases right
    · simpa [sC.2] using work'.2
    · simpa [sC.1] using work'.1
  · rw [F _ fun h => Set.disjoint_left.mp dF (Or.inr ⟨l, hl, rfl⟩) h]
    exact ht l (by omega)
  · refine hW.frame F (dW'.symm.mono_right ?_)
    rintro q ((h | h) | h)
    · exact Or.inl (Or.inl (Or.inl (Or.inl (Or.inr h))))
    · exact Or.inl (Or.inr h)
    · exact Or.inr h
  · rw [Set.disjoint_union_right, Set.disjoint_union_right]
    exact ⟨⟨dC.mono_right fun q h => Or.inl (Or.inl (sQ h)), dW'.mono_left fun q h => Or.inl (Or.inl (Or.inl (Or.inl (Or.inr h))))⟩,
      dC.mono_right fun q h => Or.inr h⟩
  · rw [Set.disjoint_union_right]
    exact ⟨dW'.mono_left sX, dF.mono_right fun q h => Or.inr h⟩
  · exact (dW'.mono_left fun q h => Or.inr h).symm

/-- C115 after C114, at least as many rows as columns: reduce `A`, then multiply a copy of it by `Qᵀ` from the left and by `P` from the right: the result is the
bidiagonal matrix with the diagonal and the superdiagonal that the reduction left in `A`, and zeros elsewhere. -/
theorem C115_driver_tall_partial {safmin : ℝ} (nonneg : Bool) (h0 : 0 < safmin) (h1 : safmin < 1) (ab : ℝ → ℝ) {env : Env} {c : Cache} {m : Mem ℝ}
    {A C tauq taup : View} {a : Nat → Nat → ℝ} {n w ws w' ws' : Nat} (H : BdDriverArgs env c m A C tauq taup a n w ws w' ws') (hn : 0 < n) (hrc : A.cols ≤ A.rows)
    (elb : Nat) (i1 : (A.rows + elb) * elb ≤ INT_MAX) (i2 : A.rows * A.rows ≤ INT_MAX) {fuel : Nat} (hf : 3 * A.rows < fuel) :
    Runs (do
      let (e, m) ← bdreduceW safmin nonneg ab env fuel m A tauq taup w ws
      let (e', m) ← bdmultW ab env elb fuel m C A tauq true false true false false w ws (some c)
      let (e'', m) ← bdmultW ab env elb fuel m C A taup false true false true false w' ws' (some c)
      pure (e, e', e'', m)) (fun r => r.1 = 0 ∧ r.2.1 = 0 ∧ r.2.2.1 = 0 ∧ ∃ f s t, IsBidiag A.rows A.cols a f s t ∧
        Holds r.2.2.2 A f ∧ Holds r.2.2.2 C (bdPart f)) := by
  have hnc : n = A.cols := by have := H.red.size; omega
  have sh : A.cols < A.rows ∨ (A.rows = A.cols ∧ false = false) := by
    rcases Nat.lt_or_eq_of_le hrc with h | h
    · exact Or.inl h
    · exact Or.inr ⟨h.symm, rfl⟩
  refine (C114_left_partial nonneg h0 h1 ab H.red hrc (fuel := fuel) (by omega)).bind ?_
  rintro ⟨e, m1⟩ ⟨he, f, s, t, hA1, hs1, ht1, hB, F1, hW1⟩
  dsimp only at he hA1 hs1 ht1 F1 hW1 ⊢
  have j1 : (A.cols + elb) * elb ≤ INT_MAX := le_trans (Nat.mul_le_mul_right _ (by omega)) i1
  have j2 : A.cols * A.cols ≤ INT_MAX := le_trans (Nat.mul_le_mul hrc hrc) i2
  obtain ⟨Q1, hC1, hW1'⟩ := H.first (k := A.cols) F1 hA1 hW1 (by omega) hs1 (Or.inl rfl) false
  simp only [Bool.false_eq_true, if_false] at Q1
  refine (C115_tall_q_partial ab Q1 (lower := false) sh (fun k hk hk' => hB.lasts k hk hk'.symm) hC1 true elb (by simpa [H.sC.2] using j1)
    (by simpa [H.sC.2] using j2) (fuel := fuel) (by omega) (by simp [H.sC.2]; omega)).bind ?_
  rintro ⟨e', m2⟩ ⟨he', F2, hC2, rdy2⟩
  dsimp only at he' F2 hC2 rdy2 ⊢
  have Q2 := H.second (k := n - 1) F2 rdy2 hA1 hW1' (by omega) ht1 (Or.inr rfl) true
  simp only [if_true] at Q2
  rw [← hnc] at Q2
  refine (C115_tall_p_partial ab Q2 hn hnc.symm (lower := false) sh (fun k hk => hB.lastt k (by omega) (by omega)) hC2 false elb (by simpa [H.sC.1] using i1)
    (by simpa [H.sC.1] using i2) (fuel := fuel) (by omega) (by simp [H.sC.1]; omega)).bind ?_
  rintro ⟨e'', m3⟩ ⟨he'', F3, hC3, -⟩
  dsimp only at he'' F3 hC3 ⊢
  refine Runs.pure ⟨he, he', he'', f, s, t, hB, Q2.hA.frame F3 Q2.dF, hC3.congr fun i j hi hj => ?_⟩
  rw [H.sC.1] at hi
  rw [H.sC.2] at hj
  rw [← hB.fwd i j hi hj, bdTo_eq, hessProdT_pred _ hj, hnc]
  rfl

/-- C115 after C114, fewer rows than columns: reduce `A`, then multiply a copy of it by `P` from the right and by `Qᵀ` from the left: the result is the lower
bidiagonal matrix with the diagonal and the subdiagonal that the reduction left in `A`, and zeros elsewhere. -/
theorem C115_driver_wide_partial {safmin : ℝ} (nonneg : Bool) (h0 : 0 < safmin) (h1 : safmin < 1) (ab : ℝ → ℝ) {env : Env} {c : Cache} {m : Mem ℝ}
    {A C tauq taup : View} {a : Nat → Nat → ℝ} {n w ws w' ws' : Nat} (H : BdDriverArgs env c m A C tauq taup a n w ws w' ws') (hn : 0 < n) (hrc : A.rows < A.cols)
    (elb : Nat) (i1 : (A.cols + elb) * elb ≤ INT_MAX) (i2 : A.cols * A.cols ≤ INT_MAX) {fuel : Nat} (hf : 3 * A.cols < fuel) :
    Runs (do
      let (e, m) ← bdreduceW safmin nonneg ab env fuel m A tauq taup w ws
      let (e', m) ← bdmultW ab env elb fuel m C A taup false true false true false w ws (some c)
      let (e'', m) ← bdmultW ab env elb fuel m C A tauq true false true false false w' ws' (some c)
      pure (e, e', e'', m)) (fun r => r.1 = 0 ∧ r.2.1 = 0 ∧ r.2.2.1 = 0 ∧ ∃ (f : Nat → Nat → ℝ) (s t : Nat → ℝ), IsBidiag A.cols A.rows (fun i j => a j i) (fun i j => f j i) s t ∧
        Holds r.2.2.2 A f ∧ Holds r.2.2.2 C (fun i j => bdPart (fun i j => f j i) j i)) := by
  have hnc : n = A.rows := by have := H.red.size; omega
  refine (C114_right_partial nonneg h0 h1 ab H.red hrc (fuel := fuel) (by omega)).bind ?_
  rintro ⟨e, m1⟩ ⟨he, f, s, t, hA1, hs1, ht1, hB, F1, hW1⟩
  dsimp only at he hA1 hs1 ht1 F1 hW1 ⊢
  have j1 : (A.rows + elb) * elb ≤ INT_MAX := le_trans (Nat.mul_le_mul_right _ (by omega)) i1
  have j2 : A.rows * A.rows ≤ INT_MAX := le_trans (Nat.mul_le_mul hrc.le hrc.le) i2
  obtain ⟨Q1, hC1, hW1'⟩ := H.first (k := A.rows) F1 hA1 hW1 (by omega) hs1 (Or.inr rfl) true
  simp only [if_true] at Q1
  refine (C115_wide_p_partial ab Q1 (lower := false) (Or.inl hrc) (fun k hk hk' => hB.lasts k hk hk'.symm) hC1 false elb (by simpa [H.sC.1] using j1)
    (by simpa [H.sC.1] using j2) (fuel := fuel) (by omega) (by simp [H.sC.1]; omega)).bind ?_
  rintro ⟨e', m2⟩ ⟨he', F2, hC2, rdy2⟩
  dsimp only at he' F2 hC2 rdy2 ⊢
  have Q2 := H.second (k := n - 1) F2 rdy2 hA1 hW1' (by omega) ht1 (Or.inl rfl) false
  simp only [Bool.false_eq_true, if_false] at Q2
  rw [← hnc] at Q2
  refine (C115_wide_q_partial ab Q2 hn hnc.symm (lower := false) (Or.inl hrc) (fun k hk => hB.lastt k (by omega) (by omega)) hC2 true elb (by simpa [H.sC.2] using i1)
    (by simpa [H.sC.2] using i2) (fuel := fuel) (by omega) (by simp [H.sC.2]; omega)).bind ?_
  rintro ⟨e'', m3⟩ ⟨he'', F3, hC3, -⟩
  dsimp only at he'' F3 hC3 ⊢
  refine Runs.pure ⟨he, he', he'', f, s, t, hB, Q2.hA.frame F3 Q2.dF, hC3.congr fun i j hi hj => ?_⟩
  rw [H.sC.1] at hi
  rw [H.sC.2] at hj
  rw [← hB.fwd j i hj hi, bdTo_eq, hessProdT_pred _ hi, hnc]
  rfl

/-- Concrete arguments. -/
theorem bdDriver_demo (r c : Nat) (hr : r ≤ 7) (hc : c ≤ 7) : BdDriverArgs ⟨8, 8, false, true⟩ ⟨1000, 1100, 4, 4, 3, 3, 1⟩ (tot fun _ => (1 : ℝ)) ⟨0, 8, r, c⟩ ⟨200, 8, r, c⟩
    ⟨60, 7, 7, 1⟩ ⟨70, 7, 7, 1⟩ (fun _ _ => 1) (min r c) 80 20 300 10 where
  red := bdArgs_demo (fun _ => 1) r c hr hc
  conf := ⟨Or.inl (by decide), by decide⟩
  ready := ⟨by decide, by decide, by decide, by decide, by decide, ⟨_, holds_tot _ _⟩, ⟨_, holds_tot _ _⟩, View.disj_below (by decide)⟩
  wC := Or.inl (by simp; omega)
  sC := ⟨rfl, rfl⟩
  hC := fun _ _ _ _ => rfl
  hW' := fun _ _ => ⟨_, rfl⟩
  work' := ⟨by simp; omega, by simp; omega⟩
  dC := Set.disjoint_left.mpr (by
    rintro p ⟨i, j, hi, hj, rfl⟩ ((((⟨i', j', hi', hj', h⟩ | ⟨k, hk, h⟩) | ⟨k, hk, h⟩) | ⟨h1, h2⟩) | ⟨i', j', hi', hj', h⟩ | ⟨i', j', hi', hj', h⟩) <;>
      simp [View.at', Cache.A, Cache.B] at * <;> omega)
  dc := Set.disjoint_left.mpr (by
    rintro p (((⟨i, j, hi, hj, rfl⟩ | ⟨k, hk, rfl⟩) | ⟨k, hk, rfl⟩) | ⟨h1, h2⟩) (⟨i', j', hi', hj', h⟩ | ⟨i', j', hi', hj', h⟩) <;>
      simp [View.at', Cache.A, Cache.B] at * <;> omega)
  dW' := Set.disjoint_left.mpr (by
    rintro p (((((⟨i, j, hi, hj, rfl⟩ | ⟨i, j, hi, hj, rfl⟩) | ⟨k, hk, rfl⟩) | ⟨k, hk, rfl⟩) | ⟨h1, h2⟩) | ⟨i', j', hi', hj', rfl⟩ | ⟨i', j', hi', hj', rfl⟩) ⟨h3, h4⟩ <;>
      simp [View.at', Cache.A, Cache.B] at * <;> omega)

example := C115_driver_tall_partial (safmin := 1 / 2) true (by norm_num) (by norm_num) (fun x => |x|) (bdDriver_demo 6 5 (by decide) (by decide)) (by decide) (by decide) 2
  (by decide) (by decide) (fuel := 30) (by decide)

example := C115_driver_wide_partial (safmin := 1 / 2) true (by norm_num) (by norm_num) (fun x => |x|) (bdDriver_demo 4 6 (by decide) (by decide)) (by decide) (by decide) 2
  (by decide) (by decide) (fuel := 30) (by decide)

end Armas.Props
