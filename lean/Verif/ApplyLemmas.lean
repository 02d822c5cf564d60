import Verif.Apply
import Verif.Blas1Lemmas
import Verif.LuInvLemmas
import Verif.LapackLemmas
import Verif.SparseMvLemmas

/-!
# Lemmas on element wise operators, norms of matrices and dense copies
-/

namespace Armas

open Finset

variable {α : Type}

/-! ## Early exit -/

/-- Hand the elements of a list to an operator until it returns a negative number. -/
def visit {σ : Type} (oper : α → σ → Int × σ) : List α → σ → Bool × σ
  | [], s => (false, s)
  | x :: l, s => if (oper x s).1 < 0 then (true, (oper x s).2) else visit oper l (oper x s).2

theorem visit_append {σ : Type} (oper : α → σ → Int × σ) (l l' : List α) (s : σ) :
    visit oper (l ++ l') s = if (visit oper l s).1 then visit oper l s else visit oper l' (visit oper l s).2 := by
  induction l generalizing s with
  | nil => simp [visit]
  | cons x l ih =>
    simp only [List.cons_append, visit]
    by_cases c : (oper x s).1 < 0
    · simp [c]
    · simp only [c, if_false]; exact ih _

theorem loopUntil_spec {σ : Type} {oper : α → σ → Int × σ} {body : Nat → σ → Res (Bool × σ)} {L : Nat → List α} :
    ∀ {c i : Nat} {s : σ}, (∀ k s, i ≤ k → k < i + c → body k s = .ok (visit oper (L k) s)) →
      loopUntil body c i s = .ok (visit oper ((List.range' i c).flatMap L) s) := by
  intro c
  induction c with
  | zero => intro i s _; rfl
  | succ c ih =>
    intro i s h
    rw [loopUntil, h i s (le_refl _) (by omega), List.range'_succ, List.flatMap_cons, visit_append, Res.ok_bind]
    rcases hv : visit oper (L i) s with ⟨t, s'⟩
    cases t with
    | true => rfl
    | false =>
      simp only [Bool.false_eq_true, if_false]
      exact ih (fun k s h1 h2 => h k s (by omega) (by omega))

theorem filter_ge (n j : Nat) : (List.range n).filter (fun i => decide (j ≤ i)) = List.range' j (n - j) := by
  induction n with
  | zero => simp
  | succ n ih =>
    rw [List.range_succ, List.filter_append, ih]
    by_cases c : j ≤ n
    · rw [show n + 1 - j = (n - j) + 1 by omega, List.range'_concat]
      simp [c]
    · rw [show n + 1 - j = 0 by omega, show n - j = 0 by omega]
      simp [c]

theorem filter_le (n j : Nat) (h : j < n) : (List.range n).filter (fun i => decide (i ≤ j)) = List.range (j + 1) := by
  induction n with
  | zero => omega
  | succ n ih =>
    rw [List.range_succ, List.filter_append]
    by_cases c : j < n
    · rw [ih c]; simp [c]
    · have : j = n := by omega
      subst this
      rw [List.range_succ]
      congr 1
      · rw [List.filter_eq_self]; intro a ha; simp at ha ⊢; omega
      · simp

/-! ## Norms -/

section Ordered
variable [Field α] [LinearOrder α] [IsStrictOrderedRing α]

theorem sumOfSq_spec {m : Mem α} {X : View} {x : Nat → α} {st : α × α} {S : α} (hx : HoldsV m X x)
    (h0 : 0 ≤ st.1) (h1 : 0 ≤ st.2) (hS : st.1 * st.1 * st.2 = S) :
    Runs (sumOfSq m X st) (fun r => 0 ≤ r.1 ∧ 0 ≤ r.2 ∧ r.1 * r.1 * r.2 = S + ∑ k ∈ range X.size, x k * x k) := by
  unfold sumOfSq
  refine Runs.bind (Runs.forUp1
    (fun i (st : α × α) => 0 ≤ st.1 ∧ 0 ≤ st.2 ∧ st.1 * st.1 * st.2 = S + ∑ k ∈ range i, x k * x k)
    (by omega) ⟨h0, h1, by simpa using hS⟩ ?_
    (Q := fun p => 0 ≤ p.2.1 ∧ 0 ≤ p.2.2 ∧ p.2.1 * p.2.1 * p.2.2 = S + ∑ k ∈ range X.size, x k * x k)
    (fun st h => h)) (fun r hr => Runs.pure hr)
  rintro i ⟨sc, sm⟩ _ hi ⟨h1, h2, h3⟩
  dsimp only at h1 h2 h3 ⊢
  refine Runs.rd_bind (hx i (by omega)) ?_
  by_cases hz : x i = 0
  · rw [if_neg (not_not.mpr hz)]
    refine Runs.pure ⟨h1, h2, ?_⟩
    rw [sum_range_succ, hz]; linear_combination h3
  · rw [if_pos hz]
    have ha : 0 < |x i| := abs_pos.mpr hz
    have hane : |x i| ≠ 0 := ne_of_gt ha
    have hxx : x i * x i = |x i| * |x i| := (abs_mul_abs_self _).symm
    by_cases c : |x i| > sc
    · simp only [if_pos c]
      refine Runs.pure ⟨le_of_lt ha, ?_, ?_⟩
      · exact add_nonneg zero_le_one (mul_nonneg h2 (mul_self_nonneg _))
      · dsimp only
        rw [sum_range_succ, ← add_assoc, ← h3, hxx]
        field_simp
        ring
    · simp only [if_neg c]
      have hsc : 0 < sc := lt_of_lt_of_le ha (not_lt.mp c)
      have hscne : sc ≠ 0 := ne_of_gt hsc
      refine Runs.pure ⟨h1, ?_, ?_⟩
      · exact add_nonneg h2 (mul_self_nonneg _)
      · dsimp only
        rw [sum_range_succ, ← add_assoc, ← h3, hxx]
        field_simp

theorem matrixNormFrb_spec {m : Mem α} {A : View} {a : Nat → Nat → α} (sqrt : α → α)
    (hsq : ∀ v, 0 ≤ v → 0 ≤ sqrt v ∧ sqrt v * sqrt v = v) (ha : Holds m A a) :
    Runs (matrixNormFrb sqrt m A) (fun v => 0 ≤ v ∧ v * v = ∑ j ∈ range A.cols, ∑ i ∈ range A.rows, a i j * a i j) := by
  unfold matrixNormFrb
  refine Runs.bind (Runs.forUp1
    (fun j (st : α × α) => 0 ≤ st.1 ∧ 0 ≤ st.2 ∧ st.1 * st.1 * st.2 = ∑ j ∈ range j, ∑ i ∈ range A.rows, a i j * a i j)
    (Nat.zero_le _) ⟨le_refl _, zero_le_one, by simp⟩ ?_
    (Q := fun p => 0 ≤ p.2.1 ∧ 0 ≤ p.2.2 ∧ p.2.1 * p.2.1 * p.2.2 = ∑ j ∈ range A.cols, ∑ i ∈ range A.rows, a i j * a i j)
    (fun st h => h)) ?_
  · rintro j st - hj ⟨h1, h2, h3⟩
    refine (sumOfSq_spec (Holds.toV_col (ha.sub (r := 0) (c := j) (nr := A.rows) (nc := 1) (by omega) (by omega))) h1 h2 h3).mono fun r hr => ?_
    refine ⟨hr.1, hr.2.1, ?_⟩
    rw [hr.2.2, sum_range_succ, show (A.sub 0 j A.rows 1).size = A.rows by simp [View.size]]
    simp
  · rintro ⟨_, sc, sm⟩ ⟨h1, h2, h3⟩
    dsimp only at h1 h2 h3 ⊢
    obtain ⟨h4, h5⟩ := hsq sm h2
    refine Runs.pure ⟨mul_nonneg h1 h4, ?_⟩
    rw [← h3, ← h5]
    have : sqrt (sqrt sm * sqrt sm) = sqrt sm := by rw [h5]
    rw [this]; ring

theorem maxLoop_spec {n : Nat} {g : Nat → α} {body : Nat → α → Res α} (hn : 0 < n) (hg : ∀ k, k < n → 0 ≤ g k)
    (hb : ∀ k v, k < n → body k v = .ok (if |g k| > v then |g k| else v)) :
    Runs (forUp 0 n 1 body 0) (fun r => (∀ k, k < n → g k ≤ r.2) ∧ ∃ k, k < n ∧ r.2 = g k) := by
  refine Runs.forUp1 (fun i v => 0 ≤ v ∧ (∀ k, k < i → g k ≤ v) ∧ (v = 0 ∨ ∃ k, k < i ∧ v = g k)) (Nat.zero_le _)
    ⟨le_refl _, fun k hk => by omega, Or.inl rfl⟩ ?_ ?_
  · rintro i v - hi ⟨h0, h1, h2⟩
    rw [hb i v hi, abs_of_nonneg (hg i hi)]
    refine Runs.ok ?_
    by_cases c : g i > v
    · rw [if_pos c]
      refine ⟨hg i hi, fun k hk => ?_, Or.inr ⟨i, by omega, rfl⟩⟩
      by_cases e : k = i
      · rw [e]
      · exact le_trans (h1 k (by omega)) (le_of_lt c)
    · rw [if_neg c]
      refine ⟨h0, fun k hk => ?_, ?_⟩
      · by_cases e : k = i
        · rw [e]; exact not_lt.mp c
        · exact h1 k (by omega)
      · rcases h2 with h | ⟨k, hk, h⟩
        · exact Or.inl h
        · exact Or.inr ⟨k, by omega, h⟩
  · rintro v ⟨h0, h1, h2⟩
    refine ⟨h1, ?_⟩
    rcases h2 with h | h
    · exact ⟨0, hn, le_antisymm (by dsimp only; rw [h]; exact hg 0 hn) (h1 0 hn)⟩
    · exact h

end Ordered

/-! ## Dense copies -/

/-- The matrix `a` after the entries `e 0 ... e (k-1)` were stored in this order. -/
def stored (e : Nat → Ent α) (a : Nat → Nat → α) : Nat → Nat → Nat → α
  | 0 => a
  | k + 1 => fun i j => if i = (e k).1 ∧ j = (e k).2.1 then (e k).2.2 else stored e a k i j

theorem stored_keep (e : Nat → Ent α) (a : Nat → Nat → α) {i j : Nat} : ∀ {N k : Nat}, k ≤ N → (∀ p, k ≤ p → p < N → ¬ (i = (e p).1 ∧ j = (e p).2.1)) →
    stored e a N i j = stored e a k i j := by
  intro N
  induction N with
  | zero => intro k hk _; have : k = 0 := by omega
            subst this; rfl
  | succ N ih =>
    intro k hk h
    by_cases c : k = N + 1
    · rw [c]
    · rw [stored]
      dsimp only
      rw [if_neg (h N (by omega) (by omega))]
      exact ih (by omega) fun p h1 h2 => h p h1 (by omega)

theorem setElem_nat {A : View} {m : Mem α} {i j : Nat} {v : α} (hi : i < A.rows) (hj : j < A.cols) :
    setElem m A i j v = wr m (A.at' i j) v := by
  unfold setElem
  rw [if_neg (by unfold View.size; exact Nat.ne_of_gt (Nat.mul_pos (by omega) (by omega)))]
  rw [if_neg (by omega), if_neg (by omega)]
  dsimp only
  unfold wrI
  rw [if_neg (by have : (0 : Int) ≤ (j : Int) * A.step := by positivity
                 omega)]
  congr 1
  unfold View.at'
  omega

theorem setElem_stored {A : View} (hw : A.WF) {m m0 : Mem α} {e : Nat → Ent α} {a : Nat → Nat → α} {k : Nat}
    (h : Holds m A (stored e a k) ∧ Frame A.foot m0 m) {i j : Nat} {v : α} (he : e k = (i, j, v)) (hi : i < A.rows) (hj : j < A.cols) :
    Runs (setElem m A i j v) (fun m' => Holds m' A (stored e a (k + 1)) ∧ Frame A.foot m0 m') := by
  rw [setElem_nat hi hj]
  refine Runs.wr (h.1 i j hi hj) ⟨?_, h.2.trans (Frame.set (View.at_mem_foot hi hj) v)⟩
  refine (h.1.cell hw hi hj v).congr fun p q _ _ => ?_
  simp only [stored, he]

end Armas
