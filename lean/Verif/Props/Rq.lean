import Verif.RqLemmas
import Verif.Props.Ql

/-!
# C120: RQ factorization

See `properties.jsonl`.
-/

namespace Armas.Props

open Finset

/-- Arguments of `armas_rqfactor_w`; `tau` is a column vector. -/
structure RqArgs (env : Env) (m : Mem ℝ) (A tau : View) (a : Nat → Nat → ℝ) (w ws : Nat) : Prop where
  min2 : 2 ≤ env.blas2min ∨ (env.naive = true ∧ env.recursive = false)
  wf : A.WF
  shape : A.rows ≤ A.cols
  col : tau.cols = 1 ∧ tau.rows = A.rows
  work : A.rows ≤ ws
  hA : Holds m A a
  ht : ∃ s, Holds m tau s
  hW : WAlloc m w ws
  dA : Disjoint A.foot (tau.foot ∪ wcells w ws)
  dt : Disjoint tau.foot (wcells w ws)

/-- C120, `armas_rqfactor_w` with a block size that selects the unblocked algorithm: `A` is overwritten with `R` and the vectors of the reflectors, `tau` with their
scalars, so that `A = R Q`, `Q = H_0 H_1 ... H_{M-1}`; this is said as `Aᵀ = Qᵀ Rᵀ`, a QL factorization of the transposed matrix.  Nothing else changes but the work
space. -/
theorem C120_rq_partial {safmin : ℝ} (nonneg : Bool) (h0 : 0 < safmin) (h1 : safmin < 1) (ab : ℝ → ℝ) {env : Env} {m : Mem ℝ} {A tau : View}
    {a : Nat → Nat → ℝ} {w ws : Nat} (H : RqArgs env m A tau a w ws) {elb : Nat} (hlb : rqBlock elb A.rows ws = 0 ∨ A.rows ≤ rqBlock elb A.rows ws)
    {fuel : Nat} (hf : A.cols < fuel) :
    Runs (rqfactorW safmin nonneg ab env elb fuel m A tau w ws) (fun r => r.1 = 0 ∧ ∃ f t, Holds r.2 A (fun i j => f j i) ∧
      (∀ k, k < A.rows → r.2 (tau.at' k 0) = some (t k)) ∧ IsQl A.cols A.rows (fun i j => a j i) f t ∧
      Frame (A.foot ∪ tau.foot ∪ wcells w A.rows) m r.2 ∧ WAlloc r.2 w ws) := by
  obtain ⟨min2, wf, shape, ⟨c1, c2⟩, work, hA, ⟨s, ht⟩, hW, dA, dt⟩ := H
  obtain ⟨M, hM⟩ : ∃ M, A.cols = M := ⟨_, rfl⟩
  obtain ⟨N, hN⟩ : ∃ N, A.rows = N := ⟨_, rfl⟩
  rw [hN] at hlb work c2 shape
  rw [hM] at hf shape
  unfold rqfactorW
  rw [hM, hN]
  have mn : min M N = N := Nat.min_eq_right shape
  have tin : ∀ k, k < N → tau.at' (tau.rows - 1 - k) 0 ∈ tau.foot := fun k hk => View.at_mem_foot (by omega) (by omega)
  have wsub : wcells w N ⊆ wcells w ws := fun p hp => ⟨hp.1, lt_of_lt_of_le hp.2 (by omega)⟩
  have tsz : tau.size = tau.rows := by rw [View.size, c1, Nat.mul_one]
  rw [if_neg (by omega), if_neg (by rw [tsz]; exact fun h => h.elim (fun h => h (Or.inr c1)) (fun h => by omega)), if_neg (by omega), if_pos hlb]
  refine Runs.bind (unblkRq_spec nonneg h0 h1 ab min2 (M := M) (N := N) (W := w) (F0 := fun i j => a (N - 1 - j) (M - 1 - i))
    (s := fun k => s (tau.rows - 1 - k) 0) hM hN (by omega) hf wf (Holds.congr hA fun i j hi hj => ?_) (by omega)
    (fun k hk => ht _ _ (by omega) (by omega)) (hW.le work)
    (fun k hk h => Set.disjoint_left.mp dA h (Or.inl (tin k (by omega))))
    (dA.mono_right fun p hp => Or.inr (wsub hp)) (fun k hk h => Set.disjoint_left.mp dt (tin k (by omega)) (wsub h))) ?_
  · rw [show N - 1 - (N - 1 - i) = i by omega, show M - 1 - (M - 1 - j) = j by omega]
  rintro m' ⟨F, t, k1, k2, kw, k3, k4⟩
  rw [mn] at k2 k3 k4
  have k3' : Frame (A.foot ∪ tau.foot ∪ wcells w N) m m' := k3.mono (by
    rintro p ((h | ⟨k, hk, h⟩) | h)
    · exact Or.inl (Or.inl h)
    · rw [h]; exact Or.inl (Or.inr (tin k hk))
    · exact Or.inr h)
  refine Runs.pure ⟨rfl, fun i j => F (M - 1 - i) (N - 1 - j), fun k => t (N - 1 - k), k1, fun k hk => ?_, ?_, k3', fun p hp => ?_⟩
  · have := k2 (N - 1 - k) (by omega)
    rwa [show tau.rows - 1 - (N - 1 - k) = k by omega] at this
  · refine isQl_of shape (fun i j hi hj => ?_) (fun i j hi hj => rfl) (fun d hd => ?_) k4
    · rw [show M - 1 - (M - 1 - i) = i by omega, show N - 1 - (N - 1 - j) = j by omega]
    · rw [show N - 1 - (N - 1 - d) = d by omega]
  · by_cases h : p < N
    · exact kw p h
    obtain ⟨y, hy⟩ := hW p hp
    have hm : w + p ∈ wcells w ws := ⟨by omega, by omega⟩
    refine ⟨y, ?_⟩
    rw [← hy]
    refine k3' _ ?_
    rintro ((h' | h') | h')
    · exact Set.disjoint_left.mp dA h' (Or.inr hm)
    · exact Set.disjoint_left.mp dt h' hm
    · have := h'.2; omega

/-- Concrete arguments. -/
theorem rqArgs_demo (g : Nat → ℝ) : RqArgs ⟨8, 8, false, true⟩ (tot g) ⟨0, 8, 5, 7⟩ ⟨100, 5, 5, 1⟩ (fun i j => g (i + j * 8)) 200 5 where
  min2 := Or.inl (by decide)
  wf := Or.inl (by decide)
  shape := by decide
  col := ⟨rfl, rfl⟩
  work := le_refl _
  hA := fun i j _ _ => by simp [tot, View.at']
  ht := ⟨_, holds_tot _ _⟩
  hW := fun _ _ => ⟨_, rfl⟩
  dA := Set.disjoint_left.mpr (by
    rintro p ⟨i, j, hi, hj, rfl⟩ (⟨i', j', hi', hj', h⟩ | ⟨h1, h2⟩) <;> simp only [View.at'] at * <;> omega)
  dt := Set.disjoint_left.mpr (by
    rintro p ⟨i, j, hi, hj, rfl⟩ ⟨h1, h2⟩; simp only [View.at'] at *; omega)

example := C120_rq_partial (safmin := 1 / 2) false (by norm_num) (by norm_num) (fun x => |x|) (rqArgs_demo fun p => (p : ℝ)) (elb := 64)
  (Or.inl (by decide)) (fuel := 8) (by decide)

/-- C120: more rows than columns, a `tau` that is no vector or of another size, and a short work space are refused in this order, without a change. -/
theorem C120_errors (safmin : ℝ) (nonneg : Bool) (ab : ℝ → ℝ) (env : Env) (elb fuel : Nat) (m : Mem ℝ) (A tau : View) (w ws : Nat) :
    (A.cols < A.rows → rqfactorW safmin nonneg ab env elb fuel m A tau w ws = .ok (-ESIZE, m)) ∧
    (A.rows ≤ A.cols → ((tau.rows ≠ 1 ∧ tau.cols ≠ 1) ∨ tau.rows * tau.cols ≠ A.rows) → rqfactorW safmin nonneg ab env elb fuel m A tau w ws = .ok (-EINVAL, m)) ∧
    (A.rows ≤ A.cols → (tau.rows = 1 ∨ tau.cols = 1) → tau.rows * tau.cols = A.rows → ws < A.rows →
      rqfactorW safmin nonneg ab env elb fuel m A tau w ws = .ok (-EWORK, m)) := by
  unfold rqfactorW
  refine ⟨fun h => if_pos h, fun h1 h2 => ?_, fun h1 h2 h3 h4 => ?_⟩
  · rw [if_neg (by omega), if_pos]
    rcases h2 with h2 | h2
    · exact Or.inl fun h => h.elim h2.1 h2.2
    · exact Or.inr h2
  · rw [if_neg (by omega), if_neg, if_pos h4]
    rintro (h | h)
    · exact h h2
    · exact h h3

example := (C120_errors (1 / 2) true id ⟨8, 8, false, true⟩ 0 8 (tot fun _ => 1) ⟨0, 8, 5, 7⟩ ⟨100, 4, 4, 1⟩ 200 5).2.1 (by decide) (Or.inr (by decide))

end Armas.Props
