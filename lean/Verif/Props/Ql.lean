import Verif.QlLemmas
import Verif.QlFlip
import Verif.Props.House

/-!
# C117: QL factorization

See `properties.jsonl`.
-/

namespace Armas.Props

open Finset

/-- Arguments of `armas_qlfactor_w`; `tau` is a column vector of at least `N` elements of which the last `N` are used. -/
structure QlArgs (env : Env) (m : Mem ℝ) (A tau : View) (a : Nat → Nat → ℝ) (w ws : Nat) : Prop where
  min2 : 2 ≤ env.blas2min ∨ (env.naive = true ∧ env.recursive = false)
  wf : A.WF
  shape : A.cols ≤ A.rows
  col : tau.cols = 1 ∧ A.cols ≤ tau.rows
  work : A.cols ≤ ws
  hA : Holds m A a
  ht : ∃ s, Holds m tau s
  hW : WAlloc m w ws
  dA : Disjoint A.foot (tau.foot ∪ wcells w ws)
  dt : Disjoint tau.foot (wcells w ws)

/-- `f` and `t` represent a QL factorization of `a`: `a = Q L` and `Qᵀ a = L`, `Q = H_{N-1} ... H_1 H_0`, where `L` is the lower triangle of `f` that ends in the bottom
right corner and every `H_k = I - t_k w_k w_kᵀ` is orthogonal; above row `M - N + k` the vector `w_k` is stored in column `k` of `f`. -/
structure IsQl (M N : Nat) (a f : Nat → Nat → ℝ) (t : Nat → ℝ) : Prop where
  fwd : ∀ i j, i < M → j < N → qlProd M N N t f (qlLower M N f) i j = a i j
  back : ∀ i j, i < M → j < N → qlProdT M N N t f a i j = qlLower M N f i j
  orth : ∀ k, k < N → OrthogonalRefl M (t k) (qlw M N f k)
  norm : ∀ k, k < N → t k = 0 ∨ t k * ∑ i ∈ range M, qlw M N f k i ^ 2 = 2

theorem isQl_of {M N : Nat} {a f F F0 : Nat → Nat → ℝ} {t s : Nat → ℝ} (hNM : N ≤ M) (hF : ∀ i j, i < M → j < N → F i j = f (M - 1 - i) (N - 1 - j))
    (hF0 : ∀ i j, i < M → j < N → F0 i j = a (M - 1 - i) (N - 1 - j)) (hs : ∀ d, d < N → s d = t (N - 1 - d)) (h : QrInv M N N F0 F s) : IsQl M N a f t := by
  have fl : ∀ (n i : Nat), i < n → n - 1 - (n - 1 - i) = i := by omega
  have nrm : ∀ k, k < N → t k = 0 ∨ t k * ∑ i ∈ range M, qlw M N f k i ^ 2 = 2 := by
    intro k hk
    have n := h.norm (N - 1 - k) (by omega)
    rw [hs _ (by omega), fl N k hk] at n
    rw [← sum_range_reflect]
    refine n.imp id fun n => ?_
    rw [← n]
    refine congrArg _ (sum_congr rfl fun l hl => ?_)
    rw [qlw_flip hNM (by omega) hF l (mem_range.mp hl), fl N k hk]
  refine ⟨?_, ?_, fun k hk => orth_of (nrm k hk), nrm⟩
  · intro i j hi hj
    have q := qlProd_flip hNM hF hs (N - 1 - j) N (qlLower M N f) (qrMid N F) (le_refl _) (fun i hi => qlLower_flip hNM hF hi (by omega)) (M - 1 - i) (by omega)
    rw [fl M i hi, fl N j hj] at q
    rw [← q, h.prod _ _ (by omega) (by omega), hF0 _ _ (by omega) (by omega), fl M i hi, fl N j hj]
  · intro i j hi hj
    have q := qlProdT_flip hNM hF hs (N - 1 - j) a F0 (fun i hi => hF0 i _ hi (by omega)) N (le_refl _) (M - 1 - i) (by omega)
    rw [fl M i hi, fl N j hj] at q
    have l := qlLower_flip hNM hF (i := M - 1 - i) (j := N - 1 - j) (by omega) (by omega)
    rw [fl M i hi, fl N j hj] at l
    rw [← q, ← l, ← qrProdT_qrProd h.norm (qrMid N F) (N - 1 - j) (M - 1 - i) (by omega)]
    exact qrProdT_col (fun _ _ => rfl) (fun _ _ _ _ => rfl) (fun i hi => (h.prod i _ hi (by omega)).symm) _ (by omega)

/-- C117, `armas_qlfactor_w` with a block size that selects the unblocked algorithm: `A` is overwritten with `L` and the vectors of the reflectors, the last `N` elements
of `tau` with their scalars, so that `A = Q L`.  Nothing else changes but the work space. -/
theorem C117_ql_partial {safmin : ℝ} (nonneg : Bool) (h0 : 0 < safmin) (h1 : safmin < 1) (ab : ℝ → ℝ) {env : Env} {m : Mem ℝ} {A tau : View}
    {a : Nat → Nat → ℝ} {w ws : Nat} (H : QlArgs env m A tau a w ws) {elb : Nat} (hlb : invBlock elb A.cols ws = 0 ∨ A.cols ≤ invBlock elb A.cols ws)
    {fuel : Nat} (hf : A.rows < fuel) :
    Runs (qlfactorW safmin nonneg ab env elb fuel m A tau w ws) (fun r => r.1 = 0 ∧ ∃ f t, Holds r.2 A f ∧
      (∀ k, k < A.cols → r.2 (tau.at' (tau.rows - A.cols + k) 0) = some (t k)) ∧ IsQl A.rows A.cols a f t ∧
      Frame (A.foot ∪ {p | ∃ k, k < A.cols ∧ p = tau.at' (tau.rows - A.cols + k) 0} ∪ wcells w A.cols) m r.2 ∧ WAlloc r.2 w ws) := by
  obtain ⟨min2, wf, shape, ⟨c1, c2⟩, work, hA, ⟨s, ht⟩, hW, dA, dt⟩ := H
  obtain ⟨M, hM⟩ : ∃ M, A.rows = M := ⟨_, rfl⟩
  obtain ⟨N, hN⟩ : ∃ N, A.cols = N := ⟨_, rfl⟩
  rw [hN] at hlb work c2 shape
  rw [hM] at hf shape
  unfold qlfactorW
  rw [hM, hN]
  have mn : min M N = N := Nat.min_eq_right shape
  have tin : ∀ k, k < N → tau.at' (tau.rows - 1 - k) 0 ∈ tau.foot := fun k hk => View.at_mem_foot (by omega) (by omega)
  have wsub : wcells w N ⊆ wcells w ws := fun p hp => ⟨hp.1, lt_of_lt_of_le hp.2 (by omega)⟩
  have tsz : tau.size = tau.rows := by rw [View.size, c1, Nat.mul_one]
  rw [if_neg (by omega), if_neg (by rw [tsz]; exact fun h => h.elim (fun h => h (Or.inr c1)) (fun h => by omega)), if_neg (by omega), if_pos hlb]
  refine Runs.bind (unblkQl_spec nonneg h0 h1 ab min2 (M := M) (N := N) (W := w) (F0 := fun i j => a (M - 1 - i) (N - 1 - j))
    (s := fun k => s (tau.rows - 1 - k) 0) hM hN (by omega) hf wf (Holds.congr hA fun i j hi hj => ?_) (by omega)
    (fun k hk => ht _ _ (by omega) (by omega)) (hW.le work)
    (fun k hk h => Set.disjoint_left.mp dA h (Or.inl (tin k (by omega))))
    (dA.mono_right fun p hp => Or.inr (wsub hp)) (fun k hk h => Set.disjoint_left.mp dt (tin k (by omega)) (wsub h))) ?_
  · rw [show M - 1 - (M - 1 - i) = i by omega, show N - 1 - (N - 1 - j) = j by omega]
  rintro m' ⟨F, t, k1, k2, kw, k3, k4⟩
  rw [mn] at k2 k3 k4
  refine Runs.pure ⟨rfl, fun i j => F (M - 1 - i) (N - 1 - j), fun k => t (N - 1 - k), k1, fun k hk => ?_, ?_, k3.mono ?_, fun p hp => ?_⟩
  · have := k2 (N - 1 - k) (by omega)
    rwa [show tau.rows - 1 - (N - 1 - k) = tau.rows - N + k by omega] at this
  · refine isQl_of shape (fun i j hi hj => ?_) (fun i j hi hj => rfl) (fun d hd => ?_) k4
    · rw [show M - 1 - (M - 1 - i) = i by omega, show N - 1 - (N - 1 - j) = j by omega]
    · rw [show N - 1 - (N - 1 - d) = d by omega]
  · rintro p ((h | ⟨k, hk, h⟩) | h)
    · exact Or.inl (Or.inl h)
    · exact Or.inl (Or.inr ⟨N - 1 - k, by omega, by rw [h, show tau.rows - N + (N - 1 - k) = tau.rows - 1 - k by omega]⟩)
    · exact Or.inr h
  · by_cases h : p < N
    · exact kw p h
    obtain ⟨y, hy⟩ := hW p hp
    have hm : w + p ∈ wcells w ws := ⟨by omega, by omega⟩
    refine ⟨y, ?_⟩
    rw [← hy]
    refine k3 _ ?_
    rintro ((h' | ⟨k, hk, h'⟩) | h')
    · exact Set.disjoint_left.mp dA h' (Or.inr hm)
    · rw [h'] at hm
      exact Set.disjoint_left.mp dt (tin k hk) hm
    · have := h'.2; omega

/-- Concrete arguments. -/
theorem qlArgs_demo (g : Nat → ℝ) : QlArgs ⟨8, 8, false, true⟩ (tot g) ⟨0, 8, 7, 5⟩ ⟨100, 6, 6, 1⟩ (fun i j => g (i + j * 8)) 200 5 where
  min2 := Or.inl (by decide)
  wf := Or.inl (by decide)
  shape := by decide
  col := ⟨rfl, by decide⟩
  work := le_refl _
  hA := fun i j _ _ => by simp [tot, View.at']
  ht := ⟨_, holds_tot _ _⟩
  hW := fun _ _ => ⟨_, rfl⟩
  dA := Set.disjoint_left.mpr (by
    rintro p ⟨i, j, hi, hj, rfl⟩ (⟨i', j', hi', hj', h⟩ | ⟨h1, h2⟩) <;> simp only [View.at'] at * <;> omega)
  dt := Set.disjoint_left.mpr (by
    rintro p ⟨i, j, hi, hj, rfl⟩ ⟨h1, h2⟩; simp only [View.at'] at *; omega)

example := C117_ql_partial (safmin := 1 / 2) false (by norm_num) (by norm_num) (fun x => |x|) (qlArgs_demo fun p => (p : ℝ)) (elb := 0)
  (Or.inl (by decide)) (fuel := 8) (by decide)

/-- C117: more columns than rows, a `tau` that is no vector or too short, and a short work space are refused in this order, without a change. -/
theorem C117_errors (safmin : ℝ) (nonneg : Bool) (ab : ℝ → ℝ) (env : Env) (elb fuel : Nat) (m : Mem ℝ) (A tau : View) (w ws : Nat) :
    (A.rows < A.cols → qlfactorW safmin nonneg ab env elb fuel m A tau w ws = .ok (-ESIZE, m)) ∧
    (A.cols ≤ A.rows → ((tau.rows ≠ 1 ∧ tau.cols ≠ 1) ∨ tau.rows * tau.cols < A.cols) → qlfactorW safmin nonneg ab env elb fuel m A tau w ws = .ok (-EINVAL, m)) ∧
    (A.cols ≤ A.rows → (tau.rows = 1 ∨ tau.cols = 1) → A.cols ≤ tau.rows * tau.cols → ws < A.cols →
      qlfactorW safmin nonneg ab env elb fuel m A tau w ws = .ok (-EWORK, m)) := by
  unfold qlfactorW
  refine ⟨fun h => if_pos h, fun h1 h2 => ?_, fun h1 h2 h3 h4 => ?_⟩
  · rw [if_neg (by omega), if_pos]
    rcases h2 with h2 | h2
    · exact Or.inl fun h => h.elim h2.1 h2.2
    · exact Or.inr h2
  · rw [if_neg (by omega), if_neg, if_pos h4]
    rintro (h | h)
    · exact h h2
    · exact absurd h (Nat.not_lt.mpr h3)

example := (C117_errors (1 / 2) true id ⟨8, 8, false, true⟩ 0 8 (tot fun _ => 1) ⟨0, 8, 7, 5⟩ ⟨100, 4, 4, 1⟩ 200 5).2.1 (by decide) (Or.inr (by decide))

end Armas.Props
