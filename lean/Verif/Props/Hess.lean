import Verif.HessLemmas
import Verif.Props.House
import Verif.QrFacLemmas

/-!
# C109: reduction to Hessenberg form

See `properties.jsonl`.
-/

namespace Armas.Props

open Finset

/-- Arguments of `armas_hessreduce_w`. -/
structure HessArgs (env : Env) (m : Mem ℝ) (A tau : View) (a : Nat → Nat → ℝ) (n w ws : Nat) : Prop where
  min2 : 2 ≤ env.blas2min ∨ (env.naive = true ∧ env.recursive = false)
  wf : A.WF
  sq : A.rows = n ∧ A.cols = n
  col : tau.cols = 1 ∧ tau.rows + 1 = n
  work : n ≤ ws
  hA : Holds m A a
  ht : ∀ k, k + 1 < n → ∃ x, m (tau.at' k 0) = some x
  hW : WAlloc m w ws
  dA : Disjoint A.foot (tcells tau (n - 1) ∪ wcells w ws)
  dt : Disjoint (tcells tau (n - 1)) (wcells w ws)

/-- C109, `armas_hessreduce_w` with the unblocked algorithm: for every square matrix `a` of any order, `Qᵀ a Q` is the upper Hessenberg part of
the result `f` (zeros below the first subdiagonal) and `a = Q (Hessenberg part) Qᵀ`, where `Q = H_0 H_1 ... H_{n-2}`, `H_k = I - t_k w_k w_kᵀ`,
`w_k = (0 ... 0 1 f(k+2.., k))` with the one in row `k + 1`, and `t` is what is stored in `tau`.  Every `H_k` is orthogonal.  Nothing but
`A`, `tau` and the first `n` elements of the work space is written.  The last reflector is the identity. -/
theorem C109_hess_partial {safmin : ℝ} (nonneg : Bool) (h0 : 0 < safmin) (h1 : safmin < 1) (ab : ℝ → ℝ) {env : Env} {m : Mem ℝ} {A tau : View}
    {a : Nat → Nat → ℝ} {n w ws : Nat} (H : HessArgs env m A tau a n w ws) {fuel : Nat} (hf : n < fuel) :
    Runs (hessreduceW safmin nonneg ab env fuel m A tau w ws) (fun r => r.1 = 0 ∧ ∃ f t, Holds r.2 A f ∧
      (∀ k, k + 1 < n → r.2 (tau.at' k 0) = some (t k)) ∧
      (∀ i j, i < n → j < n → hessTo n (n - 1) t f a i j = hessPart f i j) ∧
      (∀ i j, i < n → j < n → hessFrom n (n - 1) t f (hessPart f) i j = a i j) ∧
      (∀ k, k + 1 < n → OrthogonalRefl n (t k) (hessw f k)) ∧ (∀ k, k + 2 = n → t k = 0) ∧
      Frame (A.foot ∪ tcells tau (n - 1) ∪ wcells w n) m r.2 ∧ WAlloc r.2 w ws) := by
  obtain ⟨min2, wf, ⟨hr, hc⟩, col, hws, hA, ht, hW, dA, dt⟩ := H
  choose! s hs using ht
  have sW : wcells w n ⊆ wcells w ws := fun p hp => ⟨hp.1, by have := hp.2; omega⟩
  unfold hessreduceW
  rw [if_neg (by omega), if_neg ?_, if_neg (by omega)]
  swap
  · rw [not_or, not_not]
    refine ⟨Or.inr col.1, ?_⟩
    unfold View.size
    rw [col.1]; omega
  refine (unblkHess_spec nonneg h0 h1 ab min2 hr hc hf wf hA hs (hW.le hws)
    (fun k hk h => Set.disjoint_left.mp dA h (Or.inl ⟨k, by omega, rfl⟩))
    (dA.mono_right fun p hp => Or.inr (sW hp))
    (fun k hk h => Set.disjoint_left.mp dt ⟨k, by omega, rfl⟩ (sW h))).bind ?_
  rintro m' ⟨f, t, k1, k2, kw, k3, k4⟩
  have e : ∀ i j, i < n → j < n → hessTo n (n - 1) t f a i j = hessPart f i j := by
    intro i j hi hj
    rw [k4.prod i j hi hj]
    unfold hessMid hessPart
    by_cases c : j + 1 < i
    · rw [if_pos c, if_pos ⟨by omega, c⟩]
    · rw [if_neg c, if_neg fun h => c h.2]
  refine Runs.pure ⟨rfl, f, t, k1, k2, e, ?_, fun k hk => orth_of (k4.norm k (by omega)), fun k hk => k4.last k (by omega) hk, k3.mono ?_, ?_⟩
  · intro i j hi hj
    rw [hessFrom_congr (n - 1) (hessPart f) (hessTo n (n - 1) t f a) (fun i j hi hj => (e i j hi hj).symm) i j hi hj,
      hessFrom_hessTo (n - 1) a k4.norm]
  · rintro p ((h | ⟨k, hk, h⟩) | h)
    · exact Or.inl (Or.inl h)
    · exact Or.inl (Or.inr ⟨k, by omega, h⟩)
    · exact Or.inr h
  · intro p hp
    by_cases h : p < n
    · exact kw p h
    · dsimp only
      rw [k3 _ ?_]
      · exact hW p hp
      · have hm : w + p ∈ wcells w ws := ⟨by omega, by omega⟩
        rintro ((h' | ⟨k, hk, h'⟩) | h')
        · exact Set.disjoint_left.mp dA h' (Or.inr hm)
        · exact Set.disjoint_left.mp dt ⟨k, by omega, h'⟩ hm
        · have := h'.2; omega

/-- Concrete arguments. -/
theorem hessArgs_demo (g : Nat → ℝ) : HessArgs ⟨8, 8, false, true⟩ (tot g) ⟨0, 8, 6, 6⟩ ⟨60, 6, 5, 1⟩ (fun i j => g (0 + i + j * 8)) 6 70 20 where
  min2 := Or.inl (by decide)
  wf := Or.inl (by decide)
  sq := ⟨rfl, rfl⟩
  col := ⟨rfl, by decide⟩
  work := by decide
  hA := holds_tot _ _
  ht := fun _ _ => ⟨_, rfl⟩
  hW := fun _ _ => ⟨_, rfl⟩
  dA := Set.disjoint_left.mpr (by
    rintro p ⟨i, j, hi, hj, rfl⟩ (⟨k, hk, h⟩ | ⟨h1, h2⟩) <;> simp [View.at'] at * <;> omega)
  dt := Set.disjoint_left.mpr (by
    rintro p ⟨k, hk, rfl⟩ ⟨h1, h2⟩
    simp [View.at'] at *
    omega)

example := C109_hess_partial (safmin := 1 / 2) true (by norm_num) (by norm_num) (fun x => |x|) (hessArgs_demo fun p => (p : ℝ)) (fuel := 30) (by decide)

/-- C109: a matrix that is not square, a `tau` that is not a vector of one element less than the order, and a work space of less than one element
per row are refused without a change. -/
theorem C109_errors (safmin : ℝ) (nonneg : Bool) (ab : ℝ → ℝ) (env : Env) (fuel : Nat) (m : Mem ℝ) (A tau : View) (w ws : Nat) :
    (A.rows ≠ A.cols → hessreduceW safmin nonneg ab env fuel m A tau w ws = .ok (-ESIZE, m)) ∧
    (A.rows = A.cols → (¬ tau.isVec ∨ tau.size + 1 ≠ A.rows) → hessreduceW safmin nonneg ab env fuel m A tau w ws = .ok (-EINVAL, m)) ∧
    (A.rows = A.cols → tau.isVec → tau.size + 1 = A.rows → ws < A.rows →
      hessreduceW safmin nonneg ab env fuel m A tau w ws = .ok (-EWORK, m)) := by
  refine ⟨fun h => ?_, fun h h' => ?_, fun h h1 h2 h3 => ?_⟩
  · unfold hessreduceW; rw [if_pos h]
  · unfold hessreduceW; rw [if_neg (not_not.mpr h), if_pos h']
  · unfold hessreduceW; rw [if_neg (not_not.mpr h), if_neg (by rw [not_or, not_not, not_not]; exact ⟨h1, h2⟩), if_pos h3]

example := (C109_errors (1 / 2) true (fun x => |x|) ⟨8, 8, false, true⟩ 30 (tot fun p => (p : ℝ)) ⟨0, 8, 6, 6⟩ ⟨60, 6, 4, 1⟩ 70 20).2.1 rfl
  (Or.inr (by decide))

end Armas.Props
