import Verif.TrdLemmas
import Verif.Props.Hess

/-!
# C111: reduction of a symmetric matrix to tridiagonal form

See `properties.jsonl`.
-/

namespace Armas.Props

open Finset

/-- Arguments of `armas_trdreduce_w`: only the lower triangle of `A` need be there. -/
structure TrdArgs (env : Env) (m : Mem ℝ) (A tau : View) (a : Nat → Nat → ℝ) (n w ws : Nat) : Prop where
  min2 : 2 ≤ env.blas2min
  wf : A.WF
  sq : A.rows = n ∧ A.cols = n
  col : tau.cols = 1 ∧ tau.rows = n
  work : n ≤ ws
  hA : HoldsOn m A (InTri false false) a
  ht : ∀ k, k < n → ∃ x, m (tau.at' k 0) = some x
  hW : WAlloc m w ws
  dA : Disjoint (A.footOn (InTri false false)) (tcells tau n ∪ wcells w ws)
  dt : Disjoint (tcells tau n) (wcells w ws)

/-- C111, `armas_trdreduce_w` with `ARMAS_LOWER` and the unblocked algorithm: for every symmetric matrix `S` of any order, given by its lower
triangle, `Qᵀ S Q` is the tridiagonal matrix `T` with the diagonal and the subdiagonal of the result `f`, and `S = Q T Qᵀ`, where
`Q = H_0 H_1 ... H_{n-1}`, `H_k = I - t_k w_k w_kᵀ`, `w_k = (0 ... 0 1 f(k+2.., k))` with the one in row `k + 1`, and `t` is what is stored in
`tau`.  Every `H_k` is orthogonal, the last two are the identity.  Nothing but the lower triangle of `A`, `tau` and the first `n` elements of the
work space is written. -/
theorem C111_trd_partial {safmin : ℝ} (nonneg : Bool) (h0 : 0 < safmin) (h1 : safmin < 1) (ab : ℝ → ℝ) {env : Env} {m : Mem ℝ} {A tau : View}
    {a : Nat → Nat → ℝ} {n w ws : Nat} (H : TrdArgs env m A tau a n w ws) {fuel : Nat} (hf : n + 1 < fuel) :
    Runs (trdreduceW safmin nonneg ab env fuel m A tau w ws) (fun r => r.1 = 0 ∧ ∃ f t, HoldsOn r.2 A (InTri false false) f ∧
      (∀ k, k < n → r.2 (tau.at' k 0) = some (t k)) ∧
      (∀ i j, i < n → j < n → hessTo n n t f (symLower a) i j = trdPart f i j) ∧
      (∀ i j, i < n → j < n → hessFrom n n t f (trdPart f) i j = symLower a i j) ∧
      (∀ k, k < n → OrthogonalRefl n (t k) (hessw f k)) ∧ (∀ k, k < n → n ≤ k + 2 → t k = 0) ∧
      Frame (A.footOn (InTri false false) ∪ tcells tau n ∪ wcells w n) m r.2 ∧ WAlloc r.2 w ws) := by
  obtain ⟨min2, wf, ⟨hr, hc⟩, col, hws, hA, ht, hW, dA, dt⟩ := H
  choose! s hs using ht
  have sW : wcells w n ⊆ wcells w ws := fun p hp => ⟨hp.1, by have := hp.2; omega⟩
  have zt : tau.size = n := by rw [View.size, col.1, col.2, Nat.mul_one]
  unfold trdreduceW
  rw [if_neg (by omega), if_neg (fun h => h.1 (Or.inr col.1)), if_neg (by omega)]
  refine (unblkTrdLower_spec nonneg h0 h1 ab min2 hr hc (by omega) hf wf hA hs (hW.le hws)
    (fun k hk h => Set.disjoint_left.mp dA h (Or.inl ⟨k, by omega, rfl⟩))
    (dA.mono_right fun p hp => Or.inr (sW hp))
    (fun k hk h => Set.disjoint_left.mp dt ⟨k, by omega, rfl⟩ (sW h))).bind ?_
  rintro m' ⟨f, t, k1, k2, kw, k3, k4⟩
  have e : ∀ i j, i < n → j < n → hessTo n n t f (symLower a) i j = trdPart f i j := by
    intro i j hi hj
    rw [k4.prod i j hi hj]
    unfold trdMid trdPart
    rcases lt_trichotomy i j with c | c | c
    · rw [Nat.min_eq_left c.le, Nat.max_eq_right c.le, if_neg (by omega : ¬ i = j), if_neg (by omega : ¬ i = j + 1)]
      by_cases c2 : j = i + 1
      · rw [if_neg (by omega), if_pos c2]
      · rw [if_pos (by omega), if_neg c2]
    · subst c
      rw [Nat.min_self, Nat.max_self, if_neg (by omega), if_pos rfl]
    · rw [Nat.min_eq_right c.le, Nat.max_eq_left c.le, if_neg (by omega : ¬ i = j)]
      by_cases c2 : i = j + 1
      · rw [if_neg (by omega), if_pos c2]
      · rw [if_pos (by omega), if_neg c2, if_neg (by omega)]
  refine Runs.pure ⟨rfl, f, t, k1, k2, e, ?_, fun k hk => orth_of (k4.norm k (by omega)), fun k hk => k4.last k hk, k3, ?_⟩
  · intro i j hi hj
    rw [hessFrom_congr n (trdPart f) (hessTo n n t f (symLower a)) (fun i j hi hj => (e i j hi hj).symm) i j hi hj,
      hessFrom_hessTo n (symLower a) k4.norm]
  · intro p hp
    by_cases h : p < n
    · exact kw p h
    · dsimp only
      rw [k3 _ ?_]
      · exact hW p hp
      · have hm : w + p ∈ wcells w ws := ⟨by omega, by omega⟩
        rintro ((h' | ⟨k, hk, h'⟩) | h')
        · exact Set.disjoint_left.mp dA h' (Or.inr hm)
        · exact Set.disjoint_left.mp dt ⟨k, by omega, h'⟩ hm
        · have := h'.2; omega

/-- Concrete arguments. -/
theorem trdArgs_demo (g : Nat → ℝ) : TrdArgs ⟨8, 8, false, true⟩ (tot g) ⟨0, 8, 6, 6⟩ ⟨60, 6, 6, 1⟩ (fun i j => g (0 + i + j * 8)) 6 70 20 where
  min2 := by decide
  wf := Or.inl (by decide)
  sq := ⟨rfl, rfl⟩
  col := ⟨rfl, by decide⟩
  work := by decide
  hA := fun i j _ _ _ => rfl
  ht := fun _ _ => ⟨_, rfl⟩
  hW := fun _ _ => ⟨_, rfl⟩
  dA := Set.disjoint_left.mpr (by
    rintro p ⟨i, j, hi, hj, -, rfl⟩ (⟨k, hk, h⟩ | ⟨h1, h2⟩) <;> simp [View.at'] at * <;> omega)
  dt := Set.disjoint_left.mpr (by
    rintro p ⟨k, hk, rfl⟩ ⟨h1, h2⟩
    simp [View.at'] at *
    omega)

example := C111_trd_partial (safmin := 1 / 2) true (by norm_num) (by norm_num) (fun x => |x|) (trdArgs_demo fun p => (p : ℝ)) (fuel := 30) (by decide)

/-- C111: a matrix that is not square and a work space of less than one element per column are refused without a change. -/
theorem C111_errors (safmin : ℝ) (nonneg : Bool) (ab : ℝ → ℝ) (env : Env) (fuel : Nat) (m : Mem ℝ) (A tau : View) (w ws : Nat) :
    (A.rows ≠ A.cols → trdreduceW safmin nonneg ab env fuel m A tau w ws = .ok (-ESIZE, m)) ∧
    (A.rows = A.cols → tau.isVec → ws < A.cols → trdreduceW safmin nonneg ab env fuel m A tau w ws = .ok (-EWORK, m)) := by
  refine ⟨fun h => ?_, fun h h1 h2 => ?_⟩
  · unfold trdreduceW; rw [if_pos h]
  · unfold trdreduceW; rw [if_neg (not_not.mpr h), if_neg (fun h => h.1 h1), if_pos h2]

example := (C111_errors (1 / 2) true (fun x => |x|) ⟨8, 8, false, true⟩ 30 (tot fun p => (p : ℝ)) ⟨0, 8, 6, 6⟩ ⟨60, 6, 6, 1⟩ 70 5).2 rfl
  (Or.inr rfl) (by decide)

/-- C111: a vector `tau` of the wrong size is not refused (`src/lapack/trired.c:661`: the two tests are joined by "and").  With an empty one the
code returns without an error and leaves `A` as it was; what is there then is not a reduction, with whatever scalars. -/
theorem C111_tau_false (safmin : ℝ) (nonneg : Bool) (ab : ℝ → ℝ) (env : Env) (fuel : Nat) : ∃ (m : Mem ℝ) (A tau : View) (a : Nat → Nat → ℝ),
    A.rows = 3 ∧ A.cols = 3 ∧ A.WF ∧ tau.cols = 1 ∧ tau.size ≠ A.cols ∧ HoldsOn m A (InTri false false) a ∧ WAlloc m 20 3 ∧
    ∃ m', trdreduceW safmin nonneg ab env fuel m A tau 20 3 = .ok (0, m') ∧ ∀ f, HoldsOn m' A (InTri false false) f →
      ¬ ∃ t, (∀ k, k < 3 → OrthogonalRefl 3 (t k) (hessw f k)) ∧ ∀ i j, i < 3 → j < 3 → hessTo 3 3 t f (symLower a) i j = trdPart f i j := by
  refine ⟨tot fun p => if p = 2 then 1 else 0, ⟨0, 4, 3, 3⟩, ⟨40, 1, 0, 1⟩, fun i j => if i + j * 4 = 2 then 1 else 0, rfl, rfl, Or.inl (by decide), rfl, by decide,
    fun i j _ _ _ => by simp [tot, View.at'], fun _ _ => ⟨_, rfl⟩, _, rfl, ?_⟩
  rintro f hf ⟨t, ho, he⟩
  have e : ∀ i j, i < 3 → j ≤ i → f i j = if i + j * 4 = 2 then 1 else 0 := by
    intro i j hi hj
    have h := hf i j hi (show j < 3 by omega) (by simp [InTri, hj])
    simp only [tot, View.at', Nat.zero_add] at h
    exact (Option.some.inj h).symm
  have e10 := e 1 0 (by omega) (by omega)
  have e20 := e 2 0 (by omega) (by omega)
  have q1 := he 1 0 (by omega) (by omega)
  have q2 := he 2 0 (by omega) (by omega)
  have q3 := ho 1 (by omega)
  simp [hessTo, reflConj, refl, reflRt, hessw, trdPart, symLower, sum_range_succ, e10, e20] at q1 q2
  have q4 := q3 (fun i => if i = 2 then 1 else 0) (fun i => if i = 2 then 1 else 0)
  simp [reflV, hessw, sum_range_succ] at q4
  rw [q1] at q2
  have q5 : 1 - t 1 = 0 := by linarith
  rw [q5] at q4
  norm_num at q4

end Armas.Props
