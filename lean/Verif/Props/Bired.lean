import Verif.BiredStep
import Verif.Props.Hess

/-!
# C114: reduction to bidiagonal form

See `properties.jsonl`.
-/

namespace Armas.Props

open Finset

/-- Arguments of `armas_bdreduce_w` for a matrix with `n = min(rows, cols)`.  The code looks neither at the sizes of `tauq` and `taup` nor at whether they
are there; both must have at least `n` elements. -/
structure BdArgs (env : Env) (m : Mem ℝ) (A tauq taup : View) (a : Nat → Nat → ℝ) (n w ws : Nat) : Prop where
  min2 : 2 ≤ env.blas2min ∨ (env.naive = true ∧ env.recursive = false)
  wf : A.WF
  size : n = min A.rows A.cols
  work : A.cols + A.rows ≤ ws
  hA : Holds m A a
  hq : ∀ k, k < n → ∃ x, m (tauq.at' k 0) = some x
  hp : ∀ k, k < n → ∃ x, m (taup.at' k 0) = some x
  hW : WAlloc m w ws
  dA : Disjoint A.foot (tcells tauq n ∪ tcells taup n ∪ wcells w ws)
  dqp : Disjoint (tcells tauq n) (tcells taup n)
  dt : Disjoint (tcells tauq n ∪ tcells taup n) (wcells w ws)

/-- What the result `f`, `s`, `t` of a reduction of the matrix `a` with `M ≥ N` says: `bdTo` takes `a` to the bidiagonal matrix of `f`, `bdFrom` takes
it back, every factor is orthogonal, and those that have nothing to do are the identity. -/
structure IsBidiag (M N : Nat) (a f : Nat → Nat → ℝ) (s t : Nat → ℝ) : Prop where
  fwd : ∀ i j, i < M → j < N → bdTo M N N s t f a i j = bdPart f i j
  back : ∀ i j, i < M → j < N → bdFrom M N N s t f (bdPart f) i j = a i j
  orthl : ∀ k, k < N → OrthogonalRefl M (s k) (qrw f k)
  orthr : ∀ k, k < N → OrthogonalRefl N (t k) (hessw (fun i j => f j i) k)
  lasts : ∀ k, k < N → M = k + 1 → s k = 0
  lastt : ∀ k, k < N → N = k + 2 → t k = 0

theorem isBidiag_of {M N : Nat} {a f : Nat → Nat → ℝ} {s t : Nat → ℝ} (hNM : N ≤ M) (h : BdInv M N N a f s t) : IsBidiag M N a f s t := by
  have e : ∀ i j, i < M → j < N → bdTo M N N s t f a i j = bdPart f i j := by
    intro i j hi hj
    rw [h.prod i j hi hj]
    unfold bdMid bdPart
    by_cases c : j = i ∨ j = i + 1
    · rw [if_neg (by omega), if_pos c]
    · rw [if_pos (by omega), if_neg c]
  refine ⟨e, ?_, fun k hk => orth_of (h.norms k hk), ?_, h.lasts, h.lastt⟩
  · intro i j hi hj
    rw [bdFrom_congr N (bdPart f) (bdTo M N N s t f a) (fun i j hi hj => (e i j hi hj).symm) i j hi hj, bdFrom_bdTo N a h.norms h.normt i j hi hj]
  · intro k hk
    by_cases c : k + 1 < N
    · exact orth_of (h.normt k hk c)
    · intro x y
      have z : ∀ l, l ∈ range N → hessw (fun i j => f j i) k l = 0 := fun l hl => if_pos (by have := mem_range.mp hl; omega)
      refine sum_congr rfl fun l hl => ?_
      simp only [reflV, z l hl, mul_zero, zero_mul, sub_zero]

theorem walloc_ext {m m' : Mem ℝ} {A x y : View} {n w ws k : Nat} (dA : Disjoint A.foot (tcells x n ∪ tcells y n ∪ wcells w ws))
    (dt : Disjoint (tcells x n ∪ tcells y n) (wcells w ws)) (hW : WAlloc m w ws) (hk : WAlloc m' w k)
    (F : Frame (A.foot ∪ tcells x n ∪ tcells y n ∪ wcells w k) m m') : WAlloc m' w ws := by
  intro p hp
  by_cases h : p < k
  · exact hk p h
  · rw [F _ ?_]
    · exact hW p hp
    · have hm : w + p ∈ wcells w ws := ⟨by omega, by omega⟩
      rintro (((h' | h') | h') | h')
      · exact Set.disjoint_left.mp dA h' (Or.inr hm)
      · exact Set.disjoint_left.mp dt (Or.inl h') hm
      · exact Set.disjoint_left.mp dt (Or.inr h') hm
      · have := h'.2; omega

/-- C114, `armas_bdreduce_w` with the unblocked algorithm for a matrix with at least as many rows as columns: `Q = H_0 ... H_{n-1}`, `P = G_0 ... G_{n-1}`
of the vectors left in `A` and the scalars in `tauq` and `taup` take `A` to the upper bidiagonal matrix with the diagonal and the superdiagonal of the result:
`Qᵀ A P = B`, `A = Q B Pᵀ`.  Every factor is orthogonal.  Nothing but `A`, the first `n` elements of `tauq` and `taup` and `rows + cols` elements of the work space
is written. -/
theorem C114_left_partial {safmin : ℝ} (nonneg : Bool) (h0 : 0 < safmin) (h1 : safmin < 1) (ab : ℝ → ℝ) {env : Env} {m : Mem ℝ} {A tauq taup : View}
    {a : Nat → Nat → ℝ} {n w ws : Nat} (H : BdArgs env m A tauq taup a n w ws) (hrc : A.cols ≤ A.rows) {fuel : Nat} (hf : A.rows < fuel) :
    Runs (bdreduceW safmin nonneg ab env fuel m A tauq taup w ws) (fun r => r.1 = 0 ∧ ∃ f s t, Holds r.2 A f ∧
      (∀ k, k < n → r.2 (tauq.at' k 0) = some (s k)) ∧ (∀ k, k < n → r.2 (taup.at' k 0) = some (t k)) ∧
      IsBidiag A.rows A.cols a f s t ∧
      Frame (A.foot ∪ tcells tauq n ∪ tcells taup n ∪ wcells w (A.rows + A.cols)) m r.2 ∧ WAlloc r.2 w ws) := by
  obtain ⟨min2, wf, hn, hws, hA, hq, hp, hW, dA, dqp, dt⟩ := H
  have en : n = A.cols := by omega
  subst en
  choose! x1 hx1 using hq
  choose! x2 hx2 using hp
  have sW : wcells w (A.rows + A.cols) ⊆ wcells w ws := fun p hp => ⟨hp.1, by have := hp.2; omega⟩
  unfold bdreduceW
  rw [if_neg (by omega), if_pos hrc]
  refine (unblkBd_spec (tr := false) nonneg h0 h1 ab min2 ⟨rfl, rfl⟩ hrc hf wf hA hx1 hx2 (hW.le (by omega))
    (dA.mono_right fun p h => Or.inl (Or.inl h)) (dA.mono_right fun p h => Or.inl (Or.inr h)) dqp (dA.mono_right fun p h => Or.inr (sW h))
    (dt.mono (fun p h => Or.inl h) sW) (dt.mono (fun p h => Or.inr h) sW)).bind ?_
  rintro m' ⟨f, s, t, k1, k2, k3, k4, k5, k6⟩
  exact Runs.pure ⟨rfl, f, s, t, k1, k2, k3, isBidiag_of hrc k6, k5, walloc_ext dA dt hW k4 k5⟩

/-- C114, `armas_bdreduce_w` with the unblocked algorithm for a matrix with fewer rows than columns: the same of the transposes, with `taup` and `tauq` exchanged.
The first factors from the right are made of the rows of `A`, the ones from the left of its columns below the subdiagonal, and the result is lower
bidiagonal. -/
theorem C114_right_partial {safmin : ℝ} (nonneg : Bool) (h0 : 0 < safmin) (h1 : safmin < 1) (ab : ℝ → ℝ) {env : Env} {m : Mem ℝ} {A tauq taup : View}
    {a : Nat → Nat → ℝ} {n w ws : Nat} (H : BdArgs env m A tauq taup a n w ws) (hrc : A.rows < A.cols) {fuel : Nat} (hf : A.cols < fuel) :
    Runs (bdreduceW safmin nonneg ab env fuel m A tauq taup w ws) (fun r => r.1 = 0 ∧ ∃ f s t, Holds r.2 A f ∧
      (∀ k, k < n → r.2 (taup.at' k 0) = some (s k)) ∧ (∀ k, k < n → r.2 (tauq.at' k 0) = some (t k)) ∧
      IsBidiag A.cols A.rows (fun i j => a j i) (fun i j => f j i) s t ∧
      Frame (A.foot ∪ tcells tauq n ∪ tcells taup n ∪ wcells w (A.rows + A.cols)) m r.2 ∧ WAlloc r.2 w ws) := by
  obtain ⟨min2, wf, hn, hws, hA, hq, hp, hW, dA, dqp, dt⟩ := H
  have en : n = A.rows := by omega
  subst en
  choose! x1 hx1 using hq
  choose! x2 hx2 using hp
  have sW : wcells w (A.cols + A.rows) ⊆ wcells w ws := fun p hp => ⟨hp.1, by have := hp.2; omega⟩
  unfold bdreduceW
  rw [if_neg (by omega), if_neg (by omega)]
  refine (unblkBd_spec (tr := true) (f0 := fun i j => a j i) nonneg h0 h1 ab min2 ⟨rfl, rfl⟩ hrc.le hf wf (Holds.congr hA fun _ _ _ _ => rfl) hx2 hx1 (hW.le (by omega))
    (dA.mono_right fun p h => Or.inl (Or.inr h)) (dA.mono_right fun p h => Or.inl (Or.inl h)) dqp.symm (dA.mono_right fun p h => Or.inr (sW h))
    (dt.mono (fun p h => Or.inr h) sW) (dt.mono (fun p h => Or.inl h) sW)).bind ?_
  rintro m' ⟨f, s, t, k1, k2, k3, k4, k5, k6⟩
  refine Runs.pure ⟨rfl, fun i j => f j i, s, t, k1, k2, k3, isBidiag_of hrc.le k6, ?_, walloc_ext (by rwa [Set.union_comm (tcells taup _)]) (by rwa [Set.union_comm]) hW k4 k5⟩
  refine k5.mono ?_
  rw [Nat.add_comm A.rows A.cols]
  rintro p (((h | h) | h) | h)
  · exact Or.inl (Or.inl (Or.inl h))
  · exact Or.inl (Or.inr h)
  · exact Or.inl (Or.inl (Or.inr h))
  · exact Or.inr h

/-- Concrete arguments. -/
theorem bdArgs_demo (g : Nat → ℝ) (r c : Nat) (hr : r ≤ 7) (hc : c ≤ 7) :
    BdArgs ⟨8, 8, false, true⟩ (tot g) ⟨0, 8, r, c⟩ ⟨60, 7, 7, 1⟩ ⟨70, 7, 7, 1⟩ (fun i j => g (0 + i + j * 8)) (min r c) 80 20 where
  min2 := Or.inl (by decide)
  wf := Or.inl (by simp; omega)
  size := rfl
  work := by simp; omega
  hA := fun i j _ _ => rfl
  hq := fun _ _ => ⟨_, rfl⟩
  hp := fun _ _ => ⟨_, rfl⟩
  hW := fun _ _ => ⟨_, rfl⟩
  dA := Set.disjoint_left.mpr (by
    rintro p ⟨i, j, hi, hj, rfl⟩ ((⟨k, hk, h⟩ | ⟨k, hk, h⟩) | ⟨h1, h2⟩) <;> simp [View.at'] at * <;> omega)
  dqp := Set.disjoint_left.mpr (by
    rintro p ⟨k, hk, rfl⟩ ⟨k', hk', h⟩
    simp [View.at'] at *
    omega)
  dt := Set.disjoint_left.mpr (by
    rintro p (⟨k, hk, rfl⟩ | ⟨k, hk, rfl⟩) ⟨h1, h2⟩ <;> simp [View.at'] at * <;> omega)

example := C114_left_partial (safmin := 1 / 2) true (by norm_num) (by norm_num) (fun x => |x|) (bdArgs_demo (fun p => (p : ℝ)) 7 5 (by decide) (by decide))
  (by decide) (fuel := 30) (by decide)

example := C114_right_partial (safmin := 1 / 2) true (by norm_num) (by norm_num) (fun x => |x|) (bdArgs_demo (fun p => (p : ℝ)) 4 6 (by decide) (by decide))
  (by decide) (fuel := 30) (by decide)

/-- C114: a work space of less than `rows + cols` elements is refused without a change. -/
theorem C114_errors (safmin : ℝ) (nonneg : Bool) (ab : ℝ → ℝ) (env : Env) (fuel : Nat) (m : Mem ℝ) (A tauq taup : View) (w ws : Nat)
    (h : ws < A.cols + A.rows) : bdreduceW safmin nonneg ab env fuel m A tauq taup w ws = .ok (-EWORK, m) := by
  unfold bdreduceW; rw [if_pos h]

example := C114_errors (1 / 2) true (fun x => |x|) ⟨8, 8, false, true⟩ 30 (tot fun p => (p : ℝ)) ⟨0, 8, 6, 6⟩ ⟨60, 6, 6, 1⟩ ⟨70, 6, 6, 1⟩ 80 11 (by decide)

/-- C114: vectors `tauq` and `taup` that are too short are not refused (`src/lapack/bired.c:920-987` looks at neither).  For a matrix of two rows and
columns and a `tauq` of one element the code returns without an error and has overwritten the element behind `tauq`, which belongs to none of its arguments. -/
theorem C114_tau_false {safmin : ℝ} (nonneg : Bool) (h0 : 0 < safmin) (h1 : safmin < 1) (ab : ℝ → ℝ) {env : Env} (hmin : 2 ≤ env.blas2min) {fuel : Nat}
    (hf : 2 < fuel) : ∃ (m : Mem ℝ) (A tauq taup : View) (p : Nat),
    A.rows = 2 ∧ A.cols = 2 ∧ A.WF ∧ tauq.cols = 1 ∧ tauq.rows = 1 ∧ taup.cols = 1 ∧ taup.rows = 2 ∧
    p ∉ A.foot ∪ tauq.foot ∪ taup.foot ∪ wcells 80 4 ∧
    Runs (bdreduceW safmin nonneg ab env fuel m A tauq taup 80 4) (fun r => r.1 = 0 ∧ m p = some 5 ∧ r.2 p = some 0) := by
  have H : BdArgs env (tot fun _ => (5 : ℝ)) ⟨0, 8, 2, 2⟩ ⟨60, 1, 1, 1⟩ ⟨70, 2, 2, 1⟩ (fun _ _ => 5) 2 80 4 := by
    refine ⟨Or.inl hmin, Or.inl (by decide), rfl, by decide, fun _ _ _ _ => rfl, fun _ _ => ⟨_, rfl⟩, fun _ _ => ⟨_, rfl⟩, fun _ _ => ⟨_, rfl⟩, ?_, ?_, ?_⟩
    · refine Set.disjoint_left.mpr ?_
      rintro p ⟨i, j, hi, hj, rfl⟩ ((⟨k, hk, h⟩ | ⟨k, hk, h⟩) | ⟨h1, h2⟩) <;> simp [View.at'] at * <;> omega
    · refine Set.disjoint_left.mpr ?_
      rintro p ⟨k, hk, rfl⟩ ⟨k', hk', h⟩
      simp [View.at'] at *
      omega
    · refine Set.disjoint_left.mpr ?_
      rintro p (⟨k, hk, rfl⟩ | ⟨k, hk, rfl⟩) ⟨h1, h2⟩ <;> simp [View.at'] at * <;> omega
  refine ⟨tot fun _ => 5, ⟨0, 8, 2, 2⟩, ⟨60, 1, 1, 1⟩, ⟨70, 2, 2, 1⟩, 61, rfl, rfl, Or.inl (by decide), rfl, rfl, rfl, rfl, ?_,
    (C114_left_partial nonneg h0 h1 ab H (le_refl _) hf).mono ?_⟩
  · rintro (((⟨i, j, hi, hj, h⟩ | ⟨i, j, hi, hj, h⟩) | ⟨i, j, hi, hj, h⟩) | ⟨h1, h2⟩) <;> simp [View.at'] at * <;> omega
  · rintro r ⟨e, f, s, t, -, k2, -, k4, -, -⟩
    refine ⟨e, rfl, ?_⟩
    have := k2 1 (by decide)
    rwa [k4.lasts 1 (by decide) rfl] at this

example := C114_tau_false (safmin := 1 / 2) true (by norm_num) (by norm_num) (fun x => |x|) (env := ⟨8, 8, false, true⟩) (by decide) (fuel := 30) (by decide)

end Armas.Props
