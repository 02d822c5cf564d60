import Verif.BdBuildLemmas
import Verif.Props.BdMult
import Verif.Props.TrdMult
import Verif.Props.LqBuild

/-!
# C116: building the orthogonal matrices of a bidiagonal reduction

See `properties.jsonl`.
-/

namespace Armas.Props

open Finset

section field

variable {α : Type} [Field α] [DecidableEq α]

/-- Arguments of `armas_bdbuild_w` with `k` scalars in `tau` and a work space of at least `l` elements; the code looks at no size of `tau`. -/
structure BdBuildArgs (env : Env) (c : Cache) (m : Mem α) (A tau : View) (f : Nat → Nat → α) (t : Nat → α) (k l w ws : Nat) : Prop where
  conf : Conf3 env c
  min2 : 2 ≤ env.blas2min ∨ (env.naive = true ∧ env.recursive = false)
  wf : A.WF
  pos : 0 < A.rows ∧ 0 < A.cols
  work : l ≤ ws
  ready : c.Ready m
  hA : Holds m A f
  ht : ∀ l, l < k → m (tau.at' l 0) = some (t l)
  hW : WAlloc m w ws
  dA : Disjoint A.foot (tcells tau k ∪ wcells w ws ∪ c.foot)
  dt : Disjoint (tcells tau k) (wcells w ws ∪ c.foot)
  dW : Disjoint (wcells w ws) c.foot

omit [DecidableEq α] in
theorem BdBuildArgs.sub {env : Env} {c : Cache} {m : Mem α} {A tau : View} {f : Nat → Nat → α} {t : Nat → α} {k l w ws n : Nat}
    (H : BdBuildArgs env c m A tau f t k l w ws) (hn : 0 < n) (hr : n ≤ A.rows) (hc : n ≤ A.cols) :
    BdBuildArgs env c m (A.sub 0 0 n n) tau f t k l w ws := by
  obtain ⟨conf, min2, wf, pos, work, ready, hA, ht, hW, dA, dt, dW⟩ := H
  exact ⟨conf, min2, wf.sub (by omega) (by omega), ⟨hn, hn⟩, work, ready, (hA.part (by omega) (by omega)).congr fun i j _ _ => by rw [Nat.zero_add, Nat.zero_add],
    ht, hW, dA.mono_left (View.sub_foot (by omega) (by omega)), dt, dW⟩

theorem bdTall_true {A : View} {lower : Bool} (sh : A.cols < A.rows ∨ (A.rows = A.cols ∧ lower = false)) : bdTall A lower = true := by
  unfold bdTall
  rcases sh with h | ⟨h, rfl⟩
  · simp [h]
  · simp [h]

theorem bdTall_false {A : View} {lower : Bool} (sh : A.rows < A.cols ∨ (A.rows = A.cols ∧ lower = true)) : bdTall A lower = false := by
  unfold bdTall
  rcases sh with h | ⟨h, rfl⟩
  · simp; omega
  · simp [h]

theorem size_pos {A : View} (h : 0 < A.rows ∧ 0 < A.cols) : A.size ≠ 0 := by
  rw [View.size]
  exact Nat.mul_ne_zero (by omega) (by omega)

/-- The square case of `bdBuildP`. -/
theorem bdBuildP_spec (ab : α → α) {env : Env} {c : Cache} {m : Mem α} {A tau : View} {f : Nat → Nat → α} {t : Nat → α}
    {n w ws K : Nat} (hr : A.rows = n) (hc : A.cols = n) (H : BdBuildArgs env c m A tau f t (n - 1) (n - 1) w ws) (elb : Nat)
    (hz : elb = 0 ∨ n ≤ elb + 1 ∨ ∀ k, k + 2 = n → t k = 0) {fuel : Nat} (hf : 2 * n < fuel) :
    Runs (bdBuildP ab env elb fuel m A tau K w ws (some c)) (fun r => r.1 = 0 ∧ Frame (A.foot ∪ wcells w ws ∪ c.foot) m r.2 ∧
      c.Ready r.2 ∧ WAlloc r.2 w ws ∧
      Holds r.2 A (fun i j => hessProd n (min K (n - 1)) t (fun i j => f j i) (fun p q => if p = q then 1 else 0) j i)) := by
  obtain ⟨conf, min2, wf, ⟨hn, -⟩, work, ready, hA, ht, hW, dA, dt, dW⟩ := H
  rw [hr] at hn
  obtain ⟨p, rfl⟩ : ∃ p, n = p + 1 := ⟨n - 1, by omega⟩
  rw [Nat.add_sub_cancel] at *
  unfold bdBuildP
  rw [hc, Nat.add_sub_cancel]
  refine (bdShiftRow_all wf hr hc hA).bind ?_
  rintro m1 ⟨hA1, F1⟩
  have s0 : (A.sub 0 0 1 (p + 1)).foot ⊆ A.foot := View.sub_foot (by omega) (by omega)
  have hv : HoldsV m1 (A.sub 0 0 1 (p + 1)) (fun j => shiftedT 0 f 0 j) := by
    rw [holdsV_iff (Or.inl rfl)]
    exact (hA1.part (by omega) (by omega)).congr fun i j hi hj => by
      rw [View.sub_rows] at hi
      obtain rfl : i = 0 := by omega
      simp only [Nat.zero_add]
  refine (C06_scale 0 (Or.inl rfl) (wf.sub (by omega) (by omega)) hv).bind ?_
  rintro ⟨e, m2⟩ ⟨-, h2, F2⟩
  dsimp only at h2 F2 ⊢
  rw [holdsV_iff (Or.inl rfl)] at h2
  have hA2 := hA1.patch wf (by omega) (by omega) h2 F2
  refine Runs.wr_bind (hA2 0 0 (by omega) (by omega)) ?_
  have hA3 : Holds (m2.set (A.at' 0 0) 1) A (fun i j => if i = 0 then (if j = 0 then 1 else 0) else shiftedT 0 f i j) :=
    (hA2.write wf (by omega) (by omega) 1).congr fun i j hi hj => by
      rw [hc] at hj
      by_cases c1 : i = 0
      · subst c1
        rw [if_pos rfl]
        by_cases c2 : j = 0
        · rw [if_pos c2, if_pos ⟨rfl, c2⟩]
        · rw [if_neg c2, if_neg (fun h => c2 h.2), if_pos (by omega), zero_mul]
      · rw [if_neg c1, if_neg (fun h => c1 h.1), if_neg (by omega)]
  have F3 : Frame A.foot m (m2.set (A.at' 0 0) 1) := (F1.trans (F2.mono s0)).trans (Frame.set (View.at_mem_foot (by omega) (by omega)) _)
  generalize m2.set (A.at' 0 0) 1 = m3 at hA3 F3
  have sA : (A.sub 1 1 p p).foot ⊆ A.foot := View.sub_foot (by omega) (by omega)
  have dAt : Disjoint A.foot (tcells tau p) := dA.mono_right fun q h => Or.inl (Or.inl h)
  have dAw : Disjoint A.foot (wcells w ws) := dA.mono_right fun q h => Or.inl (Or.inr h)
  have dAc : Disjoint A.foot c.foot := dA.mono_right fun q h => Or.inr h
  have hQ : Holds m3 (A.sub 1 1 p p) (fun i j => (fun i j => if j ≤ i then f j (i + 1) else f (j + 1) (i + 1)) j i) :=
    (hA3.part (by omega) (by omega)).congr fun i j _ _ => by
      unfold shiftedT
      rw [if_neg (by omega), if_pos (by omega), if_neg (by omega), Nat.add_comm 1 i, Nat.add_comm 1 j, Nat.add_sub_cancel]
      beta_reduce
      by_cases c1 : i ≤ j
      · rw [if_pos c1, if_pos (by omega)]
      · rw [if_neg c1, if_neg (by omega)]
  refine (C95_lqbuild_partial ab (K := min K p) (A := A.sub 1 1 p p) (tau := tau.sub 0 0 p 1) (t := t) (w := w) (ws := ws) (c := c)
    (f := fun i j => if j ≤ i then f j (i + 1) else f (j + 1) (i + 1))
    ⟨conf, min2, wf.sub (by omega) (by omega), le_refl _, ⟨rfl, rfl⟩, by rw [View.sub_rows]; omega, ready.frame F3 dAc.symm, fun k hk => by
      rw [View.sub_rows] at hk
      rw [at_sub0, F3 _ fun h => Set.disjoint_left.mp dAt h ⟨k, hk, rfl⟩]
      exact ht k hk, hW.frame F3 dAw.symm, by rw [View.sub_rows, tcells_sub0]; exact dA.mono_left sA, by rw [View.sub_rows, tcells_sub0]; exact dt, dW⟩
    hQ (min_le_right _ _) elb ?_ (by rw [View.sub_cols, View.sub_rows]; omega)).mono ?_
  · rw [View.sub_rows, View.sub_cols]
    rcases hz with h | h | h
    · exact Or.inl h
    · exact Or.inr (Or.inl (by omega))
    · by_cases c1 : p ≤ elb
      · exact Or.inr (Or.inl c1)
      · exact Or.inr (Or.inr ⟨by omega, fun k hk hk' => h k (by omega)⟩)
  rintro ⟨e4, m4⟩ ⟨he, F4, rdy, hW4, Q, hQ4, hQe, -, -⟩
  dsimp only at he F4 rdy hW4 hQ4 hQe ⊢
  rw [View.sub_cols] at hQe
  refine ⟨he, ?_, rdy, hW4, fun i j hi hj => ?_⟩
  · exact (F3.mono fun q h => Or.inl (Or.inl h)).trans (F4.mono (Set.union_subset_union_left _ (Set.union_subset_union_left _ sA)))
  · rw [hr] at hi
    rw [hc] at hj
    have hout : (i = 0 ∨ j = 0) → m4 (A.at' i j) = m3 (A.at' i j) := by
      intro h0
      refine F4 _ ?_
      have hm : A.at' i j ∈ A.foot := View.at_mem_foot (by omega) (by omega)
      rintro ((h | h) | h)
      · rw [View.mem_sub_foot wf (by omega) (by omega) (by omega) (by omega)] at h; omega
      · exact Set.disjoint_left.mp dAw hm h
      · exact Set.disjoint_left.mp dAc hm h
    beta_reduce
    rcases j with _ | j
    · rw [hout (Or.inr rfl), hA3 i 0 (by omega) (by omega), hessProd_zero]
      unfold shiftedT
      beta_reduce
      by_cases c1 : i = 0
      · rw [if_pos c1, if_pos rfl, if_pos c1.symm]
      · rw [if_neg c1, if_pos (by omega), if_pos rfl, if_neg (Ne.symm c1)]
    · rw [hessProd_succ]
      rcases i with _ | i
      · have z : qrProd p (min K p) t (fun i j => f j (i + 1)) (fun i j => if i + 1 = j then (1 : α) else 0) j 0 = 0 :=
          qrProd_zero_col (M := p) (j := 0) (b := fun i j => if i + 1 = j then (1 : α) else 0) (fun l _ => if_neg (Nat.succ_ne_zero l)) j (by omega)
        rw [hout (Or.inl rfl), hA3 0 (j + 1) (by omega) (by omega), z]
        show some (if (0 : Nat) = 0 then (if j + 1 = 0 then (1 : α) else 0) else shiftedT 0 f 0 (j + 1)) = some 0
        rw [if_pos rfl, if_neg (Nat.succ_ne_zero j)]
      · have := hQ4 i j (by rw [View.sub_rows]; omega) (by rw [View.sub_cols]; omega)
        rw [View.at_sub, Nat.add_comm 1 i, Nat.add_comm 1 j] at this
        rw [this]
        beta_reduce
        rw [hQe]
        congr 1
        refine qrProd_colw _ _ _ (fun l i hl hi => ?_) (fun l hl => ?_) j (by omega)
        · unfold qrw
          by_cases c1 : i < l
          · rw [if_pos c1, if_pos c1]
          · rw [if_neg c1, if_neg c1]
            by_cases c2 : i = l
            · rw [if_pos c2, if_pos c2]
            · rw [if_neg c2, if_neg c2]
              exact if_pos (by omega)
        · by_cases c1 : l = i
          · rw [if_pos c1, if_pos (by omega)]
          · rw [if_neg c1, if_neg (by omega)]

/-- C116, `armas_bdbuild_w` with `ARMAS_WANTQ` for at least as many rows as columns: `A` becomes the first columns of `Q = H_0 H_1 ... H_{K-1}`, the product of the
first `K` reflectors below the diagonal.  When these are orthogonal, the columns are orthonormal.  For a block size that selects the blocked algorithm
reflectors with a zero scalar must have a zero vector and the last of a square matrix is the identity (C66). -/
theorem C116_tall_q_partial (ab : α → α) {env : Env} {c : Cache} {m : Mem α} {A tau : View} {f : Nat → Nat → α} {t : Nat → α}
    {w ws K : Nat} (H : BdBuildArgs env c m A tau f t A.cols A.cols w ws) (hK : K ≤ A.cols) {lower : Bool}
    (sh : A.cols < A.rows ∨ (A.rows = A.cols ∧ lower = false)) (elb : Nat)
    (hz : elb = 0 ∨ A.cols ≤ elb ∨
      ((∀ k, k < K → t k = 0 → ∀ i, k < i → i < A.rows → f i k = 0) ∧ ∀ k, k < A.cols → k + 1 = A.rows → t k = 0)) {fuel : Nat}
    (hf : A.cols + A.rows < fuel) :
    Runs (bdbuildW ab env elb fuel m A tau K true false lower w ws (some c)) (fun r => r.1 = 0 ∧ Frame (A.foot ∪ wcells w ws ∪ c.foot) m r.2 ∧
      c.Ready r.2 ∧ WAlloc r.2 w ws ∧ ∃ Q, Holds r.2 A Q ∧ (∀ i j, Q i j = qrProd A.rows K t f (fun p q => if p = q then 1 else 0) i j) ∧
      ((∀ k, k < K → t k = 0 ∨ t k * ∑ i ∈ range A.rows, qrw f k i ^ 2 = 2) → ∀ p q, p < A.cols → q < A.cols →
        ∑ i ∈ range A.rows, Q i p * Q i q = if p = q then 1 else 0)) := by
  obtain ⟨conf, min2, wf, pos, work, ready, hA, ht, hW, dA, dt, dW⟩ := H
  unfold bdbuildW
  rw [if_neg (size_pos pos), bdTall_true sh]
  refine (C66_qrbuild_partial ab (K := K) (A := A) (tau := tau.sub 0 0 A.cols 1) (t := t) (c := c)
    ⟨conf, min2, wf, by omega, ⟨rfl, rfl⟩, work, ready, fun k hk => by rw [at_sub0]; exact ht k hk, hW, by rw [tcells_sub0]; exact dA,
      by rw [tcells_sub0]; exact dt, dW⟩ hA hK elb hz hf).mono ?_
  rintro ⟨e, m'⟩ ⟨he, F, rdy, hW', Q, q1, q2, -, q4⟩
  exact ⟨he, F, rdy, hW', Q, q1, q2, q4⟩

/-- C116, `armas_bdbuild_w` with `ARMAS_WANTP` for at least as many rows as columns: the first `n` rows of `A` become `Pᵀ`, `P = G_0 G_1 ... G_{k-1}`, where `k` is the
smaller of `K` and `n - 1` and the `G_l` are the reflectors right of the superdiagonal; the first row and column are those of the identity, further
rows are not changed. -/
theorem C116_tall_p_partial (ab : α → α) {env : Env} {c : Cache} {m : Mem α} {A tau : View} {f : Nat → Nat → α} {t : Nat → α}
    {n w ws K : Nat} (hc : A.cols = n) (H : BdBuildArgs env c m A tau f t (n - 1) (n - 1) w ws) {lower : Bool}
    (sh : A.cols < A.rows ∨ (A.rows = A.cols ∧ lower = false)) (elb : Nat)
    (hz : elb = 0 ∨ n ≤ elb + 1 ∨ ∀ k, k + 2 = n → t k = 0) {fuel : Nat} (hf : 2 * n < fuel) :
    Runs (bdbuildW ab env elb fuel m A tau K false true lower w ws (some c)) (fun r => r.1 = 0 ∧ Frame ((A.sub 0 0 n n).foot ∪ wcells w ws ∪ c.foot) m r.2 ∧
      c.Ready r.2 ∧ WAlloc r.2 w ws ∧
      Holds r.2 (A.sub 0 0 n n) (fun i j => hessProd n (min K (n - 1)) t (fun i j => f j i) (fun p q => if p = q then 1 else 0) j i)) := by
  unfold bdbuildW
  rw [if_neg (size_pos H.pos), bdTall_true sh]
  show Runs (bdBuildP ab env elb fuel m A tau K w ws (some c)) _
  rw [bdBuildP_sub, hc]
  have := H.pos
  exact bdBuildP_spec ab rfl rfl (H.sub (by omega) (by omega) (by omega)) elb hz hf

/-- C116, `armas_bdbuild_w` with `ARMAS_WANTQ` for fewer rows than columns: the first `n` columns of `A` become `Q = H_0 H_1 ... H_{k-1}`, where `k` is the smaller of
`K` and `n - 1` and the `H_l` are the reflectors below the subdiagonal; the first row and column are those of the identity, further columns are not changed.
Reflectors with a zero scalar as in `C116_tall_q_partial`. -/
theorem C116_wide_q_partial (ab : α → α) {env : Env} {c : Cache} {m : Mem α} {A tau : View} {f : Nat → Nat → α} {t : Nat → α}
    {n w ws K : Nat} (hr : A.rows = n) (H : BdBuildArgs env c m A tau f t (n - 1) (n - 1) w ws) {lower : Bool}
    (sh : A.rows < A.cols ∨ (A.rows = A.cols ∧ lower = true)) (elb : Nat)
    (hz : elb = 0 ∨ n ≤ elb + 1 ∨
      ((∀ k, k < K → t k = 0 → ∀ i, k + 1 < i → i < n → f i k = 0) ∧ ∀ k, k + 2 = n → t k = 0)) {fuel : Nat} (hf : 2 * n < fuel) :
    Runs (bdbuildW ab env elb fuel m A tau K true false lower w ws (some c)) (fun r => r.1 = 0 ∧ Frame ((A.sub 0 0 n n).foot ∪ wcells w ws ∪ c.foot) m r.2 ∧
      c.Ready r.2 ∧ WAlloc r.2 w ws ∧ Holds r.2 (A.sub 0 0 n n) (hessProd n (min K (n - 1)) t f (fun p q => if p = q then 1 else 0))) := by
  have hp := H.pos
  unfold bdbuildW
  rw [if_neg (size_pos H.pos), bdTall_false sh]
  show Runs (bdBuildQ ab env elb fuel m A tau K w ws (some c)) _
  rw [bdBuildQ_sub _ _ _ _ _ _ _ _ _ _ _ hp.1, hr]
  obtain ⟨conf, min2, wf, pos, work, ready, hA, ht, hW, dA, dt, dW⟩ := H.sub (n := n) (by omega) (by omega) (by omega)
  have e : tcells (tau.sub 0 0 n 1) (n - 1) = tcells tau (n - 1) := by
    ext q
    constructor <;> rintro ⟨l, hl, rfl⟩ <;> exact ⟨l, hl, by rw [at_sub0]⟩
  refine C113_trdbuild_partial ab (A := A.sub 0 0 n n) (tau := tau.sub 0 0 n 1) (n := n) (f := f) (t := t)
    ⟨conf, min2, wf, ⟨rfl, rfl, by omega⟩, ⟨rfl, rfl⟩, by omega, ready, hA, fun k hk => by rw [at_sub0]; exact ht k (by omega), hW, by rw [e]; exact dA,
      by rw [e]; exact dt, dW⟩ elb hz hf

/-- C116, `armas_bdbuild_w` with `ARMAS_WANTP` for fewer rows than columns: `A` becomes the first rows of `Pᵀ`, `P = G_0 G_1 ... G_{K-1}`, the product of the first `K`
reflectors right of the diagonal.  When these are orthogonal, the rows are orthonormal.  Not covered, because it fails (C95_work_false): `rows ≤ lb < cols`. -/
theorem C116_wide_p_partial (ab : α → α) {env : Env} {c : Cache} {m : Mem α} {A tau : View} {f : Nat → Nat → α} {t : Nat → α}
    {w ws K : Nat} (H : BdBuildArgs env c m A tau f t A.rows A.rows w ws) (hK : K ≤ A.rows) {lower : Bool}
    (sh : A.rows < A.cols ∨ (A.rows = A.cols ∧ lower = true)) (elb : Nat)
    (hz : elb = 0 ∨ A.cols ≤ elb ∨ (elb < A.rows ∧ ∀ k, k < A.rows → k + 1 = A.cols → t k = 0)) {fuel : Nat}
    (hf : A.rows + A.cols < fuel) :
    Runs (bdbuildW ab env elb fuel m A tau K false true lower w ws (some c)) (fun r => r.1 = 0 ∧ Frame (A.foot ∪ wcells w ws ∪ c.foot) m r.2 ∧
      c.Ready r.2 ∧ WAlloc r.2 w ws ∧ ∃ P : Nat → Nat → α, (Holds r.2 A fun i j => P j i) ∧
      (∀ i j, P i j = qrProd A.cols K t (fun i j => f j i) (fun p q => if p = q then 1 else 0) i j) ∧
      ((∀ k, k < K → t k = 0 ∨ t k * ∑ i ∈ range A.cols, qrw (fun i j => f j i) k i ^ 2 = 2) → ∀ p q, p < A.rows → q < A.rows →
        ∑ i ∈ range A.cols, P i p * P i q = if p = q then 1 else 0)) := by
  obtain ⟨conf, min2, wf, pos, work, ready, hA, ht, hW, dA, dt, dW⟩ := H
  unfold bdbuildW
  rw [if_neg (size_pos pos), bdTall_false sh]
  refine (C95_lqbuild_partial ab (K := K) (A := A) (tau := tau.sub 0 0 A.rows 1) (t := t) (c := c) (f := fun i j => f j i)
    ⟨conf, min2, wf, by omega, ⟨rfl, rfl⟩, work, ready, fun k hk => by rw [at_sub0]; exact ht k hk, hW, by rw [tcells_sub0]; exact dA,
      by rw [tcells_sub0]; exact dt, dW⟩ hA hK elb hz hf).mono ?_
  rintro ⟨e, m'⟩ ⟨he, F, rdy, hW', Q, q1, q2, -, q4⟩
  exact ⟨he, F, rdy, hW', Q, q1, q2, q4⟩

/-- Concrete arguments: all elements are one, but the scalar `z` is zero. -/
theorem bdBuild_demo (z r c k l : Nat) (hr : r ≤ 7) (hc : c ≤ 7) (hk : k ≤ 7) (hl : l ≤ 20) (hz : z < 7) (hp : 0 < r ∧ 0 < c) :
    BdBuildArgs (α := ℚ) ⟨8, 8, false, true⟩ ⟨1000, 1100, 4, 4, 3, 3, 1⟩ (tot fun p => if p = 160 + z then 0 else 1)
    ⟨100, 8, r, c⟩ ⟨160, 7, 7, 1⟩ (fun _ _ => 1) (fun k => if k = z then 0 else 1) k l 200 20 where
  conf := ⟨Or.inl (by decide), by decide⟩
  min2 := Or.inl (by decide)
  wf := Or.inl (by simp; omega)
  pos := hp
  work := hl
  ready := (bdMult_demo false z r c k 1 1 1 hr hc (by decide) (by decide) hk rfl hz).ready
  hA := (bdMult_demo false z r c k 1 1 1 hr hc (by decide) (by decide) hk rfl hz).hA
  ht := (bdMult_demo false z r c k 1 1 1 hr hc (by decide) (by decide) hk rfl hz).ht
  hW := fun _ _ => ⟨_, rfl⟩
  dA := Set.disjoint_left.mpr (by
    rintro p ⟨i, j, hi, hj, rfl⟩ ((⟨k, hk, h⟩ | ⟨h1, h2⟩) | ⟨i', j', hi', hj', h⟩ | ⟨i', j', hi', hj', h⟩) <;>
      simp [View.at', Cache.A, Cache.B] at * <;> omega)
  dt := Set.disjoint_left.mpr (by
    rintro p ⟨k, hk, rfl⟩ (⟨h1, h2⟩ | ⟨i', j', hi', hj', h⟩ | ⟨i', j', hi', hj', h⟩) <;>
      simp [View.at', Cache.A, Cache.B] at * <;> omega)
  dW := (bdMult_demo false z r c k 1 1 1 hr hc (by decide) (by decide) hk rfl hz).dW

example := C116_tall_q_partial (α := ℚ) id (A := ⟨100, 8, 6, 5⟩) (bdBuild_demo 6 6 5 5 5 (by decide) (by decide) (by decide) (by decide) (by decide) (by decide)) (K := 4)
  (by decide) (lower := true) (Or.inl (by decide)) 2 (Or.inr (Or.inr ⟨fun k hk h => by rw [if_neg (by omega)] at h; exact absurd h one_ne_zero, fun k hk hk' => by
    simp only at hk hk'; omega⟩)) (fuel := 30) (by decide)

example := C116_tall_p_partial (α := ℚ) id (A := ⟨100, 8, 6, 5⟩) rfl (bdBuild_demo 3 6 5 4 4 (by decide) (by decide) (by decide) (by decide) (by decide) (by decide)) (K := 5)
  (lower := false) (Or.inl (by decide)) 2 (Or.inr (Or.inr fun k hk => if_pos (by simp only at hk; omega))) (fuel := 30) (by decide)

example := C116_wide_q_partial (α := ℚ) id (A := ⟨100, 8, 4, 6⟩) rfl (bdBuild_demo 2 4 6 3 3 (by decide) (by decide) (by decide) (by decide) (by decide) (by decide)) (K := 2)
  (lower := false) (Or.inl (by decide)) 1 (Or.inr (Or.inr ⟨fun k hk h => by rw [if_neg (by omega)] at h; exact absurd h one_ne_zero, fun k hk => if_pos (by simp only at hk; omega)⟩)) (fuel := 30) (by decide)

example := C116_wide_p_partial (α := ℚ) id (A := ⟨100, 8, 5, 5⟩) (bdBuild_demo 4 5 5 5 5 (by decide) (by decide) (by decide) (by decide) (by decide) (by decide)) (K := 4)
  (by decide) (lower := true) (Or.inr ⟨rfl, rfl⟩) 2 (Or.inr (Or.inr ⟨by decide, fun k _ hk => if_pos (by simpa using hk)⟩)) (fuel := 30) (by decide)

/-- C116: an empty matrix is left alone; neither or both of `ARMAS_WANTQ` and `ARMAS_WANTP` is an error, without a change. -/
theorem C116_errors (ab : α → α) (env : Env) (elb fuel : Nat) (m : Mem α) (A tau : View) (K : Nat) (q p lower : Bool) (w ws : Nat) (cbuf : Option Cache) :
    (A.size = 0 → bdbuildW ab env elb fuel m A tau K q p lower w ws cbuf = .ok (0, m)) ∧
    (A.size ≠ 0 → q = p → bdbuildW ab env elb fuel m A tau K q p lower w ws cbuf = .ok (-EINVAL, m)) := by
  unfold bdbuildW
  refine ⟨fun h => if_pos h, ?_⟩
  rintro h rfl
  rw [if_neg h]
  cases bdTall A lower <;> cases q <;> rfl

example := (C116_errors (α := ℚ) id ⟨8, 8, false, true⟩ 2 30 (tot fun _ => 1) ⟨100, 8, 5, 5⟩ ⟨160, 7, 7, 1⟩ 4 true true false 200 20 none).2 (by decide) rfl

/-- C116: a vector `tau` that is too short is not refused (`src/lapack/bibld.c:129, 147, 176, 182`): with one scalar for two reflectors the code reads behind it. -/
theorem C116_tau_false : ∃ (m : Mem ℚ) (A tau : View), A.rows = 3 ∧ A.cols = 2 ∧ tau.rows = 1 ∧ tau.cols = 1 ∧
    Holds m A (fun _ _ => 1) ∧ Holds m tau (fun _ _ => 1) ∧ WAlloc m 200 20 ∧
    bdbuildW id ⟨8, 8, false, true⟩ 0 30 m A tau 2 true false false 200 20 none = .ub := by
  refine ⟨fun p => if p = 161 then none else some 1, ⟨100, 8, 3, 2⟩, ⟨160, 1, 1, 1⟩, rfl, rfl, rfl, rfl, ?_, ?_, ?_, isUb_eq (by decide +kernel)⟩
  · intro i j hi hj
    have h1 : i < 3 := hi
    have h2 : j < 2 := hj
    exact if_neg (by simp [View.at']; omega)
  · intro i j hi hj
    have h1 : i < 1 := hi
    have h2 : j < 1 := hj
    exact if_neg (by simp [View.at']; omega)
  · intro k hk
    exact ⟨1, if_neg (by omega)⟩

/-- C116: a work space that is too short is only noticed after `A` has been changed: with `ARMAS_WANTP` the first row of a matrix of ones becomes a unit vector. -/
theorem C116_workspace_false : ∃ (m m' : Mem ℚ) (A tau : View), A.rows = 4 ∧ A.cols = 3 ∧ tau.size = 3 ∧ Holds m A (fun _ _ => 1) ∧ Holds m tau (fun _ _ => 1) ∧
    bdbuildW id ⟨8, 8, false, true⟩ 0 30 m A tau 2 false true false 200 1 none = .ok (-EWORK, m') ∧ m' (A.at' 0 1) = some 0 := by
  have key : (match bdbuildW (α := ℚ) id ⟨8, 8, false, true⟩ 0 30 (tot fun _ => 1) ⟨100, 8, 4, 3⟩ ⟨160, 3, 3, 1⟩ 2 false true false 200 1 none with
    | .ok r => decide (r.1 = -5 ∧ r.2 108 = some 0)
    | _ => false) = true := by decide +kernel
  cases hr : bdbuildW (α := ℚ) id ⟨8, 8, false, true⟩ 0 30 (tot fun _ => 1) ⟨100, 8, 4, 3⟩ ⟨160, 3, 3, 1⟩ 2 false true false 200 1 none with
  | ok r =>
    rw [hr] at key
    obtain ⟨h1, h2⟩ := of_decide_eq_true key
    refine ⟨tot fun _ => 1, r.2, ⟨100, 8, 4, 3⟩, ⟨160, 3, 3, 1⟩, rfl, rfl, rfl, fun _ _ _ _ => rfl, fun _ _ _ _ => rfl, ?_, h2⟩
    rw [hr]
    exact congrArg Res.ok (Prod.ext h1 rfl)
  | ub => rw [hr] at key; exact absurd key (by decide)
  | diverge => rw [hr] at key; exact absurd key (by decide)

end field

end Armas.Props
