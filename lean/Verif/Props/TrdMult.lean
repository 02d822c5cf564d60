import Verif.TrdMultLemmas
import Verif.Props.HessMult
import Verif.Props.Trd
import Verif.Props.QrBuild

/-!
# C112, C113: the orthogonal matrix of a tridiagonal reduction

See `properties.jsonl`.
-/

namespace Armas.Props

open Finset

section field

variable {α : Type} [Field α] [DecidableEq α]

/-- C112, `armas_trdmult_w` without `ARMAS_UPPER`: with `Q = H_0 H_1 ... H_{n-2}` the product of the reflectors below the subdiagonal of `A`, `C` becomes
`Q C`, or `Qᵀ C` with `ARMAS_TRANS`; with `ARMAS_RIGHT` it becomes `C Q = (Qᵀ Cᵀ)ᵀ`, or `C Qᵀ`; for every order, size of `C`, block size and work
space of at least as many elements as `C` has columns (rows with `ARMAS_RIGHT`). -/
theorem C112_trdmult_partial (ab : α → α) {env : Env} {c : Cache} {m : Mem α} {right : Bool} {C A tau : View} {f b : Nat → Nat → α} {t : Nat → α}
    {n w ws : Nat} (H : HessMultArgs env c m right C A tau f t n w ws) (htau : tau.size = n) (hC : Holds m C b) (trans : Bool) (elb : Nat)
    (i1 : ((if right then C.rows else C.cols) + elb) * elb ≤ INT_MAX)
    (i2 : (if right then C.rows else C.cols) * (if right then C.rows else C.cols) ≤ INT_MAX) {fuel : Nat}
    (hf : n < fuel) (hf' : 3 * (if right then C.rows else C.cols) < fuel) :
    Runs (trdmultW ab env elb fuel m C A tau trans right w ws (some c)) (fun r => r.1 = 0 ∧ Frame (C.foot ∪ wcells w ws ∪ c.foot) m r.2 ∧
      Holds r.2 C (fun i j =>
        if right then (if trans then hessProd n (n - 1) t f (fun p q => b q p) j i else hessProdT n (n - 1) t f (fun p q => b q p) j i)
        else (if trans then hessProdT n (n - 1) t f b i j else hessProd n (n - 1) t f b i j)) ∧ c.Ready r.2) := by
  have h := C110_hessmult_partial ab H hC trans elb i1 i2 hf hf'
  obtain ⟨hr, hc, -⟩ := H.sq
  have hs := H.size
  unfold trdmultW
  rw [if_neg (by rw [htau, hc]; exact fun h => h rfl), if_neg (by rw [hs, hr, hc]; exact fun h => h.elim (fun h => h rfl) fun h => h rfl)]
  unfold hessmultW at h
  rw [hc] at h
  rw [hr] at h ⊢
  exact h

example := C112_trdmult_partial (α := ℚ) id (tau := ⟨160, 4, 4, 1⟩) { hessMult_demo with
    ht := fun k hk => by
      by_cases c : k = 2
      · subst c; rfl
      · have : View.at' ⟨160, 4, 4, 1⟩ k 0 ≠ 162 := by simp [View.at']; omega
        simp [tot, this, c]
    dC := Set.disjoint_left.mpr (by
      rintro p ⟨i, j, hi, hj, rfl⟩ (((⟨i', j', hi', hj', h⟩ | ⟨k, hk, h⟩) | ⟨h1, h2⟩) | ⟨i', j', hi', hj', h⟩ | ⟨i', j', hi', hj', h⟩) <;>
        simp [View.at', Cache.A, Cache.B] at * <;> omega)
    dA := Set.disjoint_left.mpr (by
      rintro p (⟨i, j, hi, hj, rfl⟩ | ⟨k, hk, rfl⟩) (⟨h1, h2⟩ | ⟨i', j', hi', hj', h⟩ | ⟨i', j', hi', hj', h⟩) <;>
        simp [View.at', Cache.A, Cache.B] at * <;> omega) } rfl
  (b := fun i j => (tot (α := ℚ) fun p => if p = 162 then 0 else 1) (0 + i + j * 8) |>.getD 0)
  (fun i j _ _ => by simp [tot, View.at']) true 64 (by decide) (by decide) (fuel := 30) (by decide) (by decide)

/-- C112: a `tau` of another size, a `C` that does not fit, a matrix that is not square and a work space that is too short are refused without a
change. -/
theorem C112_errors (ab : α → α) (env : Env) (elb fuel : Nat) (m : Mem α) (C A tau : View) (trans right : Bool) (w ws : Nat) (cbuf : Option Cache)
    (h : tau.size ≠ A.cols ∨ (if right then C.cols else C.rows) ≠ A.rows ∨ A.rows ≠ A.cols ∨ (0 < A.rows ∧ ws < if right then C.rows else C.cols)) :
    ∃ e < 0, trdmultW ab env elb fuel m C A tau trans right w ws cbuf = .ok (e, m) := by
  unfold trdmultW
  by_cases h1 : tau.size ≠ A.cols
  · exact ⟨-1, by decide, by rw [if_pos h1]⟩
  rw [if_neg h1]
  by_cases h2 : (if right then C.cols else C.rows) ≠ A.rows ∨ A.rows ≠ A.cols
  · exact ⟨-1, by decide, by rw [if_pos h2]⟩
  rw [if_neg h2]
  rw [not_or, not_not, not_not] at h2
  rcases h with h | h | h | ⟨h, h'⟩
  · exact absurd h h1
  · exact absurd h2.1 h
  · exact absurd h2.2 h
  · refine ⟨-EWORK, by decide, ?_⟩
    unfold qrmultW
    cases right
    · simp only [Bool.false_eq_true, if_false, View.sub_rows, View.sub_cols, View.size, Nat.mul_one] at h' h2 ⊢
      rw [if_neg (by omega), if_pos h']
    · simp only [if_true, View.sub_rows, View.sub_cols, View.size, Nat.mul_one] at h' h2 ⊢
      rw [if_neg (by omega), if_pos h']

example := C112_errors (α := ℚ) id ⟨8, 8, false, true⟩ 0 30 (tot fun _ => 1) ⟨0, 8, 4, 6⟩ ⟨100, 8, 4, 4⟩ ⟨160, 3, 3, 1⟩ true false 200 20 none
  (Or.inl (by decide))

/-- Arguments of `armas_trdbuild_w`: `A` of order `n` and `tau` hold the reflectors, the areas do not overlap, the cache buffers are usable. -/
structure TrdBuildArgs (env : Env) (c : Cache) (m : Mem α) (A tau : View) (f : Nat → Nat → α) (t : Nat → α) (n w ws : Nat) : Prop where
  conf : Conf3 env c
  min2 : 2 ≤ env.blas2min ∨ (env.naive = true ∧ env.recursive = false)
  wf : A.WF
  sq : A.rows = n ∧ A.cols = n ∧ 0 < n
  col : tau.cols = 1 ∧ tau.rows = n
  work : n ≤ ws + 1
  ready : c.Ready m
  hA : Holds m A f
  ht : ∀ k, k + 1 < n → m (tau.at' k 0) = some (t k)
  hW : WAlloc m w ws
  dA : Disjoint A.foot (tcells tau (n - 1) ∪ wcells w ws ∪ c.foot)
  dt : Disjoint (tcells tau (n - 1)) (wcells w ws ∪ c.foot)
  dW : Disjoint (wcells w ws) c.foot

/-- C113, `armas_trdbuild_w` without `ARMAS_UPPER`: `A` becomes `Q = H_0 H_1 ... H_{k-1}`, where `k` is the smaller of `K` and `n - 1` and the `H_l` are the
reflectors below the subdiagonal of `A`; the first row and column are those of the identity.  For a block size that selects the blocked algorithm
reflectors with a zero scalar must have a zero vector, and the last is the identity (as the reduction leaves them; otherwise C66_stale_false). -/
theorem C113_trdbuild_partial (ab : α → α) {env : Env} {c : Cache} {m : Mem α} {A tau : View} {f : Nat → Nat → α} {t : Nat → α}
    {n w ws K : Nat} (H : TrdBuildArgs env c m A tau f t n w ws) (elb : Nat)
    (hz : elb = 0 ∨ n ≤ elb + 1 ∨
      ((∀ k, k < K → t k = 0 → ∀ i, k + 1 < i → i < n → f i k = 0) ∧ ∀ k, k + 2 = n → t k = 0)) {fuel : Nat}
    (hf : 2 * n < fuel) :
    Runs (trdbuildW ab env elb fuel m A tau K w ws (some c)) (fun r => r.1 = 0 ∧ Frame (A.foot ∪ wcells w ws ∪ c.foot) m r.2 ∧
      c.Ready r.2 ∧ WAlloc r.2 w ws ∧ Holds r.2 A (hessProd n (min K (n - 1)) t f (fun p q => if p = q then 1 else 0))) := by
  obtain ⟨conf, min2, wf, ⟨hr, hc, hn⟩, col, work, ready, hA, ht, hW, dA, dt, dW⟩ := H
  obtain ⟨p, rfl⟩ : ∃ p, n = p + 1 := ⟨n - 1, by omega⟩
  rw [Nat.add_sub_cancel] at *
  unfold trdbuildW
  rw [if_neg (by rw [View.size, hr, hc]; exact Nat.mul_ne_zero (by omega) (by omega)), if_neg (by rw [View.size, col.1, col.2, hc]; omega),
    if_neg (by rw [hr, hc]; omega), hc, hr, Nat.add_sub_cancel]
  refine (trdShift_all wf hr hc hA).bind ?_
  rintro m1 ⟨hA1, F1⟩
  have s0 : (A.sub 0 0 (p + 1) 1).foot ⊆ A.foot := View.sub_foot (by omega) (by omega)
  have hv : HoldsV m1 (A.sub 0 0 (p + 1) 1) (fun i => shifted 0 f i 0) := by
    rw [holdsV_iff (Or.inr rfl)]
    exact (hA1.part (by omega) (by omega)).congr fun i j hi hj => by
      rw [View.sub_cols] at hj
      obtain rfl : j = 0 := by omega
      rw [Nat.zero_add, Nat.add_zero, Nat.add_zero]
  refine (C06_scale 0 (Or.inr rfl) (wf.sub (by omega) (by omega)) hv).bind ?_
  rintro ⟨e, m2⟩ ⟨-, h2, F2⟩
  dsimp only at h2 F2 ⊢
  rw [holdsV_iff (Or.inr rfl)] at h2
  have hA2 := hA1.patch wf (by omega) (by omega) h2 F2
  refine Runs.wr_bind (hA2 0 0 (by omega) (by omega)) ?_
  have hA3 : Holds (m2.set (A.at' 0 0) 1) A (fun i j => if j = 0 then (if i = 0 then 1 else 0) else shifted 0 f i j) :=
    (hA2.write wf (by omega) (by omega) 1).congr fun i j hi hj => by
      rw [hr] at hi
      by_cases c1 : j = 0
      · subst c1
        rw [if_pos rfl]
        by_cases c2 : i = 0
        · rw [if_pos c2, if_pos ⟨c2, rfl⟩]
        · rw [if_neg c2, if_neg (fun h => c2 h.1), if_pos (by omega), zero_mul]
      · rw [if_neg c1, if_neg (fun h => c1 h.2), if_neg (by omega)]
  have F3 : Frame A.foot m (m2.set (A.at' 0 0) 1) := (F1.trans (F2.mono s0)).trans (Frame.set (View.at_mem_foot (by omega) (by omega)) _)
  generalize m2.set (A.at' 0 0) 1 = m3 at hA3 F3
  have sA : (A.sub 1 1 p p).foot ⊆ A.foot := View.sub_foot (by omega) (by omega)
  have sT : tcells (tau.sub 0 0 p 1) p ⊆ tcells tau p := by
    rintro q ⟨k, hk, rfl⟩
    exact ⟨k, hk, by rw [View.at_sub, Nat.zero_add]⟩
  have dAt : Disjoint A.foot (tcells tau p) := dA.mono_right fun q h => Or.inl (Or.inl h)
  have dAw : Disjoint A.foot (wcells w ws) := dA.mono_right fun q h => Or.inl (Or.inr h)
  have dAc : Disjoint A.foot c.foot := dA.mono_right fun q h => Or.inr h
  have hQ : Holds m3 (A.sub 1 1 p p) (fun i j => if j ≤ i then f (i + 1) j else f (i + 1) (j + 1)) := (hA3.part (by omega) (by omega)).congr fun i j _ _ => by
    unfold shifted
    rw [if_neg (by omega), if_pos (by omega), if_neg (by omega), Nat.add_comm 1 i, Nat.add_comm 1 j, Nat.add_sub_cancel]
    by_cases c1 : j ≤ i
    · rw [if_pos c1, if_pos (by omega)]
    · rw [if_neg c1, if_neg (by omega)]
  refine (C66_qrbuild_partial ab (K := min K p) (A := A.sub 1 1 p p) (tau := tau.sub 0 0 p 1) (t := t) (w := w) (ws := ws) (c := c)
    ⟨conf, min2, wf.sub (by omega) (by omega), le_refl _, ⟨rfl, rfl⟩, by rw [View.sub_cols]; omega, ready.frame F3 dAc.symm, fun k hk => by
      rw [View.sub_cols] at hk
      rw [View.at_sub, Nat.zero_add, F3 _ fun h => Set.disjoint_left.mp dAt h ⟨k, hk, rfl⟩]
      exact ht k (by omega), hW.frame F3 dAw.symm, dA.mono sA (Set.union_subset_union_left _ (Set.union_subset_union_left _ sT)), dt.mono_left sT, dW⟩
    hQ (min_le_right _ _) elb (hz.imp_right (Or.imp (fun h => by rw [View.sub_cols]; omega) fun h => ⟨fun k hk h0 i hi hi' => ?_, fun k hk hk' => ?_⟩))
    (by rw [View.sub_cols, View.sub_rows]; omega)).mono ?_
  · rw [View.sub_rows] at hi'
    rw [if_pos (by omega)]
    exact h.1 k (by omega) h0 (i + 1) (by omega) (by omega)
  · rw [View.sub_rows] at hk'
    exact h.2 k (by omega)
  rintro ⟨e4, m4⟩ ⟨he, F4, rdy, hW4, Q, hQ4, hQe, -, -⟩
  dsimp only at he F4 rdy hW4 hQ4 hQe ⊢
  rw [View.sub_rows] at hQe
  refine ⟨he, ?_, rdy, hW4, fun i j hi hj => ?_⟩
  · refine (F3.mono fun q h => Or.inl (Or.inl h)).trans (F4.mono ?_)
    rintro q ((h | h) | h)
    · exact Or.inl (Or.inl (sA h))
    · exact Or.inl (Or.inr h)
    · exact Or.inr h
  · rw [hr] at hi
    rw [hc] at hj
    have hout : (i = 0 ∨ j = 0) → m4 (A.at' i j) = m3 (A.at' i j) := by
      intro h0
      refine F4 _ ?_
      have hm : A.at' i j ∈ A.foot := View.at_mem_foot (by omega) (by omega)
      rintro ((h | h) | h)
      · rw [View.mem_sub_foot wf (by omega) (by omega) (by omega) (by omega)] at h; omega
      · exact Set.disjoint_left.mp dAw hm h
      · exact Set.disjoint_left.mp dAc hm h
    rcases i with _ | i
    · rw [hout (Or.inl rfl), hA3 0 j (by omega) (by omega), hessProd_zero]
      unfold shifted
      beta_reduce
      by_cases c1 : j = 0
      · rw [if_pos c1, if_pos rfl, if_pos c1.symm]
      · rw [if_neg c1, if_pos (by omega), if_pos rfl, if_neg (Ne.symm c1)]
    · rw [hessProd_succ]
      rcases j with _ | j
      · have z : qrProd p (min K p) t (fun i j => f (i + 1) j) (fun i j => if i + 1 = j then (1 : α) else 0) i 0 = 0 :=
          qrProd_zero_col (M := p) (j := 0) (b := fun i j => if i + 1 = j then (1 : α) else 0) (fun l _ => if_neg (Nat.succ_ne_zero l)) i (by omega)
        rw [hout (Or.inr rfl), hA3 (i + 1) 0 (by omega) (by omega), z]
        show some (if (0 : Nat) = 0 then (if i + 1 = 0 then (1 : α) else 0) else shifted 0 f (i + 1) 0) = some 0
        rw [if_pos rfl, if_neg (Nat.succ_ne_zero i)]
      · have := hQ4 i j (by rw [View.sub_rows]; omega) (by rw [View.sub_cols]; omega)
        rw [View.at_sub, Nat.add_comm 1 i, Nat.add_comm 1 j] at this
        rw [this, hQe]
        congr 1
        refine qrProd_colw _ _ _ (fun l i hl hi => ?_) (fun l hl => ?_) i (by omega)
        · unfold qrw
          by_cases c1 : i < l
          · rw [if_pos c1, if_pos c1]
          · rw [if_neg c1, if_neg c1]
            by_cases c2 : i = l
            · rw [if_pos c2, if_pos c2]
            · rw [if_neg c2, if_neg c2]
              exact if_pos (by omega)
        · by_cases c1 : l = j
          · rw [if_pos c1, if_pos (by omega)]
          · rw [if_neg c1, if_neg (by omega)]

/-- Concrete arguments. -/
theorem trdBuild_demo : TrdBuildArgs (α := ℚ) ⟨8, 8, false, true⟩ ⟨1000, 1100, 4, 4, 3, 3, 1⟩ (tot fun p => if p = 162 then 0 else 1) ⟨100, 8, 4, 4⟩
    ⟨160, 4, 4, 1⟩ (fun _ _ => 1) (fun k => if k = 2 then 0 else 1) 4 200 20 where
  conf := ⟨Or.inl (by decide), by decide⟩
  min2 := Or.inl (by decide)
  wf := Or.inl (by decide)
  sq := ⟨rfl, rfl, by decide⟩
  col := ⟨rfl, rfl⟩
  work := by decide
  ready := ⟨by decide, by decide, by decide, by decide, by decide, ⟨_, holds_tot _ _⟩, ⟨_, holds_tot _ _⟩, View.disj_below (by decide)⟩
  hA := hessMult_demo.hA
  ht := fun k hk => by
    by_cases c : k = 2
    · subst c; rfl
    · have : View.at' ⟨160, 4, 4, 1⟩ k 0 ≠ 162 := by simp [View.at']; omega
      simp [tot, this, c]
  hW := fun _ _ => ⟨_, rfl⟩
  dA := Set.disjoint_left.mpr (by
    rintro p ⟨i, j, hi, hj, rfl⟩ ((⟨k, hk, h⟩ | ⟨h1, h2⟩) | ⟨i', j', hi', hj', h⟩ | ⟨i', j', hi', hj', h⟩) <;>
      simp [View.at', Cache.A, Cache.B] at * <;> omega)
  dt := Set.disjoint_left.mpr (by
    rintro p ⟨k, hk, rfl⟩ (⟨h1, h2⟩ | ⟨i', j', hi', hj', h⟩ | ⟨i', j', hi', hj', h⟩) <;>
      simp [View.at', Cache.A, Cache.B] at * <;> omega)
  dW := hessMult_demo.dW

example := C113_trdbuild_partial (α := ℚ) id trdBuild_demo (K := 3) 2 (Or.inr (Or.inr ⟨fun k hk h => by
  split_ifs at h with c
  · intro i h1 h2; omega
  · exact absurd h one_ne_zero, fun k hk => if_pos (by omega)⟩)) (fuel := 30) (by decide)

/-- C113: the empty matrix is left alone; a `tau` of another size and a matrix that is not square are refused without a change. -/
theorem C113_errors (ab : α → α) (env : Env) (elb fuel : Nat) (m : Mem α) (A tau : View) (K w ws : Nat) (cbuf : Option Cache) :
    (A.size = 0 → trdbuildW ab env elb fuel m A tau K w ws cbuf = .ok (0, m)) ∧
    (A.size ≠ 0 → tau.size ≠ A.cols → trdbuildW ab env elb fuel m A tau K w ws cbuf = .ok (-EINVAL, m)) ∧
    (A.size ≠ 0 → tau.size = A.cols → A.cols ≠ A.rows → trdbuildW ab env elb fuel m A tau K w ws cbuf = .ok (-ESIZE, m)) := by
  unfold trdbuildW
  refine ⟨fun h => if_pos h, fun h h1 => ?_, fun h h1 h2 => ?_⟩
  · rw [if_neg h, if_pos h1]
  · rw [if_neg h, if_neg (not_not.mpr h1), if_pos h2]

example := (C113_errors (α := ℚ) id ⟨8, 8, false, true⟩ 0 30 (tot fun _ => 1) ⟨100, 8, 4, 4⟩ ⟨160, 3, 3, 1⟩ 3 200 20 none).2.1 (by decide) (by decide)

/-- C113: a work space that is too short is only noticed after `A` has been changed: the first column of a matrix of ones becomes a unit vector. -/
theorem C113_workspace_false : ∃ (m m' : Mem ℚ) (A tau : View), A.rows = 3 ∧ A.cols = 3 ∧ tau.size = 3 ∧ Holds m A (fun _ _ => 1) ∧ Holds m tau (fun _ _ => 1) ∧
    trdbuildW id ⟨8, 8, false, true⟩ 0 30 m A tau 2 200 1 none = .ok (-EWORK, m') ∧ m' (A.at' 1 0) = some 0 := by
  have key : (match trdbuildW (α := ℚ) id ⟨8, 8, false, true⟩ 0 30 (tot fun _ => 1) ⟨100, 8, 3, 3⟩ ⟨160, 3, 3, 1⟩ 2 200 1 none with
    | .ok r => decide (r.1 = -5 ∧ r.2 101 = some 0)
    | _ => false) = true := by decide +kernel
  cases hr : trdbuildW (α := ℚ) id ⟨8, 8, false, true⟩ 0 30 (tot fun _ => 1) ⟨100, 8, 3, 3⟩ ⟨160, 3, 3, 1⟩ 2 200 1 none with
  | ok r =>
    rw [hr] at key
    obtain ⟨h1, h2⟩ := of_decide_eq_true key
    refine ⟨tot fun _ => 1, r.2, ⟨100, 8, 3, 3⟩, ⟨160, 3, 3, 1⟩, rfl, rfl, rfl, fun _ _ _ _ => rfl, fun _ _ _ _ => rfl, ?_, h2⟩
    rw [hr]
    exact congrArg Res.ok (Prod.ext h1 rfl)
  | ub => rw [hr] at key; exact absurd key (by decide)
  | diverge => rw [hr] at key; exact absurd key (by decide)

end field

/-- C113 after C111: reduce a symmetric matrix given by its lower triangle, then build `Q` in its place (unblocked): `Q` is orthogonal and `Q T Qᵀ` is
the matrix, where `T` is tridiagonal. -/
theorem C113_driver_partial {safmin : ℝ} (nonneg : Bool) (h0 : 0 < safmin) (h1 : safmin < 1) (ab : ℝ → ℝ) {env : Env} {c : Cache} {m : Mem ℝ}
    {A tau : View} {a : Nat → Nat → ℝ} {n w ws : Nat} (H : TrdArgs env m A tau a n w ws) (hn : 0 < n) (hA : Holds m A a) (conf : Conf3 env c) (ready : c.Ready m)
    (dA : Disjoint A.foot (tcells tau n ∪ wcells w ws ∪ c.foot)) (dc : Disjoint (tcells tau n ∪ wcells w ws) c.foot) (elb : Nat)
    (hz : elb = 0 ∨ n ≤ elb + 1) {fuel : Nat} (hf : 2 * n < fuel) :
    Runs (trdreduceW safmin nonneg ab env fuel m A tau w ws) (fun r => r.1 = 0 ∧ ∃ f, HoldsOn r.2 A (InTri false false) f ∧
      Runs (trdbuildW ab env elb fuel r.2 A tau n w ws (some c)) (fun r' => r'.1 = 0 ∧ ∃ Q, Holds r'.2 A Q ∧
        (∀ i j, i < n → j < n → ∑ p ∈ range n, ∑ q ∈ range n, Q i p * trdPart f p q * Q j q = symLower a i j) ∧
        ∀ p q, p < n → q < n → ∑ i ∈ range n, Q i p * Q i q = if p = q then 1 else 0)) := by
  refine (C111_trd_partial nonneg h0 h1 ab H (fuel := fuel) (by omega)).mono ?_
  rintro ⟨e, m1⟩ ⟨he, f, t, hA1, ht1, -, hfr, ho, hl, F1, hW1⟩
  dsimp only at he hA1 ht1 F1 hW1 ⊢
  refine ⟨he, f, hA1, ?_⟩
  obtain ⟨hr, hc⟩ := H.sq
  have sW : wcells w n ⊆ wcells w ws := fun p hp => ⟨hp.1, by have := hp.2; have := H.work; omega⟩
  have sT : tcells tau (n - 1) ⊆ tcells tau n := fun q ⟨k, hk, h⟩ => ⟨k, by omega, h⟩
  have F1' : Frame (A.foot ∪ tcells tau n ∪ wcells w ws) m m1 := F1.mono (Set.union_subset_union (Set.union_subset_union_left _ (View.footOn_sub_foot _ _)) sW)
  have dAt : Disjoint A.foot (tcells tau n) := dA.mono_right fun q h => Or.inl (Or.inl h)
  have dAw : Disjoint A.foot (wcells w ws) := dA.mono_right fun q h => Or.inl (Or.inr h)
  have hA2 : Holds m1 A (fun i j => if j ≤ i then f i j else a i j) := by
    intro i j hi hj
    beta_reduce
    by_cases c1 : j ≤ i
    · rw [if_pos c1]
      exact hA1 i j hi hj (by simp [InTri, c1])
    · rw [if_neg c1, F1 _ ?_]
      · exact hA i j hi hj
      · have hm : A.at' i j ∈ A.foot := View.at_mem_foot hi hj
        rintro ((⟨i', j', hi', hj', ht, h⟩ | h) | h)
        · obtain ⟨rfl, rfl⟩ := View.at_inj H.wf hi hj hi' hj' h
          simp [InTri] at ht
          omega
        · exact Set.disjoint_left.mp dAt hm h
        · exact Set.disjoint_left.mp dAw hm (sW h)
  have dAc : Disjoint A.foot c.foot := dA.mono_right fun q h => Or.inr h
  refine (C113_trdbuild_partial ab (n := n) (K := n) (t := t) (f := fun i j => if j ≤ i then f i j else a i j)
    ⟨conf, Or.inl H.min2, H.wf, ⟨hr, hc, hn⟩, H.col, by have := H.work; omega, ready.frame F1' ?_, hA2, fun k hk => ht1 k (by omega), hW1,
      dA.mono_right (Set.union_subset_union_left _ (Set.union_subset_union_left _ sT)), ?_, dc.mono_left fun q h => Or.inr h⟩ elb (hz.imp_right Or.inl) hf).mono ?_
  · rw [Set.disjoint_union_right, Set.disjoint_union_right]
    exact ⟨⟨dAc.symm, (dc.mono_left fun q h => Or.inl h).symm⟩, (dc.mono_left fun q h => Or.inr h).symm⟩
  · rw [Set.disjoint_union_right]
    exact ⟨H.dt.mono_left sT, dc.mono_left fun q h => Or.inl (sT h)⟩
  rintro ⟨e', m2⟩ ⟨he', -, -, -, hQ⟩
  dsimp only at he' hQ ⊢
  have ew : ∀ k, hessw (fun i j => if j ≤ i then f i j else a i j) k = hessw f k := by
    intro k
    funext i
    unfold hessw
    by_cases c1 : i ≤ k
    · rw [if_pos c1, if_pos c1]
    · rw [if_neg c1, if_neg c1]
      by_cases c2 : i = k + 1
      · rw [if_pos c2, if_pos c2]
      · rw [if_neg c2, if_neg c2]
        exact if_pos (by omega)
  have eP : ∀ k b, hessProd n k t (fun i j => if j ≤ i then f i j else a i j) b = hessProd n k t f b := by
    intro k
    induction k with
    | zero => intro b; rfl
    | succ k ih => intro b; unfold hessProd; rw [ew, ih]
  rw [eP, Nat.min_eq_right (by omega)] at hQ
  refine ⟨he', _, hQ, fun i j hi hj => ?_, fun p q hp hq => ?_⟩
  · rw [← hfr i j hi hj]
    obtain ⟨k, rfl⟩ : ∃ k, n = k + 1 := ⟨n - 1, by omega⟩
    rw [hessFrom_last k (hl k (by omega) (by omega)), hessFrom_eq, hessProd_lin _ _ _ _ hi, Nat.add_sub_cancel]
    refine sum_congr rfl fun p _ => ?_
    rw [hessProd_lin _ _ _ _ hj, mul_sum]
    exact sum_congr rfl fun q _ => by ring
  · rw [hessProd_inner _ fun l hl => ho l (by omega)]
    rw [sum_eq_single p (fun l _ h => by rw [if_neg h, zero_mul]) fun h => absurd (mem_range.mpr hp) h, if_pos rfl, one_mul]

example := C113_driver_partial (safmin := 1 / 2) true (by norm_num) (by norm_num) (fun x => |x|) (trdArgs_demo fun p => (p : ℝ)) (by decide)
  (fun _ _ _ _ => rfl) (c := ⟨1000, 1100, 4, 4, 3, 3, 1⟩) ⟨Or.inl (by decide), by decide⟩
  ⟨by decide, by decide, by decide, by decide, by decide, ⟨_, holds_tot _ _⟩, ⟨_, holds_tot _ _⟩, View.disj_below (by decide)⟩
  (Set.disjoint_left.mpr (by
    rintro p ⟨i, j, hi, hj, rfl⟩ ((⟨k, hk, h⟩ | ⟨h1, h2⟩) | ⟨i', j', hi', hj', h⟩ | ⟨i', j', hi', hj', h⟩) <;>
      simp [View.at', Cache.A, Cache.B] at * <;> omega))
  (Set.disjoint_left.mpr (by
    rintro p (⟨k, hk, rfl⟩ | ⟨h1, h2⟩) (⟨i', j', hi', hj', h⟩ | ⟨i', j', hi', hj', h⟩) <;>
      simp [View.at', Cache.A, Cache.B] at * <;> omega))
  0 (Or.inl rfl) (fuel := 30) (by decide)

end Armas.Props
