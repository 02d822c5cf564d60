import Verif.HessMultLemmas
import Verif.Props.Hess
import Verif.Props.QrMult
import Verif.Props.LqBuild

/-!
# C110: multiplication with the orthogonal matrix of a Hessenberg reduction

See `properties.jsonl`.
-/

namespace Armas.Props

open Finset

section field

variable {α : Type} [Field α] [DecidableEq α]

/-- Arguments of `armas_hessmult_w`: `A` of order `n` and `tau` hold the reflectors, the last of them is the identity, the areas do not overlap, the
cache buffers are usable. -/
structure HessMultArgs (env : Env) (c : Cache) (m : Mem α) (right : Bool) (C A tau : View) (f : Nat → Nat → α) (t : Nat → α) (n w ws : Nat) :
    Prop where
  conf : Conf3 env c
  min2 : 2 ≤ env.blas2min ∨ (env.naive = true ∧ env.recursive = false)
  wf : C.WF
  sq : A.rows = n ∧ A.cols = n ∧ 0 < n
  size : (if right then C.cols else C.rows) = n
  work : (if right then C.rows else C.cols) ≤ ws
  ready : c.Ready m
  hA : Holds m A f
  ht : ∀ k, k + 1 < n → m (tau.at' k 0) = some (t k)
  last : ∀ k, k + 2 = n → t k = 0
  hW : WAlloc m w ws
  dC : Disjoint C.foot (A.foot ∪ tcells tau (n - 1) ∪ wcells w ws ∪ c.foot)
  dA : Disjoint (A.foot ∪ tcells tau (n - 1)) (wcells w ws ∪ c.foot)
  dW : Disjoint (wcells w ws) c.foot

/-- C110, `armas_hessmult_w`: with `Q = H_0 H_1 ... H_{n-2}` the product of the reflectors below the subdiagonal of `A`, `C` becomes `Q C`, or `Qᵀ C`
with `ARMAS_TRANS`; with `ARMAS_RIGHT` it becomes `C Q = (Qᵀ Cᵀ)ᵀ`, or `C Qᵀ`; for every order, size of `C`, block size and work space of at
least as many elements as `C` has columns (rows with `ARMAS_RIGHT`). -/
theorem C110_hessmult_partial (ab : α → α) {env : Env} {c : Cache} {m : Mem α} {right : Bool} {C A tau : View} {f b : Nat → Nat → α} {t : Nat → α}
    {n w ws : Nat} (H : HessMultArgs env c m right C A tau f t n w ws) (hC : Holds m C b) (trans : Bool) (elb : Nat)
    (i1 : ((if right then C.rows else C.cols) + elb) * elb ≤ INT_MAX)
    (i2 : (if right then C.rows else C.cols) * (if right then C.rows else C.cols) ≤ INT_MAX) {fuel : Nat}
    (hf : n < fuel) (hf' : 3 * (if right then C.rows else C.cols) < fuel) :
    Runs (hessmultW ab env elb fuel m C A tau trans right w ws (some c)) (fun r => r.1 = 0 ∧ Frame (C.foot ∪ wcells w ws ∪ c.foot) m r.2 ∧
      Holds r.2 C (fun i j =>
        if right then (if trans then hessProd n (n - 1) t f (fun p q => b q p) j i else hessProdT n (n - 1) t f (fun p q => b q p) j i)
        else (if trans then hessProdT n (n - 1) t f b i j else hessProd n (n - 1) t f b i j)) ∧ c.Ready r.2) := by
  obtain ⟨conf, min2, wf, ⟨hr, hc, hn⟩, size, work, ready, hA, ht, last, hW, dC, dA, dW⟩ := H
  obtain ⟨p, rfl⟩ : ∃ p, n = p + 1 := ⟨n - 1, by omega⟩
  rw [Nat.add_sub_cancel] at *
  unfold hessmultW
  rw [hr, hc, Nat.add_sub_cancel]
  have sA : (A.sub 1 0 p p).foot ⊆ A.foot := View.sub_foot (by omega) (by omega)
  have sT : tcells (tau.sub 0 0 p 1) p ⊆ tcells tau p := by
    rintro q ⟨k, hk, rfl⟩
    exact ⟨k, hk, by rw [View.at_sub, Nat.zero_add]⟩
  have hA' : Holds m (A.sub 1 0 p p) (fun i j => f (i + 1) j) := (hA.part (by omega) (by omega)).congr fun i j _ _ => by
    rw [Nat.add_comm 1 i, Nat.zero_add]
  have ht' : ∀ k, k < p → m ((tau.sub 0 0 p 1).at' k 0) = some (t k) := by
    intro k hk
    rw [View.at_sub, Nat.zero_add]
    exact ht k (by omega)
  have dA' : Disjoint ((A.sub 1 0 p p).foot ∪ tcells (tau.sub 0 0 p 1) p) (wcells w ws ∪ c.foot) := by
    refine dA.mono_left ?_
    rintro q (h | h)
    · exact Or.inl (sA h)
    · exact Or.inr (sT h)
  have dC' : ∀ X : Set Nat, X ⊆ C.foot → Disjoint X ((A.sub 1 0 p p).foot ∪ tcells (tau.sub 0 0 p 1) p ∪ wcells w ws ∪ c.foot) := by
    intro X hX
    refine dC.mono hX ?_
    rintro q (((h | h) | h) | h)
    · exact Or.inl (Or.inl (Or.inl (sA h)))
    · exact Or.inl (Or.inl (Or.inr (sT h)))
    · exact Or.inl (Or.inr h)
    · exact Or.inr h
  have nC : ∀ i j, i < C.rows → j < C.cols → C.at' i j ∉ wcells w ws ∧ C.at' i j ∉ c.foot := by
    intro i j hi hj
    have := Set.disjoint_left.mp dC (View.at_mem_foot hi hj)
    exact ⟨fun h => this (Or.inl (Or.inr h)), fun h => this (Or.inr h)⟩
  cases right
  · simp only [Bool.false_eq_true, if_false] at size work i1 i2 hf' ⊢
    rw [size, Nat.add_sub_cancel]
    have sC : (C.sub 1 0 p C.cols).foot ⊆ C.foot := View.sub_foot (by omega) (by omega)
    have hC' : Holds m (C.sub 1 0 p C.cols) (fun i j => b (i + 1) j) := (hC.part (by omega) (by omega)).congr fun i j _ _ => by
      rw [Nat.add_comm 1 i, Nat.zero_add]
    refine (C65_qrmult_partial ab (right := false) (C := C.sub 1 0 p C.cols) (A := A.sub 1 0 p p) (tau := tau.sub 0 0 p 1) (b := fun i j => b (i + 1) j)
      ⟨conf, min2, wf.sub (by omega) (by omega), rfl, le_refl _, ⟨rfl, rfl⟩, work, ready, hA', ht', fun k hk hk' => last k (by
        rw [View.sub_rows] at hk'; omega), hW, dC' _ sC, dA', dW⟩ hC' trans elb i1 i2 (by rw [View.sub_rows]; omega) hf').mono ?_
    rintro ⟨e, m'⟩ ⟨he, F, hR, rdy⟩
    dsimp only at he F hR rdy ⊢
    refine ⟨he, F.mono ?_, ?_, rdy⟩
    · rintro q ((h | h) | h)
      · exact Or.inl (Or.inl (sC h))
      · exact Or.inl (Or.inr h)
      · exact Or.inr h
    · intro i j hi hj
      rw [size] at hi
      rcases i with _ | i
      · rw [F _ ?_, hC 0 j (by omega) hj]
        · cases trans
          · simp [hessProd_zero]
          · simp [hessProdT_zero]
        · rintro ((h | h) | h)
          · rw [View.mem_sub_foot wf (by omega) (by omega) (by omega) hj] at h; omega
          · exact (nC 0 j (by omega) hj).1 h
          · exact (nC 0 j (by omega) hj).2 h
      · have := hR i j (by rw [View.sub_rows]; omega) hj
        rw [View.at_sub, Nat.zero_add, Nat.add_comm 1 i] at this
        rw [this]
        simp only [View.sub_rows, View.sub_cols, Bool.false_eq_true, if_false]
        rw [hessProd_succ, hessProdT_succ]
  · simp only [if_true] at size work i1 i2 hf' ⊢
    rw [size, Nat.add_sub_cancel]
    have sC : (C.sub 0 1 C.rows p).foot ⊆ C.foot := View.sub_foot (by omega) (by omega)
    have hC' : Holds m (C.sub 0 1 C.rows p) (fun i j => b i (j + 1)) := (hC.part (by omega) (by omega)).congr fun i j _ _ => by
      rw [Nat.add_comm 1 j, Nat.zero_add]
    refine (C65_qrmult_partial ab (right := true) (C := C.sub 0 1 C.rows p) (A := A.sub 1 0 p p) (tau := tau.sub 0 0 p 1) (b := fun i j => b i (j + 1))
      ⟨conf, min2, wf.sub (by omega) (by omega), rfl, le_refl _, ⟨rfl, rfl⟩, work, ready, hA', ht', fun k hk hk' => last k (by
        rw [View.sub_rows] at hk'; omega), hW, dC' _ sC, dA', dW⟩ hC' trans elb i1 i2 (by rw [View.sub_rows]; omega) hf').mono ?_
    rintro ⟨e, m'⟩ ⟨he, F, hR, rdy⟩
    dsimp only at he F hR rdy ⊢
    refine ⟨he, F.mono ?_, ?_, rdy⟩
    · rintro q ((h | h) | h)
      · exact Or.inl (Or.inl (sC h))
      · exact Or.inl (Or.inr h)
      · exact Or.inr h
    · intro i j hi hj
      rw [size] at hj
      rcases j with _ | j
      · rw [F _ ?_, hC i 0 hi (by omega)]
        · cases trans
          · simp [hessProdT_zero]
          · simp [hessProd_zero]
        · rintro ((h | h) | h)
          · rw [View.mem_sub_foot wf (by omega) (by omega) hi (by omega)] at h; omega
          · exact (nC i 0 hi (by omega)).1 h
          · exact (nC i 0 hi (by omega)).2 h
      · have := hR i j hi (by rw [View.sub_cols]; omega)
        rw [View.at_sub, Nat.zero_add, Nat.add_comm 1 j] at this
        rw [this]
        simp only [View.sub_rows, View.sub_cols, if_true]
        rw [hessProd_succ, hessProdT_succ]

/-- Concrete arguments. -/
theorem hessMult_demo : HessMultArgs (α := ℚ) ⟨8, 8, false, true⟩ ⟨1000, 1100, 4, 4, 3, 3, 1⟩ (tot fun p => if p = 162 then 0 else 1) false ⟨0, 8, 4, 6⟩
    ⟨100, 8, 4, 4⟩ ⟨160, 3, 3, 1⟩ (fun _ _ => 1) (fun k => if k = 2 then 0 else 1) 4 200 20 where
  conf := ⟨Or.inl (by decide), by decide⟩
  min2 := Or.inl (by decide)
  wf := Or.inl (by decide)
  sq := ⟨rfl, rfl, by decide⟩
  size := rfl
  work := by decide
  ready := ⟨by decide, by decide, by decide, by decide, by decide, ⟨_, holds_tot _ _⟩, ⟨_, holds_tot _ _⟩, View.disj_below (by decide)⟩
  hA := fun i j hi hj => by
    have h1 : i < 4 := hi
    have h2 : j < 4 := hj
    have : View.at' ⟨100, 8, 4, 4⟩ i j ≠ 162 := by simp [View.at']; omega
    simp [tot, this]
  ht := fun k hk => by
    by_cases c : k = 2
    · subst c; rfl
    · have : View.at' ⟨160, 3, 3, 1⟩ k 0 ≠ 162 := by simp [View.at']; omega
      simp [tot, this, c]
  last := fun k hk => by rw [if_pos (by omega)]
  hW := fun _ _ => ⟨_, rfl⟩
  dC := Set.disjoint_left.mpr (by
    rintro p ⟨i, j, hi, hj, rfl⟩ (((⟨i', j', hi', hj', h⟩ | ⟨k, hk, h⟩) | ⟨h1, h2⟩) | ⟨i', j', hi', hj', h⟩ | ⟨i', j', hi', hj', h⟩) <;>
      simp [View.at', Cache.A, Cache.B] at * <;> omega)
  dA := Set.disjoint_left.mpr (by
    rintro p (⟨i, j, hi, hj, rfl⟩ | ⟨k, hk, rfl⟩) (⟨h1, h2⟩ | ⟨i', j', hi', hj', h⟩ | ⟨i', j', hi', hj', h⟩) <;>
      simp [View.at', Cache.A, Cache.B] at * <;> omega)
  dW := Set.disjoint_left.mpr (by
    rintro p ⟨h1, h2⟩ (⟨i', j', hi', hj', h⟩ | ⟨i', j', hi', hj', h⟩) <;>
      simp [View.at', Cache.A, Cache.B] at * <;> omega)

example := C110_hessmult_partial (α := ℚ) id hessMult_demo (b := fun i j => (tot (α := ℚ) fun p => if p = 162 then 0 else 1) (0 + i + j * 8) |>.getD 0)
  (fun i j _ _ => by simp [tot, View.at']) true 64 (by decide) (by decide) (fuel := 30) (by decide) (by decide)

/-- C110: the size of `tau` is not looked at.  A `tau` of one element for a matrix of order four is not refused; the code reads behind it, undefined
behaviour if nothing is stored there. -/
theorem C110_tau_false : ∃ (m : Mem ℚ) (C A tau : View), A.rows = 4 ∧ A.cols = 4 ∧ C.rows = 4 ∧ C.cols = 1 ∧ tau.rows = 1 ∧ tau.cols = 1 ∧
    (∃ f, Holds m C f) ∧ (∃ f, Holds m A f) ∧ (∃ f, Holds m tau f) ∧ WAlloc m 200 20 ∧
    hessmultW id ⟨8, 8, false, true⟩ 0 30 m C A tau true false 200 20 none = .ub := by
  refine ⟨fun p => if p = 161 then none else some 1, ⟨0, 4, 4, 1⟩, ⟨100, 8, 4, 4⟩, ⟨160, 1, 1, 1⟩, rfl, rfl, rfl, rfl, rfl, rfl,
    ⟨fun _ _ => 1, fun i j hi hj => ?_⟩, ⟨fun _ _ => 1, fun i j hi hj => ?_⟩, ⟨fun _ _ => 1, fun i j hi hj => ?_⟩, fun p hp => ⟨1, ?_⟩, ?_⟩
  · have h1 : i < 4 := hi
    have h2 : j < 1 := hj
    exact if_neg (by simp [View.at']; omega)
  · have h1 : i < 4 := hi
    have h2 : j < 4 := hj
    exact if_neg (by simp [View.at']; omega)
  · have h1 : i < 1 := hi
    have h2 : j < 1 := hj
    exact if_neg (by simp [View.at']; omega)
  · exact if_neg (by omega)
  · exact isUb_eq (by decide +kernel)

end field

/-- C110 after C109: reduce `A`, then multiply a copy of the original matrix by `Qᵀ` from the left and `Q` from the right, in another work
space: the copy becomes the Hessenberg part of the result. -/
theorem C110_driver_partial {safmin : ℝ} (nonneg : Bool) (h0 : 0 < safmin) (h1 : safmin < 1) (ab : ℝ → ℝ) {env : Env} {c : Cache} {m : Mem ℝ}
    {A C tau : View} {a : Nat → Nat → ℝ} {n w ws w' ws' : Nat} (H : HessArgs env m A tau a n w ws) (conf : Conf3 env c) (ready : c.Ready m) (wC : C.WF)
    (sC : C.rows = n ∧ C.cols = n) (hC : Holds m C a) (dC : Disjoint C.foot (A.foot ∪ tcells tau (n - 1) ∪ wcells w ws ∪ c.foot))
    (dc : Disjoint (A.foot ∪ tcells tau (n - 1) ∪ wcells w ws) c.foot) (hW' : WAlloc m w' ws') (work' : n ≤ ws')
    (dW' : Disjoint (A.foot ∪ C.foot ∪ tcells tau (n - 1) ∪ wcells w ws ∪ c.foot) (wcells w' ws')) (elb : Nat) (i1 : (n + elb) * elb ≤ INT_MAX) (i2 : n * n ≤ INT_MAX)
    {fuel : Nat} (hf : 3 * n < fuel) :
    Runs (do
      let (e, m) ← hessreduceW safmin nonneg ab env fuel m A tau w ws
      let (e', m) ← hessmultW ab env elb fuel m C A tau true false w ws (some c)
      let (e'', m) ← hessmultW ab env elb fuel m C A tau false true w' ws' (some c)
      pure (e, e', e'', m)) (fun r => r.1 = 0 ∧ r.2.1 = 0 ∧ r.2.2.1 = 0 ∧ ∃ f, Holds r.2.2.2 A f ∧ Holds r.2.2.2 C (hessPart f)) := by
  have hn : 0 < n := by have := H.col.2; omega
  have sW : wcells w n ⊆ wcells w ws := fun p hp => ⟨hp.1, by have := hp.2; have := H.work; omega⟩
  refine (C109_hess_partial nonneg h0 h1 ab H (fuel := fuel) (by omega)).bind ?_
  rintro ⟨e, m1⟩ ⟨he, f, t, hA1, ht1, hp, -, -, hl, F1, hW1⟩
  dsimp only at he hA1 ht1 F1 hW1 ⊢
  have F1' : Frame (A.foot ∪ tcells tau (n - 1) ∪ wcells w ws) m m1 := F1.mono fun q h => h.elim Or.inl fun h => Or.inr (sW h)
  have dA : Disjoint (A.foot ∪ tcells tau (n - 1)) (wcells w ws ∪ c.foot) := by
    rw [Set.disjoint_union_right]
    refine ⟨?_, dc.mono_left fun q h => Or.inl h⟩
    rw [Set.disjoint_union_left]
    exact ⟨H.dA.mono_right fun q h => Or.inr h, H.dt⟩
  have dW : Disjoint (wcells w ws) c.foot := dc.mono_left fun q h => Or.inr h
  have hC1 : Holds m1 C a := hC.frame F1' (dC.mono_right fun q h => Or.inl h)
  refine (C110_hessmult_partial ab (right := false) (C := C) (A := A) (tau := tau) ⟨conf, H.min2, wC, ⟨H.sq.1, H.sq.2, hn⟩, sC.1,
    by simpa [sC.2] using H.work, ready.frame F1' dc.symm, hA1, ht1, hl, hW1, dC, dA, dW⟩ hC1 true elb (by simpa [sC.2] using i1) (by simpa [sC.2] using i2)
    (fuel := fuel) (by omega) (by simpa [sC.2] using hf)).bind ?_
  rintro ⟨e', m2⟩ ⟨he', F2, hC2, rdy2⟩
  dsimp only at he' F2 hC2 rdy2 ⊢
  have dF : Disjoint (A.foot ∪ tcells tau (n - 1)) (C.foot ∪ wcells w ws ∪ c.foot) := by
    rw [Set.disjoint_union_right, Set.disjoint_union_right]
    exact ⟨⟨(dC.mono_right fun q h => Or.inl (Or.inl h)).symm, dA.mono_right fun q h => Or.inl h⟩, dA.mono_right fun q h => Or.inr h⟩
  have hA2 : Holds m2 A f := hA1.frame F2 (dF.mono_left fun q h => Or.inl h)
  have ht2 : ∀ k, k + 1 < n → m2 (tau.at' k 0) = some (t k) := fun k hk => by
    rw [F2 _ fun h => Set.disjoint_left.mp dF (Or.inr ⟨k, by omega, rfl⟩) h]
    exact ht1 k hk
  have hW2 : WAlloc m2 w' ws' := by
    refine (hW'.frame F1' (dW'.symm.mono_right ?_)).frame F2 (dW'.symm.mono_right ?_)
    · rintro q ((h | h) | h)
      · exact Or.inl (Or.inl (Or.inl (Or.inl h)))
      · exact Or.inl (Or.inl (Or.inr h))
      · exact Or.inl (Or.inr h)
    · rintro q ((h | h) | h)
      · exact Or.inl (Or.inl (Or.inl (Or.inr h)))
      · exact Or.inl (Or.inr h)
      · exact Or.inr h
  have dC2 : Disjoint C.foot (A.foot ∪ tcells tau (n - 1) ∪ wcells w' ws' ∪ c.foot) := by
    rw [Set.disjoint_union_right, Set.disjoint_union_right]
    exact ⟨⟨dC.mono_right fun q h => Or.inl (Or.inl h), dW'.mono_left fun q h => Or.inl (Or.inl (Or.inl (Or.inr h)))⟩,
      dC.mono_right fun q h => Or.inr h⟩
  have dA2 : Disjoint (A.foot ∪ tcells tau (n - 1)) (wcells w' ws' ∪ c.foot) := by
    rw [Set.disjoint_union_right]
    refine ⟨dW'.mono_left ?_, dA.mono_right fun q h => Or.inr h⟩
    rintro q (h | h)
    · exact Or.inl (Or.inl (Or.inl (Or.inl h)))
    · exact Or.inl (Or.inl (Or.inr h))
  refine (C110_hessmult_partial ab (right := true) (C := C) (A := A) (tau := tau) (w := w') (ws := ws') ⟨conf, H.min2, wC, ⟨H.sq.1, H.sq.2, hn⟩, sC.2,
    by simpa [sC.1] using work', rdy2, hA2, ht2, hl, hW2, dC2, dA2, dW'.symm.mono_right fun q h => Or.inr h⟩ hC2 false elb (by simpa [sC.1] using i1)
    (by simpa [sC.1] using i2) (fuel := fuel) (by omega) (by simpa [sC.1] using hf)).bind ?_
  rintro ⟨e'', m3⟩ ⟨he'', F3, hC3, -⟩
  dsimp only at he'' F3 hC3 ⊢
  refine Runs.pure ⟨he, he', he'', f, hA2.frame F3 ?_, hC3.congr fun i j hi hj => ?_⟩
  · rw [Set.disjoint_union_right, Set.disjoint_union_right]
    exact ⟨⟨(dC.mono_right fun q h => Or.inl (Or.inl (Or.inl h))).symm, dA2.mono (fun q h => Or.inl h) fun q h => Or.inl h⟩,
      dA.mono (fun q h => Or.inl h) fun q h => Or.inr h⟩
  · simp only [if_true, Bool.false_eq_true, if_false]
    rw [← hp i j (by omega) (by omega), hessTo_eq']

/-- Concrete arguments. -/
example := C110_driver_partial (safmin := 1 / 2) true (by norm_num) (by norm_num) (fun x => |x|) (hessArgs_demo fun _ => 1)
  (c := ⟨1000, 1100, 4, 4, 3, 3, 1⟩) (C := ⟨200, 8, 6, 6⟩) (w' := 300) (ws' := 10) ⟨Or.inl (by decide), by decide⟩
  ⟨by decide, by decide, by decide, by decide, by decide, ⟨_, holds_tot _ _⟩, ⟨_, holds_tot _ _⟩, View.disj_below (by decide)⟩ (Or.inl (by decide))
  ⟨rfl, rfl⟩ (fun _ _ _ _ => rfl)
  (Set.disjoint_left.mpr (by
    rintro p ⟨i, j, hi, hj, rfl⟩ (((⟨i', j', hi', hj', h⟩ | ⟨k, hk, h⟩) | ⟨h1, h2⟩) | ⟨i', j', hi', hj', h⟩ | ⟨i', j', hi', hj', h⟩) <;>
      simp [View.at', Cache.A, Cache.B] at * <;> omega))
  (Set.disjoint_left.mpr (by
    rintro p ((⟨i, j, hi, hj, rfl⟩ | ⟨k, hk, rfl⟩) | ⟨h1, h2⟩) (⟨i', j', hi', hj', h⟩ | ⟨i', j', hi', hj', h⟩) <;>
      simp [View.at', Cache.A, Cache.B] at * <;> omega))
  (fun _ _ => ⟨_, rfl⟩) (by decide)
  (Set.disjoint_left.mpr (by
    rintro p ((((⟨i, j, hi, hj, rfl⟩ | ⟨i, j, hi, hj, rfl⟩) | ⟨k, hk, rfl⟩) | ⟨h1, h2⟩) | ⟨i', j', hi', hj', rfl⟩ | ⟨i', j', hi', hj', rfl⟩) ⟨h3, h4⟩ <;>
      simp [View.at', Cache.A, Cache.B] at * <;> omega))
  64 (by decide) (by decide) (fuel := 30) (by decide)

end Armas.Props
