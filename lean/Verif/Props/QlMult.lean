import Verif.QlMultLemmas
import Verif.Props.QrMult
import Verif.Props.Ql

/-!
# C118: multiplication with the orthogonal matrix of a QL factorization

See `properties.jsonl`.
-/

namespace Armas.Props

open Armas Finset

section field

variable {α : Type} [Field α] [DecidableEq α]

/-- Arguments of `armas_qlmult_w`: `A`, `tau` hold the reflectors, the areas do not overlap, `C` has a matching size. -/
structure QlMultArgs (env : Env) (m : Mem α) (right : Bool) (C A tau : View) (f : Nat → Nat → α) (t : Nat → α) (w ws : Nat) : Prop where
  min2 : 2 ≤ env.blas2min ∨ (env.naive = true ∧ env.recursive = false)
  wf : C.WF
  size : (if right then C.cols else C.rows) = A.rows
  sh : A.cols ≤ A.rows
  col : tau.cols = 1 ∧ tau.rows = A.cols
  work : (if right then C.rows else C.cols) ≤ ws
  hA : Holds m A f
  ht : ∀ k, k < A.cols → m (tau.at' k 0) = some (t k)
  hW : WAlloc m w ws
  dC : Disjoint C.foot (A.foot ∪ tcells tau A.cols ∪ wcells w ws)
  dA : Disjoint (A.foot ∪ tcells tau A.cols) (wcells w ws)

/-- C118, `armas_qlmult_w` with a block size that selects the unblocked algorithm: with `Q = H_{N-1} ... H_1 H_0` the product of the reflectors in `A` and `tau`,
`C` becomes `Q C`, or `Qᵀ C` with `ARMAS_TRANS`; with `ARMAS_RIGHT` it becomes `C Q = (Qᵀ Cᵀ)ᵀ`, or `C Qᵀ`.  Only `C` and the work space are written. -/
theorem C118_qlmult_partial (ab : α → α) {env : Env} {m : Mem α} {right : Bool} {C A tau : View} {f b : Nat → Nat → α} {t : Nat → α}
    {w ws : Nat} (H : QlMultArgs env m right C A tau f t w ws) (hC : Holds m C b) (trans : Bool) {elb : Nat}
    (hlb : elb = 0 ∨ (if right then C.rows else C.cols) ≤ elb) {fuel : Nat} (hf : A.rows < fuel) (hf' : (if right then C.rows else C.cols) < fuel) :
    Runs (qlmultW ab env elb fuel m C A tau trans right w ws) (fun r => r.1 = 0 ∧ Frame (C.foot ∪ wcells w ws) m r.2 ∧
      Holds r.2 C (fun i j =>
        if right then (if trans then qlProd A.rows A.cols A.cols t f (fun p q => b q p) j i else qlProdT A.rows A.cols A.cols t f (fun p q => b q p) j i)
        else (if trans then qlProdT A.rows A.cols A.cols t f b i j else qlProd A.rows A.cols A.cols t f b i j))) := by
  obtain ⟨min2, wf, size, sh, col, work, hA, ht, hW, dC, dA⟩ := H
  have hR : HoldsR right m C (fun i j => if right then b j i else b i j) := by
    refine Holds.congr hC fun i j _ _ => ?_
    cases right <;> rfl
  have Q : QrmArgs m right C A tau w ws f t := ⟨wf, size, sh, hA, ht, hW, dC, dA.symm⟩
  have el : qrmultBlock elb (if right then C.rows else C.cols) ws = .ok elb := by
    unfold qrmultBlock
    rw [if_neg (by omega)]
  unfold qlmultW
  dsimp only
  rw [if_neg ?_, if_neg (by omega), el]
  swap
  · rw [not_or, not_not, not_not]
    refine ⟨size, ?_⟩
    rw [View.size, col.1, col.2, Nat.mul_one]
  refine Runs.bind (P := fun l => l = elb) (Runs.ok rfl) ?_
  rintro lb rfl
  rw [if_pos hlb]
  have e : (if right then unblkQlmultRight ab env fuel m C A tau w trans else unblkQlmultLeft ab env fuel m C A tau w trans) =
      qlmUnb ab env fuel right (if right then !trans else trans) m C A tau w := by
    cases right
    · exact qlmUnb_left ab env fuel trans m C A tau w sh col.2
    · exact qlmUnb_right ab env fuel trans m C A tau w sh col.2
  rw [e]
  refine Runs.bind (qlmUnb_spec ab min2 (bw := if right then !trans else trans) Q work hf (by unfold rwid; omega) hR) ?_
  rintro m' ⟨h1, -, h2⟩
  refine Runs.pure ⟨rfl, h2, Holds.congr h1 fun i j _ _ => ?_⟩
  cases right <;> cases trans <;> rfl

/-- Concrete arguments. -/
theorem qlMultArgs_demo (right : Bool) : QlMultArgs (α := ℚ) ⟨8, 8, false, true⟩ (tot fun p => (p : ℚ)) right
    ⟨0, 8, if right then 6 else 7, if right then 7 else 6⟩ ⟨100, 8, 7, 3⟩ ⟨160, 3, 3, 1⟩ (fun i j => (100 + i + j * 8 : ℕ)) (fun k => (160 + k : ℕ)) 200 6 := by
  cases right
  all_goals
    exact {
      min2 := Or.inl (by decide)
      wf := Or.inl (by decide)
      size := rfl
      sh := by decide
      col := ⟨rfl, rfl⟩
      work := by decide
      hA := holds_tot _ _
      ht := fun k _ => by simp [tot, View.at']
      hW := fun _ _ => ⟨_, rfl⟩
      dC := Set.disjoint_left.mpr (by
        rintro p ⟨i, j, hi, hj, rfl⟩ ((⟨i', j', hi', hj', h⟩ | ⟨k, hk, h⟩) | ⟨h1, h2⟩) <;> simp [View.at'] at * <;> omega)
      dA := Set.disjoint_left.mpr (by
        rintro p (⟨i, j, hi, hj, rfl⟩ | ⟨k, hk, rfl⟩) ⟨h1, h2⟩ <;> simp [View.at'] at * <;> omega) }

example := C118_qlmult_partial id (qlMultArgs_demo true) (holds_tot _ _) true (elb := 0) (Or.inl rfl) (fuel := 30) (by decide) (by decide)
example := C118_qlmult_partial id (qlMultArgs_demo false) (holds_tot _ _) false (elb := 64) (Or.inr (by decide)) (fuel := 30) (by decide) (by decide)

/-- C118: sizes that do not match and a work space with fewer than `K` elements are refused without a change. -/
theorem C118_errors (ab : α → α) (env : Env) (elb fuel : Nat) (m : Mem α) (C A tau : View) (trans right : Bool) (w ws : Nat) :
    ((if right then C.cols else C.rows) ≠ A.rows ∨ tau.rows * tau.cols ≠ A.cols → qlmultW ab env elb fuel m C A tau trans right w ws = .ok (-1, m)) ∧
    ((if right then C.cols else C.rows) = A.rows → tau.rows * tau.cols = A.cols → ws < (if right then C.rows else C.cols) →
      qlmultW ab env elb fuel m C A tau trans right w ws = .ok (-5, m)) := by
  refine ⟨fun h => ?_, fun h h' h2 => ?_⟩
  · unfold qlmultW
    dsimp only
    rw [if_pos (by exact h)]; rfl
  · unfold qlmultW
    dsimp only
    rw [if_neg (by rw [not_or, not_not, not_not]; exact ⟨h, h'⟩), if_pos h2]; rfl

example := (C118_errors (α := ℚ) id ⟨8, 8, false, true⟩ 64 10 (tot fun _ => 1) ⟨0, 8, 7, 6⟩ ⟨100, 8, 7, 3⟩ ⟨160, 3, 3, 1⟩ true false 200 5).2 rfl rfl
  (by decide)

/-- That every argument of matching size is processed is false: with 46341 or more columns and less work space than the blocked code wants, `K * K` overflows an
`int` (`src/lapack/qlmult.c:468`): undefined behaviour. -/
theorem C118_overflow_false (ab : α → α) (env : Env) (fuel : Nat) (m : Mem α) :
    qlmultW ab env 64 fuel m ⟨0, 1, 1, 46341⟩ ⟨50000, 1, 1, 1⟩ ⟨60000, 1, 1, 1⟩ true false 70000 46341 = .ub := by
  unfold qlmultW
  dsimp only
  rw [if_neg (by decide), if_neg (by decide), show qrmultBlock 64 (if false = true then 1 else 46341) 46341 = .ub from by
    unfold qrmultBlock
    rw [if_pos (by decide), if_neg (by decide), if_pos (by decide), if_pos (by decide)]]
  rfl

/-- That a `tau` accepted by `armas_qlfactor_w` can be handed to `armas_qlmult_w` is false: factoring accepts more than `N` elements and multiplication refuses
them (`src/lapack/ql.c:464`, `src/lapack/qlmult.c:449`), although the loops of the latter are written for them. -/
theorem C118_tau_false {safmin : ℝ} (nonneg : Bool) (h0 : 0 < safmin) (h1 : safmin < 1) :
    ∃ (env : Env) (m : Mem ℝ) (A tau C : View) (w ws : Nat), Runs (do
      let (e, m) ← qlfactorW safmin nonneg (fun x => |x|) env 0 8 m A tau w ws
      let (e', _) ← qlmultW (fun x => |x|) env 0 8 m C A tau true false w ws
      pure (e, e')) (fun r => r = (0, -1)) := by
  refine ⟨⟨8, 8, false, true⟩, tot fun p => (p : ℝ), ⟨0, 8, 7, 5⟩, ⟨100, 6, 6, 1⟩, ⟨300, 8, 7, 5⟩, 200, 5, ?_⟩
  refine Runs.bind (C117_ql_partial nonneg h0 h1 (fun x => |x|) (qlArgs_demo fun p => (p : ℝ)) (elb := 0) (Or.inl (by decide)) (fuel := 8) (by decide)) ?_
  rintro ⟨e, m1⟩ ⟨he, -⟩
  dsimp only at he ⊢
  rw [(C118_errors (fun x : ℝ => |x|) ⟨8, 8, false, true⟩ 0 8 m1 ⟨300, 8, 7, 5⟩ ⟨0, 8, 7, 5⟩ ⟨100, 6, 6, 1⟩ true false 200 5).1 (Or.inr (by decide)), he]
  exact Runs.pure rfl

end field

/-- C118 after C117: factor `A`, then multiply a copy of the original matrix by `Qᵀ`: the result is `L`, with zeros above its diagonal. -/
theorem C118_driver_partial {safmin : ℝ} (nonneg : Bool) (h0 : 0 < safmin) (h1 : safmin < 1) (ab : ℝ → ℝ) {env : Env}
    {m : Mem ℝ} {A C tau : View} {a : Nat → Nat → ℝ} {w ws : Nat} (H : QlArgs env m A tau a w ws) {fuel : Nat}
    (hf : A.rows < fuel) (htau : tau.rows = A.cols) (wC : C.WF) (sC : C.rows = A.rows ∧ C.cols = A.cols) (hC : Holds m C a)
    (dC : Disjoint C.foot (A.foot ∪ tau.foot ∪ wcells w ws)) :
    Runs (do
      let (e, m) ← qlfactorW safmin nonneg ab env 0 fuel m A tau w ws
      let (e', m) ← qlmultW ab env 0 fuel m C A tau true false w ws
      pure (e, e', m)) (fun r => r.1 = 0 ∧ r.2.1 = 0 ∧ ∃ f, Holds r.2.2 A f ∧ Holds r.2.2 C (qlLower A.rows A.cols f)) := by
  obtain ⟨tc, tr⟩ := H.col
  have tt : tcells tau A.cols ⊆ tau.foot := by
    rintro p ⟨k, hk, rfl⟩
    exact View.at_mem_foot (by omega) (by omega)
  have wsub : wcells w A.cols ⊆ wcells w ws := fun p hp => ⟨hp.1, lt_of_lt_of_le hp.2 (Nat.add_le_add_left H.work w)⟩
  have tset : {p | ∃ k, k < A.cols ∧ p = tau.at' (tau.rows - A.cols + k) 0} ⊆ tau.foot := by
    rintro p ⟨k, hk, rfl⟩
    exact View.at_mem_foot (by omega) (by omega)
  refine (C117_ql_partial nonneg h0 h1 ab H (elb := 0) (Or.inl (by simp [invBlock])) hf).bind ?_
  rintro ⟨e, m1⟩ ⟨he, f, t, hA1, ht1, q, F1, hW1⟩
  dsimp only at he hA1 ht1 F1 hW1 ⊢
  have FS : Frame (A.foot ∪ tau.foot ∪ wcells w ws) m m1 := F1.mono (by
    rintro p ((h | h) | h)
    · exact Or.inl (Or.inl h)
    · exact Or.inl (Or.inr (tset h))
    · exact Or.inr (wsub h))
  have Q : QlMultArgs env m1 false C A tau f t w ws := by
    refine ⟨H.min2, wC, by simpa using sC.1, H.shape, ⟨tc, htau⟩, by simpa [sC.2] using H.work, hA1, fun k hk => ?_, hW1, dC.mono_right ?_, ?_⟩
    · have := ht1 k hk
      rwa [htau, Nat.sub_self, Nat.zero_add] at this
    · rintro p ((h | h) | h)
      exacts [Or.inl (Or.inl h), Or.inl (Or.inr (tt h)), Or.inr h]
    · rw [Set.disjoint_union_left]
      exact ⟨H.dA.mono_right fun p hp => Or.inr hp, H.dt.mono_left tt⟩
  have hC1 : Holds m1 C a := hC.frame FS dC
  refine (C118_qlmult_partial ab Q hC1 true (elb := 0) (Or.inl rfl) (fuel := fuel) (by omega)
    (by simp only [Bool.false_eq_true, if_false, sC.2]; have := H.shape; omega)).bind ?_
  rintro ⟨e', m2⟩ ⟨he', F2, k⟩
  dsimp only at he' k F2 ⊢
  refine Runs.pure ⟨he, he', f, hA1.frame F2 ?_, Holds.congr k fun i j hi hj => ?_⟩
  · rw [Set.disjoint_union_right]
    exact ⟨(dC.mono_right fun p hp => Or.inl (Or.inl hp)).symm, H.dA.mono_right fun p hp => Or.inr hp⟩
  · simp only [Bool.false_eq_true, if_false, if_true]
    exact q.back i j (by omega) (by omega)

example := C118_driver_partial (safmin := 1 / 2) false (by norm_num) (by norm_num) (fun x => |x|) (m := tot fun p => ((p % 300 : ℕ) : ℝ)) (A := ⟨0, 8, 7, 5⟩)
  (C := ⟨300, 8, 7, 5⟩) (tau := ⟨100, 5, 5, 1⟩) (a := fun i j => (((i + j * 8) % 300 : ℕ) : ℝ)) (w := 200) (ws := 6) (env := ⟨8, 8, false, true⟩)
  { min2 := Or.inl (by decide), wf := Or.inl (by decide), shape := by decide, col := ⟨rfl, by decide⟩, work := by decide
    hA := fun i j _ _ => by simp [tot, View.at']
    ht := ⟨_, holds_tot _ _⟩
    hW := fun _ _ => ⟨_, rfl⟩
    dA := Set.disjoint_left.mpr (by
      rintro p ⟨i, j, hi, hj, rfl⟩ (⟨i', j', hi', hj', h⟩ | ⟨h1, h2⟩) <;> simp only [View.at'] at * <;> omega)
    dt := Set.disjoint_left.mpr (by
      rintro p ⟨i, j, hi, hj, rfl⟩ ⟨h1, h2⟩; simp only [View.at'] at *; omega) }
  (fuel := 8) (by decide) rfl (Or.inl (by decide)) ⟨rfl, rfl⟩
  (fun i j _ _ => by simp only [tot, View.at']; rw [show 300 + i + j * 8 = i + j * 8 + 300 by omega, Nat.add_mod_right])
  (Set.disjoint_left.mpr (by
    rintro p ⟨i, j, hi, hj, rfl⟩ ((⟨i', j', hi', hj', h⟩ | ⟨i', j', hi', hj', h⟩) | ⟨h1, h2⟩) <;> simp only [View.at'] at * <;> omega))

end Armas.Props
