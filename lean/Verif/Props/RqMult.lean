import Verif.RqMultLemmas
import Verif.Props.Rq
import Verif.Props.QlMult

/-!
# C121: multiplication with the orthogonal matrix of an RQ factorization

See `properties.jsonl`.
-/

namespace Armas.Props

open Armas Finset

section field

variable {α : Type} [Field α] [DecidableEq α]

/-- Arguments of `armas_rqmult_w`: `A`, `tau` hold the reflectors, the areas do not overlap, `C` has a matching size. -/
structure RqMultArgs (env : Env) (m : Mem α) (right : Bool) (C A tau : View) (f : Nat → Nat → α) (t : Nat → α) (w ws : Nat) : Prop where
  min2 : 2 ≤ env.blas2min ∨ (env.naive = true ∧ env.recursive = false)
  wf : C.WF
  size : (if right then C.cols else C.rows) = A.cols
  sh : A.rows ≤ A.cols
  col : tau.cols = 1 ∧ tau.rows = A.rows
  work : (if right then C.rows else C.cols) ≤ ws
  hA : Holds m A fun i j => f j i
  ht : ∀ k, k < A.rows → m (tau.at' k 0) = some (t k)
  hW : WAlloc m w ws
  dC : Disjoint C.foot (A.foot ∪ tcells tau A.rows ∪ wcells w ws)
  dA : Disjoint (A.foot ∪ tcells tau A.rows) (wcells w ws)

/-- C121, `armas_rqmult_w` with a block size that selects the unblocked algorithm: with `Q = H_0 H_1 ... H_{M-1}` the product of the reflectors in the rows of `A` and `tau`,
`C` becomes `Q C`, or `Qᵀ C` with `ARMAS_TRANS`; with `ARMAS_RIGHT` it becomes `C Q = (Qᵀ Cᵀ)ᵀ`, or `C Qᵀ`.  Only `C` and the work space are written. -/
theorem C121_rqmult_partial (ab : α → α) {env : Env} {m : Mem α} {right : Bool} {C A tau : View} {f b : Nat → Nat → α} {t : Nat → α}
    {w ws : Nat} (H : RqMultArgs env m right C A tau f t w ws) (hC : Holds m C b) (trans : Bool) {elb : Nat}
    (hlb : elb = 0 ∨ (if right then C.rows else C.cols) ≤ elb) {fuel : Nat} (hf : A.cols < fuel) (hf' : (if right then C.rows else C.cols) < fuel) :
    Runs (rqmultW ab env elb fuel m C A tau trans right w ws) (fun r => r.1 = 0 ∧ Frame (C.foot ∪ wcells w ws) m r.2 ∧
      Holds r.2 C (fun i j =>
        if right then (if trans then qlProdT A.cols A.rows A.rows t f (fun p q => b q p) j i else qlProd A.cols A.rows A.rows t f (fun p q => b q p) j i)
        else (if trans then qlProd A.cols A.rows A.rows t f b i j else qlProdT A.cols A.rows A.rows t f b i j))) := by
  obtain ⟨min2, wf, size, sh, col, work, hA, ht, hW, dC, dA⟩ := H
  have hR : HoldsR right m C (fun i j => if right then b j i else b i j) := by
    refine Holds.congr hC fun i j _ _ => ?_
    cases right <;> rfl
  have Q : LqmArgs m right C A tau w ws f t := ⟨wf, size, sh, hA, ht, hW, dC, dA.symm⟩
  have el : qrmultBlock elb (if right then C.rows else C.cols) ws = .ok elb := by
    unfold qrmultBlock
    rw [if_neg (by omega)]
  unfold rqmultW
  dsimp only
  rw [if_neg ?_, if_neg (by omega), el]
  swap
  · rw [not_or, not_not, not_not]
    refine ⟨size, ?_⟩
    rw [View.size, col.1, col.2, Nat.mul_one]
  refine Runs.bind (P := fun l => l = elb) (Runs.ok rfl) ?_
  rintro lb rfl
  rw [if_pos hlb]
  have e : (if right then unblkRqmultRight ab env fuel m C A tau w trans else unblkRqmultLeft ab env fuel m C A tau w trans) =
      rqmUnb ab env fuel right (if right then trans else !trans) m C A tau w := by
    cases right
    · exact rqmUnb_left ab env fuel trans m C A tau w sh col.2
    · exact rqmUnb_right ab env fuel trans m C A tau w sh col.2
  rw [e]
  refine Runs.bind (rqmUnb_spec ab min2 (bw := if right then trans else !trans) Q work hf (by unfold rwid; omega) hR) ?_
  rintro m' ⟨h1, -, h2⟩
  refine Runs.pure ⟨rfl, h2, Holds.congr h1 fun i j _ _ => ?_⟩
  cases right <;> cases trans <;> rfl

/-- Concrete arguments. -/
theorem rqMultArgs_demo (right : Bool) : RqMultArgs (α := ℚ) ⟨8, 8, false, true⟩ (tot fun p => (p : ℚ)) right
    ⟨0, 8, if right then 6 else 7, if right then 7 else 6⟩ ⟨100, 3, 3, 7⟩ ⟨160, 3, 3, 1⟩ (fun i j => (100 + j + i * 3 : ℕ)) (fun k => (160 + k : ℕ)) 200 6 := by
  cases right
  all_goals
    exact {
      min2 := Or.inl (by decide)
      wf := Or.inl (by decide)
      size := rfl
      sh := by decide
      col := ⟨rfl, rfl⟩
      work := by decide
      hA := holds_tot _ _
      ht := fun k _ => by simp [tot, View.at']
      hW := fun _ _ => ⟨_, rfl⟩
      dC := Set.disjoint_left.mpr (by
        rintro p ⟨i, j, hi, hj, rfl⟩ ((⟨i', j', hi', hj', h⟩ | ⟨k, hk, h⟩) | ⟨h1, h2⟩) <;> simp [View.at'] at * <;> omega)
      dA := Set.disjoint_left.mpr (by
        rintro p (⟨i, j, hi, hj, rfl⟩ | ⟨k, hk, rfl⟩) ⟨h1, h2⟩ <;> simp [View.at'] at * <;> omega) }

example := C121_rqmult_partial id (rqMultArgs_demo true) (holds_tot _ _) true (elb := 0) (Or.inl rfl) (fuel := 30) (by decide) (by decide)
example := C121_rqmult_partial id (rqMultArgs_demo false) (holds_tot _ _) false (elb := 64) (Or.inr (by decide)) (fuel := 30) (by decide) (by decide)

/-- C121: sizes that do not match and a work space with fewer than `K` elements are refused without a change, both with `-1`. -/
theorem C121_errors (ab : α → α) (env : Env) (elb fuel : Nat) (m : Mem α) (C A tau : View) (trans right : Bool) (w ws : Nat) :
    ((if right then C.cols else C.rows) ≠ A.cols ∨ tau.rows * tau.cols ≠ A.rows → rqmultW ab env elb fuel m C A tau trans right w ws = .ok (-1, m)) ∧
    ((if right then C.cols else C.rows) = A.cols → tau.rows * tau.cols = A.rows → ws < (if right then C.rows else C.cols) →
      rqmultW ab env elb fuel m C A tau trans right w ws = .ok (-1, m)) := by
  refine ⟨fun h => ?_, fun h h' h2 => ?_⟩
  · unfold rqmultW
    dsimp only
    rw [if_pos (by exact h)]
  · unfold rqmultW
    dsimp only
    rw [if_neg (by rw [not_or, not_not, not_not]; exact ⟨h, h'⟩), if_pos h2]

example := (C121_errors (α := ℚ) id ⟨8, 8, false, true⟩ 64 10 (tot fun _ => 1) ⟨0, 8, 7, 6⟩ ⟨100, 3, 3, 7⟩ ⟨160, 3, 3, 1⟩ true false 200 5).2 rfl rfl
  (by decide)

/-- That every argument of matching size is processed is false: with 46341 or more columns and less work space than the blocked code wants, `K * K` overflows an
`int` (`src/lapack/rqmult.c:498`): undefined behaviour. -/
theorem C121_overflow_false (ab : α → α) (env : Env) (fuel : Nat) (m : Mem α) :
    rqmultW ab env 64 fuel m ⟨0, 1, 1, 46341⟩ ⟨50000, 1, 1, 1⟩ ⟨60000, 1, 1, 1⟩ true false 70000 46341 = .ub := by
  unfold rqmultW
  dsimp only
  rw [if_neg (by decide), if_neg (by decide), show qrmultBlock 64 (if false = true then 1 else 46341) 46341 = .ub from by
    unfold qrmultBlock
    rw [if_pos (by decide), if_neg (by decide), if_pos (by decide), if_pos (by decide)]]
  rfl

end field

/-- That the returned value tells the error is false: a short work space gives the value that stands for sizes that do not match, `-ARMAS_ESIZE`
(`src/lapack/rqmult.c:489-492`); the other multiplications return `-ARMAS_EWORK` (`C118_errors`). -/
theorem C121_code_false : ∃ (m : Mem ℚ) (C A tau : View), rqmultW id ⟨8, 8, false, true⟩ 0 10 m C A tau true false 200 5 = .ok (-ESIZE, m) ∧
    C.rows = A.cols ∧ tau.rows * tau.cols = A.rows ∧ 5 < C.cols :=
  ⟨tot fun _ => 1, ⟨0, 8, 7, 6⟩, ⟨100, 3, 3, 7⟩, ⟨160, 3, 3, 1⟩,
    (C121_errors id ⟨8, 8, false, true⟩ 0 10 (tot fun _ => 1) ⟨0, 8, 7, 6⟩ ⟨100, 3, 3, 7⟩ ⟨160, 3, 3, 1⟩ true false 200 5).2 rfl rfl (by decide), rfl, rfl, by decide⟩

/-- C121 after C120: factor `A`, then multiply a copy of the original matrix by `Qᵀ` from the right: the result is `R`, with zeros below its diagonal. -/
theorem C121_driver_partial {safmin : ℝ} (nonneg : Bool) (h0 : 0 < safmin) (h1 : safmin < 1) (ab : ℝ → ℝ) {env : Env}
    {m : Mem ℝ} {A C tau : View} {a : Nat → Nat → ℝ} {w ws : Nat} (H : RqArgs env m A tau a w ws) {fuel : Nat}
    (hf : A.cols < fuel) (wC : C.WF) (sC : C.rows = A.rows ∧ C.cols = A.cols) (hC : Holds m C a)
    (dC : Disjoint C.foot (A.foot ∪ tau.foot ∪ wcells w ws)) :
    Runs (do
      let (e, m) ← rqfactorW safmin nonneg ab env 0 fuel m A tau w ws
      let (e', m) ← rqmultW ab env 0 fuel m C A tau true true w ws
      pure (e, e', m)) (fun r => r.1 = 0 ∧ r.2.1 = 0 ∧ ∃ f : Nat → Nat → ℝ, Holds r.2.2 A (fun i j => f j i) ∧
        Holds r.2.2 C (fun i j => if j < A.cols - A.rows + i then 0 else f j i)) := by
  obtain ⟨tc, tr⟩ := H.col
  have tt : tcells tau A.rows ⊆ tau.foot := by
    rintro p ⟨k, hk, rfl⟩
    exact View.at_mem_foot (by omega) (by omega)
  have wsub : wcells w A.rows ⊆ wcells w ws := fun p hp => ⟨hp.1, lt_of_lt_of_le hp.2 (Nat.add_le_add_left H.work w)⟩
  refine (C120_rq_partial nonneg h0 h1 ab H (elb := 0) (Or.inl (by simp [rqBlock])) hf).bind ?_
  rintro ⟨e, m1⟩ ⟨he, f, t, hA1, ht1, q, F1, hW1⟩
  dsimp only at he hA1 ht1 F1 hW1 ⊢
  have FS : Frame (A.foot ∪ tau.foot ∪ wcells w ws) m m1 := F1.mono (by
    rintro p ((h | h) | h)
    · exact Or.inl (Or.inl h)
    · exact Or.inl (Or.inr h)
    · exact Or.inr (wsub h))
  have Q : RqMultArgs env m1 true C A tau f t w ws := by
    refine ⟨H.min2, wC, by simpa using sC.2, H.shape, ⟨tc, tr⟩, by simpa [sC.1] using H.work, hA1, ht1, hW1, dC.mono_right ?_, ?_⟩
    · rintro p ((h | h) | h)
      exacts [Or.inl (Or.inl h), Or.inl (Or.inr (tt h)), Or.inr h]
    · rw [Set.disjoint_union_left]
      exact ⟨H.dA.mono_right fun p hp => Or.inr hp, H.dt.mono_left tt⟩
  have hC1 : Holds m1 C a := hC.frame FS dC
  refine (C121_rqmult_partial ab Q hC1 true (elb := 0) (Or.inl rfl) (fuel := fuel) (by omega)
    (by simp only [if_true, sC.1]; have := H.shape; omega)).bind ?_
  rintro ⟨e', m2⟩ ⟨he', F2, k⟩
  dsimp only at he' k F2 ⊢
  refine Runs.pure ⟨he, he', f, hA1.frame F2 ?_, Holds.congr k fun i j hi hj => ?_⟩
  · rw [Set.disjoint_union_right]
    exact ⟨(dC.mono_right fun p hp => Or.inl (Or.inl hp)).symm, H.dA.mono_right fun p hp => Or.inr hp⟩
  · simp only [if_true]
    rw [q.back j i (by omega) (by omega), qlLower]

example := C121_driver_partial (safmin := 1 / 2) false (by norm_num) (by norm_num) (fun x => |x|) (m := tot fun p => ((p % 300 : ℕ) : ℝ)) (A := ⟨0, 8, 5, 7⟩)
  (C := ⟨300, 8, 5, 7⟩) (tau := ⟨100, 5, 5, 1⟩) (a := fun i j => (((i + j * 8) % 300 : ℕ) : ℝ)) (w := 200) (ws := 5) (env := ⟨8, 8, false, true⟩)
  (by simpa only [Nat.add_zero] using rqArgs_demo fun p => ((p % 300 : ℕ) : ℝ))
  (fuel := 8) (by decide) (Or.inl (by decide)) ⟨rfl, rfl⟩
  (fun i j _ _ => by simp only [tot, View.at']; rw [show 300 + i + j * 8 = i + j * 8 + 300 by omega, Nat.add_mod_right])
  (Set.disjoint_left.mpr (by
    rintro p ⟨i, j, hi, hj, rfl⟩ ((⟨i', j', hi', hj', h⟩ | ⟨i', j', hi', hj', h⟩) | ⟨h1, h2⟩) <;> simp only [View.at'] at * <;> omega))

end Armas.Props
