import Verif.LqMultLemmas
import Verif.Props.QrMult
import Verif.Props.Lq

/-!
# C94: multiplication with the orthogonal matrix of an LQ factorization
-/

namespace Armas.Props

open Armas Finset

section field

variable {α : Type} [Field α] [DecidableEq α]

/-- Arguments of `armas_lqmult_w`: `A`, `tau` hold the reflectors, the areas do not overlap, the cache buffers are usable, `K` is the size of `C`
that is not reflected. -/
structure LqMultArgs (env : Env) (c : Cache) (m : Mem α) (right : Bool) (C A tau : View) (f : Nat → Nat → α) (t : Nat → α) (w ws : Nat) : Prop where
  conf : Conf3 env c
  min2 : 2 ≤ env.blas2min ∨ (env.naive = true ∧ env.recursive = false)
  wf : C.WF
  size : (if right then C.cols else C.rows) = A.cols
  sh : A.rows ≤ A.cols
  col : tau.cols = 1 ∧ tau.rows = A.rows
  work : (if right then C.rows else C.cols) ≤ ws
  ready : c.Ready m
  hA : Holds m A fun i j => f j i
  ht : ∀ k, k < A.rows → m (tau.at' k 0) = some (t k)
  last : ∀ k, k < A.rows → k + 1 = A.cols → t k = 0
  hW : WAlloc m w ws
  dC : Disjoint C.foot (A.foot ∪ tcells tau A.rows ∪ wcells w ws ∪ c.foot)
  dA : Disjoint (A.foot ∪ tcells tau A.rows) (wcells w ws ∪ c.foot)
  dW : Disjoint (wcells w ws) c.foot

/-- C94, `armas_lqmult_w`: with `Q = H_{M-1} ... H_1 H_0` the product of the reflectors in the rows of `A` and `tau`, `C` becomes `Q C`, or `Qᵀ C` with
`ARMAS_TRANS`; with `ARMAS_RIGHT` it becomes `C Q = (Qᵀ Cᵀ)ᵀ`, or `C Qᵀ`; for every size, block size and work space of at least `K` elements.
Only `C` and the work spaces are written.  The sizes `K*K` and `(K+elb)*elb` have to fit an `int` (`C94_overflow_false`). -/
theorem C94_lqmult_partial (ab : α → α) {env : Env} {c : Cache} {m : Mem α} {right : Bool} {C A tau : View} {f b : Nat → Nat → α} {t : Nat → α}
    {w ws : Nat} (H : LqMultArgs env c m right C A tau f t w ws) (hC : Holds m C b) (trans : Bool) (elb : Nat)
    (i1 : ((if right then C.rows else C.cols) + elb) * elb ≤ INT_MAX)
    (i2 : (if right then C.rows else C.cols) * (if right then C.rows else C.cols) ≤ INT_MAX) {fuel : Nat}
    (hf : A.cols < fuel) (hf' : 3 * (if right then C.rows else C.cols) < fuel) :
    Runs (lqmultW ab env elb fuel m C A tau trans right w ws (some c)) (fun r => r.1 = 0 ∧ Frame (C.foot ∪ wcells w ws ∪ c.foot) m r.2 ∧
      Holds r.2 C (fun i j =>
        if right then (if trans then qrProdT A.cols A.rows t f (fun p q => b q p) j i else qrProd A.cols A.rows t f (fun p q => b q p) j i)
        else (if trans then qrProd A.cols A.rows t f b i j else qrProdT A.cols A.rows t f b i j)) ∧ c.Ready r.2) := by
  obtain ⟨conf, min2, wf, size, sh, col, work, ready, hA, ht, last, hW, dC, dA, dW⟩ := H
  have hR : HoldsR right m C (fun i j => if right then b j i else b i j) := by
    refine Holds.congr hC fun i j _ _ => ?_
    cases right <;> rfl
  have Q : LqmArgs m right C A tau w ws f t := ⟨wf, size, sh, hA, ht, hW, dC.mono_right fun p hp => Or.inl hp,
    (dA.mono_right fun p hp => Or.inl hp).symm⟩
  have Qc : LqmCache c C A tau w ws := ⟨dC.mono_right fun p hp => Or.inr hp, dA.mono_right fun p hp => Or.inr hp, dW⟩
  obtain ⟨lb, hlb, hle⟩ := qrmultBlock_le (ws := ws) i1 i2
  have key : ∀ m', HoldsR right m' C (qrVal A.cols A.rows (if right then trans else !trans) t f (fun i j => if right then b j i else b i j)) →
      Holds m' C (fun i j =>
        if right then (if trans then qrProdT A.cols A.rows t f (fun p q => b q p) j i else qrProd A.cols A.rows t f (fun p q => b q p) j i)
        else (if trans then qrProd A.cols A.rows t f b i j else qrProdT A.cols A.rows t f b i j)) := by
    intro m' h
    refine Holds.congr h fun i j _ _ => ?_
    cases right <;> cases trans <;> rfl
  unfold lqmultW
  dsimp only
  rw [if_neg ?_, if_neg (by omega)]
  swap
  · rw [not_or, not_not, not_not]
    refine ⟨size, ?_⟩
    rw [View.size, col.1, col.2, Nat.mul_one]
  rw [hlb]
  refine Runs.bind (P := fun m' => HoldsR right m' C (qrVal A.cols A.rows (if right then trans else !trans) t f (fun i j => if right then b j i else b i j)) ∧
    Frame (C.foot ∪ wcells w ws ∪ c.foot) m m' ∧ c.Ready m') ?_ ?_
  · show Runs (if lb = 0 ∨ (if right = true then C.rows else C.cols) ≤ lb then _ else _) _
    by_cases hb : lb = 0 ∨ (if right then C.rows else C.cols) ≤ lb
    · rw [if_pos hb]
      have q := lqmUnb_spec ab min2 (fw := if right then trans else !trans) Q work hf (by unfold rwid; omega) hR
      have e : (if right then unblkLqmultRight ab env fuel m C A tau w trans else unblkLqmultLeft ab env fuel m C A tau w trans) =
          lqmUnb ab env fuel right (if right then trans else !trans) m C A tau w := by
        cases right
        · exact lqmUnb_left ab env fuel trans m C A tau w sh
        · exact lqmUnb_right ab env fuel trans m C A tau w
      rw [e]
      exact q.mono fun m' ⟨h1, _, h2⟩ => ⟨h1, h2.mono fun p hp => Or.inl hp, ready.frame h2
        (Set.disjoint_union_right.mpr ⟨(dC.mono_right fun p hp => Or.inr hp).symm, dW.symm⟩)⟩
    · rw [if_neg hb]
      rw [not_or, not_le] at hb
      have q := lqmBlks_spec ab conf (fw := if right then trans else !trans) Q Qc ready last (hle hb.1 hb.2) (Nat.pos_of_ne_zero hb.1) (fuel := fuel)
        (by unfold rwid; omega) hR
      have e : (if right then blkLqmultRight ab env fuel m C A tau w (w + lb * lb) trans lb (some c)
          else blkLqmultLeft ab env fuel m C A tau w (w + lb * lb) trans lb (some c)) =
          lqmBlks ab env fuel right (if right then trans else !trans) m C A tau w (w + lb * lb) lb (some c) := by
        cases right
        · exact lqmBlks_left ab env fuel trans m C A tau w (w + lb * lb) lb (some c)
        · exact lqmBlks_right ab env fuel trans m C A tau w (w + lb * lb) lb (some c)
      rw [e]
      exact q.mono fun m' ⟨h1, _, h2, h3⟩ => ⟨h1, h2, h3⟩
  · rintro m' ⟨h1, h2, h3⟩
    exact Runs.pure ⟨rfl, h2, key m' h1, h3⟩

/-- Concrete arguments. -/
theorem lqMultArgs_demo (right : Bool) : LqMultArgs (α := ℚ) ⟨8, 8, false, true⟩ ⟨5000, 6000, 4, 4, 3, 3, 1⟩ (tot fun p => (p : ℚ)) right
    ⟨0, 8, if right then 6 else 7, if right then 7 else 6⟩ ⟨100, 8, 3, 7⟩ ⟨160, 3, 3, 1⟩ (fun i j => (100 + j + i * 8 : ℕ)) (fun k => (160 + k : ℕ)) 200 40 := by
  cases right
  all_goals
    exact {
      conf := ⟨Or.inl (by decide), by decide⟩
      min2 := Or.inl (by decide)
      wf := Or.inl (by decide)
      size := rfl
      sh := by decide
      col := ⟨rfl, rfl⟩
      work := by decide
      ready := ⟨by decide, by decide, by decide, by decide, by decide, ⟨_, holds_tot _ _⟩, ⟨_, holds_tot _ _⟩, View.disj_below (by decide)⟩
      hA := holds_tot _ _
      ht := fun k _ => by simp [tot, View.at']
      last := fun k h1 h2 => by simp only at h1 h2; omega
      hW := fun _ _ => ⟨_, rfl⟩
      dC := Set.disjoint_left.mpr (by
        rintro p ⟨i, j, hi, hj, rfl⟩ (((⟨i', j', hi', hj', h⟩ | ⟨k, hk, h⟩) | ⟨h1, h2⟩) | ⟨i', j', hi', hj', h⟩ | ⟨i', j', hi', hj', h⟩) <;>
          simp [View.at', Cache.A, Cache.B] at * <;> omega)
      dA := Set.disjoint_left.mpr (by
        rintro p (⟨i, j, hi, hj, rfl⟩ | ⟨k, hk, rfl⟩) (⟨h1, h2⟩ | ⟨i', j', hi', hj', h⟩ | ⟨i', j', hi', hj', h⟩) <;>
          simp [View.at', Cache.A, Cache.B] at * <;> omega)
      dW := Set.disjoint_left.mpr (by
        rintro p ⟨h1, h2⟩ (⟨i', j', hi', hj', h⟩ | ⟨i', j', hi', hj', h⟩) <;>
          simp [View.at', Cache.A, Cache.B] at * <;> omega) }

example := C94_lqmult_partial id (lqMultArgs_demo true) (holds_tot _ _) true 3 (by decide) (by decide) (fuel := 30) (by decide) (by decide)
example := C94_lqmult_partial id (lqMultArgs_demo false) (holds_tot _ _) false 3 (by decide) (by decide) (fuel := 30) (by decide) (by decide)

/-- The checks of `armas_lqmult_w`: sizes that do not match and a work space with fewer than `K` elements; nothing is written.  Both return -1. -/
theorem C94_errors (ab : α → α) (env : Env) (elb fuel : Nat) (m : Mem α) (C A tau : View) (trans right : Bool) (w ws : Nat) (cbuf : Option Cache) :
    ((if right then C.cols else C.rows) ≠ A.cols ∨ tau.rows * tau.cols ≠ A.rows →
      lqmultW ab env elb fuel m C A tau trans right w ws cbuf = .ok (-1, m)) ∧
    ((if right then C.cols else C.rows) = A.cols → tau.rows * tau.cols = A.rows → ws < (if right then C.rows else C.cols) →
      lqmultW ab env elb fuel m C A tau trans right w ws cbuf = .ok (-1, m)) := by
  refine ⟨fun h => ?_, fun h h' h2 => ?_⟩
  · unfold lqmultW
    dsimp only
    rw [if_pos (by exact h)]
  · unfold lqmultW
    dsimp only
    rw [if_neg (by rw [not_or, not_not, not_not]; exact ⟨h, h'⟩), if_pos h2]

example := (C94_errors (α := ℚ) id ⟨8, 8, false, true⟩ 64 10 (tot fun _ => 1) ⟨0, 8, 7, 6⟩ ⟨100, 8, 3, 7⟩ ⟨160, 3, 3, 1⟩ true false 200 5 none).2 rfl rfl
  (by decide)

/-- With 46341 or more columns and less work space than the blocked code wants, `K * K` overflows an `int` (`src/lapack/lqmult.c:507`): undefined
behaviour on arguments that satisfy all documented conditions. -/
theorem C94_overflow_false (ab : α → α) (env : Env) (fuel : Nat) (m : Mem α) (cbuf : Option Cache) :
    lqmultW ab env 64 fuel m ⟨0, 1, 1, 46341⟩ ⟨50000, 1, 1, 1⟩ ⟨60000, 1, 1, 1⟩ true false 70000 46341 cbuf = .ub := by
  unfold lqmultW
  dsimp only
  rw [if_neg (by decide), if_neg (by decide), show qrmultBlock 64 (if false = true then 1 else 46341) 46341 = .ub from by
    unfold qrmultBlock
    rw [if_pos (by decide), if_neg (by decide), if_pos (by decide), if_pos (by decide)]]
  rfl

end field

/-- C94 after C93: factor `A`, then multiply a copy of the original matrix by `Qᵀ` from the right: the result is `L`, with zeros above the
diagonal. -/
theorem C94_driver_partial {safmin : ℝ} (nonneg : Bool) (h0 : 0 < safmin) (h1 : safmin < 1) (ab : ℝ → ℝ) {env : Env} {c : Cache}
    {m : Mem ℝ} {A C tau : View} {a : Nat → Nat → ℝ} {w ws : Nat} (H : LqArgs env c m A tau a w ws) (elb : Nat) {fuel : Nat}
    (hf : A.cols + A.rows + A.rows < fuel) (htau : tau.rows = A.rows) (wC : C.WF) (sC : C.rows = A.rows ∧ C.cols = A.cols) (hC : Holds m C fun i j => a j i)
    (dC : Disjoint C.foot (A.foot ∪ tcells tau A.rows ∪ wcells w ws ∪ c.foot)) (i1 : (A.rows + elb) * elb ≤ INT_MAX) (i2 : A.rows * A.rows ≤ INT_MAX) :
    Runs (do
      let (e, m) ← lqfactorW safmin nonneg ab env elb fuel m A tau w ws (some c)
      let (e', m) ← lqmultW ab env elb fuel m C A tau true true w ws (some c)
      pure (e, e', m)) (fun r => r.1 = 0 ∧ r.2.1 = 0 ∧ ∃ f, (Holds r.2.2 A fun i j => f j i) ∧ Holds r.2.2 C (fun i j => upperPart f j i)) := by
  refine (C93_lqfactor_partial nonneg h0 h1 ab H elb hf).bind ?_
  rintro ⟨e, m1⟩ ⟨he, f, t, hA1, ht1, F1, hp, -, hl, -, hq, R1, hW1, -⟩
  dsimp only at he hA1 ht1 F1 R1 hW1 ⊢
  have Q : LqMultArgs env c m1 true C A tau f t w ws := by
    refine ⟨H.conf, H.min2, wC, by simpa using sC.2, H.sh, ⟨H.col.1, htau⟩, by simpa [sC.1] using H.work, R1, hA1, ht1, hl, hW1, dC, ?_, H.dW⟩
    rw [Set.disjoint_union_left]
    exact ⟨H.dA.mono_right (by rintro p (hp | hp); exacts [Or.inl (Or.inr hp), Or.inr hp]), H.dt⟩
  have hC1 : Holds m1 C fun i j => a j i := hC.frame F1 dC
  refine (C94_lqmult_partial ab Q hC1 true elb (by simpa [sC.1] using i1) (by simpa [sC.1] using i2) (fuel := fuel) (by omega)
    (by simp only [if_true, sC.1]; have := H.sh; omega)).bind ?_
  rintro ⟨e', m2⟩ ⟨he', F2, hC2, -⟩
  refine Runs.pure ⟨he, he', f, ?_, ?_⟩
  · refine hA1.frame F2 ?_
    rw [Set.disjoint_union_right, Set.disjoint_union_right]
    refine ⟨⟨Set.disjoint_left.mpr fun p hp hq => Set.disjoint_left.mp dC hq (Or.inl (Or.inl (Or.inl hp))), ?_⟩, ?_⟩
    · exact H.dA.mono_right fun p hp => Or.inl (Or.inr hp)
    · exact H.dA.mono_right fun p hp => Or.inr hp
  · refine hC2.congr fun i j hi hj => ?_
    rw [← hq (upperPart f) j i (by omega)]
    simp only [if_true]
    exact qrProdT_congr (N := A.rows) (fun _ _ => rfl) (fun _ _ _ _ => rfl) (fun i j hi hj => (hp i j hi hj).symm) j i (by omega) (by omega)


example := C94_driver_partial (safmin := 1 / 2) true (by norm_num) (by norm_num) (fun x => |x|) (lqArgs_demo fun p => ((p % 8000 : ℕ) : ℝ)) (C := ⟨8000, 8, 6, 7⟩) 3
  (fuel := 30) (by decide) rfl (Or.inl (by decide)) ⟨rfl, rfl⟩
  (by
    intro i j hi hj
    simp only [tot, View.at'] at hi hj ⊢
    congr 2
    omega)
  (Set.disjoint_left.mpr (by
    rintro p ⟨i, j, hi, hj, rfl⟩ (((⟨i', j', hi', hj', h⟩ | ⟨k, hk, h⟩) | ⟨h1, h2⟩) | ⟨i', j', hi', hj', h⟩ | ⟨i', j', hi', hj', h⟩) <;>
      simp [View.at', Cache.A, Cache.B] at * <;> omega))
  (by decide) (by decide)

end Armas.Props
