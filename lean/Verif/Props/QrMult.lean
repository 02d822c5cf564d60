import Verif.QrMultLemmas
import Verif.Props.Qr

/-!
# C65: multiplication with the orthogonal matrix of a QR factorization
-/

namespace Armas.Props

open Armas Finset

section field

variable {α : Type} [Field α] [DecidableEq α]

/-- Arguments of `armas_qrmult_w`: `A`, `tau` hold the reflectors, the areas do not overlap, the cache buffers are usable, `K` is the size of `C`
that is not reflected. -/
structure QrMultArgs (env : Env) (c : Cache) (m : Mem α) (right : Bool) (C A tau : View) (f : Nat → Nat → α) (t : Nat → α) (w ws : Nat) : Prop where
  conf : Conf3 env c
  min2 : 2 ≤ env.blas2min ∨ (env.naive = true ∧ env.recursive = false)
  wf : C.WF
  size : (if right then C.cols else C.rows) = A.rows
  sh : A.cols ≤ A.rows
  col : tau.cols = 1 ∧ tau.rows = A.cols
  work : (if right then C.rows else C.cols) ≤ ws
  ready : c.Ready m
  hA : Holds m A f
  ht : ∀ k, k < A.cols → m (tau.at' k 0) = some (t k)
  last : ∀ k, k < A.cols → k + 1 = A.rows → t k = 0
  hW : WAlloc m w ws
  dC : Disjoint C.foot (A.foot ∪ tcells tau A.cols ∪ wcells w ws ∪ c.foot)
  dA : Disjoint (A.foot ∪ tcells tau A.cols) (wcells w ws ∪ c.foot)
  dW : Disjoint (wcells w ws) c.foot

/-- The block size fits the work space. -/
theorem qrmultBlock_le {elb K ws : Nat} (h1 : (K + elb) * elb ≤ INT_MAX) (h2 : K * K ≤ INT_MAX) :
    ∃ lb, qrmultBlock elb K ws = .ok lb ∧ (lb ≠ 0 → lb < K → (K + lb) * lb ≤ ws) := by
  unfold qrmultBlock
  by_cases c1 : 0 < elb ∧ elb < K
  · rw [if_pos c1, if_neg (by omega)]
    by_cases c2 : ws < (K + elb) * elb
    · rw [if_pos c2, if_neg (by omega)]
      dsimp only
      refine ⟨_, rfl, fun h0 _ => ?_⟩
      by_cases c3 : (Nat.sqrt (K * K + 4 * ws) - K) / 2 / 4 * 4 < 32
      · rw [if_pos c3] at h0; exact absurd rfl h0
      rw [if_neg c3]
      set l := (Nat.sqrt (K * K + 4 * ws) - K) / 2 / 4 * 4 with hl
      have h3 : 2 * l + K ≤ Nat.sqrt (K * K + 4 * ws) := by omega
      have h4 : (2 * l + K) * (2 * l + K) ≤ K * K + 4 * ws := (Nat.mul_le_mul h3 h3).trans (Nat.sqrt_le _)
      nlinarith
    · rw [if_neg c2]
      exact ⟨_, rfl, fun _ _ => by omega⟩
  · rw [if_neg c1]
    exact ⟨_, rfl, fun h h' => absurd ⟨Nat.pos_of_ne_zero h, h'⟩ c1⟩

/-- C65, `armas_qrmult_w`: with `Q = H_0 H_1 ... H_{N-1}` the product of the reflectors in `A` and `tau`, `C` becomes `Q C`, or `Qᵀ C` with
`ARMAS_TRANS`; with `ARMAS_RIGHT` it becomes `C Q = (Qᵀ Cᵀ)ᵀ`, or `C Qᵀ`; for every size, block size and work space of at least `K` elements.
Only `C` and the work spaces are written.  The sizes `K*K` and `(K+elb)*elb` have to fit an `int` (`C65_overflow_false`). -/
theorem C65_qrmult_partial (ab : α → α) {env : Env} {c : Cache} {m : Mem α} {right : Bool} {C A tau : View} {f b : Nat → Nat → α} {t : Nat → α}
    {w ws : Nat} (H : QrMultArgs env c m right C A tau f t w ws) (hC : Holds m C b) (trans : Bool) (elb : Nat)
    (i1 : ((if right then C.rows else C.cols) + elb) * elb ≤ INT_MAX)
    (i2 : (if right then C.rows else C.cols) * (if right then C.rows else C.cols) ≤ INT_MAX) {fuel : Nat}
    (hf : A.rows < fuel) (hf' : 3 * (if right then C.rows else C.cols) < fuel) :
    Runs (qrmultW ab env elb fuel m C A tau trans right w ws (some c)) (fun r => r.1 = 0 ∧ Frame (C.foot ∪ wcells w ws ∪ c.foot) m r.2 ∧
      Holds r.2 C (fun i j =>
        if right then (if trans then qrProd A.rows A.cols t f (fun p q => b q p) j i else qrProdT A.rows A.cols t f (fun p q => b q p) j i)
        else (if trans then qrProdT A.rows A.cols t f b i j else qrProd A.rows A.cols t f b i j)) ∧ c.Ready r.2) := by
  obtain ⟨conf, min2, wf, size, sh, col, work, ready, hA, ht, last, hW, dC, dA, dW⟩ := H
  have hR : HoldsR right m C (fun i j => if right then b j i else b i j) := by
    refine Holds.congr hC fun i j _ _ => ?_
    cases right <;> rfl
  have Q : QrmArgs m right C A tau w ws f t := ⟨wf, size, sh, hA, ht, hW, dC.mono_right fun p hp => Or.inl hp,
    (dA.mono_right fun p hp => Or.inl hp).symm⟩
  have Qc : QrmCache c C A tau w ws := ⟨dC.mono_right fun p hp => Or.inr hp, dA.mono_right fun p hp => Or.inr hp, dW⟩
  obtain ⟨lb, hlb, hle⟩ := qrmultBlock_le (ws := ws) i1 i2
  have key : ∀ m', HoldsR right m' C (qrVal A.rows A.cols (if right then !trans else trans) t f (fun i j => if right then b j i else b i j)) →
      Holds m' C (fun i j =>
        if right then (if trans then qrProd A.rows A.cols t f (fun p q => b q p) j i else qrProdT A.rows A.cols t f (fun p q => b q p) j i)
        else (if trans then qrProdT A.rows A.cols t f b i j else qrProd A.rows A.cols t f b i j)) := by
    intro m' h
    refine Holds.congr h fun i j _ _ => ?_
    cases right <;> cases trans <;> rfl
  unfold qrmultW
  dsimp only
  rw [if_neg ?_, if_neg (by omega)]
  swap
  · rw [not_or, not_not, not_not]
    refine ⟨size, ?_⟩
    rw [View.size, col.1, col.2, Nat.mul_one]
  rw [hlb]
  refine Runs.bind (P := fun m' => HoldsR right m' C (qrVal A.rows A.cols (if right then !trans else trans) t f (fun i j => if right then b j i else b i j)) ∧
    Frame (C.foot ∪ wcells w ws ∪ c.foot) m m' ∧ c.Ready m') ?_ ?_
  · show Runs (if lb = 0 ∨ (if right = true then C.rows else C.cols) ≤ lb then _ else _) _
    by_cases hb : lb = 0 ∨ (if right then C.rows else C.cols) ≤ lb
    · rw [if_pos hb]
      have q := qrmUnb_spec ab min2 (fw := if right then !trans else trans) Q work hf (by unfold rwid; omega) hR
      have e : (if right then unblkQrmultRight ab env fuel m C A tau w trans else unblkQrmultLeft ab env fuel m C A tau w trans) =
          qrmUnb ab env fuel right (if right then !trans else trans) m C A tau w := by
        cases right
        · exact qrmUnb_left ab env fuel trans m C A tau w sh
        · exact qrmUnb_right ab env fuel trans m C A tau w
      rw [e]
      exact q.mono fun m' ⟨h1, _, h2⟩ => ⟨h1, h2.mono fun p hp => Or.inl hp, ready.frame h2
        (Set.disjoint_union_right.mpr ⟨(dC.mono_right fun p hp => Or.inr hp).symm, dW.symm⟩)⟩
    · rw [if_neg hb]
      rw [not_or, not_le] at hb
      have q := qrmBlks_spec ab conf (fw := if right then !trans else trans) Q Qc ready last (hle hb.1 hb.2) (Nat.pos_of_ne_zero hb.1) (fuel := fuel)
        (by unfold rwid; omega) hR
      have e : (if right then blkQrmultRight ab env fuel m C A tau w (w + lb * lb) trans lb (some c)
          else blkQrmultLeft ab env fuel m C A tau w (w + lb * lb) trans lb (some c)) =
          qrmBlks ab env fuel right (if right then !trans else trans) m C A tau w (w + lb * lb) lb (some c) := by
        cases right
        · exact qrmBlks_left ab env fuel trans m C A tau w (w + lb * lb) lb (some c)
        · exact qrmBlks_right ab env fuel trans m C A tau w (w + lb * lb) lb (some c)
      rw [e]
      exact q.mono fun m' ⟨h1, _, h2, h3⟩ => ⟨h1, h2, h3⟩
  · rintro m' ⟨h1, h2, h3⟩
    exact Runs.pure ⟨rfl, h2, key m' h1, h3⟩

/-- Concrete arguments. -/
theorem qrMultArgs_demo (right : Bool) : QrMultArgs (α := ℚ) ⟨8, 8, false, true⟩ ⟨5000, 6000, 4, 4, 3, 3, 1⟩ (tot fun p => (p : ℚ)) right
    ⟨0, 8, if right then 6 else 7, if right then 7 else 6⟩ ⟨100, 8, 7, 3⟩ ⟨160, 3, 3, 1⟩ (fun i j => (100 + i + j * 8 : ℕ)) (fun k => (160 + k : ℕ)) 200 40 := by
  cases right
  all_goals
    exact {
      conf := ⟨Or.inl (by decide), by decide⟩
      min2 := Or.inl (by decide)
      wf := Or.inl (by decide)
      size := rfl
      sh := by decide
      col := ⟨rfl, rfl⟩
      work := by decide
      ready := ⟨by decide, by decide, by decide, by decide, by decide, ⟨_, holds_tot _ _⟩, ⟨_, holds_tot _ _⟩, View.disj_below (by decide)⟩
      hA := holds_tot _ _
      ht := fun k _ => by simp [tot, View.at']
      last := fun k h1 h2 => by simp only at h1 h2; omega
      hW := fun _ _ => ⟨_, rfl⟩
      dC := Set.disjoint_left.mpr (by
        rintro p ⟨i, j, hi, hj, rfl⟩ (((⟨i', j', hi', hj', h⟩ | ⟨k, hk, h⟩) | ⟨h1, h2⟩) | ⟨i', j', hi', hj', h⟩ | ⟨i', j', hi', hj', h⟩) <;>
          simp [View.at', Cache.A, Cache.B] at * <;> omega)
      dA := Set.disjoint_left.mpr (by
        rintro p (⟨i, j, hi, hj, rfl⟩ | ⟨k, hk, rfl⟩) (⟨h1, h2⟩ | ⟨i', j', hi', hj', h⟩ | ⟨i', j', hi', hj', h⟩) <;>
          simp [View.at', Cache.A, Cache.B] at * <;> omega)
      dW := Set.disjoint_left.mpr (by
        rintro p ⟨h1, h2⟩ (⟨i', j', hi', hj', h⟩ | ⟨i', j', hi', hj', h⟩) <;>
          simp [View.at', Cache.A, Cache.B] at * <;> omega) }

example := C65_qrmult_partial id (qrMultArgs_demo true) (holds_tot _ _) true 3 (by decide) (by decide) (fuel := 30) (by decide) (by decide)
example := C65_qrmult_partial id (qrMultArgs_demo false) (holds_tot _ _) false 3 (by decide) (by decide) (fuel := 30) (by decide) (by decide)

/-- The checks of `armas_qrmult_w`: sizes that do not match and a work space with fewer than `K` elements; nothing is written. -/
theorem C65_errors (ab : α → α) (env : Env) (elb fuel : Nat) (m : Mem α) (C A tau : View) (trans right : Bool) (w ws : Nat) (cbuf : Option Cache) :
    ((if right then C.cols else C.rows) ≠ A.rows ∨ tau.rows * tau.cols ≠ A.cols →
      qrmultW ab env elb fuel m C A tau trans right w ws cbuf = .ok (-1, m)) ∧
    ((if right then C.cols else C.rows) = A.rows → tau.rows * tau.cols = A.cols → ws < (if right then C.rows else C.cols) →
      qrmultW ab env elb fuel m C A tau trans right w ws cbuf = .ok (-5, m)) := by
  refine ⟨fun h => ?_, fun h h' h2 => ?_⟩
  · unfold qrmultW
    dsimp only
    rw [if_pos (by exact h)]; rfl
  · unfold qrmultW
    dsimp only
    rw [if_neg (by rw [not_or, not_not, not_not]; exact ⟨h, h'⟩), if_pos h2]; rfl

example := (C65_errors (α := ℚ) id ⟨8, 8, false, true⟩ 64 10 (tot fun _ => 1) ⟨0, 8, 7, 6⟩ ⟨100, 8, 7, 3⟩ ⟨160, 3, 3, 1⟩ true false 200 5 none).2 rfl rfl
  (by decide)

/-- With 46341 or more columns and less work space than the blocked code wants, `K * K` overflows an `int` (`src/lapack/qrmult.c:506`): undefined
behaviour on arguments that satisfy all documented conditions. -/
theorem C65_overflow_false (ab : α → α) (env : Env) (fuel : Nat) (m : Mem α) (cbuf : Option Cache) :
    qrmultW ab env 64 fuel m ⟨0, 1, 1, 46341⟩ ⟨50000, 1, 1, 1⟩ ⟨60000, 1, 1, 1⟩ true false 70000 46341 cbuf = .ub := by
  unfold qrmultW
  dsimp only
  rw [if_neg (by decide), if_neg (by decide), show qrmultBlock 64 (if false = true then 1 else 46341) 46341 = .ub from by
    unfold qrmultBlock
    rw [if_pos (by decide), if_neg (by decide), if_pos (by decide), if_pos (by decide)]]
  rfl

end field

/-- C65 after C64: factor `A`, then multiply a copy of the original matrix by `Qᵀ`: the result is `R`, with zeros below the diagonal. -/
theorem C65_driver_partial {safmin : ℝ} (nonneg : Bool) (h0 : 0 < safmin) (h1 : safmin < 1) (ab : ℝ → ℝ) {env : Env} {c : Cache}
    {m : Mem ℝ} {A C tau : View} {a : Nat → Nat → ℝ} {w ws : Nat} (H : QrArgs env c m A tau a w ws) (elb : Nat) {fuel : Nat}
    (hf : A.rows + A.cols + A.cols < fuel) (htau : tau.rows = A.cols) (wC : C.WF) (sC : C.rows = A.rows ∧ C.cols = A.cols) (hC : Holds m C a)
    (dC : Disjoint C.foot (A.foot ∪ tcells tau A.cols ∪ wcells w ws ∪ c.foot)) (i1 : (A.cols + elb) * elb ≤ INT_MAX) (i2 : A.cols * A.cols ≤ INT_MAX) :
    Runs (do
      let (e, m) ← qrfactorW safmin nonneg ab env elb fuel m A tau w ws (some c)
      let (e', m) ← qrmultW ab env elb fuel m C A tau true false w ws (some c)
      pure (e, e', m)) (fun r => r.1 = 0 ∧ r.2.1 = 0 ∧ ∃ f, Holds r.2.2 A f ∧ Holds r.2.2 C (upperPart f)) := by
  refine (C64_qrfactor_partial nonneg h0 h1 ab H elb hf).bind ?_
  rintro ⟨e, m1⟩ ⟨he, f, t, hA1, ht1, F1, hp, -, hl, -, hq, R1, hW1, -⟩
  dsimp only at he hA1 ht1 F1 R1 hW1 ⊢
  have Q : QrMultArgs env c m1 false C A tau f t w ws := by
    refine ⟨H.conf, H.min2, wC, by simpa using sC.1, H.sh, ⟨H.col.1, htau⟩, by simpa [sC.2] using H.work, R1, hA1, ht1, hl, hW1, dC, ?_, H.dW⟩
    rw [Set.disjoint_union_left]
    exact ⟨H.dA.mono_right (by rintro p (hp | hp); exacts [Or.inl (Or.inr hp), Or.inr hp]), H.dt⟩
  have hC1 : Holds m1 C a := hC.frame F1 dC
  refine (C65_qrmult_partial ab Q hC1 true elb (by simpa [sC.2] using i1) (by simpa [sC.2] using i2) (fuel := fuel) (by omega)
    (by simp only [Bool.false_eq_true, if_false, sC.2]; have := H.sh; omega)).bind ?_
  rintro ⟨e', m2⟩ ⟨he', F2, hC2, -⟩
  refine Runs.pure ⟨he, he', f, ?_, ?_⟩
  · refine hA1.frame F2 ?_
    rw [Set.disjoint_union_right, Set.disjoint_union_right]
    refine ⟨⟨Set.disjoint_left.mpr fun p hp hq => Set.disjoint_left.mp dC hq (Or.inl (Or.inl (Or.inl hp))), ?_⟩, ?_⟩
    · exact H.dA.mono_right fun p hp => Or.inl (Or.inr hp)
    · exact H.dA.mono_right fun p hp => Or.inr hp
  · refine hC2.congr fun i j hi hj => ?_
    rw [← hq (upperPart f) i j (by omega)]
    simp only [Bool.false_eq_true, if_false, if_true]
    exact qrProdT_congr (N := A.cols) (fun _ _ => rfl) (fun _ _ _ _ => rfl) (fun i j hi hj => (hp i j hi hj).symm) i j (by omega) (by omega)


example := C65_driver_partial (safmin := 1 / 2) true (by norm_num) (by norm_num) (fun x => |x|) (qrArgs_demo fun p => ((p % 8000 : ℕ) : ℝ)) (C := ⟨8000, 8, 7, 6⟩) 3
  (fuel := 30) (by decide) rfl (Or.inl (by decide)) ⟨rfl, rfl⟩
  (by
    intro i j hi hj
    simp only [tot, View.at'] at hi hj ⊢
    congr 2
    omega)
  (Set.disjoint_left.mpr (by
    rintro p ⟨i, j, hi, hj, rfl⟩ (((⟨i', j', hi', hj', h⟩ | ⟨k, hk, h⟩) | ⟨h1, h2⟩) | ⟨i', j', hi', hj', h⟩ | ⟨i', j', hi', hj', h⟩) <;>
      simp [View.at', Cache.A, Cache.B] at * <;> omega))
  (by decide) (by decide)

end Armas.Props
