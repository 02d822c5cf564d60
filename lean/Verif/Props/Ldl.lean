import Verif.LdlLemmas
import Verif.PosDef
import Verif.Props.Chol
import Verif.Demo
import Mathlib.Algebra.Field.Rat

/-!
# C47: LDL^T factorization and solve without pivoting

The specification is `ldlProd`, the product of the unit triangular matrix, the diagonal matrix and the
transposed unit triangular matrix stored in one triangle, and `LeadingRegular` (`Verif.PosDef`).
-/

namespace Armas.Props

open Armas Finset Classical

variable {α : Type} [Field α]

/-- Element of `L D L^T` (`U D U^T` if `up`), both factors stored in `v`. -/
def ldlProd (up : Bool) (n : Nat) (v : Nat → Nat → α) (i j : Nat) : α :=
  ∑ p ∈ range n, trm up true v i p * v p p * trm up true v j p

/-- The matrix with its rows and columns in the order of elimination: the upper version begins with the last
row. -/
def elimOrder (up : Bool) (n : Nat) (g : Nat → Nat → α) : Nat → Nat → α :=
  if up then fun i j => g (n - 1 - i) (n - 1 - j) else g

variable [DecidableEq α]

/-- What the factorization is called with: only the triangle selected by `ARMAS_UPPER` (lower if it is not
given) is assumed to be allocated; work space of `ws` elements at `w`. -/
structure LdlArgs (env : Env) (c : Cache) (lb : Nat) (m : Mem α) (A : View) (w ws : Nat)
    (a : Nat → Nat → α) (fl : Flags) : Prop where
  conf : Conf3 env c
  wf : A.WF
  square : A.cols = A.rows
  ready : c.Ready m
  work : ∀ p, w ≤ p → p < w + ws → ∃ x, m p = some x
  hA : HoldsOn m A (InTri fl.upper false) a
  dA : Disjoint (A.footOn (InTri fl.upper false)) (c.foot ∪ {p | w ≤ p ∧ p < w + ws})
  dw : Disjoint c.foot {p | w ≤ p ∧ p < w + ws}
  /-- see `C47_block1_false` -/
  lb1 : lb ≠ 1 ∨ ws = 0 ∨ A.rows ≤ 1
  /-- the blocked upper version calls `armas_update_trm`, which is wrong for odd splits (C21) -/
  even : fl.upper = false ∨ ws = 0 ∨
    ∀ q, EvenSplits env c (A.rows - q * ldlLb A.rows lb ws) { upper := true, transB := true }

theorem ldlLb_spec (n lb ws : Nat) (h0 : 0 < ws) :
    (n - ldlLb n lb ws) * ldlLb n lb ws ≤ ws ∧ (ldlLb n lb ws = 1 → lb = 1) := by
  unfold ldlLb
  split
  · rename_i h
    unfold newLb
    rw [if_neg (by rw [Nat.mul_comm lb]; omega)]
    dsimp only
    have hn : lb ≤ n := by
      by_contra hc
      rw [show n - lb = 0 by omega] at h; omega
    have hq : (4 : ℝ) * ws ≤ n * n := by
      have e : ((n - lb : Nat) : ℝ) = n - lb := Nat.cast_sub hn
      have h2 : (ws : ℝ) ≤ (n - lb : Nat) * lb := by exact_mod_cast h.2.le
      rw [e] at h2
      nlinarith [sq_nonneg ((n : ℝ) - 2 * lb)]
    obtain ⟨s, hs⟩ : ∃ s, s = Real.sqrt ((n : ℝ) * n - 4 * ws) := ⟨_, rfl⟩
    have hs0 : 0 ≤ s := hs ▸ Real.sqrt_nonneg _
    have hss : s * s = (n : ℝ) * n - 4 * ws := hs ▸ Real.mul_self_sqrt (by linarith)
    rw [← hs]
    obtain ⟨l, hl⟩ : ∃ l, l = ⌊((n : ℝ) - s) / 2⌋₊ := ⟨_, rfl⟩
    rw [← hl]
    have hsn : s ≤ n := by
      have : (0 : ℝ) ≤ ws := Nat.cast_nonneg _
      nlinarith [Nat.cast_nonneg (α := ℝ) n]
    have hlx : (l : ℝ) ≤ ((n : ℝ) - s) / 2 := hl ▸ Nat.floor_le (by linarith)
    constructor
    · have hlt : ((l - l % 4 : Nat) : ℝ) ≤ l := by exact_mod_cast Nat.sub_le _ _
      generalize l - l % 4 = t at *
      have htn : t ≤ n := by
        have : (t : ℝ) ≤ n := by linarith
        exact_mod_cast this
      have e : ((n - t : Nat) : ℝ) = n - t := Nat.cast_sub htn
      have : ((n - t : Nat) : ℝ) * t ≤ ws := by
        rw [e]
        nlinarith
      exact_mod_cast this
    · intro h1
      omega
  · rename_i h
    refine ⟨?_, id⟩
    push Not at h
    exact h h0

/-- C47 (factorization): for a symmetric matrix given by one triangle whose leading (`ARMAS_UPPER`:
trailing) blocks are nonsingular the triangle is overwritten with factors whose product is the matrix;
unblocked or blocked, any size of the work space.  Only the triangle, the work space and the packing buffers
are changed.  Partial: block size 1 and odd splits in the upper version are excluded. -/
theorem C47_factor_partial (ab : α → α) {env : Env} {c : Cache} {lb w ws : Nat} {m : Mem α} {A : View}
    {a : Nat → Nat → α} {fl : Flags} (H : LdlArgs env c lb m A w ws a fl) {fuel : Nat}
    (hf : 4 * A.rows + 1 < fuel)
    (hreg : LeadingRegular A.rows (elimOrder fl.upper A.rows (symm fl.upper a))) :
    Runs (ldlfactor ab env lb fuel m A w ws fl (some c)) (fun r => r.1 = 0 ∧
      (∃ v, HoldsOn r.2 A (InTri fl.upper false) v ∧ (∀ i, i < A.rows → v i i ≠ 0) ∧
        ∀ i j, i < A.rows → j < A.rows → ldlProd fl.upper A.rows v i j = symm fl.upper a i j) ∧
      Frame (A.footOn (InTri fl.upper false) ∪ (c.foot ∪ {p | w ≤ p ∧ p < w + ws})) m r.2) := by
  obtain ⟨h1, h2, h3, h4, h5, h6, h7, h8, h9, h10⟩ := H
  have h6' := HoldsOn.toSymm h6
  have hp := hreg.pivots
  have hW : Alloc (wkset w ws) m := fun p hp => h5 p hp.1 hp.2
  have hsub : ∀ T : Set Nat, T ⊆ T ∪ (c.foot ∪ wkset w ws) := fun T => Set.subset_union_left
  have hlb := ldlLb_spec A.rows lb ws
  unfold ldlfactor
  rw [if_neg (by simp [h3])]
  dsimp only
  have hsy := symm_comm' fl.upper a
  revert h6 h6' h7 h10 hp hsy
  cases hu : fl.upper <;> simp only [elimOrder, Bool.false_eq_true, if_true, if_false] <;>
    intro h6 h7 h10 h6' hp hsy
  · have fin : ∀ r : Int × Mem α, (r.1 = 0 ∧ HoldsOn r.2 A (InTri false false) (ldlF (symm false a)) ∧
        Frame (A.footOn (InTri false false) ∪ (c.foot ∪ wkset w ws)) m r.2) → r.1 = 0 ∧
        (∃ v, HoldsOn r.2 A (InTri false false) v ∧ (∀ i, i < A.rows → v i i ≠ 0) ∧
          ∀ i j, i < A.rows → j < A.rows → ldlProd false A.rows v i j = symm false a i j) ∧
        Frame (A.footOn (InTri false false) ∪ (c.foot ∪ {p | w ≤ p ∧ p < w + ws})) m r.2 := fun r hr =>
      ⟨hr.1, ⟨_, hr.2.1, fun i hi => by rw [ldlF_diag]; exact hp i hi,
        fun i j hi hj => ldl_prod hsy hp hi hj⟩, hr.2.2⟩
    split
    · exact (unblkLdlLower_spec h1.hrec hsy h2 h3 (by omega) h6').mono
        (fun r hr => fin r ⟨hr.1, hr.2.1, hr.2.2.mono (hsub _)⟩)
    · rename_i hb
      push Not at hb
      have := hlb (by omega)
      exact (blkLdlLower_spec ab h1 hsy h2 h3 hf (by have := this.2; omega) this.1 hp h4 hW h7 h8 h6').mono fin
  · have hsr : ∀ i j, rv A.rows (symm true a) i j = rv A.rows (symm true a) j i := fun i j => hsy _ _
    have h6r : HoldsOn m A (InTri true false) (rv A.rows (rv A.rows (symm true a))) :=
      h6'.congr (fun i j hi hj _ => by
        simp only [rv]
        rw [show A.rows - 1 - (A.rows - 1 - i) = i by omega, show A.rows - 1 - (A.rows - 1 - j) = j by omega])
    have fin : ∀ r : Int × Mem α, (r.1 = 0 ∧
        HoldsOn r.2 A (InTri true false) (rv A.rows (ldlF (rv A.rows (symm true a)))) ∧
        Frame (A.footOn (InTri true false) ∪ (c.foot ∪ wkset w ws)) m r.2) → r.1 = 0 ∧
        (∃ v, HoldsOn r.2 A (InTri true false) v ∧ (∀ i, i < A.rows → v i i ≠ 0) ∧
          ∀ i j, i < A.rows → j < A.rows → ldlProd true A.rows v i j = symm true a i j) ∧
        Frame (A.footOn (InTri true false) ∪ (c.foot ∪ {p | w ≤ p ∧ p < w + ws})) m r.2 := fun r hr => by
      refine ⟨hr.1, ⟨_, hr.2.1, fun i hi => ?_, fun i j hi hj => ?_⟩, hr.2.2⟩
      · simp only [rv]
        rw [ldlF_diag]; exact hp _ (by omega)
      · have e := ldl_prod hsr hp (i := A.rows - 1 - i) (j := A.rows - 1 - j) (by omega) (by omega)
        simp only [rv] at e
        rw [show A.rows - 1 - (A.rows - 1 - i) = i by omega,
          show A.rows - 1 - (A.rows - 1 - j) = j by omega] at e
        rw [← e, ← Finset.sum_range_reflect]
        unfold ldlProd
        refine Finset.sum_congr rfl (fun p hp' => ?_)
        have hp'' := Finset.mem_range.mp hp'
        have t : ∀ i, i < A.rows → trm true true (rv A.rows (ldlF (rv A.rows (symm true a)))) i p =
            trm false true (ldlF (rv A.rows (symm true a))) (A.rows - 1 - i) (A.rows - 1 - p) := by
          intro i hi
          have := trm_rv (k := 0) (ldlF (rv A.rows (symm true a))) hi hp''
          simpa using this
        rw [t i hi, t j hj]
        rfl
    split
    · exact (unblkLdlUpper_spec h1.hrec hsr h2 h3 (by omega) h6r).mono
        (fun r hr => fin r ⟨hr.1, hr.2.1, hr.2.2.mono (hsub _)⟩)
    · rename_i hb
      push Not at hb
      have := hlb (by omega)
      exact (blkLdlUpper_spec ab h1 hsr h2 h3 hf (by have := this.2; omega) this.1
        ((h10.resolve_left (by simp)).resolve_left hb.2.1) hp h4 hW h7 h8 h6r).mono fin

/-- A matrix with `4` on and `1` off the diagonal (step 8). -/
def ldlDemo : Mem ℚ := tot (fun p => if p % 9 = 0 then 4 else 1)

theorem ldlDemo_args (up : Bool) : LdlArgs ⟨8, 8, false, true⟩ ⟨500, 600, 4, 4, 3, 3, 1⟩ 2 ldlDemo ⟨0, 8, 3, 3⟩ 200 10
    (fun i j => if (0 + i + j * 8) % 9 = 0 then 4 else 1) { lower := !up, upper := up } :=
  ⟨⟨Or.inl (by decide), by decide⟩, Or.inl (by decide), rfl,
    ⟨by decide, by decide, by decide, by decide, by decide, ⟨_, holds_tot _ _⟩, ⟨_, holds_tot _ _⟩,
      View.disj_below (by decide)⟩, fun p _ _ => ⟨_, rfl⟩, HoldsOn.of_holds (holds_tot _ _),
    (Set.disjoint_union_right.mpr ⟨Set.disjoint_union_right.mpr
      ⟨View.disj_below (by decide), View.disj_below (by decide)⟩, by
        rw [Set.disjoint_left]
        rintro p ⟨i, j, hi, hj, rfl⟩ ⟨h1, -⟩
        simp only [View.at'] at *
        omega⟩).mono_left (View.footOn_sub_foot _ _), by
    refine Set.disjoint_union_left.mpr ⟨?_, ?_⟩ <;>
    · rw [Set.disjoint_left]
      rintro p ⟨i, j, hi, hj, rfl⟩ ⟨-, h1⟩
      simp only [View.at', Cache.A, Cache.B] at *
      omega, Or.inl (by decide), by
    cases up
    · exact Or.inl rfl
    · right; right
      intro q
      right; right
      simp only [if_true]
      intro k hk
      have e : (3 - q * ldlLb 3 2 10) / 2 ^ k ≤ 3 - q * ldlLb 3 2 10 := Nat.div_le_self _ _
      change 8 ≤ (3 - q * ldlLb 3 2 10) / 2 ^ k at hk
      omega⟩

theorem ldlDemo_regular (up : Bool) : LeadingRegular 3 (elimOrder up 3
    (symm up (fun i j => if (0 + i + j * 8) % 9 = 0 then (4 : ℚ) else 1))) :=
  leadingRegular_of_pivots (fun p hp => by
    have h : p = 0 ∨ p = 1 ∨ p = 2 := by
      have : p < 3 := hp
      omega
    cases up <;> rcases h with h | h | h <;> subst h <;> simp [schur, symm, elimOrder] <;> norm_num)

/-- the blocked versions -/
example (up : Bool) := C47_factor_partial id (ldlDemo_args up) (fuel := 20) (by decide) (ldlDemo_regular up)

/-- A non-square matrix is rejected untouched. -/
theorem C47_size (ab : α → α) (env : Env) (lb fuel : Nat) (m : Mem α) (A : View) (w ws : Nat) (fl : Flags)
    (cb : Option Cache) (h : A.rows ≠ A.cols) : ldlfactor ab env lb fuel m A w ws fl cb = .ok (-ESIZE, m) := by
  unfold ldlfactor; rw [if_pos h]

example := C47_size id ⟨8, 2, false, true⟩ 4 20 ldlDemo ⟨0, 8, 3, 2⟩ 200 10 {} none (by decide)

/-- A non-square factor or right hand sides of another height are rejected untouched. -/
theorem C47_solve_size (ab : α → α) (env : Env) (fuel : Nat) (m : Mem α) (B A : View) (fl : Flags) (cb : Option Cache)
    (h0 : B.size ≠ 0 ∧ A.size ≠ 0) (h : A.rows ≠ A.cols ∨ A.cols ≠ B.rows) :
    ldlsolve ab env fuel m B A fl cb = .ok (-1, m) := by
  unfold ldlsolve
  rw [if_neg (by rw [not_or]; exact h0), if_pos h]
  rfl

example := C47_solve_size id ⟨8, 2, false, true⟩ 20 ldlDemo ⟨100, 8, 3, 2⟩ ⟨0, 8, 2, 3⟩ {} none (by decide) (by decide)

/-- The memory after a call, if it has returned. -/
def memOf (r : Res (Int × Mem α)) (p : Nat) : Option α :=
  match r with
  | .ok (_, m) => m p
  | _ => none

/-- With block size 1 the block below the diagonal is a column, which `armas_solve_diag` takes for a vector of
another length than the diagonal; its error is ignored and the column is not divided by the pivot.  The
product of the factors of a matrix with nonsingular leading blocks then differs from the matrix. -/
theorem C47_block1_false :
    LeadingRegular 3 (symm false (fun i j => if (0 + i + j * 8) % 9 = 0 then (4 : ℚ) else 1)) ∧
    ∃ m', ldlfactor id ⟨8, 8, false, true⟩ 1 20 ldlDemo ⟨0, 8, 3, 3⟩ 200 10 { lower := true }
        (some ⟨500, 600, 4, 4, 3, 3, 1⟩) = .ok (0, m') ∧
      ∀ v, HoldsOn m' ⟨0, 8, 3, 3⟩ (InTri false false) v →
        ldlProd false 3 v 1 0 ≠ symm false (fun i j => if (0 + i + j * 8) % 9 = 0 then (4 : ℚ) else 1) 1 0 := by
  refine ⟨by simpa [elimOrder] using ldlDemo_regular false, ?_⟩
  have e : ldlfactor id ⟨8, 8, false, true⟩ 1 20 ldlDemo ⟨0, 8, 3, 3⟩ 200 10 { lower := true }
        (some ⟨500, 600, 4, 4, 3, 3, 1⟩) =
      blkLdlLower id ⟨8, 8, false, true⟩ 20 ldlDemo ⟨0, 8, 3, 3⟩ 200 1 (some ⟨500, 600, 4, 4, 3, 3, 1⟩) := by
    simp [ldlfactor, ldlLb]
  rw [e]
  have h0 : memOf (blkLdlLower id ⟨8, 8, false, true⟩ 20 ldlDemo ⟨0, 8, 3, 3⟩ 200 1
      (some ⟨500, 600, 4, 4, 3, 3, 1⟩)) 0 = some 4 := by decide +kernel
  have h1 : memOf (blkLdlLower id ⟨8, 8, false, true⟩ 20 ldlDemo ⟨0, 8, 3, 3⟩ 200 1
      (some ⟨500, 600, 4, 4, 3, 3, 1⟩)) 1 = some 1 := by decide +kernel
  unfold blkLdlLower at h0 h1 ⊢
  revert h0 h1
  cases forUp 0 (3 : Nat) 1 (blkLdlLowerStep id ⟨8, 8, false, true⟩ 20 ⟨0, 8, 3, 3⟩ 200 1
    (some ⟨500, 600, 4, 4, 3, 3, 1⟩)) ldlDemo with
  | ub => simp [memOf]
  | diverge => simp [memOf]
  | ok r =>
    simp only [Res.ok_bind, Res.pure_eq, memOf]
    intro h0 h1
    refine ⟨_, rfl, fun v hv => ?_⟩
    have e0 := hv 0 0 (by decide) (by decide) (by simp [InTri])
    have e1 := hv 1 0 (by decide) (by decide) (by simp [InTri])
    simp only [View.at'] at e0 e1
    have v0 : v 0 0 = 4 := by
      have := e0.symm.trans h0; simpa using this
    have v1 : v 1 0 = 1 := by
      have := e1.symm.trans h1; simpa using this
    simp [ldlProd, Finset.sum_range_succ, trm, symm, v0, v1]

/-- The diagonal solve inside `ldlsolve_np`. -/
theorem ldl_diag {m : Mem α} {B A : View} {f v : Nat → Nat → α} {up : Bool} (hw : B.WF) (hB : Holds m B f)
    (hsq : A.cols = A.rows) (hsz : A.rows = B.rows) (h0 : A.rows ≠ 0 ∧ B.cols ≠ 0)
    (hA : HoldsOn m A (InTri up false) v)
    (dAB : Disjoint (A.footOn (InTri up false)) B.foot) (hsh : A.rows ≠ 1 ∨ B.cols ≤ 1) :
    Runs (solveDiag m B 1 A false) (fun r => Holds r.2 B (fun i j => f i j / v i i) ∧ Frame B.foot m r.2) := by
  unfold solveDiag
  by_cases h1 : A.rows = 1
  · have hAv : A.isVec := Or.inl h1
    refine diag_left (d := fun k => v k k) hw hB hAv ?_ (dAB.mono_left ?_) ?_ (by omega)
      (fun i j hi hj => by ring) (fun i j hi hj => by ring)
    · rw [holdsV_iff hAv]
      intro i j hi hj
      have : i = 0 ∧ j = 0 := by omega
      obtain ⟨rfl, rfl⟩ := this
      exact hA 0 0 hi hj (by cases up <;> simp [InTri])
    · rintro p ⟨i, j, hi, hj, rfl⟩
      have : i = 0 ∧ j = 0 := by omega
      obtain ⟨rfl, rfl⟩ := this
      exact ⟨0, 0, hi, hj, by cases up <;> simp [InTri], rfl⟩
    · simp [View.size, hsq, h1]; omega
  · obtain ⟨g1, g2, g3, g4⟩ := diagRow_facts hsq hA
    rw [diagOp_diagRow (by simp [View.isVec]; omega)]
    exact diag_left hw hB g1 g3 (dAB.mono_left g4) (by omega) (by omega) (fun i j hi hj => by ring)
      (fun i j hi hj => by ring)

/-- Arguments of `ldlsolve_np`: the factors `v` in one triangle of `A`. -/
structure LdlSolveArgs (env : Env) (c : Cache) (m : Mem α) (B A : View) (f v : Nat → Nat → α) (fl : Flags) :
    Prop where
  conf : Conf3 env c
  uplo : fl.lower = !fl.upper
  right : fl.right = false
  absA : fl.absA = false
  absB : fl.absB = false
  transB : fl.transB = false
  wf : B.WF
  square : A.cols = A.rows
  size : A.rows = B.rows
  ready : c.Ready m
  hB : Holds m B f
  hA : HoldsOn m A (InTri fl.upper false) v
  dAB : Disjoint (A.footOn (InTri fl.upper false)) B.foot
  dAc : Disjoint (A.footOn (InTri fl.upper false)) c.foot
  dBc : Disjoint B.foot c.foot
  /-- see `C47_solve_order1_false` -/
  shape : A.rows ≠ 1 ∨ B.cols ≤ 1
  nz : ∀ i, i < A.rows → v i i ≠ 0

/-- The three solves, the middle one by the diagonal. -/
theorem ldl_three (ab : α → α) {env : Env} {c : Cache} {m : Mem α} {B A : View} {f v : Nat → Nat → α}
    {fl fl1 fl2 : Flags} (H : LdlSolveArgs env c m B A f v fl) (h0 : A.rows ≠ 0 ∧ B.cols ≠ 0) {fuel : Nat}
    (hf : A.cols + B.rows + B.cols < fuel)
    (e1 : fl1.upper = fl.upper ∧ fl1.lower = fl.lower ∧ fl1.right = false ∧ fl1.absA = false ∧ fl1.absB = false ∧
      fl1.transB = false ∧ fl1.unit = true)
    (e2 : fl2.upper = fl.upper ∧ fl2.lower = fl.lower ∧ fl2.right = false ∧ fl2.absA = false ∧ fl2.absB = false ∧
      fl2.transB = false ∧ fl2.unit = true) :
    Runs (do
      let (_, m) ← solveTrm ab env fuel m B 1 A fl1 (some c)
      let (_, m) ← solveDiag m B 1 A false
      let (_, m) ← solveTrm ab env fuel m B 1 A fl2 (some c)
      pure ((0 : Int), m)) (fun r => r.1 = 0 ∧
      (∃ X Y, Holds r.2 B X ∧ (∀ i j, i < B.rows → j < B.cols → triProd fl1 A.cols v Y i j = f i j) ∧
        (∀ i j, i < B.rows → j < B.cols → triProd fl2 A.cols v X i j = Y i j / v i i)) ∧
      Frame (B.foot ∪ c.foot) m r.2) := by
  obtain ⟨k1, k2, k3, k4, k5, k6, k7, k8, k9, k10, k11, k12, k13, k14, k15, k16, k17⟩ := H
  have T : ∀ (m' : Mem α) (f' : Nat → Nat → α) (fl' : Flags), fl'.upper = fl.upper ∧ fl'.lower = fl.lower ∧
      fl'.right = false ∧ fl'.absA = false ∧ fl'.absB = false ∧ fl'.transB = false ∧ fl'.unit = true →
      c.Ready m' → Holds m' B f' → HoldsOn m' A (InTri fl.upper false) v → TrArgs c m' B A f' v fl' := by
    intro m' f' fl' ⟨a1, a2, a3, a4, a5, a6, a7⟩ hR hB hA
    have st : ∀ i j, i < A.rows → j < A.cols → InTri fl'.upper fl'.unit i j → InTri fl.upper false i j := by
      rw [a1, a7]; exact inTri_strict _
    exact ⟨by simp [a3], by rw [a1, a2]; exact k2, a4, k7, k8.symm, by rw [a3, k8]; simpa using k9, hR, k1.rb, hB,
      hA.mono st, k13.mono_left (View.footOn_mono st), k14.mono_left (View.footOn_mono st), k15⟩
  have dA := Set.disjoint_union_right.mpr ⟨k13, k14⟩
  refine Runs.bind (C19_solve_trm_partial ab k1.min2 1 (T m f fl1 e1 k10 k11 k12)
    e1.2.2.2.2.2.1 e1.2.2.2.2.1 (Or.inl e1.2.2.2.2.2.2) (Or.inl rfl) hf) ?_
  rintro ⟨x1, m1⟩ ⟨-, ⟨Y, h1, h2⟩, h3, h4⟩
  dsimp only at h1 h3 h4 ⊢
  have hA1 := k12.frame h3 dA
  refine Runs.bind (ldl_diag k7 h1 k8 k9 h0 hA1 k13 k16) ?_
  rintro ⟨x2, m2⟩ ⟨h5, h6⟩
  dsimp only at h5 h6 ⊢
  have hA2 := hA1.frame h6 k13
  have R2 := h4.frame h6 k15.symm
  refine Runs.bind (C19_solve_trm_partial ab k1.min2 1 (T m2 _ fl2 e2 R2 h5 hA2)
    e2.2.2.2.2.2.1 e2.2.2.2.2.1 (Or.inl e2.2.2.2.2.2.2) (Or.inl rfl) hf) ?_
  rintro ⟨x3, m3⟩ ⟨-, ⟨X, h7, h8⟩, h9, -⟩
  exact Runs.pure ⟨rfl, ⟨X, Y, h7, fun i j hi hj => by rw [h2 i j hi hj, one_mul],
    fun i j hi hj => by rw [h8 i j hi hj, one_mul]⟩,
    (h3.trans (HoldsOn.weaken_frame h6)).trans h9⟩

/-- C47 (solve): with the factors in one triangle the result `X` satisfies `(L D L^T) X = B`.
Partial: without `ARMAS_TRANS` (see `C47_solve_trans_false`), and not for several right-hand sides of a 1x1
system (see `C47_solve_order1_false`). -/
theorem C47_solve_partial (ab : α → α) {env : Env} {c : Cache} {m : Mem α} {B A : View} {f v : Nat → Nat → α}
    {fl : Flags} (H : LdlSolveArgs env c m B A f v fl) (htr : fl.transA = false) {fuel : Nat}
    (hf : A.cols + B.rows + B.cols < fuel) :
    Runs (ldlsolve ab env fuel m B A fl (some c)) (fun r => r.1 = 0 ∧
      (∃ X, Holds r.2 B X ∧ ∀ i j, i < B.rows → j < B.cols →
        ∑ k ∈ range A.rows, ldlProd fl.upper A.rows v i k * X k j = f i j) ∧
      Frame (B.foot ∪ c.foot) m r.2) := by
  unfold ldlsolve
  by_cases h0 : B.size = 0 ∨ A.size = 0
  · rw [if_pos h0]
    have hs := H.size
    have hq := H.square
    have : B.rows = 0 ∨ B.cols = 0 := by
      simp only [View.size, mul_eq_zero] at h0; omega
    exact Runs.ok ⟨rfl, ⟨f, H.hB, fun i j hi hj => by omega⟩, Frame.refl _ _⟩
  have hn : A.rows ≠ 0 ∧ B.cols ≠ 0 := by
    simp only [View.size, mul_eq_zero] at h0; omega
  rw [if_neg h0, if_neg (by have := H.size; have := H.square; omega)]
  rw [if_neg (by simp [htr])]
  refine (ldl_three ab H hn hf (fl1 := { fl with unit := true, left := true })
    (fl2 := { fl with unit := true, transA := true }) ⟨rfl, rfl, H.right, H.absA, H.absB, H.transB, rfl⟩
    ⟨rfl, rfl, H.right, H.absA, H.absB, H.transB, rfl⟩).mono ?_
  rintro r ⟨h1, ⟨X, Y, h2, h3, h4⟩, h5⟩
  refine ⟨h1, ⟨X, h2, fun i j hi hj => ?_⟩, h5⟩
  rw [← h3 i j hi hj]
  unfold triProd ldlProd
  simp only [H.right, Bool.false_eq_true, if_false, H.square, Finset.sum_mul, htr]
  rw [Finset.sum_comm]
  refine Finset.sum_congr rfl (fun p hp => ?_)
  have hp' := Finset.mem_range.mp hp
  have e := h4 p j (by have := H.size; omega) hj
  have hv := H.nz p hp'
  rw [eq_div_iff hv] at e
  rw [← e]
  unfold triProd
  simp only [H.right, Bool.false_eq_true, if_false, if_true, H.square, Finset.sum_mul, Finset.mul_sum]
  exact Finset.sum_congr rfl (fun k _ => by ring)

example := C47_solve_partial (α := ℚ) id (m := ldlDemo) (B := ⟨100, 4, 3, 2⟩) (A := ⟨0, 8, 3, 3⟩) (fl := { lower := true })
  (env := ⟨8, 8, false, true⟩) (c := ⟨500, 600, 4, 4, 3, 3, 1⟩)
  ⟨⟨Or.inl (by decide), by decide⟩, rfl, rfl, rfl, rfl, rfl, Or.inl (by decide), rfl, rfl,
    ⟨by decide, by decide, by decide, by decide, by decide, ⟨_, holds_tot _ _⟩, ⟨_, holds_tot _ _⟩,
      View.disj_below (by decide)⟩, holds_tot _ _, HoldsOn.of_holds (holds_tot _ _),
    (View.disj_below (by decide)).mono_left (View.footOn_sub_foot _ _),
    (Set.disjoint_union_right.mpr ⟨View.disj_below (by decide), View.disj_below (by decide)⟩).mono_left
      (View.footOn_sub_foot _ _),
    Set.disjoint_union_right.mpr ⟨View.disj_below (by decide), View.disj_below (by decide)⟩, Or.inl (by decide),
    fun i hi => by
      have e : (View.at' ⟨0, 8, 3, 3⟩ i i) % 9 = 0 := by simp only [View.at']; omega
      rw [if_pos e]; norm_num⟩ rfl (fuel := 20) (by decide)

/-- `L = [[1, 0], [1, 1]]` and `D = I` at address 0, `B = (0, 1)` at address 10. -/
def ldlTransDemo : Mem ℚ := tot (fun p => if p = 0 ∨ p = 1 ∨ p = 3 ∨ p = 11 then 1 else 0)

/-- With `ARMAS_TRANS` the last of the three solves is transposed again: the call returns 0 and the result
does not solve the (symmetric) system, not even in exact arithmetic. -/
theorem C47_solve_trans_false :
    ∃ m', ldlsolve id ⟨8, 8, false, true⟩ 20 ldlTransDemo ⟨10, 2, 2, 1⟩ ⟨0, 2, 2, 2⟩ { lower := true, transA := true }
        (some ⟨500, 600, 4, 4, 3, 3, 1⟩) = .ok (0, m') ∧
      ∀ v f X, HoldsOn ldlTransDemo ⟨0, 2, 2, 2⟩ (InTri false false) v → Holds ldlTransDemo ⟨10, 2, 2, 1⟩ f →
        Holds m' ⟨10, 2, 2, 1⟩ X → ∑ k ∈ range 2, ldlProd false 2 v 1 k * X k 0 ≠ f 1 0 := by
  obtain ⟨r, hr⟩ : ∃ r, r = ldlsolve id ⟨8, 8, false, true⟩ 20 ldlTransDemo ⟨10, 2, 2, 1⟩ ⟨0, 2, 2, 2⟩
    { lower := true, transA := true } (some ⟨500, 600, 4, 4, 3, 3, 1⟩) := ⟨_, rfl⟩
  have hs : (match r with | .ok (e, _) => some e | _ => none) = some 0 := by rw [hr]; decide +kernel
  have h0 : memOf r 10 = some (-2) := by rw [hr]; decide +kernel
  have h1 : memOf r 11 = some 1 := by rw [hr]; decide +kernel
  rw [← hr]
  revert hs h0 h1
  cases r with
  | ub => simp
  | diverge => simp
  | ok r =>
    obtain ⟨e, m'⟩ := r
    simp only [memOf, Option.some.injEq]
    rintro rfl h0 h1
    refine ⟨m', rfl, fun v f X hv hf hX => ?_⟩
    have a0 := hv 0 0 (by decide) (by decide) (by simp [InTri])
    have a1 := hv 1 0 (by decide) (by decide) (by simp [InTri])
    have a2 := hv 1 1 (by decide) (by decide) (by simp [InTri])
    have b1 := hf 1 0 (by decide) (by decide)
    have x0 := hX 0 0 (by decide) (by decide)
    have x1 := hX 1 0 (by decide) (by decide)
    simp only [View.at'] at a0 a1 a2 b1 x0 x1
    have x0' := x0.symm.trans h0
    have x1' := x1.symm.trans h1
    simp [ldlTransDemo, tot] at a0 a1 a2 b1 x0' x1'
    simp only [ldlProd, Finset.sum_range_succ, Finset.sum_range_zero, trm, InTri, ← a0, ← a1, ← a2, ← b1, x0', x1']
    norm_num

/-- A 1x1 system with two right-hand sides: `armas_solve_diag` takes the row of right-hand sides for a vector
of another length than the diagonal, its error is ignored: 0 is returned and `B` is unchanged although the
diagonal is not 1. -/
theorem C47_solve_order1_false :
    ∃ m', ldlsolve id ⟨8, 8, false, true⟩ 20 ldlDemo ⟨10, 1, 1, 2⟩ ⟨0, 8, 1, 1⟩ { lower := true }
        (some ⟨500, 600, 4, 4, 3, 3, 1⟩) = .ok (0, m') ∧
      ∀ v f X, HoldsOn ldlDemo ⟨0, 8, 1, 1⟩ (InTri false false) v → Holds ldlDemo ⟨10, 1, 1, 2⟩ f →
        Holds m' ⟨10, 1, 1, 2⟩ X → ∑ k ∈ range 1, ldlProd false 1 v 0 k * X k 0 ≠ f 0 0 := by
  obtain ⟨r, hr⟩ : ∃ r, r = ldlsolve id ⟨8, 8, false, true⟩ 20 ldlDemo ⟨10, 1, 1, 2⟩ ⟨0, 8, 1, 1⟩
    { lower := true } (some ⟨500, 600, 4, 4, 3, 3, 1⟩) := ⟨_, rfl⟩
  have hs : (match r with | .ok (e, _) => some e | _ => none) = some 0 := by rw [hr]; decide +kernel
  have h0 : memOf r 10 = some 1 := by rw [hr]; decide +kernel
  rw [← hr]
  revert hs h0
  cases r with
  | ub => simp
  | diverge => simp
  | ok r =>
    obtain ⟨e, m'⟩ := r
    simp only [memOf, Option.some.injEq]
    rintro rfl h0
    refine ⟨m', rfl, fun v f X hv hf hX => ?_⟩
    have a0 := hv 0 0 (by decide) (by decide) (by simp [InTri])
    have b0 := hf 0 0 (by decide) (by decide)
    have x0 := hX 0 0 (by decide) (by decide)
    simp only [View.at'] at a0 b0 x0
    have x0' := x0.symm.trans h0
    simp [ldlDemo, tot] at a0 b0 x0'
    simp [ldlProd, trm, ← a0, ← b0, x0']

end Armas.Props
