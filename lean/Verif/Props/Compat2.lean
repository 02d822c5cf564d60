import Verif.Compat2
import Verif.CompatLemmas
import Verif.Props.Blas2
import Verif.Props.Compat
import Verif.Demo

/-!
# C69: the level 2 functions of the BLAS compatibility layer

The claim, for each function: with the arrays laid out as the reference BLAS prescribes (matrices by columns with a leading dimension, vectors with
signed increments), the call computes what the reference BLAS defines for the option characters, and writes nothing else.

Proved for positive increments and the option characters `N`, `T`, `L`, `U` in both cases; `C` (which for real data means the same as `T`) and
negative increments are not handled by the code (`C69_conj_false`, `C69_negative_false`).
-/

namespace Armas.Props

open Armas Finset

variable {α : Type}

/-- The meaning of the character for transposition. -/
def IsTrans (c : Char) (t : Bool) : Prop := if t then c = 'T' ∨ c = 't' else c = 'N' ∨ c = 'n'

/-- The meaning of the character for the triangle. -/
def IsUplo (c : Char) (upper : Bool) : Prop := if upper then c = 'U' ∨ c = 'u' else c = 'L' ∨ c = 'l'

/-- The meaning of the character for a unit diagonal. -/
def IsDiag (c : Char) (unit : Bool) : Prop := if unit then c = 'U' ∨ c = 'u' else c = 'N' ∨ c = 'n'

/-- The meaning of the character for the side. -/
def IsSide (c : Char) (right : Bool) : Prop := if right then c = 'R' ∨ c = 'r' else c = 'L' ∨ c = 'l'

instance (c : Char) (t : Bool) : Decidable (IsTrans c t) := by unfold IsTrans; infer_instance

instance (c : Char) (t : Bool) : Decidable (IsUplo c t) := by unfold IsUplo; infer_instance

instance (c : Char) (t : Bool) : Decidable (IsDiag c t) := by unfold IsDiag; infer_instance

instance (c : Char) (t : Bool) : Decidable (IsSide c t) := by unfold IsSide; infer_instance

theorem chT_eq {c : Char} {t : Bool} (h : IsTrans c t) : chT c = t := by
  cases t <;> simp only [IsTrans, Bool.false_eq_true, if_true, if_false] at h <;> rcases h with rfl | rfl <;> decide

theorem chU_eq {c : Char} {t : Bool} (h : IsUplo c t) : chU c = t := by
  cases t <;> simp only [IsUplo, Bool.false_eq_true, if_true, if_false] at h <;> rcases h with rfl | rfl <;> decide

theorem chD_eq {c : Char} {t : Bool} (h : IsDiag c t) : chD c = t := by
  cases t <;> simp only [IsDiag, Bool.false_eq_true, if_true, if_false] at h <;> rcases h with rfl | rfl <;> decide

theorem chR_eq {c : Char} {t : Bool} (h : IsSide c t) : chR c = t := by
  cases t <;> simp only [IsSide, Bool.false_eq_true, if_true, if_false] at h <;> rcases h with rfl | rfl <;> decide

section ring
variable [CommRing α]

/-- C69, `dgemv_`: `y := beta y + alpha op(A) x`.  Missing: the character `C`, negative increments, `M = 0` or `N = 0` (`C10_empty_false`), threshold 1. -/
theorem C69_gemv_partial [DecidableEq α] (ab : α → α) {env : Env} (hmin : env.blas2min ≠ 1 ∨ env.naive = true) {m : Mem α} {trans : Char} {t : Bool}
    (ht : IsTrans trans t) {M N A lda X Y : Nat} {incx incy : Int} {a : Nat → Nat → α} {x y : Nat → α} (alpha beta : α) (hM : M ≠ 0) (hN : N ≠ 0)
    (hix : 0 < incx) (hiy : 0 < incy) (hA : Holds m ⟨A, lda, M, N⟩ a)
    (hx : BVec m X (if t then M else N) incx x) (hy : BVec m Y (if t then N else M) incy y)
    (hdA : Disjoint (View.foot ⟨A, lda, M, N⟩) (bcells Y (if t then N else M) incy))
    (hdX : Disjoint (bcells X (if t then M else N) incx) (bcells Y (if t then N else M) incy)) {fuel : Nat} (hf : M + N < fuel) :
    Runs (compatGemv ab env fuel m trans M N alpha A lda X incx beta Y incy) (fun m' =>
      BVec m' Y (if t then N else M) incy (fun i => beta * y i + alpha * ∑ j ∈ range (if t then M else N), (if t then a j i else a i j) * x j) ∧
      Frame (bcells Y (if t then N else M) incy) m m') := by
  unfold compatGemv
  simp only [chT_eq ht, cvecS_ok hix, cvecS_ok hiy, Res.ok_bind]
  refine (C10_mvmult_partial ab hmin beta alpha (fl := { transA := t }) rfl (A := ⟨A, lda, M, N⟩) (by simp [View.size, hM, hN])
    (by rw [cvec_size]; split <;> omega) (cvec_isVec _ _ _) (cvec_WF (by omega)) (cvec_isVec _ _ _) (by rw [cvec_size]) (by rw [cvec_size])
    (hy.toV_pos hiy) hA (hx.toV_pos hix) (by rw [cvec_foot]; exact hdA) (by rw [cvec_foot, cvec_foot]; exact hdX)).bind ?_
  rintro ⟨e, m'⟩ ⟨-, h, f⟩
  rw [cvec_foot] at f
  rw [cvec_size] at h
  exact Runs.pure ⟨BVec.ofV_pos h hiy, f⟩

example := C69_gemv_partial (α := ℤ) id (env := ⟨8, 2, false, true⟩) (Or.inl (by decide)) (m := tot fun p => (p : ℤ)) (trans := 't') (t := true) (by decide)
  (M := 4) (N := 3) (A := 0) (lda := 6) (X := 30) (Y := 100) (incx := 3) (incy := 1) 7 5 (by decide) (by decide) (by decide) (by decide) (holds_tot _ _)
  (fun _ _ => rfl) (fun _ _ => rfl) (Set.disjoint_left.mpr (by rintro p ⟨i, j, hi, hj, rfl⟩ ⟨l, hl, h⟩; simp [View.at'] at h hi hj hl; omega))
  (Set.disjoint_left.mpr (by rintro p ⟨k, hk, rfl⟩ ⟨l, hl, h⟩; simp [blasAt] at h hk hl; omega)) (fuel := 20) (by decide)

/-- C69, `dger_`: `A := A + alpha x y^T`. -/
theorem C69_ger_partial {env : Env} (hmin : 2 ≤ env.blas2min ∨ (env.naive = true ∧ env.recursive = false)) {m : Mem α} {M N A lda X Y : Nat}
    {incx incy : Int} {a : Nat → Nat → α} {x y : Nat → α} (alpha : α) (hl : M ≤ lda) (hix : 0 < incx) (hiy : 0 < incy) (hA : Holds m ⟨A, lda, M, N⟩ a)
    (hx : BVec m X M incx x) (hy : BVec m Y N incy y) (hdX : Disjoint (bcells X M incx) (View.foot ⟨A, lda, M, N⟩))
    (hdY : Disjoint (bcells Y N incy) (View.foot ⟨A, lda, M, N⟩)) {fuel : Nat} (hf : M < fuel) :
    Runs (compatGer env fuel m M N alpha X incx Y incy A lda) (fun m' => Holds m' ⟨A, lda, M, N⟩ (fun i j => a i j + alpha * (x i * y j)) ∧
      Frame (View.foot ⟨A, lda, M, N⟩) m m') := by
  unfold compatGer
  simp only [cvecS_ok hix, cvecS_ok hiy, Res.ok_bind]
  refine (C11_mvupdate_partial hmin 1 alpha (A := ⟨A, lda, M, N⟩) hf (Or.inl hl) (cvec_isVec _ _ _) (cvec_isVec _ _ _) (cvec_size _ _ _) (cvec_size _ _ _)
    hA (hx.toV_pos hix) (hy.toV_pos hiy) (by rw [cvec_foot]; exact hdX) (by rw [cvec_foot]; exact hdY)).bind ?_
  rintro ⟨e, m'⟩ ⟨-, h, f⟩
  exact Runs.pure ⟨h.congr fun i j _ _ => by rw [one_mul], f⟩

example := C69_ger_partial (α := ℤ) (env := ⟨8, 2, false, true⟩) (Or.inl (by decide)) (m := tot fun p => (p : ℤ))
  (M := 4) (N := 3) (A := 0) (lda := 6) (X := 30) (Y := 100) (incx := 3) (incy := 1) 7 (by decide) (by decide) (by decide) (holds_tot _ _)
  (fun _ _ => rfl) (fun _ _ => rfl) (Set.disjoint_right.mpr (by rintro p ⟨i, j, hi, hj, rfl⟩ ⟨l, hl, h⟩; simp [View.at', blasAt] at h hi hj hl; omega))
  (Set.disjoint_right.mpr (by rintro p ⟨i, j, hi, hj, rfl⟩ ⟨l, hl, h⟩; simp [View.at', blasAt] at h hi hj hl; omega)) (fuel := 20) (by decide)

/-- C69, `dsymv_`: `y := beta y + alpha S x` where only one triangle of `S` is stored; the other triangle is not accessed. -/
theorem C69_symv_partial [DecidableEq α] (ab : α → α) {env : Env} (hmin : 2 ≤ env.blas2min) {m : Mem α} {uplo : Char} {u : Bool}
    (hu : IsUplo uplo u) {n A lda X Y : Nat} {incx incy : Int} {a : Nat → Nat → α} {x y : Nat → α} (alpha beta : α)
    (hix : 0 < incx) (hiy : 0 < incy) (hA : HoldsOn m ⟨A, lda, n, n⟩ (InTri u false) a) (hx : BVec m X n incx x) (hy : BVec m Y n incy y)
    (hdA : Disjoint (View.footOn ⟨A, lda, n, n⟩ (InTri u false)) (bcells Y n incy)) (hdX : Disjoint (bcells X n incx) (bcells Y n incy))
    {fuel : Nat} (hf : n + 1 < fuel) :
    Runs (compatSymv ab env fuel m uplo n alpha A lda X incx beta Y incy) (fun m' =>
      BVec m' Y n incy (fun i => beta * y i + alpha * ∑ j ∈ range n, (if (if u then i ≤ j else j ≤ i) then a i j else a j i) * x j) ∧
      Frame (bcells Y n incy) m m') := by
  unfold compatSymv
  simp only [chU_eq hu, cvecS_ok hix, cvecS_ok hiy, Res.ok_bind]
  refine (C14_mvmult_sym_partial ab hmin beta alpha (fl := { lower := !u, upper := u }) rfl (A := ⟨A, lda, n, n⟩) (cvec_isVec _ _ _) (cvec_WF (by omega))
    (cvec_isVec _ _ _) (cvec_size _ _ _).symm (cvec_size _ _ _).symm (by rw [cvec_size, cvec_size]) (by rw [cvec_size]; omega) (hy.toV_pos hiy)
    (hx.toV_pos hix) hA (by rw [cvec_foot]; exact hdA) (by rw [cvec_foot, cvec_foot]; exact hdX)).bind ?_
  rintro ⟨e, m'⟩ ⟨-, h, f⟩
  rw [cvec_foot] at f
  rw [cvec_size] at h
  exact Runs.pure ⟨BVec.ofV_pos h hiy, f⟩

example := C69_symv_partial (α := ℤ) id (env := ⟨8, 2, false, true⟩) (by decide) (m := tot fun p => (p : ℤ)) (uplo := 'L') (u := false) (by decide)
  (n := 4) (A := 0) (lda := 6) (X := 30) (Y := 100) (incx := 3) (incy := 1) 7 5 (by decide) (by decide) (HoldsOn.of_holds (holds_tot _ _))
  (fun _ _ => rfl) (fun _ _ => rfl) ((Set.disjoint_left.mpr (by rintro p ⟨i, j, hi, hj, rfl⟩ ⟨l, hl, h⟩; simp [View.at'] at h hi hj hl; omega)).mono_left
    (View.footOn_sub_foot _ _))
  (Set.disjoint_left.mpr (by rintro p ⟨k, hk, rfl⟩ ⟨l, hl, h⟩; simp [blasAt] at h hk hl; omega)) (fuel := 20) (by decide)

/-- C69, `dtrmv_`: `x := op(T) x`; the other triangle, and the diagonal of a unit triangular matrix, are not accessed. -/
theorem C69_trmv_partial [DecidableEq α] (ab : α → α) {env : Env} (hmin : env.blas2min ≠ 1 ∨ env.naive = true) {m : Mem α} {uplo trans diag : Char}
    {u t d : Bool} (hu : IsUplo uplo u) (ht : IsTrans trans t) (hD : IsDiag diag d) {n A lda X : Nat} {incx : Int} {a : Nat → Nat → α} {x : Nat → α}
    (hl : n ≤ lda) (hix : 0 < incx) (hA : HoldsOn m ⟨A, lda, n, n⟩ (InTri u d) a) (hx : BVec m X n incx x)
    (hd : Disjoint (View.footOn ⟨A, lda, n, n⟩ (InTri u d)) (bcells X n incx)) {fuel : Nat} (hf : n + 1 < fuel) :
    Runs (compatTrmv ab env fuel m uplo trans diag n A lda X incx) (fun m' =>
      BVec m' X n incx (fun i => ∑ j ∈ range n, (if t then trm u d a j i else trm u d a i j) * x j) ∧ Frame (bcells X n incx) m m') := by
  unfold compatTrmv
  simp only [chU_eq hu, chT_eq ht, chD_eq hD, cvecS_ok hix, Res.ok_bind]
  refine (C12_mvmult_trm_partial ab hmin 1 (fl := { lower := !u, upper := u, transA := t, unit := d }) rfl (A := ⟨A, lda, n, n⟩) (cvec_isVec _ _ _)
    (cvec_WF (by omega)) (Or.inl hl) (cvec_size _ _ _).symm (cvec_size _ _ _).symm (by rw [cvec_size]; omega) (hx.toV_pos hix) hA
    (by rw [cvec_foot]; exact hd)).bind ?_
  rintro ⟨e, m'⟩ ⟨-, h, f⟩
  rw [cvec_foot] at f
  rw [cvec_size] at h
  exact Runs.pure ⟨(BVec.ofV_pos h hix).congr fun i _ => one_mul _, f⟩

example := C69_trmv_partial (α := ℤ) id (env := ⟨8, 2, false, true⟩) (Or.inl (by decide)) (m := tot fun p => (p : ℤ)) (uplo := 'L') (u := false) (trans := 'T')
  (t := true) (diag := 'u') (d := true) (by decide) (by decide) (by decide)
  (n := 4) (A := 0) (lda := 6) (X := 100) (incx := 3) (by decide) (by decide) (HoldsOn.of_holds (holds_tot _ _))
  (fun _ _ => rfl) ((Set.disjoint_left.mpr (by rintro p ⟨i, j, hi, hj, rfl⟩ ⟨l, hl, h⟩; simp [View.at'] at h hi hj hl; omega)).mono_left
    (View.footOn_sub_foot _ _)) (fuel := 20) (by decide)

/-- C69, `dsyr_`: the selected triangle of `A` becomes that of `A + alpha x x^T`; nothing else is written. -/
theorem C69_syr_partial {env : Env} (hrec : env.recursive = false ∨ env.naive = true ∨ env.blas2min ≠ 1) {m : Mem α} {uplo : Char} {u : Bool}
    (hu : IsUplo uplo u) {n A lda X : Nat} {incx : Int} {a : Nat → Nat → α} {x : Nat → α} (alpha : α) (hl : n ≤ lda)
    (hix : 0 < incx) (hA : HoldsOn m ⟨A, lda, n, n⟩ (InTri u false) a) (hx : BVec m X n incx x)
    (hdX : Disjoint (bcells X n incx) (View.footOn ⟨A, lda, n, n⟩ (InTri u false))) {fuel : Nat} (hf : n + 1 < fuel) :
    Runs (compatSyr env fuel m uplo n alpha X incx A lda) (fun m' =>
      HoldsOn m' ⟨A, lda, n, n⟩ (InTri u false) (fun i j => a i j + alpha * (x i * x j)) ∧ Frame (View.footOn ⟨A, lda, n, n⟩ (InTri u false)) m m') := by
  unfold compatSyr
  simp only [chU_eq hu, cvecS_ok hix, Res.ok_bind]
  refine (C15_mvupdate_sym_partial 1 alpha (fl := { lower := !u, upper := u }) rfl (A := ⟨A, lda, n, n⟩) hrec rfl hf (Or.inl hl) (cvec_isVec _ _ _)
    (cvec_size _ _ _) hA (hx.toV_pos hix) (by rw [cvec_foot]; exact hdX)).bind ?_
  rintro ⟨e, m'⟩ ⟨-, h, f⟩
  exact Runs.pure ⟨h.congr fun i j _ _ _ => by rw [one_mul], f⟩

example := C69_syr_partial (α := ℤ) (env := ⟨8, 2, false, true⟩) (Or.inr (Or.inr (by decide))) (m := tot fun p => (p : ℤ)) (uplo := 'L') (u := false) (by decide)
  (n := 4) (A := 0) (lda := 6) (X := 100) (incx := 3) 7 (by decide) (by decide) (HoldsOn.of_holds (holds_tot _ _))
  (fun _ _ => rfl) ((Set.disjoint_right.mpr (by rintro p ⟨i, j, hi, hj, rfl⟩ ⟨l, hl, h⟩; simp [View.at'] at h hi hj hl; omega)).mono_right
    (View.footOn_sub_foot _ _)) (fuel := 20) (by decide)

/-- C69, `dsyr2_`: the selected triangle of `A` becomes that of `A + alpha (x y^T + y x^T)`; nothing else is written. -/
theorem C69_syr2_partial {env : Env} (hmin : 2 ≤ env.blas2min ∨ (env.naive = true ∧ env.recursive = false)) {m : Mem α} {uplo : Char} {u : Bool}
    (hu : IsUplo uplo u) {n A lda X Y : Nat} {incx incy : Int} {a : Nat → Nat → α} {x y : Nat → α} (alpha : α) (hl : n ≤ lda)
    (hix : 0 < incx) (hiy : 0 < incy) (hA : HoldsOn m ⟨A, lda, n, n⟩ (InTri u false) a) (hx : BVec m X n incx x) (hy : BVec m Y n incy y)
    (hdX : Disjoint (bcells X n incx) (View.footOn ⟨A, lda, n, n⟩ (InTri u false)))
    (hdY : Disjoint (bcells Y n incy) (View.footOn ⟨A, lda, n, n⟩ (InTri u false))) {fuel : Nat} (hf : n + 1 < fuel) :
    Runs (compatSyr2 env fuel m uplo n alpha X incx Y incy A lda) (fun m' =>
      HoldsOn m' ⟨A, lda, n, n⟩ (InTri u false) (fun i j => a i j + alpha * (x i * y j + y i * x j)) ∧
      Frame (View.footOn ⟨A, lda, n, n⟩ (InTri u false)) m m') := by
  unfold compatSyr2
  simp only [chU_eq hu, cvecS_ok hix, cvecS_ok hiy, Res.ok_bind]
  refine (C15_mvupdate2_sym_partial hmin 1 alpha (fl := { lower := !u, upper := u }) (A := ⟨A, lda, n, n⟩) hf rfl (Or.inl hl) (cvec_isVec _ _ _)
    (cvec_isVec _ _ _) (cvec_size _ _ _) (cvec_size _ _ _) hA (hx.toV_pos hix) (hy.toV_pos hiy) (by rw [cvec_foot]; exact hdX)
    (by rw [cvec_foot]; exact hdY)).bind ?_
  rintro ⟨e, m'⟩ ⟨-, h, f⟩
  exact Runs.pure ⟨h.congr fun i j _ _ _ => by rw [one_mul], f⟩

example := C69_syr2_partial (α := ℤ) (env := ⟨8, 2, false, true⟩) (Or.inl (by decide)) (m := tot fun p => (p : ℤ)) (uplo := 'u') (u := true) (by decide)
  (n := 4) (A := 0) (lda := 6) (X := 100) (Y := 101) (incx := 3) (incy := 3) 7 (by decide) (by decide) (by decide) (HoldsOn.of_holds (holds_tot _ _))
  (fun _ _ => rfl) (fun _ _ => rfl)
  ((Set.disjoint_right.mpr (by rintro p ⟨i, j, hi, hj, rfl⟩ ⟨l, hl, h⟩; simp [View.at'] at h hi hj hl; omega)).mono_right (View.footOn_sub_foot _ _))
  ((Set.disjoint_right.mpr (by rintro p ⟨i, j, hi, hj, rfl⟩ ⟨l, hl, h⟩; simp [View.at'] at h hi hj hl; omega)).mono_right (View.footOn_sub_foot _ _))
  (fuel := 20) (by decide)

/-- C69: a negative increment of a vector with at least two elements is passed on as a negative step; elements before the start of the array are
accessed. -/
theorem C69_negative_false [DecidableEq α] (ab : α → α) (env : Env) (fuel : Nat) (m : Mem α) (trans uplo diag : Char) {n : Nat} (hn : 1 < n) (alpha beta : α)
    (A lda X Y : Nat) {incx : Int} (hx : incx < 0) (incy : Int) :
    compatTrmv ab env fuel m uplo trans diag n A lda X incx = .ub ∧ compatSyr env fuel m uplo n alpha X incx A lda = .ub ∧
    compatSymv ab env fuel m uplo n alpha A lda X incx beta Y incy = .ub ∧ compatGemv ab env fuel m trans n n alpha A lda X incx beta Y incy = .ub ∧
    compatSyr2 env fuel m uplo n alpha X incx Y incy A lda = .ub ∧ compatGer env fuel m n n alpha X incx Y incy A lda = .ub ∧
    compatScal m n X incx alpha = .ub := by
  have h1 : ∀ b, cvecS n incx b = .ub := fun b => if_pos ⟨hx, hn⟩
  have h2 : ∀ (r : Res View), (r.bind fun _ => (Res.ub : Res (Mem α))) = .ub ∨ r = .diverge := by
    intro r; cases r <;> simp [Res.bind]
  have h3 : ∀ b, (cvecS n incy b) = .ub ∨ ∃ v, cvecS n incy b = .ok v := by
    intro b; unfold cvecS; split <;> simp
  refine ⟨?_, ?_, ?_, ?_, ?_, ?_, ?_⟩
  · unfold compatTrmv; rw [h1]; rfl
  · unfold compatSyr; rw [h1]; rfl
  · unfold compatSymv
    rcases h3 Y with h | ⟨v, h⟩ <;> simp only [h, h1] <;> rfl
  · unfold compatGemv
    simp only [ite_self]
    rcases h3 Y with h | ⟨v, h⟩ <;> simp only [h, h1] <;> rfl
  · unfold compatSyr2; rw [h1]; rfl
  · unfold compatGer
    rcases h3 Y with h | ⟨v, h⟩ <;> simp only [h, h1] <;> rfl
  · unfold compatScal; rw [h1]; rfl

end ring

example := C69_negative_false (α := ℤ) id ⟨8, 2, false, true⟩ 9 (tot fun p => (p : ℤ)) 'N' 'L' 'N' (n := 2) (by decide) 1 1 0 2 10 20 (incx := -1) (by decide) 1

/-- C69, `dtrsv_`: `x` becomes a solution of `op(T) z = x`. -/
theorem C69_trsv_partial [Field α] [DecidableEq α] (ab : α → α) {env : Env} (hmin : env.blas2min ≠ 1 ∨ env.naive = true) {m : Mem α}
    {uplo trans diag : Char} {u t d : Bool} (hu : IsUplo uplo u) (ht : IsTrans trans t) (hD : IsDiag diag d) {n A lda X : Nat} {incx : Int}
    {a : Nat → Nat → α} {x : Nat → α} (hl : n ≤ lda) (hix : 0 < incx) (hA : HoldsOn m ⟨A, lda, n, n⟩ (InTri u d) a) (hx : BVec m X n incx x)
    (hd : Disjoint (View.footOn ⟨A, lda, n, n⟩ (InTri u d)) (bcells X n incx)) (hnz : d = false → ∀ i, i < n → a i i ≠ 0)
    {fuel : Nat} (hf : n + 1 < fuel) :
    Runs (compatTrsv ab env fuel m uplo trans diag n A lda X incx) (fun m' => ∃ z, BVec m' X n incx z ∧
      (∀ i, i < n → ∑ j ∈ range n, (if t then trm u d a j i else trm u d a i j) * z j = x i) ∧ Frame (bcells X n incx) m m') := by
  unfold compatTrsv
  simp only [chU_eq hu, chT_eq ht, chD_eq hD, cvecS_ok hix, Res.ok_bind]
  refine (C13_mvsolve_trm_partial ab hmin 1 (fl := { lower := !u, upper := u, transA := t, unit := d }) rfl (A := ⟨A, lda, n, n⟩) (cvec_isVec _ _ _)
    (cvec_WF (by omega)) (Or.inl hl) (cvec_size _ _ _).symm (cvec_size _ _ _).symm (by rw [cvec_size]; omega) (hx.toV_pos hix) hA
    (by rw [cvec_foot]; exact hd) (by rw [cvec_size]; exact hnz)).bind ?_
  rintro ⟨e, m'⟩ ⟨-, z, h, hz, f⟩
  rw [cvec_foot] at f
  rw [cvec_size] at hz
  exact Runs.pure ⟨z, BVec.ofV_pos h hix, fun i hi => (hz i hi).trans (one_mul _), f⟩

example := C69_trsv_partial (α := ℚ) id (env := ⟨8, 2, false, true⟩) (Or.inl (by decide)) (m := tot fun p => ((p + 1 : ℕ) : ℚ)) (uplo := 'L') (u := false)
  (trans := 'T') (t := true) (diag := 'n') (d := false) (by decide) (by decide) (by decide)
  (n := 4) (A := 0) (lda := 6) (X := 100) (incx := 3) (by decide) (by decide) (HoldsOn.of_holds (holds_tot _ _))
  (fun _ _ => rfl) ((Set.disjoint_left.mpr (by rintro p ⟨i, j, hi, hj, rfl⟩ ⟨l, hl, h⟩; simp [View.at'] at h hi hj hl; omega)).mono_left
    (View.footOn_sub_foot _ _)) (fun _ i _ => by positivity) (fuel := 20) (by decide)

/-- C69 is false for the transposition `C` (for real data the same as `T`): `dgemv_('C', 2, 1, ...)` should read two elements of `x` and write one of `y`;
the code accesses a second element of `y`, which need not exist. -/
theorem C69_conj_false : ∃ (m : Mem ℤ), Holds m ⟨0, 2, 2, 1⟩ (fun _ _ => 1) ∧ BVec m 10 2 1 (fun _ => 1) ∧ BVec m 20 1 1 (fun _ => 1) ∧
    compatGemv id ⟨8, 2, false, true⟩ 9 m 'C' 2 1 1 0 2 10 1 1 20 1 = .ub := by
  refine ⟨fun p => if p ≤ 20 then some 1 else none, ?_, ?_, ?_, by rfl⟩
  · intro i j hi hj
    exact if_pos (by simp only [View.at'] at *; omega)
  · intro k hk
    exact if_pos (by simp [blasAt]; omega)
  · intro k hk
    exact if_pos (by simp [blasAt]; omega)

end Armas.Props
