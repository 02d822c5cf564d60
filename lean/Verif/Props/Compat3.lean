import Verif.Props.Compat2
import Verif.Props.Gemm
import Verif.Props.Symm
import Verif.Props.Trxm
import Verif.Props.Updtrm
import Verif.Props.Syr2k

/-!
# C70: the level 3 functions of the BLAS compatibility layer

The claim, for each function: with the matrices laid out as the reference BLAS prescribes (`View` `⟨A, lda, r, c⟩`: element `(i, j)` of an `r` by `c` matrix
at `A + i + j*lda`; for `CblasRowMajor` the view of the transpose), the call computes what the reference BLAS defines, and writes nothing else than the
result and the buffers of the configuration.
-/

namespace Armas.Props

open Armas Finset

variable {α : Type}

/-- The meaning of `enum CBLAS_TRANSPOSE` (without the conjugate transpose). -/
def IsCTrans (c : CTrans) (t : Bool) : Prop := c = if t then .trans else .noTrans

instance (c : CTrans) (t : Bool) : Decidable (IsCTrans c t) := by unfold IsCTrans; infer_instance

section ring
variable [CommRing α] [DecidableEq α]

/-- C70, `dgemm_`: `C := beta C + alpha op(A) op(B)`, where `op(A)` is `M` by `K` and `op(B)` is `K` by `N`.  A transposed matrix has to be square.
Missing: the other transposed matrices (`C70_gemm_trans_false`), the character `C`, `K = 0` (`C17_inner_zero_false`). -/
theorem C70_gemm_partial (ab : α → α) {c : Cache} {m : Mem α} {transa transb : Char} {ta tb : Bool} (hta : IsTrans transa ta) (htb : IsTrans transb tb)
    {M N K A lda B ldb C ldc : Nat} {a b f : Nat → Nat → α} (alpha beta : α) (hl : M ≤ ldc) (hK : K ≠ 0) (sqa : ta = true → M = K) (sqb : tb = true → K = N)
    (hc : c.Ready m) (hA : Holds m ⟨A, lda, M, K⟩ a) (hB : Holds m ⟨B, ldb, K, N⟩ b) (hC : Holds m ⟨C, ldc, M, N⟩ f)
    (dA : Disjoint (View.foot ⟨A, lda, M, K⟩) c.foot) (dB : Disjoint (View.foot ⟨B, ldb, K, N⟩) c.foot) (dC : Disjoint (View.foot ⟨C, ldc, M, N⟩) c.foot)
    (dAC : Disjoint (View.foot ⟨A, lda, M, K⟩) (View.foot ⟨C, ldc, M, N⟩)) (dBC : Disjoint (View.foot ⟨B, ldb, K, N⟩) (View.foot ⟨C, ldc, M, N⟩)) :
    Runs (compatGemm ab (some c) m transa transb M N K alpha A lda B ldb beta C ldc) (fun m' =>
      Holds m' ⟨C, ldc, M, N⟩ (fun i j => beta * f i j + alpha * ∑ k ∈ range K, (if ta then a k i else a i k) * (if tb then b j k else b k j)) ∧
      Frame (View.foot ⟨C, ldc, M, N⟩ ∪ c.foot) m m') := by
  unfold compatGemm
  simp only [chT_eq hta, chT_eq htb]
  refine (C16_mult_partial ab beta alpha (fl := { transA := ta, transB := tb }) rfl rfl (Or.inl hl) hc hA hB hC dA dB dC dAC dBC
    (by cases ta <;> simp at sqa ⊢; omega) (by cases tb <;> simp at sqb ⊢; omega) (P := K) (by cases ta <;> simp at sqa ⊢; omega)
    (by cases tb <;> simp at sqb ⊢; omega) hK).bind ?_
  rintro ⟨e, m'⟩ ⟨-, h, f, -⟩
  exact Runs.pure ⟨h, f⟩

/-- The buffers and the arrays of the examples are apart. -/
theorem demoDisj {V : View} (h : V.base + V.rows + V.cols * V.step ≤ 500) : Disjoint V.foot exCache.foot :=
  Set.disjoint_union_right.mpr ⟨View.disj_below h, View.disj_below (h.trans (by decide))⟩

example := C70_gemm_partial (α := ℤ) id (c := exCache) (transa := 'T') (transb := 'n') (ta := true) (tb := false) (by decide) (by decide) (M := 4) (N := 3) (K := 4)
  (A := 0) (lda := 5) (B := 100) (ldb := 6) (C := 200) (ldc := 7) 2 3 (by decide) (by decide) (by decide) (by decide) exReady (holds_tot _ _) (holds_tot _ _)
  (holds_tot _ _) (demoDisj (by decide)) (demoDisj (by decide)) (demoDisj (by decide))
  (View.disj_below (by decide)) (View.disj_below (by decide))

/-- C70 is false for `dgemm_` with a transposed `A` that is not square: the call does nothing at all (the shape is passed as `M` by `K`, the size error
is dropped).  The same holds for `B`. -/
theorem C70_gemm_trans_false (ab : α → α) (cbuf : Option Cache) (m : Mem α) {transa transb : Char} {ta tb : Bool} (hta : IsTrans transa ta)
    (htb : IsTrans transb tb) {M N K : Nat} (h : ta = true ∧ M ≠ K ∨ tb = true ∧ K ≠ N) (alpha beta : α) (A lda B ldb C ldc : Nat) :
    compatGemm ab cbuf m transa transb M N K alpha A lda B ldb beta C ldc = .ok m := by
  unfold compatGemm mult
  simp only [chT_eq hta, chT_eq htb]
  split
  · rfl
  rw [if_pos]
  · rfl
  unfold multSizes
  revert h
  cases ta <;> cases tb <;> simp <;> omega

example := C70_gemm_trans_false (α := ℤ) id none (tot fun p => (p : ℤ)) (transa := 'T') (transb := 'N') (ta := true) (tb := false) (by decide) (by decide)
  (M := 2) (N := 3) (K := 4) (Or.inl (by decide)) 1 0 0 4 100 4 200 2

/-- C70, `cblas_dgemm` with `CblasColMajor`.  Missing: `CblasRowMajor` (`C70_cblas_gemm_row_false`), `CblasConjTrans`, `K = 0`. -/
theorem C70_cblas_gemm_partial (ab : α → α) {c : Cache} {m : Mem α} {transa transb : CTrans} {ta tb : Bool} (hta : IsCTrans transa ta) (htb : IsCTrans transb tb)
    {M N K A lda B ldb C ldc : Nat} {a b f : Nat → Nat → α} (alpha beta : α) (hl : M ≤ ldc) (hK : K ≠ 0)
    {Av Bv : View} (hAv : Av = if ta then ⟨A, lda, K, M⟩ else ⟨A, lda, M, K⟩) (hBv : Bv = if tb then ⟨B, ldb, N, K⟩ else ⟨B, ldb, K, N⟩)
    (hc : c.Ready m) (hA : Holds m Av a) (hB : Holds m Bv b) (hC : Holds m ⟨C, ldc, M, N⟩ f)
    (dA : Disjoint Av.foot c.foot) (dB : Disjoint Bv.foot c.foot) (dC : Disjoint (View.foot ⟨C, ldc, M, N⟩) c.foot)
    (dAC : Disjoint Av.foot (View.foot ⟨C, ldc, M, N⟩)) (dBC : Disjoint Bv.foot (View.foot ⟨C, ldc, M, N⟩)) :
    Runs (cblasGemm ab (some c) m false transa transb M N K alpha A lda B ldb beta C ldc) (fun m' =>
      Holds m' ⟨C, ldc, M, N⟩ (fun i j => beta * f i j + alpha * ∑ k ∈ range K, (if ta then a k i else a i k) * (if tb then b j k else b k j)) ∧
      Frame (View.foot ⟨C, ldc, M, N⟩ ∪ c.foot) m m') := by
  have e1 : (transa == CTrans.trans) = ta := by rw [hta]; cases ta <;> rfl
  have e2 : (transb == CTrans.trans) = tb := by rw [htb]; cases tb <;> rfl
  have v1 : (if transa = CTrans.trans then (⟨A, lda, K, M⟩ : View) else ⟨A, lda, M, K⟩) = Av := by rw [hta, hAv]; cases ta <;> rfl
  have v2 : (if transb = CTrans.trans then (⟨B, ldb, N, K⟩ : View) else ⟨B, ldb, K, N⟩) = Bv := by rw [htb, hBv]; cases tb <;> rfl
  unfold cblasGemm
  simp only [Bool.false_eq_true, if_false, e1, e2, v1, v2]
  refine (C16_mult_partial ab beta alpha (fl := { transA := ta, transB := tb }) rfl rfl (Or.inl hl) hc hA hB hC dA dB dC dAC dBC
    (by subst hAv; cases ta <;> rfl) (by subst hBv; cases tb <;> rfl) (P := K) (by subst hAv; cases ta <;> rfl) (by subst hBv; cases tb <;> rfl) hK).bind ?_
  rintro ⟨e, m'⟩ ⟨-, h, f, -⟩
  exact Runs.pure ⟨h, f⟩

example := C70_cblas_gemm_partial (α := ℤ) id (c := exCache) (transa := .trans) (transb := .noTrans) (ta := true) (tb := false) (by decide) (by decide)
  (M := 4) (N := 3) (K := 5) (A := 0) (lda := 5) (B := 100) (ldb := 6) (C := 200) (ldc := 7) 2 3 (by decide) (by decide) (Av := ⟨0, 5, 5, 4⟩) (Bv := ⟨100, 6, 5, 3⟩) rfl rfl
  exReady (holds_tot _ _) (holds_tot _ _)
  (holds_tot _ _) (demoDisj (by decide)) (demoDisj (by decide)) (demoDisj (by decide))
  (View.disj_below (by decide)) (View.disj_below (by decide))

/-- C70, `dsymm_`: `C := beta C + alpha S B` or `beta C + alpha B S` where only one triangle of `S` is stored.  `BlocksFit` is the restriction of C20 on the
block sizes. -/
theorem C70_symm_partial (ab : α → α) {c : Cache} {m : Mem α} {side uplo : Char} {r u : Bool} (hs : IsSide side r) (hu : IsUplo uplo u)
    {M N A lda B ldb C ldc : Nat} {a b f : Nat → Nat → α} (alpha beta : α) (hl : M ≤ ldc) {n : Nat} (hn : n = if r then N else M)
    (hfit : BlocksFit c n (if r then M else N) { right := r }) (hrb : c.rb ≤ c.MB)
    (hc : c.Ready m) (hA : HoldsOn m ⟨A, lda, n, n⟩ (InTri u false) a) (hB : Holds m ⟨B, ldb, M, N⟩ b) (hC : Holds m ⟨C, ldc, M, N⟩ f)
    (dA : Disjoint (View.footOn ⟨A, lda, n, n⟩ (InTri u false)) c.foot) (dB : Disjoint (View.foot ⟨B, ldb, M, N⟩) c.foot)
    (dC : Disjoint (View.foot ⟨C, ldc, M, N⟩) c.foot)
    (dAC : Disjoint (View.footOn ⟨A, lda, n, n⟩ (InTri u false)) (View.foot ⟨C, ldc, M, N⟩))
    (dBC : Disjoint (View.foot ⟨B, ldb, M, N⟩) (View.foot ⟨C, ldc, M, N⟩)) :
    Runs (compatSymm ab (some c) m side uplo M N alpha A lda B ldb beta C ldc) (fun m' =>
      Holds m' ⟨C, ldc, M, N⟩ (fun i j => beta * f i j + alpha * ∑ k ∈ range n,
        if r then b i k * (if (if u then k ≤ j else j ≤ k) then a k j else a j k) else (if (if u then i ≤ k else k ≤ i) then a i k else a k i) * b k j) ∧
      Frame (View.foot ⟨C, ldc, M, N⟩ ∪ c.foot) m m') := by
  unfold compatSymm
  have v : (if r then (⟨A, lda, N, N⟩ : View) else ⟨A, lda, M, M⟩) = ⟨A, lda, n, n⟩ := by cases r <;> simp [hn]
  simp only [chR_eq hs, chU_eq hu, v]
  refine (C20_mult_sym_partial ab beta alpha (fl := { right := r, left := !r, lower := !u, upper := u })
    (A := ⟨A, lda, n, n⟩) ⟨rfl, by cases r <;> simp, rfl, rfl, Or.inl hl, rfl, by cases r <;> simp [hn], by cases r <;> simp [hn], by cases r <;> simp [hn], hc, hrb,
      hA, hB, hC, dA, dB, dC, dAC, dBC⟩ hfit).bind ?_
  rintro ⟨e, m'⟩ ⟨-, h, f⟩
  refine Runs.pure ⟨h.congr fun i j _ _ => ?_, f⟩
  congr 2
  unfold symProd symOf
  cases r <;> simp only [Bool.false_eq_true, if_true, if_false] <;> refine sum_congr rfl fun k _ => ?_ <;> cases u <;> grind

example := C70_symm_partial (α := ℤ) id (c := exCache) (side := 'R') (uplo := 'l') (r := true) (u := false) (by decide) (by decide) (M := 2) (N := 4)
  (A := 0) (lda := 5) (B := 100) (ldb := 6) (C := 200) (ldc := 7) 2 3 (by decide) (n := 4) rfl (by unfold BlocksFit; decide) (by decide) exReady
  (HoldsOn.of_holds (holds_tot _ _)) (holds_tot _ _)
  (holds_tot _ _) ((demoDisj (by decide)).mono_left (View.footOn_sub_foot _ _)) (demoDisj (by decide))
  (demoDisj (by decide))
  ((View.disj_below (by decide)).mono_left (View.footOn_sub_foot _ _)) (View.disj_below (by decide))

/-- C70, `cblas_dsymm` with `CblasRowMajor`; the views are those of the transposed matrices.  With `CblasColMajor` the same for `M = N`. -/
theorem C70_cblas_symm_partial (ab : α → α) {c : Cache} {m : Mem α} {row r u : Bool}
    {M N A lda B ldb C ldc : Nat} {a b f : Nat → Nat → α} (alpha beta : α) {n : Nat} (hn : n = if r then N else M) (hrow : row = false → M = N)
    (hfit : BlocksFit c n (if r then M else N) { right := r ^^ row }) (hrb : c.rb ≤ c.MB) (hc : c.Ready m)
    {Av Bv Cv : View} (hAv : Av = ⟨A, lda, n, n⟩) (hBv : Bv = if row then ⟨B, ldb, N, M⟩ else ⟨B, ldb, M, N⟩)
    (hCv : Cv = if row then ⟨C, ldc, N, M⟩ else ⟨C, ldc, M, N⟩) (hl : Cv.rows ≤ ldc)
    (hA : HoldsOn m Av (InTri (u ^^ row) false) (fun i j => if row then a j i else a i j)) (hB : Holds m Bv (fun i j => if row then b j i else b i j))
    (hC : Holds m Cv (fun i j => if row then f j i else f i j))
    (dA : Disjoint (Av.footOn (InTri (u ^^ row) false)) c.foot) (dB : Disjoint Bv.foot c.foot) (dC : Disjoint Cv.foot c.foot)
    (dAC : Disjoint (Av.footOn (InTri (u ^^ row) false)) Cv.foot) (dBC : Disjoint Bv.foot Cv.foot) :
    Runs (cblasSymm ab (some c) m row r u M N alpha A lda B ldb beta C ldc) (fun m' => ∃ g : Nat → Nat → α, Holds m' Cv (fun i j => if row then g j i else g i j) ∧
      (∀ i j, g i j = beta * f i j + alpha * ∑ k ∈ range n,
        if r then b i k * (if (if u then k ≤ j else j ≤ k) then a k j else a j k) else (if (if u then i ≤ k else k ≤ i) then a i k else a k i) * b k j) ∧
      Frame (Cv.foot ∪ c.foot) m m') := by
  unfold cblasSymm
  have key : ∀ {fl : Flags}, fl = { left := !(r ^^ row), right := r ^^ row, lower := !(u ^^ row), upper := u ^^ row } →
      Runs (multSym ab m beta Cv alpha Av Bv fl (some c)) (fun r' => ∃ g : Nat → Nat → α, Holds r'.2 Cv (fun i j => if row then g j i else g i j) ∧
      (∀ i j, g i j = beta * f i j + alpha * ∑ k ∈ range n,
        if r then b i k * (if (if u then k ≤ j else j ≤ k) then a k j else a j k) else (if (if u then i ≤ k else k ≤ i) then a i k else a k i) * b k j) ∧
      Frame (Cv.foot ∪ c.foot) m r'.2) := by
    intro fl hfl
    subst hfl
    have hfit' : BlocksFit c Av.rows (if (r ^^ row) then Cv.rows else Cv.cols)
        { left := !(r ^^ row), right := r ^^ row, lower := !(u ^^ row), upper := u ^^ row } := by
      subst hAv hCv
      unfold BlocksFit at hfit ⊢
      cases row <;> cases r <;> simp_all
    refine (C20_mult_sym_partial ab beta alpha ⟨rfl, by cases r <;> cases row <;> simp, rfl, rfl, Or.inl (by rw [hCv] at hl ⊢; cases row <;> exact hl), by rw [hAv], ?_, ?_, ?_, hc, hrb, hA, hB, hC, dA,
      dB, dC, dAC, dBC⟩ hfit').mono ?_
    · subst hAv hBv hCv; cases row <;> cases r <;> simp_all
    · subst hAv hBv hCv; cases row <;> cases r <;> simp_all
    · subst hAv hBv hCv; cases row <;> cases r <;> simp_all
    rintro ⟨e, m'⟩ ⟨-, h, fr⟩
    refine ⟨_, h.congr fun i j _ _ => ?_, fun i j => rfl, fr⟩
    subst hAv
    unfold symProd symOf
    cases row <;> cases r <;> simp only [Bool.false_eq_true, if_true, if_false, Bool.xor_false, Bool.xor_true, Bool.not_false, Bool.not_true] <;> congr 2 <;>
      refine sum_congr rfl fun k _ => ?_ <;> cases u <;> grind
  cases row
  · have e : M = N := hrow rfl
    subst e
    have en : n = M := by cases r <;> simpa using hn
    subst en
    simp only [Bool.false_eq_true, if_false, ite_self] at hBv hCv ⊢
    subst hAv hBv hCv
    exact (key (by simp)).bind fun r h => Runs.pure h
  · have en : (if r = true then (⟨A, lda, N, N⟩ : View) else ⟨A, lda, M, M⟩) = ⟨A, lda, n, n⟩ := by cases r <;> simp [hn]
    simp only [if_true, en] at hBv hCv ⊢
    subst hAv hBv hCv
    exact (key (by simp)).bind fun r h => Runs.pure h

example := C70_cblas_symm_partial (α := ℤ) id (c := exCache) (row := true) (r := false) (u := true) (M := 4) (N := 2)
  (A := 0) (lda := 5) (B := 100) (ldb := 6) (C := 200) (ldc := 7) (a := fun i j => ((0 + j + i * 5 : ℕ) : ℤ)) (b := fun i j => ((100 + j + i * 6 : ℕ) : ℤ))
  (f := fun i j => ((200 + j + i * 7 : ℕ) : ℤ)) 2 3 (n := 4) rfl (by decide) (by unfold BlocksFit; decide) (by decide) exReady rfl rfl rfl (by decide)
  (HoldsOn.of_holds (holds_tot _ _)) (holds_tot _ _)
  (holds_tot _ _) ((demoDisj (by decide)).mono_left (View.footOn_sub_foot _ _)) (demoDisj (by decide))
  (demoDisj (by decide))
  ((View.disj_below (by decide)).mono_left (View.footOn_sub_foot _ _)) (View.disj_below (by decide))

/-- C70 is false for `cblas_dsymm` with `CblasColMajor` and `M ≠ N`: the order of the symmetric matrix is taken from the wrong dimension, and the call
does nothing at all. -/
theorem C70_cblas_symm_col_false (ab : α → α) (cbuf : Option Cache) (m : Mem α) (r u : Bool) {M N : Nat} (h : M ≠ N) (alpha beta : α)
    (A lda B ldb C ldc : Nat) : cblasSymm ab cbuf m false r u M N alpha A lda B ldb beta C ldc = .ok m := by
  unfold cblasSymm multSym
  have key : symmSizes ⟨C, ldc, M, N⟩ (if r then ⟨A, lda, M, M⟩ else ⟨A, lda, N, N⟩) ⟨B, ldb, M, N⟩ { left := !r, right := r, lower := !u, upper := u } = false := by
    unfold symmSizes
    cases r <;> simp <;> omega
  simp only [Bool.false_eq_true, if_false, key, not_false_eq_true, if_true]
  by_cases h1 : M = 0 ∨ N = 0
  · rw [if_pos h1]; rfl
  · rw [if_neg h1]
    by_cases h2 : (if r then (⟨A, lda, M, M⟩ : View) else ⟨A, lda, N, N⟩).size = 0 ∨ (⟨B, ldb, M, N⟩ : View).size = 0
    · rw [if_pos h2]; rfl
    · rw [if_neg h2]; rfl

example := C70_cblas_symm_col_false (α := ℤ) id (some exCache) (tot fun p => (p : ℤ)) false true (M := 2) (N := 3) (by decide) 1 0 0 4 100 4 200 2

/-- C70, `dsyrk_`: the selected triangle of `C` becomes that of `beta C + alpha A A^T` (`A` is `n` by `k`), or of `beta C + alpha A^T A` (`A` is `k` by `n`);
nothing else is written.  `EvenSplits` is the restriction of C21; missing as well: the character `C`, `k = 0`. -/
theorem C70_syrk_partial (ab : α → α) {env : Env} (hmin : 2 ≤ env.blas2min ∨ env.naive = true ∧ env.blas2min ≠ 1) {c : Cache} {m : Mem α} {uplo trans : Char}
    {u t : Bool} (hu : IsUplo uplo u) (ht : IsTrans trans t) {n k A lda C ldc : Nat} {a f : Nat → Nat → α} (alpha beta : α) (hl : n ≤ ldc) (hk : 0 < k)
    {Av : View} (hAv : Av = if t then ⟨A, lda, k, n⟩ else ⟨A, lda, n, k⟩) (hc : c.Ready m) (hA : Holds m Av a)
    (hC : HoldsOn m ⟨C, ldc, n, n⟩ (InTri u false) f) (dA : Disjoint Av.foot c.foot) (dC : Disjoint (View.footOn ⟨C, ldc, n, n⟩ (InTri u false)) c.foot)
    (dAC : Disjoint Av.foot (View.footOn ⟨C, ldc, n, n⟩ (InTri u false))) (he : EvenSplits env c n { upper := u }) {fuel : Nat} (hf : 4 * n + 1 < fuel) :
    Runs (compatSyrk ab env fuel (some c) m uplo trans n k alpha A lda beta C ldc) (fun m' =>
      HoldsOn m' ⟨C, ldc, n, n⟩ (InTri u false) (fun i j => beta * f i j + alpha * ∑ l ∈ range k, if t then a l i * a l j else a i l * a j l) ∧
      Frame (View.footOn ⟨C, ldc, n, n⟩ (InTri u false) ∪ c.foot) m m') := by
  unfold compatSyrk
  simp only [chU_eq hu, chT_eq ht]
  rw [← hAv]
  refine (C21_update_sym_partial ab hmin beta alpha (fl := { lower := !u, upper := u, transA := t }) (C := ⟨C, ldc, n, n⟩) (Or.inl hl) rfl
    (by subst hAv; cases t <;> rfl) (by subst hAv; cases t <;> exact hk) hc hA hC dA dC dAC he hf).bind ?_
  rintro ⟨e, m'⟩ ⟨-, h, f, -⟩
  exact Runs.pure ⟨h.congr fun i j _ _ _ => by subst hAv; cases t <;> rfl, f⟩

example := C70_syrk_partial (α := ℤ) id (env := ⟨8, 2, false, false⟩) (Or.inl (by decide)) (c := exCache) (uplo := 'L') (trans := 't') (u := false) (t := true) (by decide)
  (by decide) (n := 4) (k := 3) (A := 0) (lda := 5) (C := 200) (ldc := 7) 2 3 (by decide) (by decide) rfl exReady (holds_tot _ _) (HoldsOn.of_holds (holds_tot _ _))
  (demoDisj (by decide)) ((demoDisj (by decide)).mono_left (View.footOn_sub_foot _ _)) ((View.disj_below (by decide)).mono_right (View.footOn_sub_foot _ _))
  (Or.inl rfl) (fuel := 100) (by decide)

/-- C70, `dsyr2k` (exported as `dsyrk2_`): the selected triangle of `C` becomes that of `beta C + alpha (A B^T + B A^T)`, or with the transposed products.  The
leading dimensions of `A` and `B` have to be equal (`C70_syr2k_ldb_false`). -/
theorem C70_syr2k_partial (ab : α → α) {env : Env} (hmin : env.blas2min ≠ 1) {lb : Nat} (hlb : 2 ≤ lb ∨ env.naive = true) {c : Cache} {m : Mem α}
    {uplo trans : Char} {u t : Bool} (hu : IsUplo uplo u) (ht : IsTrans trans t) {n k A lda B ldb C ldc : Nat} {a b f : Nat → Nat → α} (alpha beta : α)
    (hl : n ≤ ldc) (hk : 0 < k) (hld : ldb = lda) {Av Bv : View} (hAv : Av = if t then ⟨A, lda, k, n⟩ else ⟨A, lda, n, k⟩)
    (hBv : Bv = if t then ⟨B, ldb, k, n⟩ else ⟨B, ldb, n, k⟩) (hc : c.Ready m) (hrb : c.rb ≤ c.MB) (hA : Holds m Av a) (hB : Holds m Bv b)
    (hC : HoldsOn m ⟨C, ldc, n, n⟩ (InTri u false) f) (dA : Disjoint Av.foot c.foot) (dB : Disjoint Bv.foot c.foot)
    (dC : Disjoint (View.footOn ⟨C, ldc, n, n⟩ (InTri u false)) c.foot)
    (dAC : Disjoint Av.foot (View.footOn ⟨C, ldc, n, n⟩ (InTri u false))) (dBC : Disjoint Bv.foot (View.footOn ⟨C, ldc, n, n⟩ (InTri u false)))
    {fuel : Nat} (hf : n + k + 1 < fuel) :
    Runs (compatSyr2k ab env lb fuel (some c) m uplo trans n k alpha A lda B ldb beta C ldc) (fun m' =>
      HoldsOn m' ⟨C, ldc, n, n⟩ (InTri u false) (fun i j => beta * f i j + alpha * ∑ l ∈ range k,
        if t then a l i * b l j + b l i * a l j else a i l * b j l + b i l * a j l) ∧
      Frame (View.footOn ⟨C, ldc, n, n⟩ (InTri u false) ∪ c.foot) m m') := by
  unfold compatSyr2k
  subst hld
  simp only [chU_eq hu, chT_eq ht]
  rw [← hAv, ← hBv]
  refine (C22_update2_sym_partial ab hmin hlb beta alpha (fl := { lower := !u, upper := u, transA := t }) (C := ⟨C, ldc, n, n⟩) (K := k) (Or.inl hl) rfl
    (by subst hAv; cases t <;> rfl) (by subst hAv; cases t <;> rfl) hk (by subst hAv hBv; cases t <;> exact ⟨rfl, rfl⟩) hc hrb hA hB hC dA dB dC dAC dBC
    hf).bind ?_
  rintro ⟨e, m'⟩ ⟨-, h, f⟩
  refine Runs.pure ⟨h.congr fun i j _ _ _ => ?_, f⟩
  unfold crossSum
  rw [add_assoc, ← mul_add]
  cases t <;> simp only [Bool.false_eq_true, if_true, if_false, sum_add_distrib]

example := C70_syr2k_partial (α := ℤ) id (env := ⟨8, 2, false, false⟩) (by decide) (lb := 2) (Or.inl (by decide)) (c := exCache) (uplo := 'U') (trans := 't') (u := true)
  (t := true) (by decide) (by decide) (n := 4) (k := 3) (A := 0) (lda := 5) (B := 100) (ldb := 5) (C := 200) (ldc := 7) 2 3 (by decide) (by decide) rfl rfl rfl exReady
  (by decide) (holds_tot _ _) (holds_tot _ _) (HoldsOn.of_holds (holds_tot _ _))
  (demoDisj (by decide)) (demoDisj (by decide)) ((demoDisj (by decide)).mono_left (View.footOn_sub_foot _ _))
  ((View.disj_below (by decide)).mono_right (View.footOn_sub_foot _ _)) ((View.disj_below (by decide)).mono_right (View.footOn_sub_foot _ _))
  (fuel := 100) (by decide)

/-- C70, `dtrmm_`: `B := alpha op(T) B` or `B := alpha B op(T)`. -/
theorem C70_trmm_partial (ab : α → α) {env : Env} (hmin : 2 ≤ env.blas2min ∨ env.naive = true ∧ env.blas2min ≠ 1) {c : Cache} {m : Mem α}
    {side uplo transa diag : Char} {r u t d : Bool} (hs : IsSide side r) (hu : IsUplo uplo u) (ht : IsTrans transa t) (hD : IsDiag diag d)
    {M N A lda B ldb : Nat} {a f : Nat → Nat → α} (alpha : α) (hl : M ≤ ldb) {n : Nat} (hn : n = if r then N else M) (hc : c.Ready m) (hrb : c.rb ≤ c.MB)
    (hA : HoldsOn m ⟨A, lda, n, n⟩ (InTri u d) a) (hB : Holds m ⟨B, ldb, M, N⟩ f)
    (dAB : Disjoint (View.footOn ⟨A, lda, n, n⟩ (InTri u d)) (View.foot ⟨B, ldb, M, N⟩))
    (dA : Disjoint (View.footOn ⟨A, lda, n, n⟩ (InTri u d)) c.foot) (dB : Disjoint (View.foot ⟨B, ldb, M, N⟩) c.foot) {fuel : Nat} (hf : n + M + N < fuel) :
    Runs (compatTrmm ab env fuel (some c) m side uplo transa diag M N alpha A lda B ldb) (fun m' =>
      Holds m' ⟨B, ldb, M, N⟩ (fun i j => alpha * ∑ k ∈ range n, if r then f i k * (if t then trm u d a j k else trm u d a k j)
        else (if t then trm u d a k i else trm u d a i k) * f k j) ∧ Frame (View.foot ⟨B, ldb, M, N⟩ ∪ c.foot) m m') := by
  unfold compatTrmm
  have v : (if r then (⟨A, lda, N, N⟩ : View) else ⟨A, lda, M, M⟩) = ⟨A, lda, n, n⟩ := by cases r <;> simp [hn]
  simp only [chR_eq hs, chU_eq hu, chT_eq ht, chD_eq hD, v]
  refine (C18_mult_trm_partial ab hmin alpha (fl := { right := r, left := !r, lower := !u, upper := u, transA := t, unit := d }) (A := ⟨A, lda, n, n⟩)
    ⟨by cases r <;> simp, rfl, rfl, Or.inl hl, rfl, by cases r <;> simp [hn], hc, hrb, hB, hA, dAB, dA, dB⟩ hf).bind ?_
  rintro ⟨e, m'⟩ ⟨-, h, f⟩
  exact Runs.pure ⟨h, f⟩

example := C70_trmm_partial (α := ℤ) id (env := ⟨8, 2, false, false⟩) (Or.inl (by decide)) (c := exCache) (side := 'R') (uplo := 'L') (transa := 't') (diag := 'U')
  (r := true) (u := false) (t := true) (d := true) (by decide) (by decide) (by decide) (by decide) (M := 4) (N := 3) (A := 0) (lda := 5) (B := 200) (ldb := 7) 2 (by decide)
  (n := 3) rfl exReady (by decide) (HoldsOn.of_holds (holds_tot _ _)) (holds_tot _ _) ((View.disj_below (by decide)).mono_left (View.footOn_sub_foot _ _))
  ((demoDisj (by decide)).mono_left (View.footOn_sub_foot _ _)) (demoDisj (by decide)) (fuel := 100) (by decide)

/-- C70, `cblas_dtrmm` with `CblasColMajor`.  Missing: `CblasRowMajor` (`C70_cblas_trxm_row_false`), `CblasConjTrans`. -/
theorem C70_cblas_trmm_partial (ab : α → α) {env : Env} (hmin : 2 ≤ env.blas2min ∨ env.naive = true ∧ env.blas2min ≠ 1) {c : Cache} {m : Mem α}
    {transa : CTrans} {r u t d : Bool} (ht : IsCTrans transa t)
    {M N A lda B ldb : Nat} {a f : Nat → Nat → α} (alpha : α) (hl : M ≤ ldb) {n : Nat} (hn : n = if r then N else M) (hc : c.Ready m) (hrb : c.rb ≤ c.MB)
    (hA : HoldsOn m ⟨A, lda, n, n⟩ (InTri u d) a) (hB : Holds m ⟨B, ldb, M, N⟩ f)
    (dAB : Disjoint (View.footOn ⟨A, lda, n, n⟩ (InTri u d)) (View.foot ⟨B, ldb, M, N⟩))
    (dA : Disjoint (View.footOn ⟨A, lda, n, n⟩ (InTri u d)) c.foot) (dB : Disjoint (View.foot ⟨B, ldb, M, N⟩) c.foot) {fuel : Nat} (hf : n + M + N < fuel) :
    Runs (cblasTrmm ab env fuel (some c) m false r u transa d M N alpha A lda B ldb) (fun m' =>
      Holds m' ⟨B, ldb, M, N⟩ (fun i j => alpha * ∑ k ∈ range n, if r then f i k * (if t then trm u d a j k else trm u d a k j)
        else (if t then trm u d a k i else trm u d a i k) * f k j) ∧ Frame (View.foot ⟨B, ldb, M, N⟩ ∪ c.foot) m m') := by
  unfold cblasTrmm cblasTriArgs
  have v : (if r then (⟨A, lda, N, N⟩ : View) else ⟨A, lda, M, M⟩) = ⟨A, lda, n, n⟩ := by cases r <;> simp [hn]
  have e1 : (transa == CTrans.trans) = t := by rw [ht]; cases t <;> rfl
  simp only [Bool.false_eq_true, if_false, e1, v]
  refine (C18_mult_trm_partial ab hmin alpha (fl := { right := r, left := !r, lower := !u, upper := u, transA := t, unit := d }) (A := ⟨A, lda, n, n⟩)
    ⟨by cases r <;> simp, rfl, rfl, Or.inl hl, rfl, by cases r <;> simp [hn], hc, hrb, hB, hA, dAB, dA, dB⟩ hf).bind ?_
  rintro ⟨e, m'⟩ ⟨-, h, f⟩
  exact Runs.pure ⟨h, f⟩

example := C70_cblas_trmm_partial (α := ℤ) id (env := ⟨8, 2, false, false⟩) (Or.inl (by decide)) (c := exCache) (transa := .trans)
  (r := true) (u := false) (t := true) (d := true) (by decide) (M := 4) (N := 3) (A := 0) (lda := 5) (B := 200) (ldb := 7) 2 (by decide)
  (n := 3) rfl exReady (by decide) (HoldsOn.of_holds (holds_tot _ _)) (holds_tot _ _) ((View.disj_below (by decide)).mono_left (View.footOn_sub_foot _ _))
  ((demoDisj (by decide)).mono_left (View.footOn_sub_foot _ _)) (demoDisj (by decide)) (fuel := 100) (by decide)

end ring

/-- C70, `cblas_dtrsm` with `CblasColMajor`: `B` becomes a solution `X` of `op(T) X = alpha B` or `X op(T) = alpha B`.  `hal` is the restriction of C19. -/
theorem C70_cblas_trsm_partial [Field α] [DecidableEq α] (ab : α → α) {env : Env} (hmin : 2 ≤ env.blas2min ∨ env.naive = true ∧ env.blas2min ≠ 1) {c : Cache} {m : Mem α}
    {transa : CTrans} {r u t d : Bool} (ht : IsCTrans transa t)
    {M N A lda B ldb : Nat} {a f : Nat → Nat → α} (alpha : α) (hl : M ≤ ldb) {n : Nat} (hn : n = if r then N else M) (hc : c.Ready m) (hrb : c.rb ≤ c.MB)
    (hA : HoldsOn m ⟨A, lda, n, n⟩ (InTri u d) a) (hB : Holds m ⟨B, ldb, M, N⟩ f)
    (dAB : Disjoint (View.footOn ⟨A, lda, n, n⟩ (InTri u d)) (View.foot ⟨B, ldb, M, N⟩))
    (dA : Disjoint (View.footOn ⟨A, lda, n, n⟩ (InTri u d)) c.foot) (dB : Disjoint (View.foot ⟨B, ldb, M, N⟩) c.foot)
    (hnz : d = true ∨ ∀ i, i < n → a i i ≠ 0)
    (hal : alpha = 1 ∨ env.naive = true ∨ n < env.blas2min ∨ (env.recursive = false ∧ c.NB < env.blas2min)) {fuel : Nat} (hf : n + M + N < fuel) :
    Runs (cblasTrsm ab env fuel (some c) m false r u transa d M N alpha A lda B ldb) (fun m' => ∃ X,
      Holds m' ⟨B, ldb, M, N⟩ X ∧ (∀ i j, i < M → j < N → ∑ k ∈ range n, (if r then X i k * (if t then trm u d a j k else trm u d a k j)
        else (if t then trm u d a k i else trm u d a i k) * X k j) = alpha * f i j) ∧ Frame (View.foot ⟨B, ldb, M, N⟩ ∪ c.foot) m m') := by
  unfold cblasTrsm cblasTriArgs
  have v : (if r then (⟨A, lda, N, N⟩ : View) else ⟨A, lda, M, M⟩) = ⟨A, lda, n, n⟩ := by cases r <;> simp [hn]
  have e1 : (transa == CTrans.trans) = t := by rw [ht]; cases t <;> rfl
  simp only [Bool.false_eq_true, if_false, e1, v]
  refine (C19_solve_trm_partial ab hmin alpha (fl := { right := r, left := !r, lower := !u, upper := u, transA := t, unit := d }) (A := ⟨A, lda, n, n⟩)
    ⟨by cases r <;> simp, rfl, rfl, Or.inl hl, rfl, by cases r <;> simp [hn], hc, hrb, hB, hA, dAB, dA, dB⟩ rfl rfl hnz hal hf).bind ?_
  rintro ⟨e, m'⟩ ⟨-, ⟨X, h, hX⟩, f, -⟩
  exact Runs.pure ⟨X, h, hX, f⟩

example := C70_cblas_trsm_partial (α := ℚ) id (env := ⟨8, 2, false, false⟩) (Or.inl (by decide)) (m := tot fun p => (p : ℚ)) (c := exCache) (transa := .trans)
  (r := true) (u := false) (t := true) (d := true) (by decide) (M := 4) (N := 3) (A := 0) (lda := 5) (B := 200) (ldb := 7) 1 (by decide)
  (n := 3) rfl ⟨by decide, by decide, by decide, by decide, by decide, ⟨_, holds_tot _ _⟩, ⟨_, holds_tot _ _⟩, View.disj_below (by decide)⟩ (by decide)
  (HoldsOn.of_holds (holds_tot _ _)) (holds_tot _ _) ((View.disj_below (by decide)).mono_left (View.footOn_sub_foot _ _))
  ((demoDisj (by decide)).mono_left (View.footOn_sub_foot _ _)) (demoDisj (by decide)) (Or.inl rfl) (Or.inl rfl) (fuel := 100) (by decide)

/-- C70 is false for `cblas_dtrmm` and `cblas_dtrsm` with `CblasRowMajor` and `M ≠ N`: the order of the triangular matrix is taken from the wrong dimension and
the calls do nothing at all. -/
theorem C70_cblas_trxm_row_false [Field α] [DecidableEq α] (ab : α → α) (env : Env) (fuel : Nat) (cbuf : Option Cache) (m : Mem α) (r u d : Bool) (transa : CTrans)
    {M N : Nat} (h : M ≠ N) (alpha : α) (A lda B ldb : Nat) :
    cblasTrmm ab env fuel cbuf m true r u transa d M N alpha A lda B ldb = .ok m ∧
    cblasTrsm ab env fuel cbuf m true r u transa d M N alpha A lda B ldb = .ok m := by
  have key : trxmSizes ⟨B, ldb, N, M⟩ (if r then ⟨A, lda, M, M⟩ else ⟨A, lda, N, N⟩)
      { left := r, right := !r, lower := u, upper := !u, unit := d, transA := transa == .noTrans } = false := by
    unfold trxmSizes
    cases r <;> simp <;> omega
  constructor
  · unfold cblasTrmm cblasTriArgs multTrm
    simp only [if_true, key, Bool.false_eq_true, not_false_eq_true]
    by_cases h2 : (⟨B, ldb, N, M⟩ : View).size = 0 ∨ (if r then (⟨A, lda, M, M⟩ : View) else ⟨A, lda, N, N⟩).size = 0
    · rw [if_pos h2]; rfl
    · rw [if_neg h2]; rfl
  · unfold cblasTrsm cblasTriArgs solveTrm
    simp only [if_true, key, Bool.false_eq_true, not_false_eq_true]
    by_cases h2 : (⟨B, ldb, N, M⟩ : View).size = 0 ∨ (if r then (⟨A, lda, M, M⟩ : View) else ⟨A, lda, N, N⟩).size = 0
    · rw [if_pos h2]; rfl
    · rw [if_neg h2]; rfl

example := C70_cblas_trxm_row_false (α := ℚ) id ⟨8, 2, false, false⟩ 9 (some exCache) (tot fun p => (p : ℚ)) false true false .noTrans (M := 2) (N := 3) (by decide) 1 0 4 100 4

/-- C70 is false for `cblas_dtrmm` with `CblasRowMajor` also for square matrices: without transposition it multiplies with the transpose.  `A` is `[1 1; 0 1]`,
`B` the identity (`CblasLeft`, `CblasUpper`): element `(0, 1)` of the result should be 1 and element `(1, 0)` should be 0. -/
theorem C70_cblas_trmm_square_false : ∃ m m' : Mem ℤ, Holds m ⟨0, 2, 2, 2⟩ (fun j i => if i ≤ j then 1 else 0) ∧ Holds m ⟨10, 2, 2, 2⟩ (fun j i => if i = j then 1 else 0) ∧
    cblasTrmm id ⟨8, 4, false, false⟩ 50 (some exCache) m true false true .noTrans false 2 2 1 0 2 10 2 = .ok m' ∧ m' (10 + 1) = some 0 ∧ m' (10 + 2) = some 1 := by
  refine ⟨tot fun p => if p = 2 ∨ p = 11 ∨ p = 12 then 0 else 1, _, ?_, ?_, rfl, by decide +kernel, by decide +kernel⟩
  · intro i j hi hj
    have hi : i < 2 := hi
    have hj : j < 2 := hj
    interval_cases i <;> interval_cases j <;> rfl
  · intro i j hi hj
    have hi : i < 2 := hi
    have hj : j < 2 := hj
    interval_cases i <;> interval_cases j <;> rfl

/-- C70 is false for `cblas_dgemm` with `CblasRowMajor`: the result is transposed.  `A` is `[0 1; 0 0]`, `B` the identity, `beta = 0`, nothing transposed: element
`(0, 1)` of the result should be 1, and element `(1, 0)` should be 0. -/
theorem C70_cblas_gemm_row_false : ∃ m m' : Mem ℤ, Holds m ⟨0, 2, 2, 2⟩ (fun j i => if i = 0 ∧ j = 1 then 1 else 0) ∧
    Holds m ⟨10, 2, 2, 2⟩ (fun j i => if i = j then 1 else 0) ∧
    cblasGemm id (some exCache) m true .noTrans .noTrans 2 2 2 1 0 2 10 2 0 20 2 = .ok m' ∧ m' (20 + 1) = some 0 ∧ m' (20 + 2) = some 1 := by
  refine ⟨tot fun p => if p = 1 ∨ p = 10 ∨ p = 13 then 1 else 0, _, ?_, ?_, rfl, by decide +kernel, by decide +kernel⟩
  · intro i j hi hj
    have hi : i < 2 := hi
    have hj : j < 2 := hj
    interval_cases i <;> interval_cases j <;> rfl
  · intro i j hi hj
    have hi : i < 2 := hi
    have hj : j < 2 := hj
    interval_cases i <;> interval_cases j <;> rfl

/-- C70 is false for `dsyr2k` when the leading dimensions of `A` and `B` differ: elements of `B` are read with the leading dimension of `A`.  For `n = 1`, `k = 2`,
`A = B = [1 1]` with `lda = 1`, `ldb = 2` the update is 4; with 7 in the element between those of `B` the code computes 16. -/
theorem C70_syr2k_ldb_false : ∃ m m' : Mem ℤ, Holds m ⟨0, 1, 1, 2⟩ (fun _ _ => 1) ∧ Holds m ⟨10, 2, 1, 2⟩ (fun _ _ => 1) ∧ Holds m ⟨20, 1, 1, 1⟩ (fun _ _ => 0) ∧
    compatSyr2k id ⟨8, 4, true, false⟩ 4 50 (some exCache) m 'L' 'N' 1 2 1 0 1 10 2 1 20 1 = .ok m' ∧ m' 20 ≠ some (0 + 1 * ∑ _l ∈ range 2, (1 * 1 + 1 * 1)) := by
  refine ⟨tot fun p => if p = 20 then 0 else if p = 11 then 7 else 1, _, ?_, ?_, ?_, rfl, by decide +kernel⟩
  all_goals
    intro i j hi hj
    have hi : i < 1 := hi
    have hj : j < 2 := lt_of_lt_of_le hj (by decide)
    interval_cases i <;> interval_cases j <;> first | rfl | (exfalso; revert hj; decide)

end Armas.Props
