import Verif.CgSolve2

/-!
# Properties C72 to C75: conjugate gradient solvers for sparse matrices
-/

namespace Armas.Props

open Armas Finset Matrix

/-! ## What the solvers are measured by -/

section
variable {α : Type} [Field α] [LinearOrder α]

/-- `b - A x` for a matrix with `c` columns. -/
def residual (c : Nat) (a : Nat → Nat → α) (b x : Nat → α) (i : Nat) : α := b i - ∑ j ∈ range c, a i j * x j

/-- The square of the 2-norm of a vector of `n` elements. -/
def sqNorm (n : Nat) (v : Nat → α) : α := ∑ i ∈ range n, v i * v i

/-- `xᵀ A x`. -/
def quadForm (n : Nat) (a : Nat → Nat → α) (x : Nat → α) : α := ∑ i ∈ range n, x i * ∑ j ∈ range n, a i j * x j

/-- `xᵀ A x` is positive for every vector that is not zero. -/
def PosDef (n : Nat) (a : Nat → Nat → α) : Prop := ∀ v : Nat → α, (∃ i, i < n ∧ v i ≠ 0) → 0 < quadForm n a v

/-- `xᵀ A x - 2 bᵀ x`; for positive definite `A` its only minimum is at `A x = b`. -/
def objective (n : Nat) (a : Nat → Nat → α) (b x : Nat → α) : α := quadForm n a x - 2 * ∑ i ∈ range n, b i * x i

/-- Limit for the square of the residual norm: `stop²` if an absolute value is given, otherwise relative to the starting value `d`. -/
def stopLimit (cf : IterConf α) (d : α) : α :=
  if 0 < cf.stop then cf.stop ^ 2 else (if 0 < cf.smult then cf.smult else cf.eps) ^ 2 * d

/-- Limit of the number of iterations. -/
def iterLimit (cf : IterConf α) (dflt : Nat) : Nat := if 0 < cf.maxiter then cf.maxiter.toNat else dflt

end

section
variable {α : Type} {n : Nat}

private def fx (n : Nat) (x : Nat → α) : Fin n → α := fun i => x i

private theorem vec_fx [Zero α] {m : Mem α} {X : View} {x : Nat → α} (hc : X.cols = 1) (hr : X.rows = n) (h : HoldsV m X x) :
    Vec m X (fx n x) :=
  ⟨hc, hr, h.congr fun i hi => by rw [View.colSize hc, hr] at hi; rw [fv_lt _ hi]; rfl⟩

private theorem holds_fx [Zero α] {m : Mem α} {X : View} {x : Nat → α} (hs : X.size = n) (h : HoldsV m X x) :
    HoldsV m X (fv (fx n x)) := h.congr fun i hi => by rw [hs] at hi; rw [fv_lt _ hi]; rfl

variable [Field α]

private theorem mul_fx {r c : Nat} (a : Nat → Nat → α) (x : Nat → α) (i : Fin r) :
    (fmat r c a *ᵥ fx c x) i = ∑ j ∈ range c, a i j * x j := by
  rw [mulVec_fmat]
  exact Finset.sum_congr rfl fun j hj => by rw [fv_lt _ (Finset.mem_range.mp hj)]; rfl

private theorem mulT_fx {r c : Nat} (a : Nat → Nat → α) (y : Nat → α) (i : Fin c) :
    ((fmat r c a)ᵀ *ᵥ fx r y) i = ∑ j ∈ range r, a j i * y j := mul_fx (r := c) (c := r) (fun i j => a j i) y i

private theorem fx_fv (v : Fin n → α) : fx n (fv v) = v := funext fun i => fv_fin v i

private theorem fx_congr {u v : Nat → α} (h : ∀ i, i < n → u i = v i) : fx n u = fx n v := funext fun i => h i i.2

private theorem dot_fx (u v : Nat → α) : fx n u ⬝ᵥ fx n v = ∑ i ∈ range n, u i * v i := by
  rw [Finset.sum_range]; rfl

variable [LinearOrder α]

private theorem res_fx {r c : Nat} (a : Nat → Nat → α) (b x : Nat → α) :
    fx r b - fmat r c a *ᵥ fx c x = fx r (residual c a b x) := by
  funext i
  rw [Pi.sub_apply, mul_fx]; rfl

private theorem quad_fx (a : Nat → Nat → α) (x : Nat → α) : fx n x ⬝ᵥ fmat n n a *ᵥ fx n x = quadForm n a x := by
  rw [show fmat n n a *ᵥ fx n x = fx n (fun i => ∑ j ∈ range n, a i j * x j) from funext fun i => mul_fx a x i, dot_fx]; rfl

private theorem obj_fx (a : Nat → Nat → α) (b x : Nat → α) : energy (fmat n n a) (fx n b) (fx n x) = objective n a b x := by
  unfold energy; rw [quad_fx, dot_fx]; rfl

private theorem sq_fx (v : Nat → α) : fx n v ⬝ᵥ fx n v = sqNorm n v := dot_fx v v

private theorem ne_fx {v : Nat → α} : fx n v ≠ 0 ↔ ∃ i, i < n ∧ v i ≠ 0 := by
  constructor
  · intro h
    by_contra hc
    refine h (funext fun i => ?_)
    by_contra hi
    exact hc ⟨i, i.2, hi⟩
  · rintro ⟨i, hi, h⟩ hc
    exact h (congrFun hc ⟨i, hi⟩)

private theorem pos_fx {a : Nat → Nat → α} (h : PosDef n a) {v : Fin n → α} (hv : v ≠ 0) : 0 < v ⬝ᵥ fmat n n a *ᵥ v := by
  rw [← fx_fv v] at hv ⊢
  rw [quad_fx]; exact h _ (ne_fx.mp hv)

private theorem spd_fx {a : Nat → Nat → α} (h : PosDef n a) (hs : ∀ i j, a i j = a j i) : Spd (fmat n n a) :=
  ⟨Matrix.ext fun i j => hs j i, fun _ hv => pos_fx h hv⟩

private theorem symm_comm (up : Bool) (a : Nat → Nat → α) (i j : Nat) : symm up a i j = symm up a j i := by
  unfold symm
  rcases Nat.lt_trichotomy i j with h | h | h
  · cases up <;> simp [h, le_of_lt h, not_le.mpr h]
  · subst h; rfl
  · cases up <;> simp [h, le_of_lt h, not_le.mpr h]

variable [IsStrictOrderedRing α]

private theorem stop_eq (cf : IterConf α) (d : α) : cf.rstop d = stopLimit cf d := by
  unfold IterConf.rstop stopLimit
  dsimp only
  by_cases h : 0 < cf.stop
  · rw [if_pos h, if_neg (ne_of_gt h), if_pos h, sq]
  · rw [if_neg h, if_pos rfl, if_neg h, sq, mul_assoc]

/-- C72 for a sparse matrix in exact arithmetic.  `S` is the symmetric matrix given by the triangle of `A` that the flags select; it is
positive definite.  `x` is a column, `b` any vector that may overlap `x`; the workspace of `3n` elements overlaps neither.  From a start that
is not the solution `armassp_cgrad_w` returns; the reported residual is that of the returned `x`; return value 0 means that it is below the
limit, `-ARMAS_ECONVERGE` that all iterations were made and it is not, which is possible only for a limit of less than `n` iterations.
`xᵀ S x - 2 bᵀ x` gets smaller in all cases; the workspace position is restored; only `x` and the workspace change. -/
theorem C72_cgrad_partial {A : Sp α} {N : Nat} {e : Nat → Ent α} {upper lower trans : Bool} (T : Triangular A n N e true) (hn : 0 < n)
    {s : Nat → Nat → α} (hs : s = symm (upper && !lower) (dense N e)) (hpd : PosDef n s) (env : Env) {fuel : Nat} (hf : n < fuel)
    (sq : α → α) {cf : IterConf α} (heps : 0 < cf.eps) {X B : View} {m : Mem α} {x b : Nat → α} (hXc : X.cols = 1) (hXr : X.rows = n)
    (hX : HoldsV m X x) (hBv : B.isVec) (hBs : B.size = n) (hB : HoldsV m B b) {W : WBuf} {wb o : Nat} (hW : WorkOk m W wb o (3 * n))
    (dX : Disjoint X.foot (rng (wb + o) (3 * n))) (dB : Disjoint B.foot (rng (wb + o) (3 * n)))
    (h0 : ∃ i, i < n ∧ residual n s b x i ≠ 0) {lim : α} (hlim : lim = stopLimit cf (sqNorm n (residual n s b x))) :
    Runs (cgradW env fuel sq cf X A B upper lower trans wb (some W) m) (fun r => r.work = some W ∧
      Frame (X.foot ∪ rng (wb + o) (3 * n)) m r.mem ∧ ∃ (x' : Nat → α) (k : Nat), HoldsV r.mem X x' ∧
      r.out = some ⟨k, sq (sqNorm n (residual n s b x'))⟩ ∧ objective n s b x' < objective n s b x ∧
      ((r.code = 0 ∧ k < iterLimit cf (4 * n) ∧ sqNorm n (residual n s b x') < lim) ∨
       (r.code = -9 ∧ k = iterLimit cf (4 * n) ∧ k < n ∧ lim ≤ sqNorm n (residual n s b x')))) := by
  subst hs hlim
  have hS := spd_fx hpd (symm_comm _ _)
  refine (cgradW_spec T hn rfl hS env hf sq heps (vec_fx hXc hXr hX) hBv hBs (holds_fx hBs hB) hW dX dB
    (by rw [res_fx]; exact ne_fx.mpr h0)).mono ?_
  rintro r ⟨h1, h2, x', it, d, h3, h4, h5, h6⟩
  refine ⟨h1, h2, fv x', it, h3.holds, ?_⟩
  have hmeas := h6.meas
  have hen := h6.energy
  have hfin := h6.fin
  rw [← fx_fv x', obj_fx, obj_fx] at hen
  rw [← fx_fv x', res_fx, sq_fx] at hmeas
  rw [res_fx, sq_fx, stop_eq] at hfin
  subst hmeas
  refine ⟨h4, hen, ?_⟩
  change _ = if iterLimit cf (4 * n) ≤ it then _ else _ at h5
  change (it < iterLimit cf (4 * n) ∧ _) ∨ (it = iterLimit cf (4 * n) ∧ _) at hfin
  rcases hfin with ⟨c1, c2⟩ | ⟨c1, c2, c3⟩
  · left; rw [if_neg (by omega)] at h5; exact ⟨h5, c1, c2⟩
  · right; rw [if_pos (by omega)] at h5; exact ⟨h5, c1, lt_of_eq_of_lt c1 c3, c2⟩

/-- C72, the wrapper `armassp_cgrad`: it asks for the size of the workspace, allocates it and solves; no cell other than those of `x` and of
the allocation changes. -/
theorem C72_alloc_partial {A : Sp α} {N : Nat} {e : Nat → Ent α} {upper lower trans : Bool} (T : Triangular A n N e true) (hn : 0 < n)
    {s : Nat → Nat → α} (hs : s = symm (upper && !lower) (dense N e)) (hpd : PosDef n s) (env : Env) {fuel : Nat} (hf : n < fuel)
    (sq : α → α) {cf : IterConf α} (heps : 0 < cf.eps) {X B : View} {m : Mem α} {x b : Nat → α} (hXc : X.cols = 1) (hXr : X.rows = n)
    (hX : HoldsV m X x) (hBv : B.isVec) (hBs : B.size = n) (hB : HoldsV m B b) {wb : Nat} (hsz : 24 * n < SIZE_T)
    (dX : Disjoint X.foot (rng wb (3 * n))) (dB : Disjoint B.foot (rng wb (3 * n)))
    (h0 : ∃ i, i < n ∧ residual n s b x i ≠ 0) {lim : α} (hlim : lim = stopLimit cf (sqNorm n (residual n s b x))) :
    Runs (cgrad env fuel sq cf X A B upper lower trans wb m) (fun r => Frame (X.foot ∪ rng wb (3 * n)) m r.mem ∧
      ∃ (x' : Nat → α) (k : Nat), HoldsV r.mem X x' ∧
      r.out = some ⟨k, sq (sqNorm n (residual n s b x'))⟩ ∧ objective n s b x' < objective n s b x ∧
      ((r.code = 0 ∧ k < iterLimit cf (4 * n) ∧ sqNorm n (residual n s b x') < lim) ∨
       (r.code = -9 ∧ k = iterLimit cf (4 * n) ∧ k < n ∧ lim ≤ sqNorm n (residual n s b x')))) := by
  have hal : ∀ {V : View} {g : Nat → α}, V.isVec → Disjoint V.foot (rng wb (3 * n)) → HoldsV m V g →
      HoldsV (allocCells wb (3 * n) m) V g := by
    intro V g hv hd h
    refine h.frame hv (S := rng wb (3 * n)) (fun p hp => ?_) hd
    unfold allocCells; rw [if_neg]; exact fun hc => hp hc
  have hXv : X.isVec := by unfold View.isVec; omega
  have hXs : X.size = n := by rw [View.colSize hXc, hXr]
  unfold cgrad
  rw [if_neg (not_not.mpr ⟨hXv, hBv, by rw [hXs, hBs], by rw [T.rows, T.cols], by rw [hXs, T.rows]⟩),
    if_neg (by rw [T.rows, T.cols]; omega)]
  have hq : cgradW env fuel sq cf X A B upper lower trans wb (some ⟨0, 0⟩) m = .ok ⟨0, some ⟨A.rows * 3 * 8, 0⟩, none, m⟩ := rfl
  rw [hq, Res.ok_bind]
  dsimp only
  rw [if_neg (by decide), T.rows, show n * 3 * 8 / 8 = 3 * n by omega]
  have key := C72_cgrad_partial T hn hs hpd env hf sq heps hXc hXr (hal hXv dX hX) hBv hBs (hal hBv dB hB) (W := walloc (n * 3 * 8))
    (wb := wb) (o := 0) (upper := upper) (lower := lower) (trans := trans)
    ⟨by show n * 3 * 8 < _; omega, rfl, by show _ ≤ n * 3 * 8; omega, fun q hq => ⟨0, if_pos hq⟩⟩ dX dB h0 hlim
  refine Runs.bind key ?_
  rintro r ⟨-, h2, x', k, h3, h4⟩
  refine Runs.pure ⟨fun p hp => ?_, x', k, ?_, h4⟩
  · have hp' : ¬ (wb ≤ p ∧ p < wb + 3 * n) := fun hc => hp (Or.inr hc)
    dsimp only
    unfold freeCells
    rw [if_neg hp', h2 p hp]
    unfold allocCells
    rw [if_neg hp']
  · refine h3.frame hXv (S := rng wb (3 * n)) (fun p hp => ?_) dX
    dsimp only
    unfold freeCells; rw [if_neg]; exact fun hc => hp hc

/-- C72, operands that are rejected without a change: with the workspace query out of the way, `x` or `b` is no vector or has the wrong size,
or `A` is not square; the workspace is missing or has less than `24 n` free bytes. -/
theorem C72_reject {A : Sp α} (env : Env) (fuel : Nat) (sq : α → α) (cf : IterConf α) (X B : View) (upper lower trans : Bool) (wb : Nat)
    (W : WBuf) (m : Mem α) (hr : A.rows ≠ 0) (hc : A.cols ≠ 0) (hW : W.bytes ≠ 0) :
    (¬ (X.isVec ∧ B.isVec ∧ X.size = A.rows ∧ B.size = A.rows ∧ A.rows = A.cols) →
      cgradW env fuel sq cf X A B upper lower trans wb (some W) m = .ok ⟨-3, some W, none, m⟩ ∧
      cgradW env fuel sq cf X A B upper lower trans wb none m = .ok ⟨-3, none, none, m⟩ ∧
      cgrad env fuel sq cf X A B upper lower trans wb m = .ok ⟨-3, none, none, m⟩) ∧
    (X.isVec ∧ B.isVec ∧ X.size = A.rows ∧ B.size = A.rows ∧ A.rows = A.cols →
      cgradW env fuel sq cf X A B upper lower trans wb none m = .ok ⟨-5, none, none, m⟩ ∧
      (wbytes W < 24 * A.rows → cgradW env fuel sq cf X A B upper lower trans wb (some W) m = .ok ⟨-5, some W, none, m⟩)) := by
  have e : cgCheck X A B ↔ (X.isVec ∧ B.isVec ∧ X.size = A.rows ∧ B.size = A.rows ∧ A.rows = A.cols) := by
    unfold cgCheck
    constructor
    · rintro ⟨a, b, c, d, f⟩; exact ⟨a, b, f, by omega, d⟩
    · rintro ⟨a, b, c, d, f⟩; exact ⟨a, b, by omega, f, c⟩
  rw [← e]
  unfold cgrad cgradW
  dsimp only
  simp only [hr, hc, hW, or_self, if_false]
  refine ⟨fun h => ?_, fun h => ⟨?_, fun hw => ?_⟩⟩
  · simp only [h, not_false_eq_true, if_true]; exact ⟨rfl, rfl, rfl⟩
  · simp only [h, not_true_eq_false, if_false]; rfl
  · simp only [h, not_true_eq_false, if_false]; rw [if_pos (by omega)]; rfl

/-! ## With preconditioner -/

/-- The preconditioner computes `z = M r` for a column `r` of `n` elements and changes nothing else. -/
def Preconditions (prec : Mem α → View → View → Res (Int × Mem α)) (n : Nat) (mm : Nat → Nat → α) : Prop :=
  ∀ (m : Mem α) (Z R : View) (z r : Nat → α), Z.cols = 1 → Z.rows = n → R.cols = 1 → R.rows = n → HoldsV m Z z → HoldsV m R r →
    Disjoint Z.foot R.foot → Runs (prec m Z R) (fun q => HoldsV q.2 Z (fun i => ∑ j ∈ range n, mm i j * r j) ∧ Frame Z.foot m q.2)

private theorem prec_fx {prec : Mem α → View → View → Res (Int × Mem α)} {mm : Nat → Nat → α} (h : Preconditions prec n mm) :
    PrecBy prec (fmat n n mm) := by
  intro m Z R z r hz hr hd
  refine (h m Z R (fv z) (fv r) hz.cols hz.rows hr.cols hr.rows hz.holds hr.holds hd).mono ?_
  rintro q ⟨h1, h2⟩
  exact ⟨hz.mk' h1 fun i => (mulVec_fmat mm r i).symm, h2⟩

/-- C73 for a sparse matrix in exact arithmetic, with a symmetric positive definite preconditioner `M`.  `armassp_pcgrad_w` returns 0 from
every start that is not the solution.  What it compares with the limit and reports is `rᵀ M r` of the residual `r` of the returned `x`, not
the norm of `r` (`C73_measure_false`), and 0 is returned also if the limit is not reached (`C73_code_false`), which is possible only for an
iteration limit of less than `n`.  `xᵀ S x - 2 bᵀ x` gets smaller; the workspace position is restored; only `x` and the workspace change. -/
theorem C73_pcgrad_partial {A : Sp α} {N : Nat} {e : Nat → Ent α} {upper lower trans : Bool} (T : Triangular A n N e true) (hn : 0 < n)
    {s : Nat → Nat → α} (hs : s = symm (upper && !lower) (dense N e)) (hpd : PosDef n s)
    {prec : Mem α → View → View → Res (Int × Mem α)} {mm : Nat → Nat → α} (hp : Preconditions prec n mm) (hmd : PosDef n mm)
    (hms : ∀ i j, mm i j = mm j i) (env : Env) {fuel : Nat} (hf : n < fuel)
    (sq : α → α) {cf : IterConf α} (heps : 0 < cf.eps) {X B : View} {m : Mem α} {x b : Nat → α} (hXc : X.cols = 1) (hXr : X.rows = n)
    (hX : HoldsV m X x) (hBv : B.isVec) (hBs : B.size = n) (hB : HoldsV m B b) {W : WBuf} {wb o : Nat} (hW : WorkOk m W wb o (4 * n))
    (dX : Disjoint X.foot (rng (wb + o) (4 * n))) (dB : Disjoint B.foot (rng (wb + o) (4 * n)))
    (h0 : ∃ i, i < n ∧ residual n s b x i ≠ 0) {lim : α} (hlim : lim = stopLimit cf (sqNorm n (residual n s b x))) :
    Runs (pcgradW env fuel sq cf prec X A B upper lower trans wb W m) (fun r => r.work = some W ∧ r.code = 0 ∧
      Frame (X.foot ∪ rng (wb + o) (4 * n)) m r.mem ∧ ∃ (x' : Nat → α) (k : Nat), HoldsV r.mem X x' ∧
      r.out = some ⟨k, sq (quadForm n mm (residual n s b x'))⟩ ∧ objective n s b x' < objective n s b x ∧
      ((k < iterLimit cf (2 * n) ∧ quadForm n mm (residual n s b x') < lim) ∨
       (k = iterLimit cf (2 * n) ∧ k < n ∧ lim ≤ quadForm n mm (residual n s b x')))) := by
  subst hs hlim
  have hS := spd_fx hpd (symm_comm _ _)
  refine (pcgradW_spec T hn rfl hS (spd_fx hmd hms) (prec_fx hp) env hf sq heps (vec_fx hXc hXr hX) hBv hBs (holds_fx hBs hB) hW dX dB
    (by rw [res_fx]; exact ne_fx.mpr h0)).mono ?_
  rintro r ⟨h1, h2, x', it, d, h3, h4, h5, h6⟩
  refine ⟨h1, h5, h2, fv x', it, h3.holds, ?_⟩
  have hmeas := h6.meas
  have hen := h6.energy
  have hfin := h6.fin
  rw [← fx_fv x', obj_fx, obj_fx] at hen
  rw [← fx_fv x', res_fx, quad_fx] at hmeas
  rw [res_fx, sq_fx, stop_eq] at hfin
  subst hmeas
  refine ⟨h4, hen, ?_⟩
  change (it < iterLimit cf (2 * n) ∧ _) ∨ (it = iterLimit cf (2 * n) ∧ _) at hfin
  rcases hfin with ⟨c1, c2⟩ | ⟨c1, c2, c3⟩
  · left; exact ⟨c1, c2⟩
  · right; exact ⟨c1, lt_of_eq_of_lt c1 c3, c2⟩

/-! ## Normal equations -/

/-- The limit of `armassp_cgne_w`, where also negative values are squared and used. -/
def stopLimitNe (cf : IterConf α) (d : α) : α :=
  if cf.stop ≠ 0 then cf.stop ^ 2 else (if cf.smult ≠ 0 then cf.smult else cf.eps) ^ 2 * d

private theorem stopNe_eq (cf : IterConf α) (d : α) : cf.rstopNe d = stopLimitNe cf d := by
  unfold IterConf.rstopNe stopLimitNe
  dsimp only
  by_cases h : cf.stop ≠ 0
  · rw [if_pos h, if_neg h, if_pos h, pow_two]
  · rw [if_neg h, if_pos rfl, if_neg h, pow_two, mul_assoc]

private theorem gram_spd {r c : Nat} {D : Matrix (Fin r) (Fin c) α} (h : ∀ v, v ≠ 0 → D *ᵥ v ≠ 0) : Spd (Dᵀ * D) := by
  refine ⟨by unfold Matrix.IsSymm; rw [transpose_mul, transpose_transpose], fun v hv => ?_⟩
  have : v ⬝ᵥ (Dᵀ * D) *ᵥ v = (D *ᵥ v) ⬝ᵥ (D *ᵥ v) := by
    rw [← mulVec_mulVec, dotProduct_mulVec _ Dᵀ, ← mulVec_transpose, transpose_transpose]
  rw [this]; exact dot_self_pos (h v hv)

/-- `Aᵀ y` for a matrix with `r` rows. -/
def mulT (r : Nat) (a : Nat → Nat → α) (y : Nat → α) (j : Nat) : α := ∑ i ∈ range r, a i j * y i

private theorem mulT_eq {r c : Nat} (a : Nat → Nat → α) (y : Nat → α) : (fmat r c a)ᵀ *ᵥ fx r y = fx c (mulT r a y) :=
  funext fun i => mulT_fx a y i

/-- C74 in exact arithmetic for a matrix of full row rank; compressed rows only for square matrices (`C40_mvmult_false`).  From a start that is
not a solution `armassp_cgne_w` returns; the reported residual is that of the returned `x'`; 0 means that it is below the limit,
`-ARMAS_ECONVERGE` that all iterations were made and it is not, which is possible only for a limit of less than `rows(A)` iterations.  `x' - x`
is a combination of rows of `A`, and `x'` is nearer than `x` to every solution of `A x = b`. -/
theorem C74_cgne_partial {A : Sp α} {N : Nat} {e : Nat → Ent α} (hA : SpIs A N e) (hk : A.kind ≠ .coo)
    (hsq : A.kind = .csr → A.rows = A.cols) (hr : 0 < A.rows) (hc : 0 < A.cols) {a : Nat → Nat → α} (ha : a = dense N e)
    (hrank : ∀ y : Nat → α, (∃ i, i < A.rows ∧ y i ≠ 0) → ∃ j, j < A.cols ∧ mulT A.rows a y j ≠ 0) (env : Env) {fuel : Nat}
    (hf : A.rows < fuel) (hf' : A.cols < fuel) (sq : α → α) {cf : IterConf α} (heps : cf.eps ≠ 0) {X B : View} {m : Mem α} {x b : Nat → α}
    (hXc : X.cols = 1) (hXr : X.rows = A.cols) (hX : HoldsV m X x) (hBv : B.isVec) (hBs : B.size = A.rows) (hB : HoldsV m B b) {W : WBuf}
    {wb o : Nat} (hW : WorkOk m W wb o (2 * A.rows + A.cols)) (dX : Disjoint X.foot (rng (wb + o) (2 * A.rows + A.cols)))
    (dB : Disjoint B.foot (rng (wb + o) (2 * A.rows + A.cols))) (h0 : ∃ i, i < A.rows ∧ residual A.cols a b x i ≠ 0) {lim : α}
    (hlim : lim = stopLimitNe cf (sqNorm A.rows (residual A.cols a b x))) :
    Runs (cgneW env fuel sq cf X A B wb W m) (fun r => r.work = some W ∧
      Frame (X.foot ∪ rng (wb + o) (2 * A.rows + A.cols)) m r.mem ∧ ∃ (x' : Nat → α) (k : Nat), HoldsV r.mem X x' ∧
      r.out = some ⟨k, sq (sqNorm A.rows (residual A.cols a b x'))⟩ ∧
      (∃ y : Nat → α, ∀ j, j < A.cols → x' j = x j + mulT A.rows a y j) ∧
      (∀ z : Nat → α, (∀ i, i < A.rows → residual A.cols a b z i = 0) →
        sqNorm A.cols (fun j => z j - x' j) < sqNorm A.cols (fun j => z j - x j)) ∧
      ((r.code = 0 ∧ k < iterLimit cf (2 * A.rows) ∧ sqNorm A.rows (residual A.cols a b x') < lim) ∨
       (r.code = -9 ∧ k = iterLimit cf (2 * A.rows) ∧ k < A.rows ∧ lim ≤ sqNorm A.rows (residual A.cols a b x')))) := by
  subst ha hlim
  have hS : Spd (fmat A.rows A.cols (dense N e) * (fmat A.rows A.cols (dense N e))ᵀ) := by
    have := gram_spd (D := (fmat A.rows A.cols (dense N e))ᵀ) (fun v hv => by
      rw [← fx_fv v] at hv ⊢
      rw [mulT_eq]; exact ne_fx.mpr (hrank _ (ne_fx.mp hv)))
    rwa [transpose_transpose] at this
  refine (cgneW_spec ⟨hA, hk, hsq⟩ hr hc rfl hS env hf hf' sq heps (vec_fx hXc hXr hX) hBv hBs (holds_fx hBs hB) hW dX dB
    (by rw [res_fx]; exact ne_fx.mpr h0)).mono ?_
  rintro r ⟨h1, h2, y, it, d, h3, h4, h5, h6⟩
  have hmeas := h6.meas
  have hen := h6.energy
  have hfin := h6.fin
  generalize hD : fmat A.rows A.cols (dense N e) = D at *
  have hx' : ∀ j, j < A.cols → fv (fx A.cols x + Dᵀ *ᵥ y) j = x j + mulT A.rows (dense N e) (fv y) j := by
    intro j hj
    rw [fv_lt _ hj, Pi.add_apply, ← hD]
    conv_lhs => rw [← fx_fv y]
    rw [mulT_eq]; rfl
  have hres : fx A.rows b - D *ᵥ fx A.cols x - (D * Dᵀ) *ᵥ y =
      fx A.rows (residual A.cols (dense N e) b (fv (fx A.cols x + Dᵀ *ᵥ y))) := by
    rw [← res_fx (r := A.rows), fx_fv, mulVec_add, mulVec_mulVec, hD]; abel
  refine ⟨h1, h2, fv (fx A.cols x + Dᵀ *ᵥ y), it, h3.holds, ?_⟩
  rw [hres, sq_fx] at hmeas
  rw [← hD, res_fx, sq_fx, stopNe_eq] at hfin
  subst hmeas
  refine ⟨h4, ⟨fv y, hx'⟩, ?_, ?_⟩
  · intro z hz
    have hz' : D *ᵥ fx A.cols z = fx A.rows b := by
      have := res_fx (r := A.rows) (c := A.cols) (dense N e) b z
      rw [hD] at this
      have h0' : fx A.rows (residual A.cols (dense N e) b z) = 0 := funext fun i => hz i i.2
      rw [h0'] at this
      exact (sub_eq_zero.mp this).symm
    have e1 : ∀ u : Nat → α, sqNorm A.cols (fun j => z j - u j) = (fx A.cols z - fx A.cols u) ⬝ᵥ (fx A.cols z - fx A.cols u) := by
      intro u; rw [← sq_fx]; rfl
    rw [e1, e1, fx_fv]
    have key : ∀ (w : Fin A.cols → α), (w - Dᵀ *ᵥ y) ⬝ᵥ (w - Dᵀ *ᵥ y) = w ⬝ᵥ w + energy (D * Dᵀ) (D *ᵥ w) y := by
      intro w
      have k1 : (Dᵀ *ᵥ y) ⬝ᵥ w = (D *ᵥ w) ⬝ᵥ y := by
        rw [dotProduct_comm, dotProduct_mulVec, ← mulVec_transpose, transpose_transpose]
      have k2 : y ⬝ᵥ (D * Dᵀ) *ᵥ y = (Dᵀ *ᵥ y) ⬝ᵥ (Dᵀ *ᵥ y) := by
        rw [← mulVec_mulVec, dotProduct_mulVec _ D, ← mulVec_transpose]
      unfold energy
      rw [k2, sub_dotProduct, dotProduct_sub, dotProduct_sub, dotProduct_comm w (Dᵀ *ᵥ y), k1]
      ring
    have e2 : fx A.cols z - (fx A.cols x + Dᵀ *ᵥ y) = (fx A.cols z - fx A.cols x) - Dᵀ *ᵥ y := by abel
    rw [e2, key, mulVec_sub, hz']
    have e3 : energy (D * Dᵀ) (fx A.rows b - D *ᵥ fx A.cols x) 0 = 0 := by unfold energy; simp
    rw [e3] at hen
    linarith
  · change _ = if iterLimit cf (2 * A.rows) ≤ it then _ else _ at h5
    change (it < iterLimit cf (2 * A.rows) ∧ _) ∨ (it = iterLimit cf (2 * A.rows) ∧ _) at hfin
    rcases hfin with ⟨c1, c2⟩ | ⟨c1, c2, c3⟩
    · left; rw [if_neg (by omega)] at h5; exact ⟨h5, c1, c2⟩
    · right; rw [if_pos (by omega)] at h5; exact ⟨h5, c1, lt_of_eq_of_lt c1 c3, c2⟩

/-- C75 in exact arithmetic for a matrix of full column rank; compressed rows only for square matrices (`C40_mvmult_false`); with a workspace of
`2 rows(A) + 2 cols(A)` elements, more than `armassp_cgnr_w` asks for (`C75_alloc_false`).  From a start that is not the least squares
solution the function returns.  What it compares with the limit and reports is the norm of `Aᵀ r`, `r` the residual of the returned `x'`
(`C75_residual_false`); 0 means that it is below the limit, `-ARMAS_ECONVERGE` that all iterations were made and it is not, which is possible
only for a limit of less than `cols(A)` iterations.  The norm of the residual gets smaller. -/
theorem C75_cgnr_partial {A : Sp α} {N : Nat} {e : Nat → Ent α} (hA : SpIs A N e) (hk : A.kind ≠ .coo)
    (hsq : A.kind = .csr → A.rows = A.cols) (hr : 0 < A.rows) (hc : 0 < A.cols) {a : Nat → Nat → α} (ha : a = dense N e)
    (hrank : ∀ y : Nat → α, (∃ i, i < A.cols ∧ y i ≠ 0) → ∃ i, i < A.rows ∧ ∑ j ∈ range A.cols, a i j * y j ≠ 0) (env : Env) {fuel : Nat}
    (hf : A.rows < fuel) (hf' : A.cols < fuel) (sq : α → α) {cf : IterConf α} (heps : 0 < cf.eps) {X B : View} {m : Mem α} {x b : Nat → α}
    (hXc : X.cols = 1) (hXr : X.rows = A.cols) (hX : HoldsV m X x) (hBv : B.isVec) (hBs : B.size = A.rows) (hB : HoldsV m B b) {W : WBuf}
    {wb o : Nat} (hW : WorkOk m W wb o (2 * A.rows + 2 * A.cols)) (dX : Disjoint X.foot (rng (wb + o) (2 * A.rows + 2 * A.cols)))
    (dB : Disjoint B.foot (rng (wb + o) (2 * A.rows + 2 * A.cols)))
    (h0 : ∃ j, j < A.cols ∧ mulT A.rows a (residual A.cols a b x) j ≠ 0) {lim : α}
    (hlim : lim = stopLimit cf (sqNorm A.rows (residual A.cols a b x))) :
    Runs (cgnrW env fuel sq cf X A B wb W m) (fun r => r.work = some W ∧
      Frame (X.foot ∪ rng (wb + o) (2 * A.rows + 2 * A.cols)) m r.mem ∧ ∃ (x' : Nat → α) (k : Nat), HoldsV r.mem X x' ∧
      r.out = some ⟨k, sq (sqNorm A.cols (mulT A.rows a (residual A.cols a b x')))⟩ ∧
      sqNorm A.rows (residual A.cols a b x') < sqNorm A.rows (residual A.cols a b x) ∧
      ((r.code = 0 ∧ k < iterLimit cf (2 * A.rows) ∧ sqNorm A.cols (mulT A.rows a (residual A.cols a b x')) < lim) ∨
       (r.code = -9 ∧ k = iterLimit cf (2 * A.rows) ∧ k < A.cols ∧ lim ≤ sqNorm A.cols (mulT A.rows a (residual A.cols a b x'))))) := by
  subst ha hlim
  have hS : Spd ((fmat A.rows A.cols (dense N e))ᵀ * fmat A.rows A.cols (dense N e)) := gram_spd (fun v hv => by
    rw [← fx_fv v] at hv ⊢
    rw [show fmat A.rows A.cols (dense N e) *ᵥ fx A.cols (fv v) = fx A.rows (fun i => ∑ j ∈ range A.cols, dense N e i j * fv v j) from
      funext fun i => mul_fx _ _ i]
    exact ne_fx.mpr (hrank _ (ne_fx.mp hv)))
  refine (cgnrW_spec ⟨hA, hk, hsq⟩ hr hc rfl hS env hf hf' sq heps (vec_fx hXc hXr hX) hBv hBs (holds_fx hBs hB) hW dX dB
    (by rw [res_fx, mulT_eq]; exact ne_fx.mpr h0)).mono ?_
  rintro r ⟨h1, h2, x', it, d, h3, h4, h5, h6⟩
  have hmeas := h6.meas
  have hen := h6.energy
  have hfin := h6.fin
  refine ⟨h1, h2, fv x', it, h3.holds, ?_⟩
  rw [← mulVec_mulVec, ← mulVec_sub, ← fx_fv x', res_fx, mulT_eq, sq_fx] at hmeas
  rw [res_fx, sq_fx, stop_eq] at hfin
  subst hmeas
  refine ⟨h4, ?_, ?_⟩
  · generalize hD : fmat A.rows A.cols (dense N e) = D at *
    have key : ∀ u : Nat → α, sqNorm A.rows (residual A.cols (dense N e) b u) =
        fx A.rows b ⬝ᵥ fx A.rows b + energy (Dᵀ * D) (Dᵀ *ᵥ fx A.rows b) (fx A.cols u) := by
      intro u
      have k1 : (Dᵀ *ᵥ fx A.rows b) ⬝ᵥ fx A.cols u = (D *ᵥ fx A.cols u) ⬝ᵥ fx A.rows b := by
        rw [dotProduct_comm, dotProduct_mulVec, ← mulVec_transpose, transpose_transpose]
      have k2 : fx A.cols u ⬝ᵥ (Dᵀ * D) *ᵥ fx A.cols u = (D *ᵥ fx A.cols u) ⬝ᵥ (D *ᵥ fx A.cols u) := by
        rw [← mulVec_mulVec, dotProduct_mulVec _ Dᵀ, ← mulVec_transpose, transpose_transpose]
      rw [← sq_fx, ← res_fx, hD]
      unfold energy
      rw [k2, k1, sub_dotProduct, dotProduct_sub, dotProduct_sub, dotProduct_comm (fx A.rows b) (D *ᵥ _)]
      ring
    rw [key, key, fx_fv]
    linarith
  · change _ = if iterLimit cf (2 * A.rows) ≤ it then _ else _ at h5
    change (it < iterLimit cf (2 * A.rows) ∧ _) ∨ (it = iterLimit cf (2 * A.rows) ∧ _) at hfin
    rcases hfin with ⟨c1, c2⟩ | ⟨c1, c2, c3⟩
    · left; rw [if_neg (by omega)] at h5; exact ⟨h5, c1, c2⟩
    · right; rw [if_pos (by omega)] at h5; exact ⟨h5, c1, lt_of_eq_of_lt c1 c3, c2⟩

private theorem bokk {β γ : Type} {x : Res β} {f : β → Res γ} {r : γ} (e : (x >>= f) = .ok r) : ∃ a, x = .ok a ∧ f a = .ok r := by
  cases x with
  | ok a => exact ⟨a, rfl, e⟩
  | ub => cases e
  | diverge => cases e

private theorem wtake_none {wb cnt o : Nat} {W : WBuf} (h1 : W.bytes < SIZE_T) (h2 : W.offset = 8 * o) (h3 : 8 * o ≤ W.bytes)
    (h4 : 8 * cnt < SIZE_T) (h5 : W.bytes < 8 * o + 8 * cnt) : wtake wb W cnt = .ub := by
  unfold wtake wreserve wreserveBytes szSub
  rw [h2, Nat.mod_eq_of_lt (a := cnt * 8) (by omega), Nat.mod_eq_of_lt (a := 8 * o) (by omega),
    show W.bytes + SIZE_T - 8 * o = (W.bytes - 8 * o) + SIZE_T by omega, Nat.add_mod_right, Nat.mod_eq_of_lt (by omega), if_pos (by omega)]

omit [IsStrictOrderedRing α] in
/-- The workspace that `armassp_cgnr_w` asks for is too small: it wants `2 cols(A) + rows(A)` elements but takes `2 cols(A) + 2 rows(A)`.
With anything between the two the reservation of `Ap` returns a null pointer that is used; no such call returns, whatever the contents of
memory. -/
theorem C75_workspace_false {A : Sp α} (env : Env) (fuel : Nat) (sq : α → α) (cf : IterConf α) {X B : View} {wb o : Nat} {W : WBuf}
    (m : Mem α) (hr : 0 < A.rows) (hc : 0 < A.cols) (hX : X.isVec) (hB : B.isVec) (hBs : B.size = A.rows) (hXs : X.size = A.cols)
    (h1 : W.bytes < SIZE_T) (h2 : W.offset = 8 * o) (h3 : 8 * o + 8 * (2 * A.cols + A.rows) ≤ W.bytes)
    (h4 : W.bytes < 8 * o + 8 * (2 * A.cols + 2 * A.rows)) (r : CgRes α) : cgnrW env fuel sq cf X A B wb W m ≠ .ok r := by
  unfold cgnrW
  dsimp only
  rw [if_neg (show ¬ W.bytes = 0 by omega), if_neg (by omega), if_neg (not_not.mpr ⟨hX, hB, hBs, hXs⟩),
    if_neg (by rw [wbytes_ok h1 h2 (by omega)]; omega), wtake_ok h1 h2 (by omega), Res.ok_bind]
  dsimp only
  intro h
  obtain ⟨q1, -, h⟩ := bokk h
  obtain ⟨q2, -, h⟩ := bokk h
  obtain ⟨d, -, h⟩ := bokk h
  rw [wtake_ok (W := ⟨W.bytes, 8 * (o + A.rows)⟩) (o := o + A.rows) h1 rfl (by dsimp only; omega), Res.ok_bind] at h
  try dsimp only at h
  obtain ⟨q3, -, h⟩ := bokk h
  try dsimp only at h
  rw [wtake_ok (W := ⟨W.bytes, 8 * (o + A.rows + A.cols)⟩) (o := o + A.rows + A.cols) h1 rfl (by dsimp only; omega), Res.ok_bind] at h
  try dsimp only at h
  obtain ⟨q4, -, h⟩ := bokk h
  try dsimp only at h
  rw [wtake_none (W := ⟨W.bytes, 8 * (o + A.rows + A.cols + A.cols)⟩) (o := o + A.rows + A.cols + A.cols) h1 rfl (by dsimp only; omega)
    (by omega) (by dsimp only; omega)] at h
  cases h

omit [IsStrictOrderedRing α] in
/-- `armassp_cgnr` allocates the workspace that `armassp_cgnr_w` asks for, so no call with accepted operands and a matrix that is not empty
returns. -/
theorem C75_alloc_false {A : Sp α} (env : Env) (fuel : Nat) (sq : α → α) (cf : IterConf α) {X B : View} {wb : Nat}
    (m : Mem α) (hr : 0 < A.rows) (hc : 0 < A.cols) (hX : X.isVec) (hB : B.isVec) (hBs : B.size = A.rows) (hXs : X.size = A.cols)
    (hsz : 8 * (2 * A.cols + 2 * A.rows) < SIZE_T) (r : CgRes α) : cgnr env fuel sq cf X A B wb m ≠ .ok r := by
  unfold cgnr
  rw [if_neg (not_not.mpr ⟨hX, hB, hBs, hXs⟩), if_neg (by omega)]
  have hq : cgnrW env fuel sq cf X A B wb ⟨0, 0⟩ m = .ok ⟨0, some ⟨(2 * A.cols + A.rows) * 8, 0⟩, none, m⟩ := rfl
  rw [hq, Res.ok_bind]
  dsimp only
  rw [if_neg (by decide)]
  intro h
  obtain ⟨q, h, -⟩ := bokk h
  exact C75_workspace_false (o := 0) env fuel sq cf _ hr hc hX hB hBs hXs (by show (2 * A.cols + A.rows) * 8 < _; omega) rfl
    (by show _ ≤ (2 * A.cols + A.rows) * 8; omega) (by show (2 * A.cols + A.rows) * 8 < _; omega) q h

end

/-! ## Concrete cases -/

/-- The matrix (2 1; 1 3), stored completely in compressed rows. -/
def demoSpd : Sp ℚ := ⟨.csr, 2, 2, 4, 2, 4, 60, 4, 3, fun k => [(2 : ℚ), 1, 1, 3][k]?, fun k => [0, 2, 4][k]?, fun k => [0, 1, 0, 1][k]?, noMem⟩

def demoSpdEnt (p : Nat) : Ent ℚ := [(0, 0, 2), (0, 1, 1), (1, 0, 1), (1, 1, 3)].getD p (0, 0, 0)

private theorem lt4 {P : Nat → Prop} (h : P 0 ∧ P 1 ∧ P 2 ∧ P 3) : ∀ p, p < 4 → P p := by
  obtain ⟨h0, h1, h2, h3⟩ := h
  intro p hp
  have : p = 0 ∨ p = 1 ∨ p = 2 ∨ p = 3 := by omega
  rcases this with rfl | rfl | rfl | rfl <;> assumption

theorem demoSpd_is : Triangular demoSpd 2 4 demoSpdEnt true := by
  have hmaj : ∀ p, p < 4 → (demoSpdEnt p).1 = [0, 0, 1, 1].getD p 0 := lt4 ⟨rfl, rfl, rfl, rfl⟩
  have hmin : ∀ p, p < 4 → (demoSpdEnt p).2.1 = [0, 1, 0, 1].getD p 0 := lt4 ⟨rfl, rfl, rfl, rfl⟩
  refine ⟨⟨rfl, rfl, ⟨?_, ?_, ?_, ?_, ?_, ?_⟩⟩, by decide, rfl, rfl, ?_, ?_, fun h => absurd h (by decide)⟩
  · intro p q hpq hq
    rw [hmaj p (by omega), hmaj q hq]
    have : ∀ q, q < 4 → ∀ p, p ≤ q → [0, 0, 1, 1].getD p 0 ≤ [0, 0, 1, 1].getD q 0 := by decide
    exact this q hq p hpq
  · exact lt4 ⟨by decide, by decide, by decide, by decide⟩
  · exact lt4 ⟨by decide, by decide, by decide, by decide⟩
  · intro k hk
    have hk : k ≤ 2 := hk
    have : k = 0 ∨ k = 1 ∨ k = 2 := by omega
    rcases this with rfl | rfl | rfl <;> rfl
  · exact lt4 ⟨rfl, rfl, rfl, rfl⟩
  · exact lt4 ⟨rfl, rfl, rfl, rfl⟩
  · intro p q hpq hq
    show (demoSpdEnt p).1 = (demoSpdEnt q).1 → (demoSpdEnt p).2.1 < (demoSpdEnt q).2.1
    rw [hmaj p (by omega), hmaj q hq, hmin p (by omega), hmin q hq]
    have : ∀ q, q < 4 → ∀ p, p < q → [0, 0, 1, 1].getD p 0 = [0, 0, 1, 1].getD q 0 → [0, 1, 0, 1].getD p 0 < [0, 1, 0, 1].getD q 0 := by
      decide
    exact this q hq p hpq
  · intro j hj
    have : j = 0 ∨ j = 1 := by omega
    rcases this with rfl | rfl
    · exact ⟨0, by omega, rfl, rfl⟩
    · exact ⟨3, by omega, rfl, rfl⟩

private theorem demo_sum (v : Nat → ℚ) :
    (∑ j ∈ range 2, dense 4 demoSpdEnt 0 j * v j = 2 * v 0 + v 1) ∧ (∑ j ∈ range 2, dense 4 demoSpdEnt 1 j * v j = v 0 + 3 * v 1) := by
  have h00 : dense 4 demoSpdEnt 0 0 = 2 := by decide +kernel
  have h01 : dense 4 demoSpdEnt 0 1 = 1 := by decide +kernel
  have h10 : dense 4 demoSpdEnt 1 0 = 1 := by decide +kernel
  have h11 : dense 4 demoSpdEnt 1 1 = 3 := by decide +kernel
  simp only [Finset.sum_range_succ, Finset.sum_range_zero, h00, h01, h10, h11]
  constructor <;> ring

private theorem demo_symm : ∀ i, i < 2 → ∀ j, j < 2 → symm false (dense 4 demoSpdEnt) i j = dense 4 demoSpdEnt i j := by decide +kernel

private theorem demo_pos : PosDef 2 (symm false (dense 4 demoSpdEnt)) := by
  intro v hv
  have e : quadForm 2 (symm false (dense 4 demoSpdEnt)) v = v 0 * (2 * v 0 + v 1) + v 1 * (v 0 + 3 * v 1) := by
    unfold quadForm
    rw [← (demo_sum v).1, ← (demo_sum v).2]
    simp only [Finset.sum_range_succ, Finset.sum_range_zero, zero_add]
    rw [demo_symm 0 (by decide) 0 (by decide), demo_symm 0 (by decide) 1 (by decide), demo_symm 1 (by decide) 0 (by decide),
      demo_symm 1 (by decide) 1 (by decide)]
  rw [e]
  obtain ⟨i, hi, hne⟩ := hv
  have : i = 0 ∨ i = 1 := by omega
  rcases this with rfl | rfl
  · have := mul_self_pos.mpr hne
    nlinarith [mul_self_nonneg (v 0 + v 1), mul_self_nonneg (v 1)]
  · have := mul_self_pos.mpr hne
    nlinarith [mul_self_nonneg (v 0 + v 1), mul_self_nonneg (v 0)]

/-- `x` = (0, 0) at 0, `b` = (1, 2) at 10, workspace from 20. -/
def cgDemo : Mem ℚ := tot (fun p => if p = 10 then 1 else if p = 11 then 2 else 0)

private def cgConf : IterConf ℚ := ⟨0, 0, 0, 1 / 1000⟩

private theorem demo_res : ∃ i, i < 2 ∧ residual 2 (symm false (dense 4 demoSpdEnt)) (fun k => if k = 0 then 1 else 2) (fun _ => 0) i ≠ 0 :=
  ⟨0, by decide, by unfold residual; simp⟩

private theorem demo_b : HoldsV cgDemo ⟨10, 2, 2, 1⟩ (fun k => if k = 0 then 1 else 2) := by
  intro k hk
  have hk : k < 2 := hk
  have : k = 0 ∨ k = 1 := by omega
  rcases this with rfl | rfl <;> rfl

private theorem demo_x : HoldsV cgDemo ⟨0, 2, 2, 1⟩ (fun _ => 0) := by
  intro k hk
  have hk : k < 2 := hk
  have : k = 0 ∨ k = 1 := by omega
  rcases this with rfl | rfl <;> rfl

private theorem demo_work (c : Nat) (h : c < 1000) : WorkOk cgDemo ⟨8 * c, 0⟩ 20 0 c :=
  ⟨by rw [SIZE_T_def]; show 8 * c < _; omega, rfl, by show _ ≤ 8 * c; omega, fun q _ => ⟨_, rfl⟩⟩

private theorem demo_apart (t c : Nat) (h : t + 2 ≤ 20) : Disjoint (View.foot ⟨t, 2, 2, 1⟩) (rng (20 + 0) c) := by
  rw [View.colFoot (X := ⟨t, 2, 2, 1⟩) rfl]
  refine Set.disjoint_left.mpr ?_
  rintro q ⟨h1, h2⟩ ⟨h3, h4⟩
  have h2 : q < t + 2 := h2
  omega

example (env : Env) := C72_cgrad_partial (upper := false) (lower := true) (trans := false) demoSpd_is (by decide) rfl demo_pos env
  (fuel := 3) (by decide) id (cf := cgConf) (by norm_num [cgConf]) (X := ⟨0, 2, 2, 1⟩) (B := ⟨10, 2, 2, 1⟩) rfl rfl demo_x (by decide) rfl demo_b
  (demo_work 6 (by decide)) (demo_apart 0 _ (by decide)) (demo_apart 10 _ (by decide)) demo_res rfl

example (env : Env) := C72_alloc_partial (upper := false) (lower := true) (trans := false) demoSpd_is (by decide) rfl demo_pos env
  (fuel := 3) (by decide) id (cf := cgConf) (by norm_num [cgConf]) (X := ⟨0, 2, 2, 1⟩) (B := ⟨10, 2, 2, 1⟩) rfl rfl demo_x (by decide) rfl demo_b
  (wb := 20) (by rw [SIZE_T_def]; decide) (demo_apart 0 _ (by decide)) (demo_apart 10 _ (by decide)) demo_res rfl

example (env : Env) := (C72_reject (A := demoSpd) env 3 id cgConf ⟨0, 3, 3, 1⟩ ⟨10, 2, 2, 1⟩ false true false 20 ⟨48, 0⟩ cgDemo (by decide)
  (by decide) (by decide)).1 (by decide)

example (env : Env) := ((C72_reject (A := demoSpd) env 3 id cgConf ⟨0, 2, 2, 1⟩ ⟨10, 2, 2, 1⟩ false true false 20 ⟨40, 0⟩ cgDemo (by decide)
  (by decide) (by decide)).2 (by decide)).2 (by unfold wbytes szSub; rw [SIZE_T_def]; decide)

/-- Copying is a preconditioner: the unit matrix. -/
private theorem demo_id : Preconditions (fun m Z R => mcopy m Z R false) 2 (fun i j => if i = j then (1 : ℚ) else 0) := by
  intro m Z R z r h1 h2 h3 h4 hz hr hd
  refine (C05_mcopy_vector false (by unfold View.WF; omega) (by unfold View.isVec; omega) (by unfold View.isVec; omega) hz hr hd.symm
    (by rw [View.colSize h1, View.colSize h3, h2, h4])).mono ?_
  rintro q ⟨-, a, b⟩
  refine ⟨a.congr fun i hi => ?_, b⟩
  rw [View.colSize h1, h2] at hi
  rw [Finset.sum_eq_single i (fun j _ hj => by dsimp only; rw [if_neg (Ne.symm hj), zero_mul])
    (fun h => absurd (Finset.mem_range.mpr hi) h)]
  dsimp only
  rw [if_pos rfl, one_mul]

private theorem demo_idpos : PosDef 2 (fun i j => if i = j then (1 : ℚ) else 0) := by
  intro v hv
  have e : quadForm 2 (fun i j => if i = j then (1 : ℚ) else 0) v = v 0 * v 0 + v 1 * v 1 := by
    unfold quadForm
    simp only [Finset.sum_range_succ, Finset.sum_range_zero]
    simp
  rw [e]
  obtain ⟨i, hi, hne⟩ := hv
  have : i = 0 ∨ i = 1 := by omega
  rcases this with rfl | rfl
  · have := mul_self_pos.mpr hne
    nlinarith [mul_self_nonneg (v 1)]
  · have := mul_self_pos.mpr hne
    nlinarith [mul_self_nonneg (v 0)]

example (env : Env) := C73_pcgrad_partial (upper := false) (lower := true) (trans := false) demoSpd_is (by decide) rfl demo_pos demo_id
  demo_idpos (fun i j => by simp only [eq_comm]) env (fuel := 3) (by decide) id (cf := cgConf) (by norm_num [cgConf]) (X := ⟨0, 2, 2, 1⟩)
  (B := ⟨10, 2, 2, 1⟩) rfl rfl demo_x (by decide) rfl demo_b
  (demo_work 8 (by decide)) (demo_apart 0 _ (by decide)) (demo_apart 10 _ (by decide)) demo_res rfl

private theorem demo_T (i j : Nat) (hi : i < 2) (hj : j < 2) : dense 4 demoSpdEnt i j = dense 4 demoSpdEnt j i := by
  have : ∀ i, i < 2 → ∀ j, j < 2 → dense 4 demoSpdEnt i j = dense 4 demoSpdEnt j i := by decide +kernel
  exact this i hi j hj

private theorem demo_colrank (y : Nat → ℚ) (h : ∃ i, i < 2 ∧ y i ≠ 0) : ∃ i, i < 2 ∧ ∑ j ∈ range 2, dense 4 demoSpdEnt i j * y j ≠ 0 := by
  by_contra hc
  have hc : ∀ i, i < 2 → ∑ j ∈ range 2, dense 4 demoSpdEnt i j * y j = 0 := fun i hi => by
    by_contra h'; exact hc ⟨i, hi, h'⟩
  have h1 := hc 0 (by decide)
  have h2 := hc 1 (by decide)
  rw [(demo_sum y).1] at h1
  rw [(demo_sum y).2] at h2
  obtain ⟨i, hi, hne⟩ := h
  have : i = 0 ∨ i = 1 := by omega
  rcases this with rfl | rfl
  · exact hne (by linarith)
  · exact hne (by linarith)

private theorem demo_rowrank (y : Nat → ℚ) (h : ∃ i, i < 2 ∧ y i ≠ 0) : ∃ j, j < 2 ∧ mulT 2 (dense 4 demoSpdEnt) y j ≠ 0 := by
  obtain ⟨j, hj, hne⟩ := demo_colrank y h
  refine ⟨j, hj, ?_⟩
  unfold mulT
  rwa [Finset.sum_congr rfl fun i hi => by rw [demo_T i j (Finset.mem_range.mp hi) hj]]

private theorem demo_res2 : ∃ i, i < 2 ∧ residual 2 (dense 4 demoSpdEnt) (fun k => if k = 0 then 1 else 2) (fun _ => 0) i ≠ 0 :=
  ⟨0, by decide, by unfold residual; simp⟩

example (env : Env) := C74_cgne_partial demoSpd_is.is (by decide) (fun _ => rfl) (by decide) (by decide) rfl demo_rowrank env
  (fuel := 3) (by decide) (by decide) id (cf := cgConf) (by norm_num [cgConf]) (X := ⟨0, 2, 2, 1⟩)
  (B := ⟨10, 2, 2, 1⟩) rfl rfl demo_x (by decide) rfl demo_b
  (demo_work 6 (by decide)) (demo_apart 0 _ (by decide)) (demo_apart 10 _ (by decide)) demo_res2 rfl

example (env : Env) := C75_cgnr_partial demoSpd_is.is (by decide) (fun _ => rfl) (by decide) (by decide) rfl demo_colrank env
  (fuel := 3) (by decide) (by decide) id (cf := cgConf) (by norm_num [cgConf]) (X := ⟨0, 2, 2, 1⟩)
  (B := ⟨10, 2, 2, 1⟩) rfl rfl demo_x (by decide) rfl demo_b
  (demo_work 8 (by decide)) (demo_apart 0 _ (by decide)) (demo_apart 10 _ (by decide)) (demo_rowrank _ demo_res2) rfl

example (env : Env) := C75_workspace_false (A := demoSpd) env 3 id cgConf (X := ⟨0, 2, 2, 1⟩) (B := ⟨10, 2, 2, 1⟩) (wb := 20) (o := 1)
  (W := ⟨56, 8⟩) cgDemo (by decide) (by decide) (by decide) (by decide) rfl rfl (by rw [SIZE_T_def]; decide) rfl (by decide) (by decide)

example (env : Env) := C75_alloc_false (A := demoSpd) env 3 id cgConf (X := ⟨0, 2, 2, 1⟩) (B := ⟨10, 2, 2, 1⟩) (wb := 20)
  cgDemo (by decide) (by decide) (by decide) (by decide) rfl rfl (by rw [SIZE_T_def]; decide)

private theorem take (c o k : Nat) (h : c < 1000) (hk : 8 * o + 8 * k ≤ c) : wtake 20 ⟨c, 8 * o⟩ k = .ok (20 + o, ⟨c, 8 * (o + k)⟩) :=
  wtake_ok (W := ⟨c, 8 * o⟩) (by rw [SIZE_T_def]; show c < _; omega) rfl hk

private theorem free (c : Nat) (h : c < 1000) : wbytes ⟨c, 0⟩ = c :=
  wbytes_ok (W := ⟨c, 0⟩) (o := 0) (by rw [SIZE_T_def]; show c < _; omega) rfl (Nat.zero_le _)

/-- Code, iterations, residual and `x` of a result. -/
def cgReport (r : Res (CgRes ℚ)) : Option (Int × Option (Nat × ℚ) × Option ℚ × Option ℚ) :=
  match r with
  | .ok r => some (r.code, r.out.map (fun o => (o.numiters, o.residual)), r.mem 0, r.mem 1)
  | _ => none

/-- A start that is the solution is not accepted: the first step divides zero by zero.  Here `b = 0` and `x = 0`. -/
theorem C72_exact_start_false : isUB (cgradW ⟨0, 0, false, false⟩ 3 id ⟨0, 0, 0, 1 / 1000⟩ ⟨0, 2, 2, 1⟩ demoSpd ⟨10, 2, 2, 1⟩ false true false 20
    (some ⟨48, 0⟩) (tot fun _ => 0)) = true := by
  unfold cgradW
  simp only [free 48 (by decide), show demoSpd.rows = 2 from rfl, take 48 0 2 (by decide) (by decide), take 48 2 2 (by decide) (by decide),
    take 48 4 2 (by decide) (by decide), Res.ok_bind, show (⟨48, 0⟩ : WBuf) = ⟨48, 8 * 0⟩ from rfl, Nat.zero_add]
  decide +kernel

/-- Without convergence the return value is 0 as well: one iteration, and the square of the residual norm is 5/324 with a limit of 1/1000000;
the preconditioner is the unit matrix. -/
theorem C73_code_false : cgReport (pcgradW ⟨0, 0, false, false⟩ 3 id ⟨1, 1 / 1000, 0, 1 / 1000⟩ (fun m Z R => mcopy m Z R false) ⟨0, 2, 2, 1⟩
      demoSpd ⟨10, 2, 2, 1⟩ false true false 20 ⟨64, 0⟩ cgDemo) = some (0, some (1, 5 / 324), some (5 / 18), some (5 / 9)) ∧
    sqNorm 2 (residual 2 (dense 4 demoSpdEnt) (fun k => if k = 0 then 1 else 2) (fun k => if k = 0 then 5 / 18 else 5 / 9)) = 5 / 324 := by
  unfold pcgradW
  simp only [free 64 (by decide), show demoSpd.rows = 2 from rfl, take 64 0 2 (by decide) (by decide), take 64 2 2 (by decide) (by decide),
    take 64 4 2 (by decide) (by decide), take 64 6 2 (by decide) (by decide), Res.ok_bind, show (⟨64, 0⟩ : WBuf) = ⟨64, 8 * 0⟩ from rfl,
    Nat.zero_add]
  decide +kernel

/-- What is compared and reported is not the norm of the residual: with the preconditioner `M = I/10000` and the limit 1/100 the function
returns 0 after the first step and reports 5/3240000 where the square of the residual norm is 5/324, above the square 1/10000 of the limit. -/
theorem C73_measure_false : cgReport (pcgradW ⟨0, 0, false, false⟩ 3 id ⟨0, 1 / 100, 0, 1 / 1000⟩
      (fun m Z R => do let (_, m) ← mcopy m Z R false; scale m Z (1 / 10000)) ⟨0, 2, 2, 1⟩
      demoSpd ⟨10, 2, 2, 1⟩ false true false 20 ⟨64, 0⟩ cgDemo) = some (0, some (0, 5 / 3240000), some (5 / 18), some (5 / 9)) ∧
    sqNorm 2 (residual 2 (dense 4 demoSpdEnt) (fun k => if k = 0 then 1 else 2) (fun k => if k = 0 then 5 / 18 else 5 / 9)) = 5 / 324 := by
  unfold pcgradW
  simp only [free 64 (by decide), show demoSpd.rows = 2 from rfl, take 64 0 2 (by decide) (by decide), take 64 2 2 (by decide) (by decide),
    take 64 4 2 (by decide) (by decide), take 64 6 2 (by decide) (by decide), Res.ok_bind, show (⟨64, 0⟩ : WBuf) = ⟨64, 8 * 0⟩ from rfl,
    Nat.zero_add]
  decide +kernel

/-- `cf.residual` of `armassp_cgnr_w` is documented as the norm of `b - A x` and is that of `Aᵀ (b - A x)`: after one step the square of the
first is 1/34, reported is 65/1156. -/
theorem C75_residual_false : cgReport (cgnrW ⟨0, 0, false, false⟩ 3 id ⟨0, 1 / 4, 0, 1 / 1000⟩ ⟨0, 2, 2, 1⟩ demoSpd ⟨10, 2, 2, 1⟩ 20 ⟨64, 0⟩
      cgDemo) = some (0, some (0, 65 / 1156), some (26 / 85), some (91 / 170)) ∧
    sqNorm 2 (residual 2 (dense 4 demoSpdEnt) (fun k => if k = 0 then 1 else 2) (fun k => if k = 0 then 26 / 85 else 91 / 170)) = 1 / 34 := by
  unfold cgnrW
  simp only [free 64 (by decide), show demoSpd.rows = 2 from rfl, show demoSpd.cols = 2 from rfl, take 64 0 2 (by decide) (by decide),
    take 64 2 2 (by decide) (by decide), take 64 4 2 (by decide) (by decide), take 64 6 2 (by decide) (by decide), Res.ok_bind,
    show (⟨64, 0⟩ : WBuf) = ⟨64, 8 * 0⟩ from rfl, Nat.zero_add]
  decide +kernel

end Armas.Props
