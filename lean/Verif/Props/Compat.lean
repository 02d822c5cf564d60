import Verif.CompatLemmas
import Verif.Props.Blas1
import Verif.Props.CholUpd

/-!
# C68: the level 1 functions of the BLAS compatibility layer (`src/compat`)

The specification is the reference BLAS: element `k` of a vector of length `n` with increment `inc` is at `blasAt n inc k`, that is `k * inc` for a
positive increment and `(n - 1 - k) * |inc|` for a negative one.
-/

namespace Armas.Props

open Finset

section ring

variable {α : Type} [CommRing α]

/-- The product of the increments fits an `int`. -/
def IncOk (incx incy : Int) : Prop := -(INT_MAX : Int) - 1 ≤ incx * incy ∧ incx * incy ≤ INT_MAX

theorem mulInc_ok {incx incy : Int} (h : IncOk incx incy) : mulInc incx incy = .ok (incx * incy) := by
  unfold mulInc
  have := h.1; have := h.2
  rw [if_neg (by omega)]

/-- Increments of the same sign are both negative or both positive. -/
theorem widx_same {incx incy : Int} (h : incx * incy > 0) (n k : Nat) : widx n incx k = widx n incy k := by
  unfold widx
  rcases mul_pos_iff.mp h with ⟨h1, h2⟩ | ⟨h1, h2⟩
  · rw [if_neg (by omega), if_neg (by omega)]
  · rw [if_pos h1, if_pos h2]

/-- C68, `daxpy_`: `y := y + alpha x` for increments of any sign; only `y` is written.  The increment of `y` is not zero; the product of the
increments has to fit an `int` (`C68_increments_false`). -/
theorem C68_axpy_partial {m : Mem α} {n X Y : Nat} {incx incy : Int} {x y : Nat → α} (alpha : α) (hi : incy ≠ 0) (hp : IncOk incx incy)
    (hx : BVec m X n incx x) (hy : BVec m Y n incy y) (hd : Disjoint (bcells X n incx) (bcells Y n incy)) :
    Runs (compatAxpy m n alpha X incx Y incy) (fun m' => BVec m' Y n incy (fun k => y k + alpha * x k) ∧ Frame (bcells Y n incy) m m') := by
  unfold compatAxpy
  rw [mulInc_ok hp]
  dsimp only [Res.ok_bind]
  by_cases c : incx * incy > 0
  · rw [if_pos c]
    refine (C06_axpy alpha (cvec_isVec _ _ _) (cvec_isVec _ _ _) (cvec_WF (by omega)) (by rw [cvec_size, cvec_size]) hx.toV hy.toV
      (by rw [cvec_foot, cvec_foot]; exact hd)).bind ?_
    rintro ⟨e, m'⟩ ⟨-, h, f⟩
    rw [cvec_foot] at f
    refine Runs.pure ⟨(BVec.ofV h).congr fun k hk => ?_, f⟩
    rw [widx_widx hk, ← widx_same c, widx_widx hk]
  · rw [if_neg c]
    refine twoWay_spec (fun k m' => BVec m' Y n incy (fun l => if l < k then y l + alpha * x l else y l) ∧ Frame (bcells Y n incy) m m')
      ⟨hy.congr (by simp), Frame.refl _ _⟩ ?_ ?_
    · rintro k m' hk ⟨h, f⟩
      unfold getAtUnsafe setAtUnsafe
      simp only [cvec_vat, ← blasAt_widx]
      refine Runs.rd_bind (hx.frame f hd k hk) (Runs.rd_bind (h k hk) (Runs.wr (h k hk) ⟨(h.set hi hk _).congr fun l hl => ?_, f.trans (Frame.set (blasAt_mem hk) _)⟩))
      beta_reduce
      rw [if_neg (lt_irrefl k)]
      by_cases e : l = k
      · subst e; rw [if_pos rfl, if_pos (by omega)]
      · rw [if_neg e]
        by_cases e' : l < k
        · rw [if_pos e', if_pos (by omega)]
        · rw [if_neg e', if_neg (by omega)]
    · rintro m' ⟨h, f⟩
      exact ⟨h.congr fun k hk => if_pos hk, f⟩

example := C68_axpy_partial (α := ℤ) (m := tot fun p => (p : ℤ)) (n := 5) (X := 0) (Y := 100) (incx := -3) (incy := 2) 7 (by decide) ⟨by decide, by decide⟩
  (fun _ _ => rfl) (fun _ _ => rfl) (Set.disjoint_left.mpr (by rintro p ⟨k, hk, rfl⟩ ⟨l, hl, h⟩; simp at h; omega))

omit [CommRing α] in
/-- C68, `dcopy_`: `y := x` for increments of any sign; only `y` is written.  The increment of `y` is not zero. -/
theorem C68_copy {m : Mem α} {n X Y : Nat} {incx incy : Int} {x y : Nat → α} (hi : incy ≠ 0)
    (hx : BVec m X n incx x) (hy : BVec m Y n incy y) (hd : Disjoint (bcells X n incx) (bcells Y n incy)) :
    Runs (compatCopy m n X incx Y incy) (fun m' => BVec m' Y n incy x ∧ Frame (bcells Y n incy) m m') := by
  unfold compatCopy
  dsimp only
  by_cases c : (incx > 0 ∧ incy > 0) ∨ (incx < 0 ∧ incy < 0)
  · rw [if_pos c]
    have c' : incx * incy > 0 := by
      rcases c with ⟨h1, h2⟩ | ⟨h1, h2⟩
      · exact mul_pos h1 h2
      · exact mul_pos_of_neg_of_neg h1 h2
    refine (C05_copy (cvec_WF (by omega)) (cvec_isVec _ _ _) (cvec_isVec _ _ _) hy.toV hx.toV (by rw [cvec_foot, cvec_foot]; exact hd)).bind ?_
    rintro ⟨e, m'⟩ ⟨-, h, f⟩
    rw [cvec_foot] at f
    refine Runs.pure ⟨(BVec.ofV h).congr fun k hk => ?_, f⟩
    rw [cvec_size, if_pos (widx_lt hk), ← widx_same c', widx_widx hk]
  · rw [if_neg c]
    refine twoWay_spec (fun k m' => BVec m' Y n incy (fun l => if l < k then x l else y l) ∧ Frame (bcells Y n incy) m m')
      ⟨hy.congr (by simp), Frame.refl _ _⟩ ?_ ?_
    · rintro k m' hk ⟨h, f⟩
      unfold getAtUnsafe setAtUnsafe
      simp only [cvec_vat, ← blasAt_widx]
      refine Runs.rd_bind (hx.frame f hd k hk) (Runs.wr (h k hk) ⟨(h.set hi hk _).congr fun l hl => ?_, f.trans (Frame.set (blasAt_mem hk) _)⟩)
      by_cases e : l = k
      · subst e; rw [if_pos rfl, if_pos (by omega)]
      · rw [if_neg e]
        by_cases e' : l < k
        · rw [if_pos e', if_pos (by omega)]
        · rw [if_neg e', if_neg (by omega)]
    · rintro m' ⟨h, f⟩
      exact ⟨h.congr fun k hk => if_pos hk, f⟩

example := C68_copy (α := ℤ) (m := tot fun p => (p : ℤ)) (n := 5) (X := 0) (Y := 100) (incx := -3) (incy := 2) (by decide)
  (fun _ _ => rfl) (fun _ _ => rfl) (Set.disjoint_left.mpr (by rintro p ⟨k, hk, rfl⟩ ⟨l, hl, h⟩; simp at h; omega))

/-- C68, `ddot_`: the inner product, for increments of any sign whose product fits an `int`. -/
theorem C68_dot_partial {env : Env} {m : Mem α} {n X Y : Nat} {incx incy : Int} {x y : Nat → α} (hp : IncOk incx incy)
    (hx : BVec m X n incx x) (hy : BVec m Y n incy y) {fuel : Nat} (hf : n < fuel) :
    compatDot env fuel m n X incx Y incy = .ok (∑ k ∈ range n, x k * y k) := by
  unfold compatDot
  rw [mulInc_ok hp]
  dsimp only [Res.ok_bind]
  by_cases c : incx * incy > 0
  · rw [if_pos c, C07_dot env.blas1min env.naive (cvec_isVec _ _ _) (cvec_isVec _ _ _) (by rw [cvec_size, cvec_size]) hy.toV hx.toV fuel
      (by rw [cvec_size]; exact hf), cvec_size]
    congr 1
    rw [sum_congr rfl fun k _ => by rw [widx_same c n k, mul_comm]]
    unfold widx
    by_cases c2 : incy < 0
    · simp only [if_pos c2]
      exact sum_range_reflect (fun k => x k * y k) n
    · simp only [if_neg c2]
  · rw [if_neg c]
    obtain ⟨v, e, h⟩ := twoWay_spec (n := n) (incx := incx) (incy := incy) (body := fun ix iy dval => do
        let xv ← getAtUnsafe m (cvec n incx.natAbs X) ix
        let yv ← getAtUnsafe m (cvec n incy.natAbs Y) iy
        pure (dval + xv * yv)) (st := (0 : α)) (fun k v => v = ∑ l ∈ range k, x l * y l) (Q := fun v => v = ∑ l ∈ range n, x l * y l) (by simp)
      (by
        rintro k v hk rfl
        unfold getAtUnsafe
        simp only [cvec_vat, ← blasAt_widx]
        exact Runs.rd_bind (hx k hk) (Runs.rd_bind (hy k hk) (Runs.pure (sum_range_succ _ _).symm))) fun _ h => h
    rw [e, h]

example := C68_dot_partial (α := ℤ) (env := ⟨8, 8, false, true⟩) (m := tot fun p => (p : ℤ)) (n := 5) (X := 0) (Y := 2) (incx := -3) (incy := -2)
  ⟨by decide, by decide⟩ (fun _ _ => rfl) (fun _ _ => rfl) (fuel := 8) (by decide)

/-- C68: increments whose product does not fit an `int` are undefined behaviour in `daxpy_`, `ddot_` and `dswap_`, for vectors of any length;
`dcopy_` compares signs instead. -/
theorem C68_increments_false (env : Env) (fuel : Nat) (m : Mem α) (n : Nat) (alpha : α) (X Y : Nat) :
    compatAxpy m n alpha X 65536 Y 65536 = .ub ∧ compatDot env fuel m n X 65536 Y 65536 = .ub ∧ compatSwap m n X 65536 Y (-65536) = .ub :=
  ⟨rfl, rfl, rfl⟩

/-- C68, `dswap_`: the vectors are exchanged, for nonzero increments of any sign whose product fits an `int`; nothing else is written. -/
theorem C68_swap_partial {m : Mem α} {n X Y : Nat} {incx incy : Int} {x y : Nat → α} (hix : incx ≠ 0) (hiy : incy ≠ 0) (hp : IncOk incx incy)
    (hx : BVec m X n incx x) (hy : BVec m Y n incy y) (hd : Disjoint (bcells X n incx) (bcells Y n incy)) :
    Runs (compatSwap m n X incx Y incy) (fun m' => BVec m' X n incx y ∧ BVec m' Y n incy x ∧ Frame (bcells X n incx ∪ bcells Y n incy) m m') := by
  unfold compatSwap
  rw [mulInc_ok hp]
  dsimp only [Res.ok_bind]
  by_cases c : incx * incy > 0
  · rw [if_pos c]
    refine (C09_swap (cvec_isVec _ _ _) (cvec_isVec _ _ _) (cvec_WF (by omega)) (cvec_WF (by omega)) (by rw [cvec_size, cvec_size]) hy.toV hx.toV
      (by rw [cvec_foot, cvec_foot]; exact hd.symm)).bind ?_
    rintro ⟨e, m'⟩ ⟨-, h1, h2, f⟩
    rw [cvec_foot, cvec_foot] at f
    refine Runs.pure ⟨(BVec.ofV h2).congr fun k hk => ?_, (BVec.ofV h1).congr fun k hk => ?_, f.mono (by rw [Set.union_comm])⟩
    · rw [widx_same c, widx_widx hk]
    · rw [← widx_same c, widx_widx hk]
  · rw [if_neg c]
    refine twoWay_spec (fun k m' => BVec m' X n incx (fun l => if l < k then y l else x l) ∧ BVec m' Y n incy (fun l => if l < k then x l else y l) ∧
      Frame (bcells X n incx ∪ bcells Y n incy) m m') ⟨hx.congr (by simp), hy.congr (by simp), Frame.refl _ _⟩ ?_ ?_
    · rintro k m' hk ⟨h1, h2, f⟩
      unfold getAtUnsafe setAtUnsafe
      simp only [cvec_vat, ← blasAt_widx]
      refine Runs.rd_bind (h2 k hk) (Runs.rd_bind (h1 k hk) ((BVec.set2 hiy hix h2 h1 hd.symm hk _ _).mono ?_))
      rintro m'' ⟨g1, g2, g⟩
      simp only [lt_irrefl, if_false] at g1 g2
      exact ⟨g2.congr fun l _ => upto_step y x k l, g1.congr fun l _ => upto_step x y k l, f.trans (g.mono (by rw [Set.union_comm]))⟩
    · rintro m' ⟨h1, h2, f⟩
      exact ⟨h1.congr fun k hk => if_pos hk, h2.congr fun k hk => if_pos hk, f⟩

example := C68_swap_partial (α := ℤ) (m := tot fun p => (p : ℤ)) (n := 5) (X := 0) (Y := 100) (incx := -3) (incy := 2) (by decide) (by decide)
  ⟨by decide, by decide⟩ (fun _ _ => rfl) (fun _ _ => rfl) (Set.disjoint_left.mpr (by rintro p ⟨k, hk, rfl⟩ ⟨l, hl, h⟩; simp at h; omega))

/-- C68, `drot_`: the plane rotation `x := c x + s y`, `y := c y - s x` for nonzero increments of any sign; nothing else is written. -/
theorem C68_rot {m : Mem α} {n X Y : Nat} {incx incy : Int} {x y : Nat → α} (c s : α) (hix : incx ≠ 0) (hiy : incy ≠ 0)
    (hx : BVec m X n incx x) (hy : BVec m Y n incy y) (hd : Disjoint (bcells X n incx) (bcells Y n incy)) :
    Runs (compatRot m n X incx Y incy c s) (fun m' => BVec m' X n incx (fun k => c * x k + s * y k) ∧ BVec m' Y n incy (fun k => c * y k - s * x k) ∧
      Frame (bcells X n incx ∪ bcells Y n incy) m m') := by
  unfold compatRot
  dsimp only
  refine twoWay_spec (fun k m' => BVec m' X n incx (fun l => if l < k then c * x l + s * y l else x l) ∧
    BVec m' Y n incy (fun l => if l < k then c * y l - s * x l else y l) ∧
    Frame (bcells X n incx ∪ bcells Y n incy) m m') ⟨hx.congr (by simp), hy.congr (by simp), Frame.refl _ _⟩ ?_ ?_
  · rintro k m' hk ⟨h1, h2, f⟩
    unfold getAtUnsafe setAtUnsafe gvrotate
    simp only [cvec_vat, ← blasAt_widx]
    refine Runs.rd_bind (h1 k hk) (Runs.rd_bind (h2 k hk) ((BVec.set2 hix hiy h1 h2 hd hk _ _).mono ?_))
    rintro m'' ⟨g1, g2, g⟩
    simp only [lt_irrefl, if_false] at g1 g2
    exact ⟨g1.congr fun l _ => upto_step (fun l => c * x l + s * y l) x k l, g2.congr fun l _ => upto_step (fun l => c * y l - s * x l) y k l, f.trans g⟩
  · rintro m' ⟨h1, h2, f⟩
    exact ⟨h1.congr fun k hk => if_pos hk, h2.congr fun k hk => if_pos hk, f⟩

example := C68_rot (α := ℤ) (m := tot fun p => (p : ℤ)) (n := 5) (X := 0) (Y := 100) (incx := -3) (incy := 2) 3 4 (by decide) (by decide)
  (fun _ _ => rfl) (fun _ _ => rfl) (Set.disjoint_left.mpr (by rintro p ⟨k, hk, rfl⟩ ⟨l, hl, h⟩; simp at h; omega))

/-- C68, `dscal_` (arguments in the order of the code): `x := alpha x` for a positive increment. -/
theorem C68_scal_partial [DecidableEq α] {m : Mem α} {n X : Nat} {incx : Int} {x : Nat → α} (alpha : α) (hi : 0 < incx) (hx : BVec m X n incx x) :
    Runs (compatScal m n X incx alpha) (fun m' => BVec m' X n incx (fun k => alpha * x k) ∧ Frame (bcells X n incx) m m') := by
  unfold compatScal
  rw [cvecS_ok hi]
  refine (C06_scale alpha (cvec_isVec _ _ _) (cvec_WF (by omega)) (hx.toV_pos hi)).bind ?_
  rintro ⟨e, m'⟩ ⟨-, h, f⟩
  rw [cvec_foot] at f
  exact Runs.pure ⟨BVec.ofV_pos h hi, f⟩

example := C68_scal_partial (α := ℤ) (m := tot fun p => (p : ℤ)) (n := 5) (X := 0) (incx := 3) 7 (by decide) (fun _ _ => rfl)

end ring

/-- C68, `dasum_`: the sum of the absolute values, for a positive increment. -/
theorem C68_asum_partial {α : Type} [Field α] [LinearOrder α] [IsStrictOrderedRing α] {env : Env} (hm : 0 < env.blas1min) (opt : SumOpt) {m : Mem α} {n X : Nat}
    {incx : Int} {x : Nat → α} (hi : 0 < incx) (hx : BVec m X n incx x) {fuel : Nat} (hf : n < fuel) :
    compatAsum env opt fuel m n X incx = .ok (∑ k ∈ range n, |x k|) := by
  unfold compatAsum
  rw [cvecS_ok hi]
  dsimp only [Res.ok_bind]
  rw [C08_asum env.blas1min opt hm (cvec_isVec _ _ _) (hx.toV_pos hi) fuel (by rw [cvec_size]; exact hf), cvec_size]

example := C68_asum_partial (α := ℚ) (env := ⟨8, 8, false, true⟩) (by decide) .recursive (m := tot fun p => (p : ℚ)) (n := 5) (X := 0) (incx := 3) (by decide)
  (fun _ _ => rfl) (fuel := 8) (by decide)

/-- C68, `dnrm2_`: the Euclidean norm, for a positive increment. -/
theorem C68_nrm2_partial {m : Mem ℝ} {n X : Nat} {incx : Int} {x : Nat → ℝ} (hi : 0 < incx) (hx : BVec m X n incx x) :
    compatNrm2 m n X incx = .ok (Real.sqrt (∑ k ∈ range n, x k ^ 2)) := by
  unfold compatNrm2
  rw [cvecS_ok hi]
  dsimp only [Res.ok_bind]
  rw [C08_nrm2 (cvec_isVec _ _ _) (hx.toV_pos hi), cvec_size]

example := C68_nrm2_partial (m := tot fun p => (p : ℝ)) (n := 5) (X := 0) (incx := 3) (by decide) (fun _ _ => rfl)

/-- C68, `idamax_` for a positive increment and at least one element: the result is the index of the first largest element counted from **zero**
(Full claim: counted from one, as in the reference BLAS; see `C68_iamax_false`.) -/
theorem C68_iamax_partial {α : Type} [Field α] [LinearOrder α] [IsStrictOrderedRing α] {m : Mem α} {n X : Nat}
    {incx : Int} {x : Nat → α} (hn : 0 < n) (hi : 0 < incx) (hx : BVec m X n incx x) :
    Runs (compatIamax m n X incx) (fun r => ∃ i : Nat, r = i ∧ i < n ∧ (∀ k, k < n → |x k| ≤ |x i|) ∧ ∀ k, k < i → |x k| < |x i|) := by
  unfold compatIamax
  rw [cvecS_ok hi]
  have := C08_iamax (cvec_isVec n incx.natAbs X) (by rw [cvec_size]; exact hn) (hx.toV_pos hi)
  rwa [cvec_size] at this

example := C68_iamax_partial (α := ℚ) (m := tot fun p => (p : ℚ)) (n := 5) (X := 0) (incx := 3) (by decide) (by decide) (fun _ _ => rfl)

/-- C68 is false for `idamax_`: the reference BLAS counts from one and returns zero only for an empty vector; here a vector of one element gives
zero and an empty vector `-1`. -/
theorem C68_iamax_false : ∃ m : Mem ℚ, BVec m 0 1 1 (fun _ => 5) ∧ compatIamax m 1 0 1 = .ok 0 ∧ compatIamax m 0 0 1 = .ok (-1) :=
  ⟨tot fun _ => 5, fun _ _ => rfl, by decide +kernel, by decide +kernel⟩

/-- C68, `drotg_`: `c` and `s` define a rotation with `c b - s a = 0`. -/
theorem C68_rotg_partial {m : Mem ℝ} {sa sb c s : Nat} {a b : ℝ} (ha : m sa = some a) (hb : m sb = some b) (hc : ∃ v, m c = some v) (hs : ∃ v, m s = some v)
    (hcs : c ≠ s) : Runs (compatRotg m sa sb c s) (fun m' => ∃ cv sv, m' c = some cv ∧ m' s = some sv ∧ cv ^ 2 + sv ^ 2 = 1 ∧ cv * b - sv * a = 0 ∧
      Frame {c, s} m m') := by
  obtain ⟨vc, hc⟩ := hc
  obtain ⟨vs, hs⟩ := hs
  unfold compatRotg
  refine Runs.rd_bind ha (Runs.rd_bind hb ?_)
  obtain ⟨h1, h2, h3, -⟩ := gvrotg_spec a b
  generalize hg : gvrotg a b = g at h1 h2 h3
  obtain ⟨cv, sv, r⟩ := g
  dsimp only at h1 h2 h3 ⊢
  refine Runs.wr_bind hc (Runs.wr (v := vs) ?_ ⟨cv, sv, ?_, ?_, h1, by linarith, ?_⟩)
  · unfold Mem.set; rw [if_neg hcs.symm]; exact hs
  · unfold Mem.set; rw [if_neg hcs, if_pos rfl]
  · unfold Mem.set; rw [if_pos rfl]
  · exact (Frame.set (S := {c, s}) (by simp) _).trans (Frame.set (by simp) _)

example := C68_rotg_partial (m := tot fun p => (p : ℝ)) (sa := 3) (sb := 4) (c := 5) (s := 6) rfl rfl ⟨_, rfl⟩ ⟨_, rfl⟩ (by decide)

/-- C68 is false for `drotg_`: the reference BLAS replaces the first argument by `r = c a + s b`; here it is never written.  For `a = 3`, `b = 4` the
value 3 stays, `c a + s b` is not 3. -/
theorem C68_rotg_false : ∃ (m : Mem ℝ), m 0 = some 3 ∧ m 1 = some 4 ∧ Runs (compatRotg m 0 1 2 3) (fun m' => m' 0 = some 3 ∧
    ∃ c s, m' 2 = some c ∧ m' 3 = some s ∧ c * 3 + s * 4 ≠ 3) := by
  refine ⟨tot fun p => if p = 0 then 3 else 4, by simp [tot], by simp [tot], ?_⟩
  refine (C68_rotg_partial (m := tot fun p => if p = 0 then 3 else 4) (sa := 0) (sb := 1) (c := 2) (s := 3) (a := 3) (b := 4) (by simp [tot]) (by simp [tot])
    ⟨_, rfl⟩ ⟨_, rfl⟩ (by decide)).mono ?_
  rintro m' ⟨c, s, h1, h2, h3, h4, f⟩
  refine ⟨by rw [f 0 (by simp)]; simp [tot], c, s, h1, h2, fun h => ?_⟩
  nlinarith [h, h3, h4]

end Armas.Props
