import Verif.KernelReal
import Verif.TrxmLemmas

/-! Matrix-vector multiplication as a thread: which cells it writes. -/

namespace Armas

variable {α : Type} {W : Set Nat}

theorem RealM.diverge : RealM W (fun _ : Mem α => .diverge) :=
  ⟨.ret .diverge, trivial, fun b e => (by cases e), fun _ => rfl⟩

/-- The first `n` elements of a vector are in `W`. -/
def InV (W : Set Nat) (y incy n : Nat) : Prop := ∀ k, k < n → y + k * incy ∈ W

section axpy
variable [Mul α] [Add α] {ab : α → α} {y incy nR : Nat}

theorem incAt_real {k : Nat} {t : α} (h : y + k * incy ∈ W) : RealM W (fun m => incAt y incy k t m) := by
  unfold incAt
  exact RealM.read RealR.rd (fun _ => RealM.wr h)

theorem axpyRow1_real {a0 k : Nat} {cf : α} (h : y + k * incy ∈ W) :
    RealM W (fun m => axpyRow1 ab y incy a0 cf k m) := by
  unfold axpyRow1
  exact RealM.read RealR.rd (fun _ => RealM.read RealR.rd (fun _ => RealM.wr h))

theorem vmult1axpy_real {a0 x : Nat} {alpha : α} (h : InV W y incy nR) :
    RealM W (fun m => vmult1axpy ab m y incy a0 x alpha nR) := by
  unfold vmult1axpy
  refine RealM.read RealR.rd (fun _ => ?_)
  refine Real.bindM (Real.forUp (fun k _ hk => ?_)) ?_
  · exact RealM.seq (axpyRow1_real (h _ (by omega))) (RealM.seq (axpyRow1_real (h _ (by omega)))
      (RealM.seq (axpyRow1_real (h _ (by omega))) (axpyRow1_real (h _ (by omega)))))
  · intro k hk
    exact RealM.switchTail (N := max nR k) (by omega) (fun j h1 h2 => axpyRow1_real (h _ (by omega)))

theorem vmult2axpy_real {a0 a1 x incx : Nat} {alpha : α} (h : InV W y incy nR) :
    RealM W (fun m => vmult2axpy ab m y incy a0 a1 x incx alpha nR) := by
  unfold vmult2axpy
  refine RealM.read RealR.rd (fun _ => RealM.read RealR.rd (fun _ => ?_))
  refine Real.bindM (Real.forUp (fun k _ hk => ?_)) ?_
  · iterate 8 refine RealM.read RealR.rd (fun _ => ?_)
    exact RealM.seq (incAt_real (h _ (by omega))) (RealM.seq (incAt_real (h _ (by omega)))
      (RealM.seq (incAt_real (h _ (by omega))) (incAt_real (h _ (by omega)))))
  · intro k hk
    refine RealM.switchTail (N := max nR k) (by omega) (fun j h1 h2 => ?_)
    iterate 2 refine RealM.read RealR.rd (fun _ => ?_)
    exact incAt_real (h _ (by omega))

theorem vmult4axpy_real {a0 a1 a2 a3 x incx : Nat} {alpha : α} (h : InV W y incy nR) :
    RealM W (fun m => vmult4axpy ab m y incy a0 a1 a2 a3 x incx alpha nR) := by
  unfold vmult4axpy
  iterate 4 refine RealM.read RealR.rd (fun _ => ?_)
  refine Real.bindM (Real.forUp (fun k _ hk => ?_)) ?_
  · iterate 8 refine RealM.read RealR.rd (fun _ => ?_)
    exact RealM.seq (incAt_real (h _ (by omega))) (incAt_real (h _ (by omega)))
  · intro k hk
    dsimp only
    refine RealM.ite (c := k = nR) (fun _ => RealM.pure) (fun hne => ?_)
    by_cases h0 : k < nR
    · iterate 4 refine RealM.read RealR.rd (fun _ => ?_)
      exact incAt_real (h _ h0)
    · omega

end axpy

section dot
variable [Mul α] [Add α] [Zero α] {pr : α → α → α} {y incy : Nat}

theorem dotTerm_real {a x incx k : Nat} : RealR W (fun m => dotTerm pr m a x incx k) := by
  unfold dotTerm; rdr

/-- Chains of terms of a dot product. -/
macro "dots" : tactic => `(tactic| repeat (first
  | exact RealR.pure | refine RealR.read dotTerm_real (fun _ => ?_)))

theorem vmult1dot_real {a0 x incx nR : Nat} {alpha : α} (h : y ∈ W) :
    RealM W (fun m => vmult1dot pr m y a0 x incx alpha nR) := by
  unfold vmult1dot
  refine RealM.read (RealR.forUp (fun k st _ _ => by dots)) ?_
  rintro ⟨k, t⟩
  dsimp only
  refine RealM.read ?_ (fun _ => incAt_real (by simpa using h))
  split <;> dots

theorem vmult2dot_real {a0 a1 x incx nR : Nat} {alpha : α} (h : InV W y incy 2) :
    RealM W (fun m => vmult2dot pr m y incy a0 a1 x incx alpha nR) := by
  unfold vmult2dot
  refine RealM.read (RealR.forUp (fun k st _ _ => by dots)) ?_
  rintro ⟨k, t, s⟩
  dsimp only
  refine RealM.read ?_ (fun _ => RealM.seq (incAt_real (h _ (by omega))) (incAt_real (h _ (by omega))))
  split <;> dots

theorem vmult4dot_real {a0 a1 a2 a3 x incx nR : Nat} {alpha : α} (h : InV W y incy 4) :
    RealM W (fun m => vmult4dot pr m y incy a0 a1 a2 a3 x incx alpha nR) := by
  unfold vmult4dot
  refine RealM.read (RealR.forUp (fun k st _ _ => by dots)) ?_
  rintro ⟨k, t, s⟩
  dsimp only
  refine RealM.read ?_ (fun _ => RealM.seq (incAt_real (h _ (by omega))) (RealM.seq (incAt_real (h _ (by omega)))
    (RealM.seq (incAt_real (h _ (by omega))) (incAt_real (h _ (by omega))))))
  refine RealR.ite (fun _ => RealR.pure) (fun _ => ?_)
  dots

theorem InV.shift {n i k : Nat} (h : InV W y incy n) (hk : i + k ≤ n) : InV W (y + i * incy) incy k := by
  intro j hj
  have := h (i + j) (by omega)
  rw [Nat.add_mul, ← Nat.add_assoc] at this
  exact this

theorem gemvDots_real {Y A X : View} {alpha : α} (h : InV W Y.base Y.inc A.cols) :
    RealM W (fun m => gemvDots pr m Y alpha A X) := by
  unfold gemvDots
  refine Real.bindM (Real.forUp (fun i _ hi => vmult4dot_real (h.shift (by omega)))) ?_
  intro i hi
  dsimp only
  refine RealM.ite (c := i = A.cols) (fun _ => RealM.pure) (fun hne => ?_)
  refine Real.bindM (Φ := fun j' => True) ?_ ?_
  · by_cases hlt : A.cols - i = 3 ∨ A.cols - i = 2
    · simp only [if_pos hlt]
      exact RealM.bindV (vmult2dot_real (h.shift (by omega))) (Real.ok trivial)
    · simp only [if_neg hlt]
      exact Real.ok trivial
  · intro j' _
    dsimp only
    exact RealM.ite (c := j' < A.cols) (fun hlt => vmult1dot_real (h _ hlt)) (fun _ => RealM.pure)

theorem gemvAxpys_real {ab : α → α} {y0 yinc : Nat} {A X : View} {alpha : α} (h : InV W y0 yinc A.rows) :
    RealM W (fun m => gemvAxpys ab m y0 yinc alpha A X A.rows) := by
  unfold gemvAxpys
  refine Real.bindM (Real.forUp (fun i _ hi => vmult4axpy_real h)) ?_
  intro i hi
  dsimp only
  refine RealM.ite (c := i = A.cols) (fun _ => RealM.pure) (fun hne => ?_)
  refine Real.bindM (Φ := fun j' => True) ?_ ?_
  · by_cases hlt : A.cols - i = 3 ∨ A.cols - i = 2
    · simp only [if_pos hlt]
      exact RealM.bindV (vmult2axpy_real h) (Real.ok trivial)
    · simp only [if_neg hlt]
      exact Real.ok trivial
  · intro j' _
    dsimp only
    exact RealM.ite (c := j' < A.cols) (fun hlt => vmult1axpy_real h) (fun _ => RealM.pure)

theorem gemvUnb_real {ab : α → α} {Y A X : View} {alpha : α} {fl : Flags} (ha : fl.absA = false)
    (h : InV W Y.base Y.inc (A.opRows fl.transA)) : RealM W (fun m => gemvUnb ab m Y alpha A X fl) := by
  unfold gemvUnb
  simp only [ha, Bool.false_eq_true, if_false]
  refine RealM.ite (fun ht => ?_) (fun ht => ?_)
  · rw [ht] at h
    exact gemvDots_real h
  · rw [Bool.not_eq_true] at ht
    rw [ht] at h
    exact gemvAxpys_real (by simpa [View.opRows] using h)

theorem InV.foot {Y : View} (hv : Y.isVec) (h : Y.foot ⊆ W) : InV W Y.base Y.inc Y.size :=
  fun _ hk => h (View.vat_mem_foot hv hk)

theorem gemvRec_real {ab : α → α} {minv : Nat} {alpha : α} {fl : Flags} (ha : fl.absA = false) (fuel : Nat) :
    ∀ {Y A X : View}, Y.isVec → Y.foot ⊆ W → Y.size = A.opRows fl.transA →
      RealM W (fun m => gemvRec ab minv alpha fl fuel m Y A X) := by
  induction fuel with
  | zero => intro Y A X _ _ _; exact RealM.diverge
  | succ fuel ih =>
    intro Y A X hv hf hs
    unfold gemvRec
    refine RealM.ite (fun _ => gemvUnb_real ha (hs ▸ InV.foot hv hf)) (fun _ => ?_)
    simp only [vecPartTop_eq (x := Y) (Nat.div_le_self _ 2)]
    dsimp only [partition2x2]
    have h1 : (Y.subvec 0 (Y.size / 2)).foot ⊆ W := (View.subvec_foot hv (by omega)).trans hf
    have h2 : (Y.subvec (Y.size / 2) (Y.size - Y.size / 2)).foot ⊆ W := (View.subvec_foot hv (by omega)).trans hf
    have v1 := View.subvec_isVec Y 0 (Y.size / 2)
    have v2 := View.subvec_isVec Y (Y.size / 2) (Y.size - Y.size / 2)
    cases ht : fl.transA <;> rw [ht] at hs <;> simp only [View.opRows, Bool.false_eq_true, if_true, if_false] at hs
    all_goals
      simp only [Bool.false_eq_true, if_true, if_false]
      refine RealM.seq (ih v1 h1 ?_) (RealM.seq (RealM.seq (ih v1 h1 ?_) (ih v2 h2 ?_)) (ih v2 h2 ?_)) <;>
      · rw [View.subvec_size, ht]; simp [View.opRows]; omega

theorem mvmultUnsafe_real [One α] [DecidableEq α] {ab : α → α} {env : Env} {fuel : Nat} {beta alpha : α}
    {Y A X : View} {fl : Flags} (ha : fl.absA = false) (hv : Y.isVec) (hf : Y.foot ⊆ W)
    (hs : Y.size = A.opRows fl.transA) :
    RealM W (fun m => mvmultUnsafe ab env fuel m beta Y alpha A X fl) := by
  unfold mvmultUnsafe
  refine RealM.ite (fun _ => RealM.ok) (fun _ => RealM.seq ?_ (gemvRec_real ha fuel hv hf hs))
  exact RealM.ite (fun _ => scaleUnsafe_real hf) (fun _ => RealM.pure)

end dot

end Armas
