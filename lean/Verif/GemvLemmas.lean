import Verif.Blas2
import Verif.Blas1Lemmas

/-! # Helper lemmas: matrix-vector kernels, `gemv`, `ger` -/

namespace Armas

open Finset

variable {α : Type}

theorem Runs.eq_bind {β γ : Type} {r : Res β} {v : β} {f : β → Res γ} {Q : γ → Prop} (h : r = .ok v)
    (hQ : Runs (f v) Q) : Runs (r >>= f) Q := by rw [h]; exact hQ

theorem Runs.eq {β : Type} {r : Res β} {v : β} {Q : β → Prop} (h : r = .ok v) (hQ : Q v) :
    Runs r Q := ⟨v, h, hQ⟩

/-- `y[l*incy] += t`. -/
theorem incAt_upd [Add α] {m0 m : Mem α} {Y : View} {f g : Nat → α} {S : Nat → Prop} {y incy l k : Nat}
    {t : α} (h : UpdV m0 Y f g S m) (hv : Y.isVec) (hw : Y.WF) (hk : k < Y.size) (hS : ¬ S k)
    (e : y + l * incy = Y.vat k) (ht : f k + t = g k) :
    Runs (incAt y incy l t m) (UpdV m0 Y f g (fun p => S p ∨ p = k)) := by
  unfold incAt
  rw [e]
  refine Runs.rd_bind (h.old hk hS) ?_
  refine Runs.wr (h.old hk hS) ?_
  exact h.set hv hw hk ht

theorem incAt_lt [Add α] {m0 m : Mem α} {Y : View} {f g : Nat → α} {y incy l k : Nat}
    {t : α} (h : UpdV m0 Y f g (fun p => p < k) m) (hv : Y.isVec) (hw : Y.WF) (hk : k < Y.size)
    (e : y + l * incy = Y.vat k) (ht : f k + t = g k) :
    Runs (incAt y incy l t m) (UpdV m0 Y f g (fun p => p < k + 1)) :=
  (incAt_upd h hv hw hk (by omega) e ht).mono (fun _ h => h.congr (fun _ _ => by omega))

/-- A column (address range) outside of the target vector. -/
def ColAt (m : Mem α) (S : Set Nat) (a n : Nat) (f : Nat → α) : Prop :=
  ∀ k, k < n → m (a + k) = some (f k) ∧ a + k ∉ S

theorem ColAt.frame {m m' : Mem α} {S : Set Nat} {a n : Nat} {f : Nat → α} (h : ColAt m S a n f)
    (hf : Frame S m m') : ColAt m' S a n f :=
  fun k hk => ⟨by rw [hf _ (h k hk).2]; exact (h k hk).1, (h k hk).2⟩

section Axpy

variable [CommRing α]

theorem vmult1axpy_spec (ab : α → α) {m : Mem α} {Y : View} {y f0 : Nat → α} {a0 x : Nat} {x0 : α}
    (alpha : α) (hv : Y.isVec) (hw : Y.WF) (hy : HoldsV m Y y) (h0 : ColAt m Y.foot a0 Y.size f0)
    (hx : m x = some x0) :
    Runs (vmult1axpy ab m Y.base Y.inc a0 x alpha Y.size) (fun m' =>
      HoldsV m' Y (fun k => y k + ab (f0 k) * (alpha * ab x0)) ∧ Frame Y.foot m m') := by
  have step : ∀ {k m'}, k < Y.size →
      UpdV m Y y (fun k => y k + ab (f0 k) * (alpha * ab x0)) (fun l => l < k) m' →
      Runs (axpyRow1 ab Y.base Y.inc a0 (alpha * ab x0) k m')
        (UpdV m Y y (fun k => y k + ab (f0 k) * (alpha * ab x0)) (fun l => l < k + 1)) := by
    intro k m' hk h
    unfold axpyRow1
    refine Runs.rd_bind ((h0.frame h.frame) k hk).1 ?_
    refine Runs.rd_bind (h.old hk (by omega)) ?_
    refine Runs.wr (h.old hk (by omega)) ?_
    exact h.set_lt hv hw hk rfl
  unfold vmult1axpy
  refine Runs.rd_bind hx ?_
  refine Runs.bind (Runs.forUp (fun i m' => UpdV m Y y (fun k => y k + ab (f0 k) * (alpha * ab x0))
      (fun l => l < i) m' ∧ i ≤ Y.size) (by omega) ⟨UpdV.init_lt hy _, by omega⟩ ?_
    (Q := fun p => UpdV m Y y (fun k => y k + ab (f0 k) * (alpha * ab x0)) (fun l => l < p.1) p.2 ∧
      p.1 ≤ Y.size ∧ Y.size - 3 ≤ p.1) (fun k st h1 _ h => ⟨h.1, h.2, h1⟩)) ?_
  · rintro j m' - hj ⟨h, -⟩
    refine Runs.bind (step (by omega) h) (fun m' h => ?_)
    refine Runs.bind (step (by omega) h) (fun m' h => ?_)
    refine Runs.bind (step (by omega) h) (fun m' h => ?_)
    exact (step (by omega) h).mono (fun m' h => ⟨h, by omega⟩)
  · rintro ⟨i, m'⟩ ⟨h, h1, h2⟩
    exact Runs.switchTail (fun i m' => UpdV m Y y _ (fun l => l < i) m') h1 h2 h
      (fun j m' _ hj h => step hj h) (fun m' h => ⟨h.done (le_refl _), h.frame⟩)

theorem vmult2axpy_spec (ab : α → α) {m : Mem α} {Y : View} {y f0 f1 : Nat → α}
    {a0 a1 x incx : Nat} {x0 x1 : α} (alpha : α) (hv : Y.isVec) (hw : Y.WF) (hy : HoldsV m Y y)
    (h0 : ColAt m Y.foot a0 Y.size f0) (h1 : ColAt m Y.foot a1 Y.size f1)
    (hx : m x = some x0) (hx1 : m (x + incx) = some x1) :
    Runs (vmult2axpy ab m Y.base Y.inc a0 a1 x incx alpha Y.size) (fun m' =>
      HoldsV m' Y (fun k => y k + (ab (f0 k) * (alpha * ab x0) + ab (f1 k) * (alpha * ab x1))) ∧
        Frame Y.foot m m') := by
  set g := (fun k => y k + (ab (f0 k) * (alpha * ab x0) + ab (f1 k) * (alpha * ab x1))) with hg
  unfold vmult2axpy
  refine Runs.rd_bind hx (Runs.rd_bind hx1 ?_)
  refine Runs.bind (Runs.forUp (fun i m' => UpdV m Y y g (fun l => l < i) m' ∧ i ≤ Y.size) (by omega)
    ⟨UpdV.init_lt hy _, by omega⟩ ?_
    (Q := fun p => UpdV m Y y g (fun l => l < p.1) p.2 ∧
      p.1 ≤ Y.size ∧ Y.size - 3 ≤ p.1) (fun k st h1 _ h => ⟨h.1, h.2, h1⟩)) ?_
  · rintro j m' - hj ⟨h, -⟩
    have k0 := h0.frame h.frame
    have k1 := h1.frame h.frame
    refine Runs.rd_bind (k0 _ (by omega)).1 (Runs.rd_bind (k0 _ (by omega)).1
      (Runs.rd_bind (k0 _ (by omega)).1 (Runs.rd_bind (k0 _ (by omega)).1 ?_)))
    refine Runs.rd_bind (k1 _ (by omega)).1 (Runs.rd_bind (k1 _ (by omega)).1
      (Runs.rd_bind (k1 _ (by omega)).1 (Runs.rd_bind (k1 _ (by omega)).1 ?_)))
    refine Runs.bind (incAt_lt h hv hw (by omega) rfl rfl) (fun m' h => ?_)
    refine Runs.bind (incAt_lt h hv hw (by omega) rfl rfl) (fun m' h => ?_)
    refine Runs.bind (incAt_lt h hv hw (by omega) rfl rfl) (fun m' h => ?_)
    exact (incAt_lt h hv hw (by omega) rfl rfl).mono (fun m' h => ⟨h, by omega⟩)
  · rintro ⟨i, m'⟩ ⟨h, h1', h2⟩
    refine Runs.switchTail (fun i m' => UpdV m Y y g (fun l => l < i) m') h1' h2 h ?_
      (fun m' h => ⟨h.done (le_refl _), h.frame⟩)
    intro j m' _ hj h
    refine Runs.rd_bind ((h0.frame h.frame) _ hj).1 (Runs.rd_bind ((h1.frame h.frame) _ hj).1 ?_)
    exact incAt_lt h hv hw hj rfl rfl

theorem vmult4axpy_spec (ab : α → α) {m : Mem α} {Y : View} {y f0 f1 f2 f3 : Nat → α}
    {a0 a1 a2 a3 x incx : Nat} {x0 x1 x2 x3 : α} (alpha : α) (hv : Y.isVec) (hw : Y.WF)
    (hy : HoldsV m Y y)
    (h0 : ColAt m Y.foot a0 Y.size f0) (h1 : ColAt m Y.foot a1 Y.size f1)
    (h2 : ColAt m Y.foot a2 Y.size f2) (h3 : ColAt m Y.foot a3 Y.size f3)
    (hx : m x = some x0) (hx1 : m (x + incx) = some x1) (hx2 : m (x + 2 * incx) = some x2)
    (hx3 : m (x + 3 * incx) = some x3) :
    Runs (vmult4axpy ab m Y.base Y.inc a0 a1 a2 a3 x incx alpha Y.size) (fun m' =>
      HoldsV m' Y (fun k => y k + (ab (f0 k) * (alpha * ab x0) + ab (f1 k) * (alpha * ab x1)
        + ab (f2 k) * (alpha * ab x2) + ab (f3 k) * (alpha * ab x3))) ∧ Frame Y.foot m m') := by
  set g := (fun k => y k + (ab (f0 k) * (alpha * ab x0) + ab (f1 k) * (alpha * ab x1)
        + ab (f2 k) * (alpha * ab x2) + ab (f3 k) * (alpha * ab x3))) with hg
  unfold vmult4axpy
  refine Runs.rd_bind hx (Runs.rd_bind hx1 (Runs.rd_bind hx2 (Runs.rd_bind hx3 ?_)))
  refine Runs.bind (Runs.forUp (fun i m' => UpdV m Y y g (fun l => l < i) m' ∧ i ≤ Y.size) (by omega)
    ⟨UpdV.init_lt hy _, by omega⟩ ?_
    (Q := fun p => UpdV m Y y g (fun l => l < p.1) p.2 ∧
      p.1 ≤ Y.size ∧ Y.size - 1 ≤ p.1) (fun k st h1 _ h => ⟨h.1, h.2, h1⟩)) ?_
  · rintro j m' - hj ⟨h, -⟩
    have k0 := h0.frame h.frame
    have k1 := h1.frame h.frame
    have k2 := h2.frame h.frame
    have k3 := h3.frame h.frame
    refine Runs.rd_bind (k0 _ (by omega)).1 (Runs.rd_bind (k0 _ (by omega)).1
      (Runs.rd_bind (k1 _ (by omega)).1 (Runs.rd_bind (k1 _ (by omega)).1 ?_)))
    refine Runs.rd_bind (k2 _ (by omega)).1 (Runs.rd_bind (k2 _ (by omega)).1
      (Runs.rd_bind (k3 _ (by omega)).1 (Runs.rd_bind (k3 _ (by omega)).1 ?_)))
    refine Runs.bind (incAt_lt h hv hw (by omega) rfl rfl) (fun m' h => ?_)
    exact (incAt_lt h hv hw (by omega) rfl rfl).mono (fun m' h => ⟨h, by omega⟩)
  · rintro ⟨i, m'⟩ ⟨h, h1', h2'⟩
    dsimp only at h h1' h2' ⊢
    by_cases e : i = Y.size
    · rw [if_pos e]
      exact Runs.pure ⟨h.done (by omega), h.frame⟩
    · rw [if_neg e]
      refine Runs.rd_bind ((h0.frame h.frame) _ (by omega)).1
        (Runs.rd_bind ((h1.frame h.frame) _ (by omega)).1 ?_)
      refine Runs.rd_bind ((h2.frame h.frame) _ (by omega)).1
        (Runs.rd_bind ((h3.frame h.frame) _ (by omega)).1 ?_)
      exact (incAt_lt h hv hw (by omega) rfl rfl).mono
        (fun m' h => ⟨h.done (by omega), h.frame⟩)

end Axpy

section Dot

variable [CommRing α]

omit [CommRing α] in
theorem dotTerm_eq (pr : α → α → α) {m : Mem α} {a x incx k : Nat} {u v : α} (hu : m (a + k) = some u)
    (hv : m (x + k * incx) = some v) : dotTerm pr m a x incx k = .ok (pr u v) := by
  unfold dotTerm
  rw [rd_ok hu, rd_ok hv]; rfl

theorem vmult1dot_spec {pr : α → α → α} {m : Mem α} {y a0 x incx nR : Nat} {alpha : α} {p0 : Nat → α}
    {Q : Mem α → Prop} (h0 : ∀ k, k < nR → dotTerm pr m a0 x incx k = .ok (p0 k))
    (hQ : Runs (incAt y 0 0 ((∑ k ∈ range nR, p0 k) * alpha) m) Q) :
    Runs (vmult1dot pr m y a0 x incx alpha nR) Q := by
  unfold vmult1dot
  refine Runs.bind (Runs.forUp (fun i (c : α × α × α × α) => c.1 + c.2.1 + c.2.2.1 + c.2.2.2
        = ∑ k ∈ range i, p0 k ∧ i ≤ nR) (by omega) ⟨by simp, by omega⟩ ?_
      (Q := fun p => p.2.1 + p.2.2.1 + p.2.2.2.1 + p.2.2.2.2 = ∑ k ∈ range p.1, p0 k ∧
        p.1 ≤ nR ∧ nR - 3 ≤ p.1) (fun k st h1 _ h => ⟨h.1, h.2, h1⟩)) ?_
  · rintro j ⟨c0, c1, c2, c3⟩ - hj ⟨h, -⟩
    refine Runs.eq_bind (h0 _ (by omega)) (Runs.eq_bind (h0 _ (by omega)) (Runs.eq_bind (h0 _ (by omega))
      (Runs.eq_bind (h0 _ (by omega)) (Runs.pure ⟨?_, by omega⟩))))
    rw [sum_range_add4, ← h]
    ring
  · rintro ⟨i, c0, c1, c2, c3⟩ ⟨h, h1, h2⟩
    simp only at h h1 h2 ⊢
    refine Runs.bind (P := fun t : α × α × α × α =>
      (t.1 + t.2.1) + (t.2.2.1 + t.2.2.2) = ∑ k ∈ range nR, p0 k) ?_
      (fun t ht => by rw [ht]; exact hQ)
    have h4 : nR - i = 0 ∨ nR - i = 1 ∨ nR - i = 2 ∨ nR - i = 3 := by omega
    rcases h4 with e | e | e | e
    · have : nR = i := by omega
      rw [e]; subst this
      refine Runs.pure ?_
      rw [← h]; ring
    · have : nR = i + 1 := by omega
      rw [e]; subst this
      refine Runs.eq_bind (h0 _ (by omega)) (Runs.pure ?_)
      rw [sum_range_succ, ← h]; ring
    · have : nR = i + 2 := by omega
      rw [e]; subst this
      refine Runs.eq_bind (h0 _ (by omega)) (Runs.eq_bind (h0 _ (by omega)) (Runs.pure ?_))
      rw [sum_range_succ, sum_range_succ, ← h]; ring
    · have : nR = i + 3 := by omega
      rw [e]; subst this
      refine Runs.eq_bind (h0 _ (by omega)) (Runs.eq_bind (h0 _ (by omega))
        (Runs.eq_bind (h0 _ (by omega)) (Runs.pure ?_)))
      rw [sum_range_succ, sum_range_succ, sum_range_succ, ← h]; ring

theorem vmult2dot_spec {pr : α → α → α} {m : Mem α} {y incy a0 a1 x incx nR : Nat} {alpha : α}
    {p0 p1 : Nat → α} {Q : Mem α → Prop}
    (h0 : ∀ k, k < nR → dotTerm pr m a0 x incx k = .ok (p0 k))
    (h1 : ∀ k, k < nR → dotTerm pr m a1 x incx k = .ok (p1 k))
    (hQ : Runs (do
      let m ← incAt y incy 0 ((∑ k ∈ range nR, p0 k) * alpha) m
      incAt y incy 1 ((∑ k ∈ range nR, p1 k) * alpha) m) Q) :
    Runs (vmult2dot pr m y incy a0 a1 x incx alpha nR) Q := by
  unfold vmult2dot
  refine Runs.bind (Runs.forUp (fun i (c : (α × α × α × α) × (α × α × α × α)) =>
      c.1.1 + c.1.2.1 + c.1.2.2.1 + c.1.2.2.2 = ∑ k ∈ range i, p0 k ∧
      c.2.1 + c.2.2.1 + c.2.2.2.1 + c.2.2.2.2 = ∑ k ∈ range i, p1 k ∧ i ≤ nR)
      (by omega) ⟨by simp, by simp, by omega⟩ ?_
      (Q := fun p => p.2.1.1 + p.2.1.2.1 + p.2.1.2.2.1 + p.2.1.2.2.2 = ∑ k ∈ range p.1, p0 k ∧
        p.2.2.1 + p.2.2.2.1 + p.2.2.2.2.1 + p.2.2.2.2.2 = ∑ k ∈ range p.1, p1 k ∧
        p.1 ≤ nR ∧ nR - 3 ≤ p.1) (fun k st h1 _ h => ⟨h.1, h.2.1, h.2.2, h1⟩)) ?_
  · rintro j ⟨⟨c0, c1, c2, c3⟩, c4, c5, c6, c7⟩ - hj ⟨h, h', -⟩
    refine Runs.eq_bind (h0 _ (by omega)) (Runs.eq_bind (h0 _ (by omega)) (Runs.eq_bind (h0 _ (by omega))
      (Runs.eq_bind (h0 _ (by omega)) ?_)))
    refine Runs.eq_bind (h1 _ (by omega)) (Runs.eq_bind (h1 _ (by omega)) (Runs.eq_bind (h1 _ (by omega))
      (Runs.eq_bind (h1 _ (by omega)) (Runs.pure ⟨?_, ?_, by omega⟩))))
    · rw [sum_range_add4, ← h]; ring
    · rw [sum_range_add4, ← h']; ring
  · rintro ⟨i, ⟨c0, c1, c2, c3⟩, c4, c5, c6, c7⟩ ⟨h, h', h1', h2⟩
    simp only at h h' h1' h2 ⊢
    refine Runs.bind (P := fun t : (α × α × α × α) × (α × α × α × α) =>
      (t.1.1 + t.1.2.1) + (t.1.2.2.1 + t.1.2.2.2) = ∑ k ∈ range nR, p0 k ∧
      (t.2.1 + t.2.2.1) + (t.2.2.2.1 + t.2.2.2.2) = ∑ k ∈ range nR, p1 k) ?_
      (fun t ht => by
        obtain ⟨⟨t0, t1, t2, t3⟩, t4, t5, t6, t7⟩ := t
        simp only at ht ⊢
        rw [ht.1, ht.2]; exact hQ)
    have h4 : nR - i = 0 ∨ nR - i = 1 ∨ nR - i = 2 ∨ nR - i = 3 := by omega
    rcases h4 with e | e | e | e
    · have : nR = i := by omega
      rw [e]; subst this
      refine Runs.pure ⟨?_, ?_⟩
      · rw [← h]; ring
      · rw [← h']; ring
    · have : nR = i + 1 := by omega
      rw [e]; subst this
      refine Runs.eq_bind (h0 _ (by omega)) (Runs.eq_bind (h1 _ (by omega)) (Runs.pure ⟨?_, ?_⟩))
      · rw [sum_range_succ, ← h]; ring
      · rw [sum_range_succ, ← h']; ring
    · have : nR = i + 2 := by omega
      rw [e]; subst this
      refine Runs.eq_bind (h0 _ (by omega)) (Runs.eq_bind (h1 _ (by omega)) (Runs.eq_bind
        (h0 _ (by omega)) (Runs.eq_bind (h1 _ (by omega)) (Runs.pure ⟨?_, ?_⟩))))
      · rw [sum_range_succ, sum_range_succ, ← h]; ring
      · rw [sum_range_succ, sum_range_succ, ← h']; ring
    · have : nR = i + 3 := by omega
      rw [e]; subst this
      refine Runs.eq_bind (h0 _ (by omega)) (Runs.eq_bind (h1 _ (by omega)) (Runs.eq_bind
        (h0 _ (by omega)) (Runs.eq_bind (h1 _ (by omega)) (Runs.eq_bind
        (h0 _ (by omega)) (Runs.eq_bind (h1 _ (by omega)) (Runs.pure ⟨?_, ?_⟩))))))
      · rw [sum_range_succ, sum_range_succ, sum_range_succ, ← h]; ring
      · rw [sum_range_succ, sum_range_succ, sum_range_succ, ← h']; ring

theorem vmult4dot_spec {pr : α → α → α} {m : Mem α} {y incy a0 a1 a2 a3 x incx nR : Nat} {alpha : α}
    {p0 p1 p2 p3 : Nat → α} {Q : Mem α → Prop}
    (h0 : ∀ k, k < nR → dotTerm pr m a0 x incx k = .ok (p0 k))
    (h1 : ∀ k, k < nR → dotTerm pr m a1 x incx k = .ok (p1 k))
    (h2 : ∀ k, k < nR → dotTerm pr m a2 x incx k = .ok (p2 k))
    (h3 : ∀ k, k < nR → dotTerm pr m a3 x incx k = .ok (p3 k))
    (hQ : Runs (do
      let m ← incAt y incy 0 ((∑ k ∈ range nR, p0 k) * alpha) m
      let m ← incAt y incy 1 ((∑ k ∈ range nR, p1 k) * alpha) m
      let m ← incAt y incy 2 ((∑ k ∈ range nR, p2 k) * alpha) m
      incAt y incy 3 ((∑ k ∈ range nR, p3 k) * alpha) m) Q) :
    Runs (vmult4dot pr m y incy a0 a1 a2 a3 x incx alpha nR) Q := by
  unfold vmult4dot
  refine Runs.bind (Runs.forUp (fun i (c : (α × α × α × α) × (α × α × α × α)) =>
      c.1.1 + c.1.2.1 = ∑ k ∈ range i, p0 k ∧ c.1.2.2.1 + c.1.2.2.2 = ∑ k ∈ range i, p1 k ∧
      c.2.1 + c.2.2.1 = ∑ k ∈ range i, p2 k ∧ c.2.2.2.1 + c.2.2.2.2 = ∑ k ∈ range i, p3 k ∧ i ≤ nR)
      (by omega) ⟨by simp, by simp, by simp, by simp, by omega⟩ ?_
      (Q := fun p => p.2.1.1 + p.2.1.2.1 = ∑ k ∈ range p.1, p0 k ∧
        p.2.1.2.2.1 + p.2.1.2.2.2 = ∑ k ∈ range p.1, p1 k ∧
        p.2.2.1 + p.2.2.2.1 = ∑ k ∈ range p.1, p2 k ∧
        p.2.2.2.2.1 + p.2.2.2.2.2 = ∑ k ∈ range p.1, p3 k ∧
        p.1 ≤ nR ∧ nR - 1 ≤ p.1)
      (fun k st h1 _ h => ⟨h.1, h.2.1, h.2.2.1, h.2.2.2.1, h.2.2.2.2, h1⟩)) ?_
  · rintro j ⟨⟨c0, c1, c2, c3⟩, c4, c5, c6, c7⟩ - hj ⟨g0, g1, g2, g3, -⟩
    refine Runs.eq_bind (h0 _ (by omega)) (Runs.eq_bind (h0 _ (by omega)) (Runs.eq_bind (h1 _ (by omega))
      (Runs.eq_bind (h1 _ (by omega)) ?_)))
    refine Runs.eq_bind (h2 _ (by omega)) (Runs.eq_bind (h2 _ (by omega)) (Runs.eq_bind (h3 _ (by omega))
      (Runs.eq_bind (h3 _ (by omega)) (Runs.pure ⟨?_, ?_, ?_, ?_, by omega⟩))))
    · rw [sum_range_succ, sum_range_succ, ← g0]; simp only [Nat.add_zero]; ring
    · rw [sum_range_succ, sum_range_succ, ← g1]; simp only [Nat.add_zero]; ring
    · rw [sum_range_succ, sum_range_succ, ← g2]; simp only [Nat.add_zero]; ring
    · rw [sum_range_succ, sum_range_succ, ← g3]; simp only [Nat.add_zero]; ring
  · rintro ⟨i, ⟨c0, c1, c2, c3⟩, c4, c5, c6, c7⟩ ⟨g0, g1, g2, g3, h1', h2'⟩
    simp only at g0 g1 g2 g3 h1' h2' ⊢
    refine Runs.bind (P := fun t : (α × α × α × α) × (α × α × α × α) =>
      t.1.1 + t.1.2.1 = ∑ k ∈ range nR, p0 k ∧ t.1.2.2.1 + t.1.2.2.2 = ∑ k ∈ range nR, p1 k ∧
      t.2.1 + t.2.2.1 = ∑ k ∈ range nR, p2 k ∧ t.2.2.2.1 + t.2.2.2.2 = ∑ k ∈ range nR, p3 k) ?_
      (fun t ht => by
        obtain ⟨⟨t0, t1, t2, t3⟩, t4, t5, t6, t7⟩ := t
        simp only at ht ⊢
        rw [ht.1, ht.2.1, ht.2.2.1, ht.2.2.2]; exact hQ)
    by_cases e : i = nR
    · rw [if_pos e]; subst e
      exact Runs.pure ⟨g0, g1, g2, g3⟩
    · rw [if_neg e]
      have : nR = i + 1 := by omega
      subst this
      refine Runs.eq_bind (h0 _ (by omega)) (Runs.eq_bind (h1 _ (by omega)) (Runs.eq_bind
        (h2 _ (by omega)) (Runs.eq_bind (h3 _ (by omega)) (Runs.pure ⟨?_, ?_, ?_, ?_⟩))))
      · rw [sum_range_succ, ← g0]; ring
      · rw [sum_range_succ, ← g1]; ring
      · rw [sum_range_succ, ← g2]; ring
      · rw [sum_range_succ, ← g3]; ring

end Dot

/-! ## gemv -/

theorem colAt_of_holds {m : Mem α} {A : View} {a : Nat → Nat → α} {S : Set Nat} (h : Holds m A a)
    (hd : Disjoint A.foot S) {j : Nat} (hj : j < A.cols) :
    ColAt m S (A.base + j * A.step) A.rows (fun k => a k j) := by
  intro k hk
  have e : A.base + j * A.step + k = A.at' k j := by unfold View.at'; omega
  rw [e]
  exact ⟨h k j hk hj, fun hm => Set.disjoint_left.mp hd (View.at_mem_foot hk hj) hm⟩

section Gemv

variable [CommRing α]

theorem gemvAxpys_spec (ab : α → α) {m : Mem α} {Y A X : View} {y x : Nat → α} {a : Nat → Nat → α}
    (alpha : α) (hv : Y.isVec) (hw : Y.WF) (hXv : X.isVec) (hr : A.rows = Y.size) (hc : A.cols ≤ X.size)
    (hy : HoldsV m Y y) (hA : Holds m A a) (hx : HoldsV m X x)
    (hdA : Disjoint A.foot Y.foot) (hdX : Disjoint X.foot Y.foot) :
    Runs (gemvAxpys ab m Y.base Y.inc alpha A X A.rows) (fun m' =>
      HoldsV m' Y (fun k => y k + ∑ c ∈ range A.cols, ab (a k c) * (alpha * ab (x c))) ∧
        Frame Y.foot m m') := by
  have ea : ∀ i k, X.vat i + k * X.inc = X.vat (i + k) := by
    intro i k; unfold View.vat; ring
  have ea1 : ∀ i, X.vat i + X.inc = X.vat (i + 1) := by
    intro i; unfold View.vat; ring
  unfold gemvAxpys
  rw [hr]
  refine Runs.bind (Runs.forUp (fun j m' =>
      (HoldsV m' Y (fun k => y k + ∑ c ∈ range j, ab (a k c) * (alpha * ab (x c))) ∧
        Frame Y.foot m m') ∧ j ≤ A.cols) (by omega)
      ⟨⟨hy.congr (by simp), Frame.refl _ _⟩, by omega⟩ ?_
      (Q := fun p => (HoldsV p.2 Y (fun k => y k + ∑ c ∈ range p.1, ab (a k c) * (alpha * ab (x c))) ∧
        Frame Y.foot m p.2) ∧ p.1 ≤ A.cols ∧ A.cols - 3 ≤ p.1)
      (fun k st h1 _ h => ⟨h.1, h.2, h1⟩)) ?_
  · rintro j m' - hj ⟨⟨h, hf⟩, -⟩
    have hA' : Holds m' A a := hA.frame hf hdA
    have hx' : HoldsV m' X x := hx.frame hXv hf hdX
    have cc : ∀ {c}, c < A.cols → ColAt m' Y.foot (A.base + c * A.step) Y.size (fun k => a k c) :=
      fun hc => hr ▸ colAt_of_holds hA' hdA hc
    refine (vmult4axpy_spec ab alpha hv hw h (cc (by omega)) (cc (by omega)) (cc (by omega))
      (cc (by omega)) (hx' j (by omega)) (by rw [ea1]; exact hx' _ (by omega))
      (by rw [ea]; exact hx' _ (by omega)) (by rw [ea]; exact hx' _ (by omega))).mono ?_
    rintro m'' ⟨h2, hf2⟩
    refine ⟨⟨h2.congr (fun k hk => ?_), hf.trans hf2⟩, by omega⟩
    rw [sum_range_add4]
    simp only [Nat.add_zero]
    ring
  · rintro ⟨j, m'⟩ ⟨⟨h, hf⟩, h1, h2⟩
    dsimp only at h hf h1 h2 ⊢
    by_cases e : j = A.cols
    · rw [if_pos e]; subst e
      exact Runs.pure ⟨h, hf⟩
    rw [if_neg e]
    refine Runs.bind (P := fun p : Nat × Mem α =>
      (HoldsV p.2 Y (fun k => y k + ∑ c ∈ range p.1, ab (a k c) * (alpha * ab (x c))) ∧
        Frame Y.foot m p.2) ∧ p.1 ≤ A.cols ∧ A.cols - 1 ≤ p.1) ?_ ?_
    · by_cases e2 : A.cols - j = 3 ∨ A.cols - j = 2
      · rw [if_pos e2]
        have hA' : Holds m' A a := hA.frame hf hdA
        have hx' : HoldsV m' X x := hx.frame hXv hf hdX
        have cc : ∀ {c}, c < A.cols → ColAt m' Y.foot (A.base + c * A.step) Y.size (fun k => a k c) :=
          fun hc => hr ▸ colAt_of_holds hA' hdA hc
        refine Runs.bind (vmult2axpy_spec ab alpha hv hw h (cc (by omega)) (cc (by omega))
          (hx' j (by omega)) (by rw [show X.base + j * X.inc = X.vat j from rfl, ea1]; exact hx' _ (by omega))) ?_
        rintro m'' ⟨h3, hf2⟩
        refine Runs.pure ⟨⟨h3.congr (fun k hk => ?_), hf.trans hf2⟩, by dsimp only; omega,
          by dsimp only; omega⟩
        rw [sum_range_succ, sum_range_succ]
        simp only [Nat.add_zero]
        ring
      · rw [if_neg e2]
        exact Runs.pure ⟨⟨h, hf⟩, h1, by dsimp only; omega⟩
    · rintro ⟨j, m'⟩ ⟨⟨h, hf⟩, h1, h2⟩
      dsimp only at h hf h1 h2 ⊢
      by_cases e3 : j < A.cols
      · rw [if_pos e3]
        have hA' : Holds m' A a := hA.frame hf hdA
        have hx' : HoldsV m' X x := hx.frame hXv hf hdX
        refine (vmult1axpy_spec ab alpha hv hw h (hr ▸ colAt_of_holds hA' hdA e3)
          (hx' j (by omega))).mono ?_
        rintro m'' ⟨h3, hf2⟩
        refine ⟨h3.congr (fun k hk => ?_), hf.trans hf2⟩
        have : A.cols = j + 1 := by omega
        rw [this, sum_range_succ]
        ring
      · rw [if_neg e3]
        have : j = A.cols := by omega
        subst this
        exact Runs.pure ⟨h, hf⟩

theorem gemvDots_spec (pr : α → α → α) {m : Mem α} {Y A X : View} {y x : Nat → α} {a : Nat → Nat → α}
    (alpha : α) (hv : Y.isVec) (hw : Y.WF) (hXv : X.isVec) (hc : A.cols = Y.size) (hr : A.rows ≤ X.size)
    (hy : HoldsV m Y y) (hA : Holds m A a) (hx : HoldsV m X x)
    (hdA : Disjoint A.foot Y.foot) (hdX : Disjoint X.foot Y.foot) :
    Runs (gemvDots pr m Y alpha A X) (fun m' =>
      HoldsV m' Y (fun l => y l + (∑ k ∈ range A.rows, pr (a k l) (x k)) * alpha) ∧
        Frame Y.foot m m') := by
  have ea : ∀ i k, Y.base + i * Y.inc + k * Y.inc = Y.vat (i + k) := by
    intro i k; unfold View.vat; ring
  have dt : ∀ {m' : Mem α}, Frame Y.foot m m' → ∀ {c}, c < A.cols → ∀ k, k < A.rows →
      dotTerm pr m' (A.base + c * A.step) X.base X.inc k = .ok (pr (a k c) (x k)) := by
    intro m' hf c hc k hk
    exact dotTerm_eq pr (colAt_of_holds (hA.frame hf hdA) hdA hc k hk).1
      ((hx.frame hXv hf hdX) k (by omega))
  set g := (fun l => y l + (∑ k ∈ range A.rows, pr (a k l) (x k)) * alpha) with hg
  unfold gemvDots
  refine Runs.bind (Runs.forUp (fun i m' => UpdV m Y y g (fun l => l < i) m' ∧ i ≤ A.cols) (by omega)
      ⟨UpdV.init_lt hy _, by omega⟩ ?_
      (Q := fun p => UpdV m Y y g (fun l => l < p.1) p.2 ∧ p.1 ≤ A.cols ∧ A.cols - 3 ≤ p.1)
      (fun k st h1 _ h => ⟨h.1, h.2, h1⟩)) ?_
  · rintro i m' - hi ⟨h, -⟩
    refine vmult4dot_spec (dt h.frame (by omega)) (dt h.frame (by omega)) (dt h.frame (by omega))
      (dt h.frame (by omega)) ?_
    refine Runs.bind (incAt_lt (k := i) h hv hw (by omega) (ea _ _) rfl) (fun m' h => ?_)
    refine Runs.bind (incAt_lt (k := i + 1) h hv hw (by omega) (ea _ _) rfl) (fun m' h => ?_)
    refine Runs.bind (incAt_lt (k := i + 2) h hv hw (by omega) (ea _ _) rfl) (fun m' h => ?_)
    exact (incAt_lt (k := i + 3) h hv hw (by omega) (ea _ _) rfl).mono (fun m' h => ⟨h, by omega⟩)
  · rintro ⟨i, m'⟩ ⟨h, h1, h2⟩
    dsimp only at h h1 h2 ⊢
    by_cases e : i = A.cols
    · rw [if_pos e]
      exact Runs.pure ⟨h.done (by omega), h.frame⟩
    rw [if_neg e]
    refine Runs.bind (P := fun p : Nat × Mem α => UpdV m Y y g (fun l => l < p.1) p.2 ∧
      p.1 ≤ A.cols ∧ A.cols - 1 ≤ p.1) ?_ ?_
    · by_cases e2 : A.cols - i = 3 ∨ A.cols - i = 2
      · rw [if_pos e2]
        refine Runs.bind (vmult2dot_spec (Q := UpdV m Y y g (fun l => l < i + 2))
          (dt h.frame (by omega)) (dt h.frame (by omega)) ?_) ?_
        · refine Runs.bind (incAt_lt (k := i) h hv hw (by omega) (ea _ _) rfl) (fun m' h => ?_)
          exact incAt_lt (k := i + 1) h hv hw (by omega) (ea _ _) rfl
        · intro m' h
          exact Runs.pure ⟨h, by dsimp only; omega, by dsimp only; omega⟩
      · rw [if_neg e2]
        exact Runs.pure ⟨h, h1, by dsimp only; omega⟩
    · rintro ⟨i, m'⟩ ⟨h, h1, h2⟩
      dsimp only at h h1 h2 ⊢
      by_cases e3 : i < A.cols
      · rw [if_pos e3]
        refine vmult1dot_spec (dt h.frame (by omega)) ?_
        exact (incAt_lt (k := i) h hv hw (by omega) (by unfold View.vat; ring) rfl).mono
          (fun m' h => ⟨h.done (by omega), h.frame⟩)
      · rw [if_neg e3]
        exact Runs.pure ⟨h.done (by omega), h.frame⟩

/-- Element `(i, j)` of `op(A)`. -/
def opA (trans : Bool) (a : Nat → Nat → α) (i j : Nat) : α := if trans then a j i else a i j

/-- Sizes of `op(A)`. -/
def View.opRows (A : View) (trans : Bool) : Nat := if trans then A.cols else A.rows
/-- Sizes of `op(A)`. -/
def View.opCols (A : View) (trans : Bool) : Nat := if trans then A.rows else A.cols

theorem gemvUnb_spec (ab : α → α) {m : Mem α} {Y A X : View} {y x : Nat → α} {a : Nat → Nat → α}
    (alpha : α) {fl : Flags} (hfl : fl.absA = false)
    (hv : Y.isVec) (hw : Y.WF) (hXv : X.isVec) (hY : A.opRows fl.transA = Y.size)
    (hX : A.opCols fl.transA = X.size)
    (hy : HoldsV m Y y) (hA : Holds m A a) (hx : HoldsV m X x)
    (hdA : Disjoint A.foot Y.foot) (hdX : Disjoint X.foot Y.foot) :
    Runs (gemvUnb ab m Y alpha A X fl) (fun m' =>
      HoldsV m' Y (fun i => y i + alpha * ∑ j ∈ range X.size, opA fl.transA a i j * x j) ∧
        Frame Y.foot m m') := by
  unfold gemvUnb
  rw [if_neg (by simp [hfl])]
  cases ht : fl.transA with
  | true =>
    simp only [ht, View.opRows, View.opCols, if_true] at hY hX
    refine (gemvDots_spec (fun a x => a * x) alpha hv hw hXv hY (by omega) hy hA hx hdA hdX).mono ?_
    rintro m' ⟨h, hf⟩
    refine ⟨h.congr (fun k _ => ?_), hf⟩
    rw [← hX]
    simp only [opA, if_true]
    ring
  | false =>
    simp only [ht, View.opRows, View.opCols, if_false, Bool.false_eq_true] at hY hX
    have e0 : Y.base + 0 * Y.inc = Y.base := by omega
    simp only [e0, if_false, Bool.false_eq_true]
    refine (gemvAxpys_spec (fun a => a) alpha hv hw hXv hY (by omega) hy hA hx hdA hdX).mono ?_
    rintro m' ⟨h, hf⟩
    refine ⟨h.congr (fun k _ => ?_), hf⟩
    rw [← hX]
    simp only [opA, if_false, Bool.false_eq_true]
    rw [Finset.mul_sum]
    congr 1
    exact Finset.sum_congr rfl (fun c _ => by ring)

omit [CommRing α] in
/-- Putting the two parts of a vector together. -/
theorem _root_.Armas.HoldsV.join {m : Mem α} {Y : View} {f g : Nat → α} (hv : Y.isVec) {n1 n2 : Nat}
    (hn : n1 + n2 = Y.size) (h1 : HoldsV m (Y.subvec 0 n1) f) (h2 : HoldsV m (Y.subvec n1 n2) g) :
    HoldsV m Y (fun k => if k < n1 then f k else g (k - n1)) := by
  intro k hk
  by_cases h : k < n1
  · have := h1 k (by rw [View.subvec_size]; exact h)
    rw [View.subvec_vat hv 0 n1 h, Nat.zero_add] at this
    simp only [h, if_true]; exact this
  · have := h2 (k - n1) (by rw [View.subvec_size]; omega)
    rw [View.subvec_vat hv n1 n2 (by omega)] at this
    simp only [h, if_false]
    rw [← this]; congr 2; omega

theorem vecPartTop_eq {x : View} {nb : Nat} (h : nb ≤ x.size) :
    vecPartTop x nb = (x.subvec 0 nb, x.subvec nb (x.size - nb)) := by
  unfold vecPartTop; rw [if_neg (by omega)]

omit [CommRing α] in
theorem opA_sub (t : Bool) (a : Nat → Nat → α) (r c i j : Nat) :
    opA t (fun i j => a ((if t then c else r) + i) ((if t then r else c) + j)) i j
      = opA t a (r + i) (c + j) := by cases t <;> simp [opA]

theorem gemvRec_spec (ab : α → α) {minv : Nat} (hmin : minv ≠ 1) (alpha : α) {fl : Flags}
    (hfl : fl.absA = false) :
    ∀ (fuel : Nat) {m : Mem α} {Y A X : View} {y x : Nat → α} {a : Nat → Nat → α},
      Y.size < fuel → Y.isVec → Y.WF → X.isVec → A.opRows fl.transA = Y.size →
      A.opCols fl.transA = X.size → HoldsV m Y y → Holds m A a → HoldsV m X x →
      Disjoint A.foot Y.foot → Disjoint X.foot Y.foot →
      Runs (gemvRec ab minv alpha fl fuel m Y A X) (fun m' =>
        HoldsV m' Y (fun i => y i + alpha * ∑ j ∈ range X.size, opA fl.transA a i j * x j) ∧
          Frame Y.foot m m') := by
  intro fuel
  induction fuel with
  | zero => intro m Y A X y x a h; omega
  | succ fuel ih =>
    intro m Y A X y x a hf hv hw hXv hY hX hy hA hx hdA hdX
    rw [gemvRec]
    by_cases c : minv = 0 ∨ Y.size < minv ∨ X.size < minv
    · rw [if_pos c]
      exact gemvUnb_spec ab alpha hfl hv hw hXv hY hX hy hA hx hdA hdX
    rw [if_neg c]
    obtain ⟨n1, hn1⟩ : ∃ n, n = Y.size / 2 := ⟨_, rfl⟩
    obtain ⟨n2, hn2⟩ : ∃ n, n = Y.size - n1 := ⟨_, rfl⟩
    obtain ⟨p1, hp1⟩ : ∃ n, n = X.size / 2 := ⟨_, rfl⟩
    obtain ⟨p2, hp2⟩ : ∃ n, n = X.size - p1 := ⟨_, rfl⟩
    have ey : vecPartTop Y (Y.size / 2) = (Y.subvec 0 n1, Y.subvec n1 n2) := by
      rw [vecPartTop_eq (by omega), ← hn1, ← hn2]
    have ex : vecPartTop X (X.size / 2) = (X.subvec 0 p1, X.subvec p1 p2) := by
      rw [vecPartTop_eq (by omega), ← hp1, ← hp2]
    simp only [ey, ex]
    -- frames
    have dT : Disjoint (Y.subvec n1 n2).foot (Y.subvec 0 n1).foot :=
      View.subvec_disj hv hw (by omega) (by omega) (by omega)
    have fT : (Y.subvec 0 n1).foot ⊆ Y.foot := View.subvec_foot hv (by omega)
    have fB : (Y.subvec n1 n2).foot ⊆ Y.foot := View.subvec_foot hv (by omega)
    have gT : (X.subvec 0 p1).foot ⊆ X.foot := View.subvec_foot hXv (by omega)
    have gB : (X.subvec p1 p2).foot ⊆ X.foot := View.subvec_foot hXv (by omega)
    -- one block update
    have blk : ∀ {m' : Mem α} {z : Nat → α} (r nr c nc : Nat), r + nr ≤ Y.size → c + nc ≤ X.size →
        nr < fuel → Frame Y.foot m m' → HoldsV m' (Y.subvec r nr) z →
        Runs (gemvRec ab minv alpha fl fuel m' (Y.subvec r nr)
          (A.sub (if fl.transA then c else r) (if fl.transA then r else c)
            (if fl.transA then nc else nr) (if fl.transA then nr else nc)) (X.subvec c nc))
          (fun m'' => HoldsV m'' (Y.subvec r nr)
            (fun i => z i + alpha * ∑ j ∈ range nc, opA fl.transA a (r + i) (c + j) * x (c + j)) ∧
            Frame (Y.subvec r nr).foot m' m'') := by
      intro m' z r nr c nc hr hc hfu hfr hz
      have hrc : (if fl.transA then c else r) + (if fl.transA then nc else nr) ≤ A.rows ∧
          (if fl.transA then r else c) + (if fl.transA then nr else nc) ≤ A.cols := by
        revert hY hX
        unfold View.opRows View.opCols
        cases fl.transA <;> simp <;> omega
      refine (ih (by rw [View.subvec_size]; exact hfu) (View.subvec_isVec _ _ _) (hw.subvec hv hr)
        (View.subvec_isVec _ _ _) ?_ ?_ hz
        ((hA.frame hfr hdA).sub hrc.1 hrc.2) ((hx.frame hXv hfr hdX).subvec hXv hc)
        (hdA.mono (View.sub_foot hrc.1 hrc.2) (View.subvec_foot hv hr))
        (hdX.mono (View.subvec_foot hXv hc) (View.subvec_foot hv hr))).mono ?_
      · rw [View.subvec_size]; unfold View.opRows; cases fl.transA <;> simp
      · rw [View.subvec_size]; unfold View.opCols; cases fl.transA <;> simp
      · rintro m'' ⟨h, hf⟩
        refine ⟨h.congr (fun i hi => ?_), hf⟩
        rw [View.subvec_size]
        simp only [opA_sub]
    have hyT : HoldsV m (Y.subvec 0 n1) (fun k => y (0 + k)) := hy.subvec hv (by omega)
    have hyB : HoldsV m (Y.subvec n1 n2) (fun k => y (n1 + k)) := hy.subvec hv (by omega)
    have fin : ∀ {m1 m2 : Mem α}, Frame Y.foot m m2 →
        HoldsV m1 (Y.subvec 0 n1) (fun i => y (0 + i) +
          alpha * ∑ j ∈ range p1, opA fl.transA a (0 + i) (0 + j) * x (0 + j) +
          alpha * ∑ j ∈ range p2, opA fl.transA a (0 + i) (p1 + j) * x (p1 + j)) →
        Frame (Y.subvec n1 n2).foot m1 m2 →
        HoldsV m2 (Y.subvec n1 n2) (fun i => y (n1 + i) +
          alpha * ∑ j ∈ range p1, opA fl.transA a (n1 + i) (0 + j) * x (0 + j) +
          alpha * ∑ j ∈ range p2, opA fl.transA a (n1 + i) (p1 + j) * x (p1 + j)) →
        HoldsV m2 Y (fun i => y i + alpha * ∑ j ∈ range X.size, opA fl.transA a i j * x j) ∧
          Frame Y.foot m m2 := by
      intro m1 m2 hfr h1 hfr2 h2
      have h1' := h1.frame (View.subvec_isVec _ _ _) hfr2 dT.symm
      refine ⟨(HoldsV.join hv (by omega) h1' h2).congr (fun k hk => ?_), hfr⟩
      have es : ∀ i, ∑ j ∈ range X.size, opA fl.transA a i j * x j
          = ∑ j ∈ range p1, opA fl.transA a i (0 + j) * x (0 + j)
          + ∑ j ∈ range p2, opA fl.transA a i (p1 + j) * x (p1 + j) := by
        intro i
        rw [sum_split _ (show p1 ≤ X.size by omega), ← hp2]; simp
      by_cases hk1 : k < n1
      · simp only [hk1, if_true, Nat.zero_add, es]; ring
      · have : n1 + (k - n1) = k := by omega
        simp only [hk1, if_false, es, this]; ring
    have er : A.rows = if fl.transA then X.size else Y.size := by
      revert hY hX; unfold View.opRows View.opCols; cases fl.transA <;> simp <;> omega
    have ec : A.cols = if fl.transA then Y.size else X.size := by
      revert hY hX; unfold View.opRows View.opCols; cases fl.transA <;> simp <;> omega
    cases ht : fl.transA with
    | true =>
      simp only [ht, if_true, Bool.false_eq_true, if_false] at er ec blk fin ⊢
      simp only [partition2x2, er, ec, ← hn1, ← hn2, ← hp1, ← hp2]
      refine Runs.bind (blk 0 n1 0 p1 (by omega) (by omega) (by omega) (Frame.refl _ _) hyT) ?_
      rintro m1 ⟨h1, f1⟩
      refine Runs.bind (P := fun m2 => HoldsV m2 (Y.subvec 0 n1) (fun i => y (0 + i) +
          alpha * ∑ j ∈ range p1, opA true a (0 + i) (0 + j) * x (0 + j) +
          alpha * ∑ j ∈ range p2, opA true a (0 + i) (p1 + j) * x (p1 + j)) ∧
        HoldsV m2 (Y.subvec n1 n2) (fun i => y (n1 + i) +
          alpha * ∑ j ∈ range p1, opA true a (n1 + i) (0 + j) * x (0 + j)) ∧ Frame Y.foot m m2)
        (Runs.bind (blk 0 n1 p1 p2 (by omega) (by omega) (by omega) (f1.mono fT) h1) ?_) ?_
      · rintro m2 ⟨h2, f2⟩
        have f12 : Frame Y.foot m m2 := (f1.mono fT).trans (f2.mono fT)
        have hb := (hyB.frame (View.subvec_isVec _ _ _) f1 dT).frame (View.subvec_isVec _ _ _) f2 dT
        refine (blk n1 n2 0 p1 (by omega) (by omega) (by omega) f12 hb).mono ?_
        rintro m3 ⟨h3, f3⟩
        exact ⟨h2.frame (View.subvec_isVec _ _ _) f3 dT.symm, h3, f12.trans (f3.mono fB)⟩
      · rintro m3 ⟨h2, h3, f3⟩
        refine (blk n1 n2 p1 p2 (by omega) (by omega) (by omega) f3 h3).mono ?_
        rintro m4 ⟨h4, f4⟩
        exact fin (f3.trans (f4.mono fB)) h2 f4 h4
    | false =>
      simp only [ht, if_true, Bool.false_eq_true, if_false] at er ec blk fin ⊢
      simp only [partition2x2, er, ec, ← hn1, ← hn2, ← hp1, ← hp2]
      refine Runs.bind (blk 0 n1 0 p1 (by omega) (by omega) (by omega) (Frame.refl _ _) hyT) ?_
      rintro m1 ⟨h1, f1⟩
      refine Runs.bind (P := fun m2 => HoldsV m2 (Y.subvec 0 n1) (fun i => y (0 + i) +
          alpha * ∑ j ∈ range p1, opA false a (0 + i) (0 + j) * x (0 + j) +
          alpha * ∑ j ∈ range p2, opA false a (0 + i) (p1 + j) * x (p1 + j)) ∧
        HoldsV m2 (Y.subvec n1 n2) (fun i => y (n1 + i) +
          alpha * ∑ j ∈ range p1, opA false a (n1 + i) (0 + j) * x (0 + j)) ∧ Frame Y.foot m m2)
        (Runs.bind (blk 0 n1 p1 p2 (by omega) (by omega) (by omega) (f1.mono fT) h1) ?_) ?_
      · rintro m2 ⟨h2, f2⟩
        have f12 : Frame Y.foot m m2 := (f1.mono fT).trans (f2.mono fT)
        have hb := (hyB.frame (View.subvec_isVec _ _ _) f1 dT).frame (View.subvec_isVec _ _ _) f2 dT
        refine (blk n1 n2 0 p1 (by omega) (by omega) (by omega) f12 hb).mono ?_
        rintro m3 ⟨h3, f3⟩
        exact ⟨h2.frame (View.subvec_isVec _ _ _) f3 dT.symm, h3, f12.trans (f3.mono fB)⟩
      · rintro m3 ⟨h2, h3, f3⟩
        refine (blk n1 n2 p1 p2 (by omega) (by omega) (by omega) f3 h3).mono ?_
        rintro m4 ⟨h4, f4⟩
        exact fin (f3.trans (f4.mono fB)) h2 f4 h4

/-- Threshold 1: the recursion splits a vector of length one into a part of length zero and the
same vector again, forever. -/
theorem gemvRec_diverges (ab : α → α) (alpha : α) {fl : Flags} (hfl : fl.absA = false) :
    ∀ (fuel : Nat) {m : Mem α} {Y A X : View} {y x : Nat → α} {a : Nat → Nat → α},
      Y.isVec → Y.WF → X.isVec → A.rows = 1 → A.cols = 1 →
      Y.size = 1 → X.size = 1 → HoldsV m Y y → Holds m A a → HoldsV m X x →
      Disjoint A.foot Y.foot → Disjoint X.foot Y.foot →
      gemvRec ab 1 alpha fl fuel m Y A X = .diverge := by
  intro fuel
  induction fuel with
  | zero => intros; rfl
  | succ fuel ih =>
    intro m Y A X y x a hv hw hXv hr hc h0 h1 hy hA hx hdA hdX
    rw [gemvRec, if_neg (by omega)]
    cases fuel with
    | zero => rfl
    | succ fuel =>
    have ey : vecPartTop Y (Y.size / 2) = (Y.subvec 0 0, Y.subvec 0 1) := by
      rw [vecPartTop_eq (by omega), h0]
    have ex : vecPartTop X (X.size / 2) = (X.subvec 0 0, X.subvec 0 1) := by
      rw [vecPartTop_eq (by omega), h1]
    -- a call with an empty operand ends and changes nothing outside of `Y`
    have blk : ∀ {m' : Mem α} {ny nx r c : Nat}, ny ≤ 1 → nx ≤ 1 → (ny = 0 ∨ nx = 0) → r ≤ 1 → c ≤ 1 →
        (fl.transA = true → r = nx ∧ c = ny) → (fl.transA = false → r = ny ∧ c = nx) →
        Frame Y.foot m m' → (∃ z, HoldsV m' Y z) →
        ∃ m'', gemvRec ab 1 alpha fl (fuel + 1) m' (Y.subvec 0 ny) (A.sub 0 0 r c) (X.subvec 0 nx)
          = .ok m'' ∧ Frame Y.foot m m'' ∧ ∃ z, HoldsV m'' Y z := by
      intro m' ny nx r c h2 h3 h4 h5 h6 h7 h8 hf ⟨z, hz⟩
      have hd1 : Disjoint (A.sub 0 0 r c).foot (Y.subvec 0 ny).foot :=
        hdA.mono (View.sub_foot (by omega) (by omega)) (View.subvec_foot hv (by omega))
      have hd2 : Disjoint (X.subvec 0 nx).foot (Y.subvec 0 ny).foot :=
        hdX.mono (View.subvec_foot hXv (by omega)) (View.subvec_foot hv (by omega))
      have hrun := gemvUnb_spec ab alpha hfl (m := m') (Y := Y.subvec 0 ny) (A := A.sub 0 0 r c)
        (X := X.subvec 0 nx) (View.subvec_isVec _ _ _) (hw.subvec hv (by omega))
        (View.subvec_isVec _ _ _)
        (by rw [View.subvec_size]; unfold View.opRows; cases ht : fl.transA <;> simp <;>
              simp [ht] at h7 h8 <;> omega)
        (by rw [View.subvec_size]; unfold View.opCols; cases ht : fl.transA <;> simp <;>
              simp [ht] at h7 h8 <;> omega)
        (hz.subvec hv (by omega)) ((hA.frame hf hdA).sub (by omega) (by omega))
        ((hx.frame hXv hf hdX).subvec hXv (by omega)) hd1 hd2
      obtain ⟨m'', e, h9, hf2⟩ := hrun
      refine ⟨m'', ?_, hf.trans (hf2.mono (View.subvec_foot hv (by omega))), ?_⟩
      · rw [gemvRec, if_pos (by simp only [View.subvec_size]; omega), e]
      · exact ⟨_, hz.patch hv hw (by omega) h9 hf2⟩
    have key : ∀ {m' : Mem α}, Frame Y.foot m m' → (∃ z, HoldsV m' Y z) →
        gemvRec ab 1 alpha fl (fuel + 1) m' (Y.subvec 0 1) (A.sub 0 0 1 1) (X.subvec 0 1)
          = .diverge := by
      intro m' hf ⟨z, hz⟩
      exact ih (View.subvec_isVec _ _ _) (hw.subvec hv (by omega)) (View.subvec_isVec _ _ _) rfl rfl
        (View.subvec_size _ _ _) (View.subvec_size _ _ _) (hz.subvec hv (by omega))
        ((hA.frame hf hdA).sub (by omega) (by omega)) ((hx.frame hXv hf hdX).subvec hXv (by omega))
        (hdA.mono (View.sub_foot (by omega) (by omega)) (View.subvec_foot hv (by omega)))
        (hdX.mono (View.subvec_foot hXv (by omega)) (View.subvec_foot hv (by omega)))
    have em : ∀ n : Nat, A.base + 0 * A.step + n = A.base + n := by intro n; omega
    simp only [ey, ex, partition2x2, hr, hc, Nat.reduceDiv, Nat.sub_zero]
    obtain ⟨m1, e1, f1, z1⟩ := blk (m' := m) (ny := 0) (nx := 0) (r := 0) (c := 0) (by omega)
      (by omega) (by omega) (by omega) (by omega) (by omega) (by omega) (Frame.refl _ _) ⟨y, hy⟩
    rw [e1]
    cases ht : fl.transA with
    | true =>
      obtain ⟨m2, e2, f2, z2⟩ := blk (m' := m1) (ny := 0) (nx := 1) (r := 1) (c := 0) (by omega)
        (by omega) (by omega) (by omega) (by omega) (by simp) (by simp [ht]) f1 z1
      obtain ⟨m3, e3, f3, z3⟩ := blk (m' := m2) (ny := 1) (nx := 0) (r := 0) (c := 1) (by omega)
        (by omega) (by omega) (by omega) (by omega) (by simp) (by simp [ht]) f2 z2
      simp only [Res.ok_bind, if_true, e2, e3, key f3 z3]
    | false =>
      obtain ⟨m2, e2, f2, z2⟩ := blk (m' := m1) (ny := 0) (nx := 1) (r := 0) (c := 1) (by omega)
        (by omega) (by omega) (by omega) (by omega) (by simp [ht]) (by simp) f1 z1
      obtain ⟨m3, e3, f3, z3⟩ := blk (m' := m2) (ny := 1) (nx := 0) (r := 1) (c := 0) (by omega)
        (by omega) (by omega) (by omega) (by omega) (by simp [ht]) (by simp) f2 z2
      simp only [Res.ok_bind, if_false, Bool.false_eq_true, e2, e3, key f3 z3]

/-- The conditional scaling of the target vector. -/
theorem scaleUnsafe_vec [DecidableEq α] {m : Mem α} {X : View} {x : Nat → α} (beta : α)
    (hv : X.isVec) (hw : X.WF) (hx : HoldsV m X x) :
    Runs (if beta ≠ 1 then scaleUnsafe m X beta else pure m)
      (fun m' => HoldsV m' X (fun k => beta * x k) ∧ Frame X.foot m m') := by
  by_cases hb : beta = 1
  · rw [if_neg (by simp [hb])]
    exact Runs.pure ⟨hx.congr (by simp [hb]), Frame.refl _ _⟩
  · rw [if_pos hb]
    unfold scaleUnsafe
    rw [if_pos hv]
    refine (vecScale_spec beta hv hw (le_refl _) hx).mono ?_
    rintro m' ⟨h, hf⟩
    exact ⟨h.congr (fun k hk => by simp [hk, mul_comm]), hf⟩

end Gemv

end Armas
