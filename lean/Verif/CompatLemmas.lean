import Verif.Compat

/-!
# Lemmas on the BLAS compatibility layer
-/

namespace Armas

/-- Offset of element `k` of a BLAS vector: with a negative increment the elements are stored backwards. -/
def blasAt (n : Nat) (inc : Int) (k : Nat) : Nat := (if inc < 0 then n - 1 - k else k) * inc.natAbs

/-- The array at `base` with increment `inc` holds the vector `v` of length `n`. -/
def BVec {α : Type} (m : Mem α) (base n : Nat) (inc : Int) (v : Nat → α) : Prop := ∀ k, k < n → m (base + blasAt n inc k) = some (v k)

/-- The cells of a BLAS vector. -/
def bcells (base n : Nat) (inc : Int) : Set Nat := {p | ∃ k, k < n ∧ p = base + k * inc.natAbs}

theorem cvec_vat (n inc base k : Nat) : (cvec n inc base).vat k = base + k * inc := by
  unfold cvec View.vat View.inc
  by_cases h : inc = 1
  · subst h; simp; rintro rfl; simp
  · rw [if_neg h]; simp

theorem cvec_size (n inc base : Nat) : (cvec n inc base).size = n := by
  unfold cvec View.size
  split <;> simp

theorem cvec_isVec (n inc base : Nat) : (cvec n inc base).isVec := by
  unfold cvec View.isVec
  split <;> simp

theorem cvec_WF {n inc base : Nat} (h : inc ≠ 0) : (cvec n inc base).WF := by
  unfold cvec View.WF
  split
  · exact Or.inr (le_refl _)
  · exact Or.inl (by simp; omega)

theorem cvec_foot (n : Nat) (inc : Int) (base : Nat) : (cvec n inc.natAbs base).foot = bcells base n inc := by
  ext p
  unfold bcells cvec View.foot
  by_cases h : inc.natAbs = 1
  · rw [if_pos h]
    constructor
    · rintro ⟨i, j, hi, hj, rfl⟩
      simp only [View.at'] at *
      exact ⟨i, hi, by rw [h, show j = 0 by omega]; ring⟩
    · rintro ⟨k, hk, rfl⟩
      exact ⟨k, 0, hk, by simp, by simp [View.at', h]⟩
  · rw [if_neg h]
    constructor
    · rintro ⟨i, j, hi, hj, rfl⟩
      simp only [View.at'] at *
      exact ⟨j, hj, by rw [show i = 0 by omega]; ring⟩
    · rintro ⟨k, hk, rfl⟩
      exact ⟨0, k, by simp, hk, by simp [View.at']⟩

/-- The index used by the code for element `k`. -/
def widx (n : Nat) (inc : Int) (k : Nat) : Nat := if inc < 0 then n - 1 - k else k

theorem widx_lt {n : Nat} {inc : Int} {k : Nat} (h : k < n) : widx n inc k < n := by
  unfold widx; split <;> omega

theorem widx_widx {n : Nat} {inc : Int} {k : Nat} (h : k < n) : widx n inc (widx n inc k) = k := by
  unfold widx; split <;> omega

theorem blasAt_widx (n : Nat) (inc : Int) (k : Nat) : blasAt n inc k = widx n inc k * inc.natAbs := rfl

theorem blasAt_inj {n : Nat} {inc : Int} (h : inc ≠ 0) {k l : Nat} (hk : k < n) (hl : l < n) (e : blasAt n inc k = blasAt n inc l) : k = l := by
  rw [blasAt_widx, blasAt_widx] at e
  have := Nat.eq_of_mul_eq_mul_right (Int.natAbs_pos.mpr h) e
  rw [← widx_widx (inc := inc) hk, this, widx_widx hl]

theorem blasAt_mem {base n : Nat} {inc : Int} {k : Nat} (hk : k < n) : base + blasAt n inc k ∈ bcells base n inc :=
  ⟨widx n inc k, widx_lt hk, rfl⟩

theorem BVec.toV {α : Type} {m : Mem α} {base n : Nat} {inc : Int} {v : Nat → α} (h : BVec m base n inc v) :
    HoldsV m (cvec n inc.natAbs base) (fun k => v (widx n inc k)) := by
  intro k hk
  rw [cvec_size] at hk
  have := h (widx n inc k) (widx_lt hk)
  rwa [blasAt_widx, widx_widx hk, ← cvec_vat n] at this

theorem BVec.ofV {α : Type} {m : Mem α} {base n : Nat} {inc : Int} {v : Nat → α} (h : HoldsV m (cvec n inc.natAbs base) v) :
    BVec m base n inc (fun k => v (widx n inc k)) := by
  intro k hk
  have := h (widx n inc k) (by rw [cvec_size]; exact widx_lt hk)
  rwa [cvec_vat] at this

theorem BVec.congr {α : Type} {m : Mem α} {base n : Nat} {inc : Int} {v w : Nat → α} (h : BVec m base n inc v) (e : ∀ k, k < n → v k = w k) :
    BVec m base n inc w := fun k hk => by rw [h k hk, e k hk]

theorem BVec.frame {α : Type} {m m' : Mem α} {base n : Nat} {inc : Int} {v : Nat → α} {S : Set Nat} (h : BVec m base n inc v) (f : Frame S m m')
    (d : Disjoint (bcells base n inc) S) : BVec m' base n inc v := fun k hk => by
  rw [f _ (Set.disjoint_left.mp d (blasAt_mem hk))]; exact h k hk

/-- Writing element `k`. -/
theorem BVec.set {α : Type} {m : Mem α} {base n : Nat} {inc : Int} {v : Nat → α} (h : BVec m base n inc v) (hi : inc ≠ 0) {k : Nat} (hk : k < n) (x : α) :
    BVec (m.set (base + blasAt n inc k) x) base n inc (fun l => if l = k then x else v l) := by
  intro l hl
  unfold Mem.set
  by_cases e : l = k
  · subst e; simp
  · rw [if_neg (fun h' => e (blasAt_inj hi hl hk (by omega)))]
    exact (h l hl).trans (congrArg some (if_neg e).symm)

/-- The loop in both directions visits the elements `0, 1, ... n-1` of both BLAS vectors. -/
theorem twoWay_spec {σ : Type} (I : Nat → σ → Prop) {n : Nat} {incx incy : Int} {body : Nat → Nat → σ → Res σ} {st : σ} {Q : σ → Prop}
    (h0 : I 0 st) (hs : ∀ k st, k < n → I k st → Runs (body (widx n incx k) (widx n incy k) st) (I (k + 1)))
    (hQ : ∀ st, I n st → Q st) : Runs (twoWay n incx incy body st) Q := by
  unfold twoWay
  dsimp only
  set ix : Int := if incx < 0 then (n : Int) - 1 else 0 with hix
  set iy : Int := if incy < 0 then (n : Int) - 1 else 0 with hiy
  set nx : Int := if ix = 0 then 1 else -1 with hnx
  set ny : Int := if iy = 0 then 1 else -1 with hny
  have ex : ∀ k, k < n → ix + k * nx = widx n incx k := by
    intro k hk
    rw [hnx, hix]
    unfold widx
    by_cases c : incx < 0
    · simp only [if_pos c]
      by_cases c1 : (n : Int) - 1 = 0
      · rw [if_pos c1]; omega
      · rw [if_neg c1]; omega
    · simp [if_neg c]
  have ey : ∀ k, k < n → iy + k * ny = widx n incy k := by
    intro k hk
    rw [hny, hiy]
    unfold widx
    by_cases c : incy < 0
    · simp only [if_pos c]
      by_cases c1 : (n : Int) - 1 = 0
      · rw [if_pos c1]; omega
      · rw [if_neg c1]; omega
    · simp [if_neg c]
  refine (Runs.forUp1 (fun k (s : Int × Int × σ) => s.1 = ix + k * nx ∧ s.2.1 = iy + k * ny ∧ I k s.2.2) (Nat.zero_le n) ⟨by simp, by simp, h0⟩ ?_
    (Q := fun s => Q s.2.2.2) fun s hs => hQ _ hs.2.2).bind ?_
  · rintro k ⟨a, b, s⟩ _ hk ⟨ha, hb, hI⟩
    dsimp only at ha hb hI ⊢
    rw [ha, hb, ex k hk, ey k hk, if_neg (by omega)]
    refine (hs k s hk hI).bind fun s' hs' => Runs.pure ⟨?_, ?_, hs'⟩
    · dsimp only; rw [← ex k hk]; push_cast; ring
    · dsimp only; rw [← ey k hk]; push_cast; ring
  · rintro ⟨_, _, _, s⟩ h
    exact Runs.pure h

/-- Writing one element of each of two vectors. -/
theorem BVec.set2 {α : Type} {m : Mem α} {n X Y : Nat} {incx incy : Int} {x y : Nat → α} (ix : incx ≠ 0) (iy : incy ≠ 0) (hx : BVec m X n incx x) (hy : BVec m Y n incy y)
    (hd : Disjoint (bcells X n incx) (bcells Y n incy)) {k : Nat} (hk : k < n) (u v : α) :
    Runs (do let m ← wr m (X + blasAt n incx k) u; wr m (Y + blasAt n incy k) v) (fun m' =>
      BVec m' X n incx (fun l => if l = k then u else x l) ∧ BVec m' Y n incy (fun l => if l = k then v else y l) ∧
      Frame (bcells X n incx ∪ bcells Y n incy) m m') := by
  refine Runs.wr_bind (hx k hk) ?_
  have f1 : Frame (bcells X n incx) m (m.set (X + blasAt n incx k) u) := Frame.set (blasAt_mem hk) _
  have hy1 := hy.frame f1 hd.symm
  refine Runs.wr (hy1 k hk) ⟨(hx.set ix hk u).frame (Frame.set (blasAt_mem hk) _) hd, hy1.set iy hk v, ?_⟩
  exact (f1.mono Set.subset_union_left).trans (Frame.set (Or.inr (blasAt_mem hk)) _)

/-- `f` on the first `k` elements, the old value on the others; one more. -/
theorem upto_step {α : Type} (f g : Nat → α) (k l : Nat) : (if l = k then f k else if l < k then f l else g l) = if l < k + 1 then f l else g l := by
  by_cases e : l = k
  · subst e; rw [if_pos rfl, if_pos (by omega)]
  · rw [if_neg e]
    by_cases e' : l < k
    · rw [if_pos e', if_pos (by omega)]
    · rw [if_neg e', if_neg (by omega)]

/-- A positive increment is accepted. -/
theorem cvecS_ok {n : Nat} {inc : Int} (h : 0 < inc) (base : Nat) : cvecS n inc base = .ok (cvec n inc.natAbs base) := by
  unfold cvecS
  rw [if_neg (by omega)]

theorem BVec.toV_pos {α : Type} {m : Mem α} {base n : Nat} {inc : Int} {v : Nat → α} (h : BVec m base n inc v) (hi : 0 < inc) :
    HoldsV m (cvec n inc.natAbs base) v := by
  refine h.toV.congr fun k _ => ?_
  unfold widx
  rw [if_neg (by omega)]

theorem BVec.ofV_pos {α : Type} {m : Mem α} {base n : Nat} {inc : Int} {v : Nat → α} (h : HoldsV m (cvec n inc.natAbs base) v) (hi : 0 < inc) :
    BVec m base n inc v := by
  refine (BVec.ofV h).congr fun k _ => ?_
  unfold widx
  rw [if_neg (by omega)]

end Armas
