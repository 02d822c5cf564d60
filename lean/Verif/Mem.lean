import Mathlib.Algebra.BigOperators.Group.Finset.Basic
import Mathlib.Algebra.BigOperators.Intervals
import Mathlib.Algebra.BigOperators.Ring.Finset
import Mathlib.Algebra.Field.Defs
import Mathlib.Data.Set.Basic
import Mathlib.Order.Disjoint
import Mathlib.Tactic.Ring
import Mathlib.Tactic.Linarith

/-!
# Outcomes, memory, C loops, matrix views

Basis of the model.  Memory is one flat array of elements (the C heap restricted to `DTYPE`
cells); a dense matrix is a view into it exactly as in `src/include/matrix.h:32-39`
(`elems`, `step`, `rows`, `cols`).

Simplifications (stated once for all users of this file):
* `elems` pointers are natural-number offsets in one flat memory; two matrices may alias.
* sizes and offsets are unbounded naturals.
* owning/freeing of the data buffer (`__data`, `__nbytes`) is not modelled here.
-/

namespace Armas

/-- Outcome of a C function: normal result, undefined behaviour (out-of-bounds or unallocated
access), or a loop/recursion that never ends. -/
inductive Res (β : Type) where
  | ok (b : β)
  | ub
  | diverge
deriving DecidableEq, Repr

namespace Res

/-- Sequencing: undefined behaviour and divergence propagate. -/
def bind {β γ : Type} : Res β → (β → Res γ) → Res γ
  | ok b, f => f b
  | ub, _ => ub
  | diverge, _ => diverge

instance : Monad Res where
  pure := ok
  bind := bind

@[simp] theorem ok_bind {β γ : Type} (a : β) (f : β → Res γ) : (Res.ok a >>= f) = f a := rfl
@[simp] theorem ub_bind {β γ : Type} (f : β → Res γ) : ((Res.ub : Res β) >>= f) = Res.ub := rfl
@[simp] theorem diverge_bind {β γ : Type} (f : β → Res γ) :
    ((Res.diverge : Res β) >>= f) = Res.diverge := rfl
@[simp] theorem pure_eq {β : Type} (a : β) : (pure a : Res β) = Res.ok a := rfl

instance : LawfulMonad Res := LawfulMonad.mk'
  (id_map := fun x => by cases x <;> rfl)
  (pure_bind := fun _ _ => rfl)
  (bind_assoc := fun x _ _ => by cases x <;> rfl)

end Res

/-- Flat memory of elements; `none` = not allocated. -/
abbrev Mem (α : Type) := Nat → Option α

variable {α : Type}

/-- Read access `elems[p]`. -/
def rd (m : Mem α) (p : Nat) : Res α :=
  match m p with
  | some v => .ok v
  | none => .ub

/-- Memory with cell `p` holding `v`. -/
def Mem.set (m : Mem α) (p : Nat) (v : α) : Mem α := fun q => if q = p then some v else m q

/-- Write access `elems[p] = v`. -/
def wr (m : Mem α) (p : Nat) (v : α) : Res (Mem α) :=
  match m p with
  | some _ => .ok (m.set p v)
  | none => .ub

theorem rd_ok {m : Mem α} {p : Nat} {v : α} (h : m p = some v) : rd m p = .ok v := by
  simp [rd, h]

theorem wr_ok {m : Mem α} {p : Nat} {v w : α} (h : m p = some v) : wr m p w = .ok (m.set p w) := by
  simp [wr, h]

@[simp] theorem Mem.set_same (m : Mem α) (p : Nat) (v : α) : m.set p v p = some v := by
  simp [Mem.set]

theorem Mem.set_ne (m : Mem α) {p q : Nat} (v : α) (h : q ≠ p) : m.set p v q = m q := by
  simp [Mem.set, h]

/-! ## C loops -/

/-- `for (; i < n; i += s) body(i);` with at most `f` tests of the condition. -/
def forUpN {σ : Type} : Nat → Nat → Nat → Nat → (Nat → σ → Res σ) → σ → Res (Nat × σ)
  | 0, _, _, _, _, _ => .diverge
  | f + 1, i, n, s, body, st =>
    if i < n then do
      let st' ← body i st
      forUpN f (i + s) n s body st'
    else .ok (i, st)

/-- `for (; i < n; i += s) body(i);` returning the final `i`.  A step of zero with `i < n` loops
forever (`diverge`); otherwise the condition is tested at most `n - i + 1` times (`forUp_eq` is the
unrolling equation). -/
def forUp {σ : Type} (i n s : Nat) (body : Nat → σ → Res σ) (st : σ) : Res (Nat × σ) :=
  if i < n ∧ s = 0 then .diverge else forUpN (n - i + 1) i n s body st

theorem forUpN_mono {σ : Type} {n s : Nat} {body : Nat → σ → Res σ} (hs : 0 < s) :
    ∀ (f : Nat) {i : Nat} {st : σ}, n - i < f →
      forUpN f i n s body st = forUpN (n - i + 1) i n s body st := by
  intro f
  induction f with
  | zero => intro i st h; omega
  | succ f ih =>
    intro i st h
    simp only [forUpN]
    by_cases c : i < n
    · simp only [c, if_true]
      congr 1; funext st'
      have e : n - i = (n - i - 1) + 1 := by omega
      rw [ih (by omega : n - (i + s) < f), e]
      by_cases g : n - (i + s) < n - i - 1
      · -- more tests than needed
        clear ih h e
        have key : ∀ (d k : Nat) (i : Nat) (st : σ), n - i < k → 
            forUpN (k + d) i n s body st = forUpN k i n s body st := by
          intro d k
          induction k with
          | zero => intro i st h; omega
          | succ k ih =>
            intro i st h
            rw [show k + 1 + d = (k + d) + 1 by omega]
            simp only [forUpN]
            by_cases c : i < n
            · simp only [c, if_true]
              congr 1; funext st'
              exact ih _ _ (by omega)
            · simp only [c, if_false]
        have := key (n - i - 1 - (n - (i + s))) (n - (i + s) + 1) (i + s) st' (by omega)
        rw [← this]; congr 1; omega
      · congr 1; omega
    · simp only [c, if_false]

/-- Unrolling equation of `forUp`. -/
theorem forUp_eq {σ : Type} (i n s : Nat) (body : Nat → σ → Res σ) (st : σ) :
    forUp i n s body st = if i < n then (if 0 < s then do
      let st' ← body i st
      forUp (i + s) n s body st' else .diverge) else .ok (i, st) := by
  unfold forUp
  by_cases h : i < n
  · by_cases hs : 0 < s
    · have h1 : ¬ (i < n ∧ s = 0) := by omega
      have h2 : ¬ (i + s < n ∧ s = 0) := by omega
      rw [if_neg h1, if_pos h, if_pos hs]
      simp only [h2, if_false]
      rw [forUpN, if_pos h]
      congr 1; funext st'
      exact forUpN_mono hs _ (by omega)
    · have : s = 0 := by omega
      simp [h, this]
  · simp [h, forUpN]

/-- `for (k = n-1; k >= 0; k--) body(k);` -/
def forDown {σ : Type} (n : Nat) (body : Nat → σ → Res σ) (st : σ) : Res σ :=
  match n with
  | 0 => .ok st
  | k + 1 => do
    let st' ← body k st
    forDown k body st'

/-- Loop invariant rule for `forUp`. -/
theorem forUp_rule {σ : Type} (I : Nat → σ → Prop) {i n s : Nat} {body : Nat → σ → Res σ} {st : σ}
    (hs : 0 < s) (h0 : I i st)
    (hstep : ∀ j st, i ≤ j → j < n → I j st → ∃ st', body j st = .ok st' ∧ I (j + s) st') :
    ∃ k st', forUp i n s body st = .ok (k, st') ∧ I k st' ∧ n ≤ k ∧ i ≤ k := by
  induction hk : n - i using Nat.strong_induction_on generalizing i st with
  | _ d ih =>
    rw [forUp_eq]
    by_cases h : i < n
    · simp only [h, hs, if_true]
      obtain ⟨st', e, hI⟩ := hstep i st (le_refl _) h h0
      obtain ⟨k, st'', e', h1, h2, h3⟩ := ih (n - (i + s)) (by omega) (i := i + s) hI
        (fun j st hj => hstep j st (by omega)) rfl
      exact ⟨k, st'', by simp [e, e'], h1, h2, by omega⟩
    · simp only [h, if_false]
      exact ⟨i, st, rfl, h0, by omega, le_refl _⟩

/-- Loop rule for unit step: the loop ends with counter `n`. -/
theorem forUp1_rule {σ : Type} (I : Nat → σ → Prop) {i n : Nat} {body : Nat → σ → Res σ} {st : σ}
    (hin : i ≤ n) (h0 : I i st)
    (hstep : ∀ j st, i ≤ j → j < n → I j st → ∃ st', body j st = .ok st' ∧ I (j + 1) st') :
    ∃ st', forUp i n 1 body st = .ok (n, st') ∧ I n st' := by
  obtain ⟨k, st', e, hI, h1, h2⟩ := forUp_rule (fun j st => I j st ∧ j ≤ n) (by omega : 0 < 1)
    ⟨h0, hin⟩ (n := n) (body := body) (fun j st hj hn hI => by
      obtain ⟨st', e, h⟩ := hstep j st hj hn hI.1
      exact ⟨st', e, h, by omega⟩)
  have : k = n := by omega
  subst this
  exact ⟨st', e, hI.1⟩

/-- Loop rule for `forDown`. -/
theorem forDown_rule {σ : Type} (I : Nat → σ → Prop) {n : Nat} {body : Nat → σ → Res σ} {st : σ}
    (h0 : I n st)
    (hstep : ∀ j st, j < n → I (j + 1) st → ∃ st', body j st = .ok st' ∧ I j st') :
    ∃ st', forDown n body st = .ok st' ∧ I 0 st' := by
  induction n generalizing st with
  | zero => exact ⟨st, rfl, h0⟩
  | succ n ih =>
    obtain ⟨st', e, hI⟩ := hstep n st (by omega) h0
    obtain ⟨st'', e', hI'⟩ := ih hI (fun j st hj => hstep j st (by omega))
    exact ⟨st'', by simp [forDown, e, e'], hI'⟩

/-! ## Dense matrix views -/

/-- `armas_dense_t` (`src/include/matrix.h:32-39`): offset of the first element, row stride
(distance of columns), rows, columns. -/
structure View where
  base : Nat
  step : Nat
  rows : Nat
  cols : Nat
deriving DecidableEq, Repr

namespace View

/-- Cell of element (i,j): `elems[i + j*step]`. -/
def at' (V : View) (i j : Nat) : Nat := V.base + i + j * V.step

/-- The set of memory cells of the elements. -/
def foot (V : View) : Set Nat := {p | ∃ i j, i < V.rows ∧ j < V.cols ∧ p = V.at' i j}

/-- Well-formed: columns do not overlap. -/
def WF (V : View) : Prop := V.rows ≤ V.step ∨ V.cols ≤ 1

/-- `armas_submatrix_unsafe` (`src/include/matrix.h:352-356`). -/
def sub (V : View) (r c nr nc : Nat) : View := ⟨V.base + c * V.step + r, V.step, nr, nc⟩

/-- `armas_isvector` (`src/include/matrix.h:154-157`). -/
def isVec (V : View) : Prop := V.rows = 1 ∨ V.cols = 1

instance (V : View) : Decidable V.isVec := inferInstanceAs (Decidable (_ ∨ _))

/-- `armas_size` (`src/include/matrix.h:161-164`). -/
def size (V : View) : Nat := V.rows * V.cols

/-- Element distance of a vector, as every level-1 routine computes it:
`inc = X->rows == 1 ? X->step : 1`. -/
def inc (V : View) : Nat := if V.rows = 1 then V.step else 1

/-- Cell of vector element k: `elems[k*inc]`. -/
def vat (V : View) (k : Nat) : Nat := V.base + k * V.inc

/-- `armas_subvector_unsafe` (`src/include/matrix.h:377-387`). -/
def subvec (V : View) (n len : Nat) : View :=
  if V.rows = 1 then V.sub 0 n 1 len else V.sub n 0 len 1

/-- `armas_row_unsafe` (`src/include/matrix.h:296-307`). -/
def row (V : View) (r : Nat) : View := V.sub r 0 1 V.cols

/-- `armas_column_unsafe` (`src/include/matrix.h:263-274`). -/
def col (V : View) (c : Nat) : View := V.sub 0 c V.rows 1

end View

/-- View `V` is allocated in `m` and holds the matrix `a`. -/
def Holds (m : Mem α) (V : View) (a : Nat → Nat → α) : Prop :=
  ∀ i j, i < V.rows → j < V.cols → m (V.at' i j) = some (a i j)

/-- Vector view `X` is allocated in `m` and holds the vector `f`. -/
def HoldsV (m : Mem α) (X : View) (f : Nat → α) : Prop :=
  ∀ k, k < X.size → m (X.vat k) = some (f k)

/-- `m'` differs from `m` at most on the cells in `S`. -/
def Frame (S : Set Nat) (m m' : Mem α) : Prop := ∀ p, p ∉ S → m' p = m p

/-! ### Frame lemmas -/

theorem Frame.refl (S : Set Nat) (m : Mem α) : Frame S m m := fun _ _ => rfl

theorem Frame.trans {S : Set Nat} {m m' m'' : Mem α} (h : Frame S m m') (h' : Frame S m' m'') :
    Frame S m m'' := fun p hp => (h' p hp).trans (h p hp)

theorem Frame.mono {S T : Set Nat} {m m' : Mem α} (h : Frame S m m') (hST : S ⊆ T) :
    Frame T m m' := fun p hp => h p (fun hS => hp (hST hS))

theorem Frame.set {S : Set Nat} {m : Mem α} {p : Nat} (hp : p ∈ S) (v : α) :
    Frame S m (m.set p v) := fun _ hq => Mem.set_ne m v (fun e => hq (e ▸ hp))

/-! ### View lemmas -/

namespace View

theorem at_sub (V : View) (r c nr nc i j : Nat) :
    (V.sub r c nr nc).at' i j = V.at' (r + i) (c + j) := by
  simp only [at', sub]; ring

@[simp] theorem sub_rows (V : View) (r c nr nc : Nat) : (V.sub r c nr nc).rows = nr := rfl
@[simp] theorem sub_cols (V : View) (r c nr nc : Nat) : (V.sub r c nr nc).cols = nc := rfl
@[simp] theorem sub_step (V : View) (r c nr nc : Nat) : (V.sub r c nr nc).step = V.step := rfl

@[simp] theorem sub_base (V : View) (r c nr nc : Nat) :
    (V.sub r c nr nc).base = V.base + c * V.step + r := rfl
theorem sub_inc (V : View) (r c nr nc : Nat) :
    (V.sub r c nr nc).inc = if nr = 1 then V.step else 1 := rfl

theorem sub_sub (V : View) (r c nr nc r' c' nr' nc' : Nat) :
    (V.sub r c nr nc).sub r' c' nr' nc' = V.sub (r + r') (c + c') nr' nc' := by
  simp only [sub, mk.injEq, and_true]; ring

theorem sub_zero (V : View) : V.sub 0 0 V.rows V.cols = V := by
  simp [sub]

theorem at_inj {V : View} (h : V.WF) {i j i' j' : Nat} (hi : i < V.rows) (hj : j < V.cols)
    (hi' : i' < V.rows) (hj' : j' < V.cols) (e : V.at' i j = V.at' i' j') : i = i' ∧ j = j' := by
  simp only [at'] at e
  rcases h with h | h
  · rcases Nat.lt_trichotomy j j' with hl | hl | hl
    · have : (j + 1) * V.step ≤ j' * V.step := Nat.mul_le_mul_right _ hl
      rw [Nat.add_mul] at this
      omega
    · subst hl; omega
    · have : (j' + 1) * V.step ≤ j * V.step := Nat.mul_le_mul_right _ hl
      rw [Nat.add_mul] at this
      omega
  · have h1 : j = 0 := by omega
    have h2 : j' = 0 := by omega
    subst h1; subst h2; omega

theorem at_mem_foot {V : View} {i j : Nat} (hi : i < V.rows) (hj : j < V.cols) :
    V.at' i j ∈ V.foot := ⟨i, j, hi, hj, rfl⟩

theorem WF.sub {V : View} (h : V.WF) {r c nr nc : Nat} (hr : r + nr ≤ V.rows)
    (hc : c + nc ≤ V.cols) : (V.sub r c nr nc).WF := by
  rcases h with h | h
  · left; simp; omega
  · right; simp; omega

theorem sub_foot {V : View} {r c nr nc : Nat} (hr : r + nr ≤ V.rows)
    (hc : c + nc ≤ V.cols) : (V.sub r c nr nc).foot ⊆ V.foot := by
  rintro p ⟨i, j, hi, hj, rfl⟩
  simp only [sub_rows, sub_cols] at hi hj
  rw [at_sub]
  exact at_mem_foot (by omega) (by omega)

/-- Two index-disjoint submatrices occupy disjoint cells. -/
theorem sub_disj {V : View} (h : V.WF) {r c nr nc r' c' nr' nc' : Nat}
    (hr : r + nr ≤ V.rows) (hc : c + nc ≤ V.cols)
    (hr' : r' + nr' ≤ V.rows) (hc' : c' + nc' ≤ V.cols)
    (hd : r + nr ≤ r' ∨ r' + nr' ≤ r ∨ c + nc ≤ c' ∨ c' + nc' ≤ c) :
    Disjoint (V.sub r c nr nc).foot (V.sub r' c' nr' nc').foot := by
  rw [Set.disjoint_left]
  rintro p ⟨i, j, hi, hj, rfl⟩ ⟨i', j', hi', hj', e⟩
  simp only [sub_rows, sub_cols] at hi hj hi' hj'
  rw [at_sub, at_sub] at e
  have := at_inj h (by omega) (by omega) (by omega) (by omega) e
  omega

theorem mem_sub_foot {V : View} (h : V.WF) {r c nr nc i j : Nat}
    (hr : r + nr ≤ V.rows) (hc : c + nc ≤ V.cols) (hi : i < V.rows) (hj : j < V.cols) :
    V.at' i j ∈ (V.sub r c nr nc).foot ↔ (r ≤ i ∧ i < r + nr ∧ c ≤ j ∧ j < c + nc) := by
  constructor
  · rintro ⟨i', j', hi', hj', e⟩
    simp only [sub_rows, sub_cols] at hi' hj'
    rw [at_sub] at e
    have := at_inj h hi hj (by omega) (by omega) e
    omega
  · rintro ⟨h1, h2, h3, h4⟩
    refine ⟨i - r, j - c, by simp; omega, by simp; omega, ?_⟩
    rw [at_sub]; congr 1 <;> omega

/-! Vectors -/

theorem isVec.vat_eq {X : View} (_h : X.isVec) {k : Nat} (_hk : k < X.size) :
    X.vat k = if X.rows = 1 then X.at' 0 k else X.at' k 0 := by
  simp only [vat, inc, at']
  split <;> simp

theorem size_row {X : View} (h : X.rows = 1) : X.size = X.cols := by simp [size, h]
theorem size_col {X : View} (h : X.cols = 1) : X.size = X.rows := by simp [size, h]

theorem vat_mem_foot {X : View} (h : X.isVec) {k : Nat} (hk : k < X.size) : X.vat k ∈ X.foot := by
  rw [h.vat_eq hk]
  split
  · rename_i h1
    rw [size_row h1] at hk
    exact at_mem_foot (by omega) hk
  · rename_i h1
    have h2 : X.cols = 1 := h.resolve_left h1
    rw [size_col h2] at hk
    exact at_mem_foot hk (by omega)

theorem foot_vec {X : View} (h : X.isVec) : X.foot = {p | ∃ k, k < X.size ∧ p = X.vat k} := by
  ext p
  constructor
  · rintro ⟨i, j, hi, hj, rfl⟩
    by_cases h1 : X.rows = 1
    · refine ⟨j, by rw [size_row h1]; exact hj, ?_⟩
      have : i = 0 := by omega
      subst this
      simp [vat, inc, h1, at']
    · have h2 : X.cols = 1 := h.resolve_left h1
      refine ⟨i, by rw [size_col h2]; exact hi, ?_⟩
      have : j = 0 := by omega
      subst this
      simp [vat, inc, h1, at']
  · rintro ⟨k, hk, rfl⟩
    exact vat_mem_foot h hk

theorem vat_inj {X : View} (h : X.isVec) (hw : X.WF) {k l : Nat} (hk : k < X.size)
    (hl : l < X.size) (e : X.vat k = X.vat l) : k = l := by
  rw [h.vat_eq hk, h.vat_eq hl] at e
  split at e
  · rename_i h1
    rw [size_row h1] at hk hl
    exact (at_inj hw (by omega) hk (by omega) hl e).2
  · rename_i h1
    have h2 : X.cols = 1 := h.resolve_left h1
    rw [size_col h2] at hk hl
    exact (at_inj hw hk (by omega) hl (by omega) e).1

theorem subvec_isVec (X : View) (n len : Nat) : (X.subvec n len).isVec := by
  unfold subvec; split <;> simp [isVec]

theorem subvec_size (X : View) (n len : Nat) : (X.subvec n len).size = len := by
  unfold subvec; split <;> simp [size]

theorem subvec_vat {X : View} (h : X.isVec) (n len : Nat) {k : Nat} (hk : k < len) :
    (X.subvec n len).vat k = X.vat (n + k) := by
  unfold subvec
  split
  · rename_i h1
    simp only [vat, inc, sub, h1, if_true]; ring
  · rename_i h1
    simp only [vat, sub_inc, sub_base]
    have h3 : X.inc = 1 := if_neg h1
    by_cases h2 : len = 1
    · have : k = 0 := by omega
      subst this; simp [h3]
    · rw [if_neg h2, h3]; simp only [Nat.zero_mul, Nat.mul_one]; omega

theorem WF.subvec {X : View} (h : X.WF) (hv : X.isVec) {n len : Nat} (hn : n + len ≤ X.size) :
    (X.subvec n len).WF := by
  unfold View.subvec
  split
  · rename_i h1
    rw [size_row h1] at hn
    exact h.sub (by omega) (by omega)
  · rename_i h1
    have h2 : X.cols = 1 := hv.resolve_left h1
    right; simp

theorem subvec_foot {X : View} (hv : X.isVec) {n len : Nat} (hn : n + len ≤ X.size) :
    (X.subvec n len).foot ⊆ X.foot := by
  rw [foot_vec hv, foot_vec (subvec_isVec X n len)]
  rintro p ⟨k, hk, rfl⟩
  rw [subvec_size] at hk
  exact ⟨n + k, by omega, subvec_vat hv n len hk⟩

theorem subvec_disj {X : View} (hv : X.isVec) (hw : X.WF) {n len n' len' : Nat}
    (hn : n + len ≤ X.size) (hn' : n' + len' ≤ X.size) (hd : n + len ≤ n' ∨ n' + len' ≤ n) :
    Disjoint (X.subvec n len).foot (X.subvec n' len').foot := by
  rw [Set.disjoint_left, foot_vec (subvec_isVec X n len), foot_vec (subvec_isVec X n' len')]
  rintro p ⟨k, hk, rfl⟩ ⟨k', hk', e⟩
  rw [subvec_size] at hk hk'
  rw [subvec_vat hv n len hk, subvec_vat hv n' len' hk'] at e
  have := vat_inj hv hw (by omega) (by omega) e
  omega

theorem row_isVec (V : View) (r : Nat) : (V.row r).isVec := Or.inl rfl
theorem col_isVec (V : View) (c : Nat) : (V.col c).isVec := Or.inr rfl
@[simp] theorem row_size (V : View) (r : Nat) : (V.row r).size = V.cols := by simp [row, size]
@[simp] theorem col_size (V : View) (c : Nat) : (V.col c).size = V.rows := by simp [col, size]

end View

/-! ### Assertion lemmas -/

theorem Holds.frame {m m' : Mem α} {V : View} {a : Nat → Nat → α} {S : Set Nat}
    (h : Holds m V a) (hf : Frame S m m') (hd : Disjoint V.foot S) : Holds m' V a := by
  intro i j hi hj
  rw [hf _ (Set.disjoint_left.mp hd (View.at_mem_foot hi hj))]
  exact h i j hi hj

theorem HoldsV.frame {m m' : Mem α} {X : View} {f : Nat → α} {S : Set Nat}
    (h : HoldsV m X f) (hv : X.isVec) (hf : Frame S m m') (hd : Disjoint X.foot S) :
    HoldsV m' X f := by
  intro k hk
  rw [hf _ (Set.disjoint_left.mp hd (View.vat_mem_foot hv hk))]
  exact h k hk

theorem Holds.congr {m : Mem α} {V : View} {a b : Nat → Nat → α} (h : Holds m V a)
    (e : ∀ i j, i < V.rows → j < V.cols → a i j = b i j) : Holds m V b := by
  intro i j hi hj
  rw [h i j hi hj, e i j hi hj]

theorem HoldsV.congr {m : Mem α} {X : View} {f g : Nat → α} (h : HoldsV m X f)
    (e : ∀ k, k < X.size → f k = g k) : HoldsV m X g := by
  intro k hk
  rw [h k hk, e k hk]

theorem Holds.sub {m : Mem α} {V : View} {a : Nat → Nat → α} (h : Holds m V a)
    {r c nr nc : Nat} (hr : r + nr ≤ V.rows) (hc : c + nc ≤ V.cols) :
    Holds m (V.sub r c nr nc) (fun i j => a (r + i) (c + j)) := by
  intro i j hi hj
  simp only [View.sub_rows, View.sub_cols] at hi hj
  rw [View.at_sub]
  exact h _ _ (by omega) (by omega)

theorem HoldsV.subvec {m : Mem α} {X : View} {f : Nat → α} (h : HoldsV m X f) (hv : X.isVec)
    {n len : Nat} (hn : n + len ≤ X.size) : HoldsV m (X.subvec n len) (fun k => f (n + k)) := by
  intro k hk
  rw [View.subvec_size] at hk
  rw [View.subvec_vat hv n len hk]
  exact h _ (by omega)

/-- A vector view holds `f` as a vector iff it holds it as a matrix. -/
theorem holdsV_iff {m : Mem α} {X : View} {f : Nat → α} (hv : X.isVec) :
    HoldsV m X f ↔ Holds m X (fun i j => f (i + j)) := by
  constructor
  · intro h i j hi hj
    by_cases h1 : X.rows = 1
    · have hi0 : i = 0 := by omega
      subst hi0
      have hjs : j < X.size := by rw [View.size_row h1]; exact hj
      have := h j hjs
      rw [hv.vat_eq hjs, if_pos h1] at this
      simpa using this
    · have h2 : X.cols = 1 := hv.resolve_left h1
      have hj0 : j = 0 := by omega
      subst hj0
      have his : i < X.size := by rw [View.size_col h2]; exact hi
      have := h i his
      rw [hv.vat_eq his, if_neg h1] at this
      simpa using this
  · intro h k hk
    rw [hv.vat_eq hk]
    split
    · rename_i h1
      rw [View.size_row h1] at hk
      simpa using h 0 k (by omega) hk
    · rename_i h1
      have h2 : X.cols = 1 := hv.resolve_left h1
      rw [View.size_col h2] at hk
      simpa using h k 0 hk (by omega)

theorem Holds.row {m : Mem α} {V : View} {a : Nat → Nat → α} (h : Holds m V a) {r : Nat}
    (hr : r < V.rows) : HoldsV m (V.row r) (fun k => a r k) := by
  rw [holdsV_iff (V.row_isVec r)]
  have := h.sub (r := r) (c := 0) (nr := 1) (nc := V.cols) (by omega) (by omega)
  refine Holds.congr this ?_
  intro i j hi hj
  have : i = 0 := by change i < 1 at hi; omega
  subst this; simp

theorem Holds.col {m : Mem α} {V : View} {a : Nat → Nat → α} (h : Holds m V a) {c : Nat}
    (hc : c < V.cols) : HoldsV m (V.col c) (fun k => a k c) := by
  rw [holdsV_iff (V.col_isVec c)]
  have := h.sub (r := 0) (c := c) (nr := V.rows) (nc := 1) (by omega) (by omega)
  refine Holds.congr this ?_
  intro i j hi hj
  have : j = 0 := by change j < 1 at hj; omega
  subst this; simp

/-- Writing element (i,j) of a view. -/
theorem Holds.write {m : Mem α} {V : View} {a : Nat → Nat → α} (h : Holds m V a) (hw : V.WF)
    {i j : Nat} (hi : i < V.rows) (hj : j < V.cols) (v : α) :
    Holds (m.set (V.at' i j) v) V (fun i' j' => if i' = i ∧ j' = j then v else a i' j') := by
  intro i' j' hi' hj'
  by_cases e : V.at' i' j' = V.at' i j
  · obtain ⟨e1, e2⟩ := View.at_inj hw hi' hj' hi hj e
    subst e1; subst e2; simp
  · rw [Mem.set_ne _ _ e, h _ _ hi' hj']
    beta_reduce
    rw [if_neg]
    rintro ⟨rfl, rfl⟩; exact e rfl

/-- Writing element k of a vector. -/
theorem HoldsV.write {m : Mem α} {X : View} {f : Nat → α} (h : HoldsV m X f) (hv : X.isVec)
    (hw : X.WF) {k : Nat} (hk : k < X.size) (v : α) :
    HoldsV (m.set (X.vat k) v) X (fun l => if l = k then v else f l) := by
  intro l hl
  by_cases e : X.vat l = X.vat k
  · have := View.vat_inj hv hw hl hk e
    subst this; simp
  · rw [Mem.set_ne _ _ e, h _ hl]
    beta_reduce
    rw [if_neg]
    rintro rfl; exact e rfl

/-- Replacing a submatrix: if the memory changed only inside the submatrix which now holds `b`,
the whole view holds `a` patched by `b`. -/
theorem Holds.patch {m m' : Mem α} {V : View} {a b : Nat → Nat → α} (h : Holds m V a) (hw : V.WF)
    {r c nr nc : Nat} (hr : r + nr ≤ V.rows) (hc : c + nc ≤ V.cols)
    (hb : Holds m' (V.sub r c nr nc) b) (hf : Frame (V.sub r c nr nc).foot m m') :
    Holds m' V (fun i j => if r ≤ i ∧ i < r + nr ∧ c ≤ j ∧ j < c + nc then b (i - r) (j - c)
      else a i j) := by
  intro i j hi hj
  by_cases hin : r ≤ i ∧ i < r + nr ∧ c ≤ j ∧ j < c + nc
  · simp only [hin, and_self, if_true]
    have := hb (i - r) (j - c) (by simp; omega) (by simp; omega)
    rw [View.at_sub] at this
    rw [← this]
    congr 2 <;> omega
  · simp only [if_neg hin]
    rw [hf _ (fun hmem => hin ((View.mem_sub_foot hw hr hc hi hj).mp hmem))]
    exact h i j hi hj

/-- Replacing a subvector. -/
theorem HoldsV.patch {m m' : Mem α} {X : View} {f g : Nat → α} (h : HoldsV m X f) (hv : X.isVec)
    (hw : X.WF) {n len : Nat} (hn : n + len ≤ X.size)
    (hb : HoldsV m' (X.subvec n len) g) (hf : Frame (X.subvec n len).foot m m') :
    HoldsV m' X (fun k => if n ≤ k ∧ k < n + len then g (k - n) else f k) := by
  intro k hk
  by_cases hin : n ≤ k ∧ k < n + len
  · simp only [hin, and_self, if_true]
    have := hb (k - n) (by rw [View.subvec_size]; omega)
    rw [View.subvec_vat hv n len (by omega)] at this
    rw [← this]
    congr 2; omega
  · simp only [if_neg hin]
    rw [hf _ ?_]
    · exact h k hk
    · rw [View.foot_vec (View.subvec_isVec X n len)]
      rintro ⟨l, hl, e⟩
      rw [View.subvec_size] at hl
      rw [View.subvec_vat hv n len hl] at e
      have := View.vat_inj hv hw hk (by omega) e
      omega

end Armas
