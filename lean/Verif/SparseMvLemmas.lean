import Verif.SparseMv
import Verif.SparseLemmas
import Mathlib.Algebra.BigOperators.Intervals
import Mathlib.Algebra.BigOperators.Ring.Finset
import Mathlib.Tactic.Ring
import Mathlib.Tactic.FieldSimp
import Mathlib.Tactic.LinearCombination

/-!
# Lemmas on sparse products and triangular solves
-/

namespace Armas

open Finset

variable {α : Type}

/-- The cells `b ... b+n-1` hold `x`. -/
def VecAt (m : Mem α) (b n : Nat) (x : Nat → α) : Prop := ∀ k, k < n → m (b + k) = some (x k)

/-- The cells `b ... b+n-1`. -/
def rng (b n : Nat) (q : Nat) : Prop := b ≤ q ∧ q < b + n

theorem VecAt.congr {m : Mem α} {b n : Nat} {x y : Nat → α} (h : VecAt m b n x) (e : ∀ k, k < n → x k = y k) : VecAt m b n y :=
  fun k hk => by rw [h k hk, e k hk]

theorem VecAt.set {m : Mem α} {b n : Nat} {x : Nat → α} (h : VecAt m b n x) (k : Nat) (v : α) :
    VecAt (m.set (b + k) v) b n (Function.update x k v) := by
  intro l hl
  by_cases c : l = k
  · subst c; rw [Mem.set_same, Function.update_self]
  · rw [Mem.set_ne _ _ (by omega), Function.update_of_ne c, h l hl]

theorem VecAt.frame {m m' : Mem α} {b n c d : Nat} {x : Nat → α} (h : VecAt m b n x) (hf : Frame (rng c d) m m')
    (hd : ∀ i j, i < d → j < n → c + i ≠ b + j) : VecAt m' b n x := by
  intro k hk
  rw [hf (b + k), h k hk]
  rintro ⟨h1, h2⟩
  exact hd (b + k - c) k (by omega) hk (by omega)

theorem Frame.setR {m0 m : Mem α} {b n k : Nat} (h : Frame (rng b n) m0 m) (hk : k < n) (v : α) : Frame (rng b n) m0 (m.set (b + k) v) :=
  h.trans (Frame.set (by constructor <;> omega) v)

/-- First position of row (column) `k`. -/
abbrev pst (f : Nat → Ent α) (N k : Nat) : Nat := Nat.count (fun p => (f p).1 < k) N

variable {A : Sp α} {n d N : Nat} {f : Nat → Ent α}

theorem sum_seg {β : Type} [AddCommMonoid β] {ptr ix : Mem Nat} {v : Mem α} (H : Compressed ptr ix v n d N f) (j : Nat) (g : Nat → β) :
    ∑ p ∈ Ico (pst f N j) (pst f N (j + 1)), g p = ∑ p ∈ range N, if (f p).1 = j then g p else 0 := by
  rw [← sum_filter]
  refine sum_congr ?_ fun _ _ => rfl
  ext p
  rw [mem_Ico, mem_filter, mem_range]
  constructor
  · intro h
    have hp : p < N := lt_of_lt_of_le h.2 (H.ptr_le _)
    exact ⟨hp, (H.mem_seg hp).mp h⟩
  · rintro ⟨hp, h⟩; exact (H.mem_seg hp).mpr h

theorem spScatter_spec [CommRing α] (H : Compressed A.ptr A.ix A.v n d N f) {y x : Nat} {m : Mem α} {yv xv : Nat → α} (beta alpha : α) {s : Nat} (hs : s ≤ d)
    (hy : VecAt m y d yv) (hx : VecAt m x n xv) (hd : ∀ i j, i < d → j < n → y + i ≠ x + j) :
    Runs (spScatter s n beta alpha A y x m) (fun m' => VecAt m' y d (fun i => yv i * (if i < s then beta else 1) +
      ∑ p ∈ range N, if (f p).2.1 = i then alpha * xv (f p).1 * (f p).2.2 else 0) ∧ Frame (rng y d) m m') := by
  unfold spScatter
  refine Runs.bind (P := fun r : Nat × Mem α => VecAt r.2 y d (fun k => yv k * (if k < s then beta else 1)) ∧ Frame (rng y d) m r.2) ?_ ?_
  · refine Runs.forUp1 (fun i m' => VecAt m' y d (fun k => if k < i then yv k * beta else yv k) ∧ Frame (rng y d) m m') (Nat.zero_le _)
      ⟨hy.congr fun k _ => by simp, Frame.refl _ _⟩ ?_ (fun m' h => ⟨h.1.congr fun k hk => by by_cases c : k < s <;> simp [c], h.2⟩)
    rintro i m' - hi ⟨h1, h2⟩
    replace hi := lt_of_lt_of_le hi hs
    refine Runs.rd_bind (h1 i hi) (Runs.wr (h1 i hi) ⟨(h1.set i _).congr fun k _ => ?_, h2.setR hi _⟩)
    by_cases c : k = i
    · subst c; simp
    · rw [Function.update_of_ne c]
      by_cases c' : k < i
      · rw [if_pos c', if_pos (by omega)]
      · rw [if_neg c', if_neg (by omega)]
  · rintro ⟨_, m1⟩ ⟨h1, h2⟩
    dsimp only at h1 h2 ⊢
    let g : Nat → Nat → α := fun q i => yv i * (if i < s then beta else 1) + ∑ p ∈ range q, if (f p).2.1 = i then alpha * xv (f p).1 * (f p).2.2 else 0
    refine Runs.bind (P := fun r : Nat × Mem α => VecAt r.2 y d (g N) ∧ Frame (rng y d) m r.2) ?_ (fun r hr => Runs.pure hr)
    refine Runs.forUp1 (fun j m' => VecAt m' y d (g (pst f N j)) ∧ Frame (rng y d) m m') (Nat.zero_le _)
      ⟨h1.congr fun k _ => ?_, h2⟩ ?_ (fun m' h => by rw [← H.ptr_end]; exact h)
    · simp only [g, pst, H.ptr_zero, range_zero, sum_empty, add_zero]
    rintro j m' - hj ⟨h1, h2⟩
    refine Runs.rd_bind (hx.frame h2 hd j hj) (Runs.rd_bind (H.ptr j (by omega)) (Runs.rd_bind (H.ptr (j + 1) hj) ?_))
    refine Runs.bind (P := fun r : Nat × Mem α => VecAt r.2 y d (g (pst f N (j + 1))) ∧ Frame (rng y d) m r.2) ?_ (fun r hr => Runs.pure hr)
    refine Runs.forUp1 (fun k m' => VecAt m' y d (g k) ∧ Frame (rng y d) m m') (H.ptr_mono j) ⟨h1, h2⟩ ?_ (fun m' h => h)
    rintro k m2 hk1 hk2 ⟨h1, h2⟩
    have hkN : k < N := lt_of_lt_of_le hk2 (H.ptr_le _)
    have hj' := (H.mem_seg hkN).mp ⟨hk1, hk2⟩
    refine Runs.rd_bind (H.ix k hkN) (Runs.rd_bind (H.v k hkN) (Runs.rd_bind (h1 _ (H.minor k hkN))
      (Runs.wr (h1 _ (H.minor k hkN)) ⟨(h1.set _ _).congr fun i _ => ?_, h2.setR (H.minor k hkN) _⟩)))
    by_cases c : i = (f k).2.1
    · subst c; rw [Function.update_self]; simp only [g, sum_range_succ, if_true]; rw [hj']; ring
    · rw [Function.update_of_ne c]; simp only [g, sum_range_succ]; rw [if_neg (c := (f k).2.1 = i) (fun h => c h.symm)]; ring

theorem spGather_spec [CommRing α] (H : Compressed A.ptr A.ix A.v n d N f) {y x : Nat} {m : Mem α} {yv xv : Nat → α} (beta alpha : α)
    (hy : VecAt m y n yv) (hx : VecAt m x d xv) (hd : ∀ i j, i < n → j < d → y + i ≠ x + j) :
    Runs (spGather n beta alpha A y x m) (fun m' => VecAt m' y n (fun i => beta * yv i + alpha *
      ∑ p ∈ range N, if (f p).1 = i then (f p).2.2 * xv (f p).2.1 else 0) ∧ Frame (rng y n) m m') := by
  unfold spGather
  let g : Nat → α := fun i => beta * yv i + alpha * ∑ p ∈ range N, if (f p).1 = i then (f p).2.2 * xv (f p).2.1 else 0
  refine Runs.bind (P := fun r : Nat × Mem α => VecAt r.2 y n g ∧ Frame (rng y n) m r.2) ?_ (fun r hr => Runs.pure hr)
  refine Runs.forUp1 (fun j m' => VecAt m' y n (fun k => if k < j then g k else yv k) ∧ Frame (rng y n) m m') (Nat.zero_le _)
    ⟨hy.congr fun k _ => by simp, Frame.refl _ _⟩ ?_ (fun m' h => ⟨h.1.congr fun k hk => by simp [hk], h.2⟩)
  rintro j m' - hj ⟨h1, h2⟩
  refine Runs.rd_bind (H.ptr j (by omega)) (Runs.rd_bind (H.ptr (j + 1) hj) ?_)
  refine Runs.bind (P := fun r : Nat × α => r.2 = ∑ p ∈ range N, if (f p).1 = j then (f p).2.2 * xv (f p).2.1 else 0) ?_ ?_
  · refine Runs.forUp1 (fun k ax => ax = ∑ p ∈ Ico (pst f N j) k, (f p).2.2 * xv (f p).2.1) (H.ptr_mono j) (by simp) ?_
      (fun ax h => by dsimp only; rw [h, sum_seg H])
    rintro k ax hk1 hk2 h
    have hkN : k < N := lt_of_lt_of_le hk2 (H.ptr_le _)
    refine Runs.rd_bind (H.v k hkN) (Runs.rd_bind (H.ix k hkN) (Runs.rd_bind (hx.frame h2 hd _ (H.minor k hkN)) (Runs.pure ?_)))
    rw [sum_Ico_succ_top hk1, h]
  · rintro ⟨_, ax⟩ hax
    dsimp only at hax ⊢
    refine Runs.rd_bind (h1 j hj) (Runs.wr (h1 j hj) ⟨(h1.set j _).congr fun k _ => ?_, h2.setR hj _⟩)
    by_cases c : k = j
    · subst c; rw [Function.update_self]; dsimp only; rw [if_neg (lt_irrefl _), if_pos (by omega), hax]
    · rw [Function.update_of_ne c]
      by_cases c' : k < j
      · rw [if_pos c', if_pos (by omega)]
      · rw [if_neg c', if_neg (by omega)]

/-! ## Rows with a stored diagonal -/

/-- In each row (column) the indices ascend strictly and the diagonal is stored. -/
structure SortedDiag (n N : Nat) (f : Nat → Ent α) : Prop where
  strict : ∀ p q, p < q → q < N → (f p).1 = (f q).1 → (f p).2.1 < (f q).2.1
  diag : ∀ j, j < n → ∃ p, p < N ∧ (f p).1 = j ∧ (f p).2.1 = j

/-- `D` is the position of the diagonal element of row (column) `j`. -/
structure DiagAt (N : Nat) (f : Nat → Ent α) (j D : Nat) : Prop where
  lt : D < N
  maj : (f D).1 = j
  min : (f D).2.1 = j

variable {ptr ix : Mem Nat} {v : Mem α} {j D : Nat}

theorem DiagAt.seg (H : Compressed ptr ix v n d N f) (hD : DiagAt N f j D) : pst f N j ≤ D ∧ D < pst f N (j + 1) :=
  (H.mem_seg hD.lt).mpr hD.maj

theorem DiagAt.below (S : SortedDiag n N f) (hD : DiagAt N f j D) {p : Nat} (hp : p < N) (h : (f p).1 = j) : p < D ↔ (f p).2.1 < j := by
  constructor
  · intro c; have := S.strict p D c hD.lt (by rw [h, hD.maj]); rwa [hD.min] at this
  · intro c
    rcases Nat.lt_trichotomy p D with c' | c' | c'
    · exact c'
    · subst c'; have := hD.min; omega
    · have := S.strict D p c' hp (by rw [h, hD.maj]); rw [hD.min] at this; omega

theorem DiagAt.above (S : SortedDiag n N f) (hD : DiagAt N f j D) {p : Nat} (hp : p < N) (h : (f p).1 = j) : D < p ↔ j < (f p).2.1 := by
  constructor
  · intro c; have := S.strict D p c hp (by rw [h, hD.maj]); rwa [hD.min] at this
  · intro c
    rcases Nat.lt_trichotomy p D with c' | c' | c'
    · have := S.strict p D c' hD.lt (by rw [h, hD.maj]); rw [hD.min] at this; omega
    · subst c'; have := hD.min; omega
    · exact c'

theorem sum_dense [CommRing α] (T : Finset Nat) (j : Nat) (g : Nat → α) :
    ∑ m ∈ T, dense N f j m * g m = ∑ p ∈ range N, if (f p).1 = j ∧ (f p).2.1 ∈ T then (f p).2.2 * g (f p).2.1 else 0 := by
  unfold dense
  simp only [sum_mul]
  rw [sum_comm]
  refine sum_congr rfl fun p _ => ?_
  by_cases c : (f p).1 = j
  · by_cases c' : (f p).2.1 ∈ T
    · rw [if_pos ⟨c, c'⟩, sum_eq_single (f p).2.1]
      · rw [if_pos ⟨c, rfl⟩]
      · intro b _ hb; rw [if_neg (fun h => hb h.2.symm), zero_mul]
      · intro h; exact absurd c' h
    · rw [if_neg (fun h => c' h.2)]
      refine sum_eq_zero fun b hb => ?_
      rw [if_neg (by rintro ⟨-, h2⟩; exact c' (h2 ▸ hb)), zero_mul]
  · rw [if_neg (fun h => c h.1)]
    refine sum_eq_zero fun b _ => ?_
    rw [if_neg (fun h => c h.1), zero_mul]

theorem sum_below [CommRing α] (H : Compressed ptr ix v n d N f) (S : SortedDiag n N f) (hD : DiagAt N f j D) (g : Nat → α) :
    ∑ p ∈ Ico (pst f N j) D, (f p).2.2 * g (f p).2.1 = ∑ m ∈ range j, dense N f j m * g m := by
  rw [sum_dense, ← sum_filter]
  refine sum_congr ?_ fun _ _ => rfl
  ext p
  rw [mem_Ico, mem_filter, mem_range, mem_range]
  have hs := hD.seg H
  constructor
  · intro h
    have hp : p < N := lt_trans h.2 hD.lt
    have hm := (H.mem_seg hp).mp ⟨h.1, lt_trans h.2 hs.2⟩
    exact ⟨hp, hm, (hD.below S hp hm).mp h.2⟩
  · rintro ⟨hp, h, c⟩; exact ⟨((H.mem_seg hp).mpr h).1, (hD.below S hp h).mpr c⟩

theorem sum_above [CommRing α] (H : Compressed ptr ix v n d N f) (S : SortedDiag n N f) (hD : DiagAt N f j D) (g : Nat → α) :
    ∑ p ∈ Ico (D + 1) (pst f N (j + 1)), (f p).2.2 * g (f p).2.1 = ∑ m ∈ Ico (j + 1) d, dense N f j m * g m := by
  rw [sum_dense, ← sum_filter]
  refine sum_congr ?_ fun _ _ => rfl
  ext p
  rw [mem_Ico, mem_filter, mem_range, mem_Ico]
  have hs := hD.seg H
  constructor
  · intro h
    have hp : p < N := lt_of_lt_of_le h.2 (H.ptr_le _)
    have hm := (H.mem_seg hp).mp ⟨le_trans hs.1 (by omega), h.2⟩
    exact ⟨hp, hm, (hD.above S hp hm).mp h.1, H.minor p hp⟩
  · rintro ⟨hp, h, c, -⟩; exact ⟨(hD.above S hp h).mpr c, ((H.mem_seg hp).mpr h).2⟩

theorem dense_diag [CommRing α] (S : SortedDiag n N f) (hD : DiagAt N f j D) : dense N f j j = (f D).2.2 := by
  unfold dense
  rw [sum_eq_single D]
  · rw [if_pos ⟨hD.maj, hD.min⟩]
  · intro p hp hne
    rw [mem_range] at hp
    rw [if_neg]
    rintro ⟨h1, h2⟩
    rcases Nat.lt_or_gt_of_ne hne with c | c
    · have := (hD.below S hp h1).mp c; omega
    · have := (hD.above S hp h1).mp c; omega
  · intro h; exact absurd (mem_range.mpr hD.lt) h

theorem skipUp_spec (H : Compressed ptr ix v n d N f) (S : SortedDiag n N f) (hD : DiagAt N f j D) {p : Nat} (h1 : pst f N j ≤ p)
    (h2 : p ≤ D) {q : Nat} (hq : D - p < q) : skipUp ix j q p = .ok D := by
  induction hk : D - p generalizing p q with
  | zero =>
    obtain ⟨q, rfl⟩ : ∃ k, q = k + 1 := ⟨q - 1, by omega⟩
    have : p = D := by omega
    subst this
    simp only [skipUp, rd_ok (H.ix p hD.lt), Res.ok_bind, hD.min, lt_irrefl, if_false]
    rfl
  | succ k ih =>
    obtain ⟨q, rfl⟩ : ∃ k, q = k + 1 := ⟨q - 1, by omega⟩
    have hp : p < N := by have := hD.lt; omega
    have hm := (H.mem_seg hp).mp ⟨h1, lt_of_le_of_lt h2 (hD.seg H).2⟩
    have hlt := (hD.below S hp hm).mp (by omega)
    simp only [skipUp, rd_ok (H.ix p hp), Res.ok_bind, hlt, if_true]
    exact ih (by omega) (by omega) (by omega) (by omega)

theorem skipDown_spec (H : Compressed ptr ix v n d N f) (S : SortedDiag n N f) (hD : DiagAt N f j D) {p : Nat}
    (h1 : p ≤ pst f N (j + 1)) (h2 : D < p) : skipDown ix j p = .ok D := by
  induction p with
  | zero => omega
  | succ p ih =>
    have hp : p < N := lt_of_lt_of_le h1 (H.ptr_le _)
    simp only [skipDown, rd_ok (H.ix p hp), Res.ok_bind]
    by_cases c : D = p
    · subst c; rw [hD.min, if_neg (lt_irrefl _)]; rfl
    · have hm := (H.mem_seg hp).mp ⟨le_trans (hD.seg H).1 (by omega), h1⟩
      rw [if_pos ((hD.above S hp hm).mp (by omega))]
      exact ih (by omega) (by omega)

/-! ## Single steps of the solvers -/

variable [Field α] {b : Nat} {m : Mem α} {x : Nat → α}

/-- The divisor: 1 with `ARMAS_UNIT`, otherwise the diagonal element. -/
def dg (N : Nat) (f : Nat → Ent α) (unit : Bool) (j : Nat) : α := if unit then 1 else dense N f j j

theorem divAt_spec (H : Compressed A.ptr A.ix A.v n d N f) (S : SortedDiag n N f) (hD : DiagAt N f j D) (hx : VecAt m b n x)
    (hj : j < n) (unit : Bool) :
    Runs (divAt A b j D unit m) (fun m' => VecAt m' b n (Function.update x j (x j / dg N f unit j)) ∧ Frame (rng b n) m m') := by
  unfold divAt dg
  cases unit with
  | true => exact Runs.pure ⟨hx.congr fun k _ => by simp, Frame.refl _ _⟩
  | false =>
    simp only [Bool.false_eq_true, if_false]
    refine Runs.rd_bind (hx j hj) (Runs.rd_bind (H.v D hD.lt) (Runs.wr (hx j hj) ⟨?_, (Frame.refl _ _).setR hj _⟩))
    rw [dense_diag S hD]
    exact hx.set j _

theorem axpyAt_spec (H : Compressed A.ptr A.ix A.v n n N f) (hx : VecAt m b n x) (hj : j < n) {p : Nat} (hp : p < N) :
    Runs (axpyAt A b j p m) (fun m' => VecAt m' b n (Function.update x (f p).2.1 (x (f p).2.1 - (f p).2.2 * x j)) ∧
      Frame (rng b n) m m') := by
  unfold axpyAt
  have hc := H.minor p hp
  exact Runs.rd_bind (H.ix p hp) (Runs.rd_bind (hx _ hc) (Runs.rd_bind (H.v p hp) (Runs.rd_bind (hx j hj)
    (Runs.wr (hx _ hc) ⟨hx.set _ _, (Frame.refl _ _).setR hc _⟩))))

/-- Elimination of unknown `j` from the equations in `T`. -/
def elim (N : Nat) (f : Nat → Ent α) (T : Finset Nat) (x : Nat → α) (j : Nat) (k : Nat) : α :=
  if k ∈ T then x k - dense N f j k * x j else x k

/-- Solve equation `j` for unknown `j`, the unknowns in `T` being known. -/
def solveFor (N : Nat) (f : Nat → Ent α) (unit : Bool) (T : Finset Nat) (x : Nat → α) (j : Nat) : Nat → α :=
  Function.update x j ((x j - ∑ m ∈ T, dense N f j m * x m) / dg N f unit j)

theorem axpyLoop_above (H : Compressed A.ptr A.ix A.v n n N f) (S : SortedDiag n N f) (hD : DiagAt N f j D) (hx : VecAt m b n x)
    (hj : j < n) :
    Runs (forUp (D + 1) (pst f N (j + 1)) 1 (fun i m => axpyAt A b j i m) m)
      (fun r => VecAt r.2 b n (elim N f (Ico (j + 1) n) x j) ∧ Frame (rng b n) m r.2) := by
  let g : Nat → Nat → α := fun q k => x k - (∑ p ∈ Ico (D + 1) q, (f p).2.2 * (if (f p).2.1 = k then 1 else 0)) * x j
  refine Runs.forUp1 (fun q m' => VecAt m' b n (g q) ∧ Frame (rng b n) m m') (hD.seg H).2
    ⟨hx.congr fun k _ => by simp [g], Frame.refl _ _⟩ ?_ (fun m' h => ⟨h.1.congr fun k hk => ?_, h.2⟩)
  · rintro q m' h1 h2 ⟨k1, k2⟩
    have hq : q < N := lt_of_lt_of_le h2 (H.ptr_le _)
    have hm := (H.mem_seg hq).mp ⟨le_trans (hD.seg H).1 (by omega), h2⟩
    refine (axpyAt_spec H k1 hj hq).mono fun m2 ⟨l1, l2⟩ => ⟨l1.congr fun k _ => ?_, k2.trans l2⟩
    have hgj : g q j = x j := by
      simp only [g]
      rw [sum_eq_zero, zero_mul, sub_zero]
      intro p hp
      rw [mem_Ico] at hp
      have hpN : p < N := by omega
      have hm' := (H.mem_seg hpN).mp ⟨le_trans (hD.seg H).1 (by omega), lt_trans hp.2 h2⟩
      have := (hD.above S hpN hm').mp (by omega)
      rw [if_neg (by omega), mul_zero]
    rw [hgj]
    by_cases c : k = (f q).2.1
    · subst c
      rw [Function.update_self]
      simp only [g]
      rw [sum_Ico_succ_top h1, if_pos rfl]; ring
    · rw [Function.update_of_ne c]
      simp only [g]
      rw [sum_Ico_succ_top h1, if_neg (fun h => c h.symm)]; ring
  · simp only [g, elim]
    rw [sum_above H S hD (fun l => if l = k then 1 else 0)]
    by_cases c : k ∈ Ico (j + 1) n
    · rw [if_pos c, sum_eq_single k]
      · rw [if_pos rfl, mul_one]
      · intro l _ hl; rw [if_neg hl, mul_zero]
      · intro h; exact absurd c h
    · rw [if_neg c, sum_eq_zero]
      · ring
      · intro l hl; rw [if_neg, mul_zero]; rintro rfl; exact c hl

theorem sum_one_below (H : Compressed A.ptr A.ix A.v n n N f) (S : SortedDiag n N f) (hD : DiagAt N f j D) (x : Nat → α) (k : Nat) :
    x k - (∑ p ∈ Ico (pst f N j) D, (f p).2.2 * (if (f p).2.1 = k then 1 else 0)) * x j = elim N f (range j) x j k := by
  simp only [elim]
  rw [sum_below H S hD (fun l => if l = k then 1 else 0)]
  by_cases c : k ∈ range j
  · rw [if_pos c, sum_eq_single k]
    · rw [if_pos rfl, mul_one]
    · intro l _ hl; rw [if_neg hl, mul_zero]
    · intro h; exact absurd c h
  · rw [if_neg c, sum_eq_zero]
    · ring
    · intro l hl; rw [if_neg, mul_zero]; rintro rfl; exact c hl

theorem axpy_below_step (H : Compressed A.ptr A.ix A.v n n N f) (S : SortedDiag n N f) (hD : DiagAt N f j D) (hj : j < n)
    {T : Finset Nat} {q : Nat} (hT : ∀ p ∈ T, pst f N j ≤ p ∧ p < D) (hq1 : pst f N j ≤ q) (hq2 : q < D) (hq : q ∉ T) {m' : Mem α}
    (k1 : VecAt m' b n (fun k => x k - (∑ p ∈ T, (f p).2.2 * (if (f p).2.1 = k then 1 else 0)) * x j)) :
    Runs (axpyAt A b j q m') (fun m2 =>
      VecAt m2 b n (fun k => x k - (∑ p ∈ insert q T, (f p).2.2 * (if (f p).2.1 = k then 1 else 0)) * x j) ∧ Frame (rng b n) m' m2) := by
  have hqN : q < N := lt_trans hq2 hD.lt
  refine (axpyAt_spec H k1 hj hqN).mono fun m2 ⟨l1, l2⟩ => ⟨l1.congr fun k _ => ?_, l2⟩
  have hgj : x j - (∑ p ∈ T, (f p).2.2 * (if (f p).2.1 = j then 1 else 0)) * x j = x j := by
    rw [sum_eq_zero, zero_mul, sub_zero]
    intro p hp
    have hp := hT p hp
    have hpN : p < N := lt_trans hp.2 hD.lt
    have hm' := (H.mem_seg hpN).mp ⟨hp.1, lt_trans hp.2 (hD.seg H).2⟩
    have := (hD.below S hpN hm').mp hp.2
    rw [if_neg (by omega), mul_zero]
  rw [hgj]
  by_cases c : k = (f q).2.1
  · subst c
    rw [Function.update_self, sum_insert hq, if_pos rfl]; ring
  · rw [Function.update_of_ne c, sum_insert hq, if_neg (fun h => c h.symm)]; ring

theorem axpyLoop_below (H : Compressed A.ptr A.ix A.v n n N f) (S : SortedDiag n N f) (hD : DiagAt N f j D) (hx : VecAt m b n x)
    (hj : j < n) :
    Runs (forUp (pst f N j) D 1 (fun i m => axpyAt A b j i m) m)
      (fun r => VecAt r.2 b n (elim N f (range j) x j) ∧ Frame (rng b n) m r.2) := by
  refine Runs.forUp1 (fun q m' => VecAt m' b n (fun k => x k - (∑ p ∈ Ico (pst f N j) q, (f p).2.2 * (if (f p).2.1 = k then 1 else 0)) * x j)
    ∧ Frame (rng b n) m m') (hD.seg H).1
    ⟨hx.congr fun k _ => by simp, Frame.refl _ _⟩ ?_ (fun m' h => ⟨h.1.congr fun k _ => sum_one_below H S hD x k, h.2⟩)
  rintro q m' h1 h2 ⟨k1, k2⟩
  refine (axpy_below_step H S hD hj (T := Ico (pst f N j) q) (fun p hp => ?_) h1 h2 (by simp) k1).mono fun m2 ⟨l1, l2⟩ =>
    ⟨l1.congr fun k _ => ?_, k2.trans l2⟩
  · rw [mem_Ico] at hp; exact ⟨hp.1, lt_trans hp.2 h2⟩
  · have : insert q (Ico (pst f N j) q) = Ico (pst f N j) (q + 1) := by ext p; simp only [mem_insert, mem_Ico]; omega
    rw [this]

theorem axpyDown_below (H : Compressed A.ptr A.ix A.v n n N f) (S : SortedDiag n N f) (hD : DiagAt N f j D) (hx : VecAt m b n x)
    (hj : j < n) :
    Runs (axpyDown A b j (pst f N j) D m) (fun m' => VecAt m' b n (elim N f (range j) x j) ∧ Frame (rng b n) m m') := by
  have key : ∀ (q : Nat) (m' : Mem α), q ≤ D → pst f N j ≤ q →
      VecAt m' b n (fun k => x k - (∑ p ∈ Ico q D, (f p).2.2 * (if (f p).2.1 = k then 1 else 0)) * x j) → Frame (rng b n) m m' →
      Runs (axpyDown A b j (pst f N j) q m') (fun m' => VecAt m' b n (elim N f (range j) x j) ∧ Frame (rng b n) m m') := by
    intro q
    induction q with
    | zero =>
      intro m' _ h0 h1 h2
      refine Runs.pure ⟨h1.congr fun k _ => ?_, h2⟩
      rw [← sum_one_below H S hD x k, Nat.le_zero.mp h0]
    | succ q ih =>
      intro m' hqD h0 h1 h2
      unfold axpyDown
      by_cases c : pst f N j ≤ q
      · rw [if_pos c]
        refine Runs.bind (axpy_below_step H S hD hj (T := Ico (q + 1) D) (fun p hp => ?_) c (by omega) (by simp) h1)
          fun m2 ⟨l1, l2⟩ => ih m2 (by omega) c (l1.congr fun k _ => ?_) (h2.trans l2)
        · rw [mem_Ico] at hp; exact ⟨le_trans c (by omega), hp.2⟩
        · have : insert q (Ico (q + 1) D) = Ico q D := by ext p; simp only [mem_insert, mem_Ico]; omega
          rw [this]
      · rw [if_neg c]
        have : q + 1 = pst f N j := le_antisymm (by omega) h0
        refine Runs.pure ⟨h1.congr fun k _ => ?_, h2⟩
        rw [← sum_one_below H S hD x k, this]
  exact key D m (le_refl _) (hD.seg H).1 (hx.congr fun k _ => by simp) (Frame.refl _ _)

end Armas
