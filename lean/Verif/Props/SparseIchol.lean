import Verif.SparseIcholLemmas
import Verif.LuInvLemmas
import Verif.Props.SparseIlu
import Verif.Props.SparseCg

/-!
# Properties C80, C81: the incomplete Cholesky factorization and its preconditioner
-/

namespace Armas.Props

open Armas Finset

variable {α : Type}

/-! ## C80 -/

/-- The entry lies in the selected triangle, the diagonal included. -/
def inTri (upper : Bool) (e : Ent α) : Prop := if upper then e.1 ≤ e.2.1 else e.2.1 ≤ e.1

/-- The lower triangular factor stored in the selected triangle: the lower triangle itself or the transposed upper one. -/
def lowFac [Zero α] [One α] (upper : Bool) (a : Nat → Nat → α) (i j : Nat) : α :=
  if upper then triOf true false a j i else triOf false false a i j

/-- What the factorization must achieve: with `L` the factor stored in the selected triangle of the new elements `e'`, the product `L Lᵀ`
agrees with the old matrix `e` at every stored position of that triangle. -/
def IsIchol [Field α] (upper : Bool) (n N : Nat) (e e' : Nat → Ent α) : Prop :=
  ∀ p, p < N → inTri upper (e p) →
    ∑ k ∈ range n, lowFac upper (dense N e') (e p).1 k * lowFac upper (dense N e') (e p).2.1 k = (e p).2.2

/-- Result of the factorization: same format, same positions, elements outside the triangle unchanged, and if no element of the new diagonal is
zero, factors as wanted. -/
def IcholOk [Field α] (sq : α → α) (upper : Bool) (A : Sp α) (n N : Nat) (e : Nat → Ent α) (M : Sp α) : Prop :=
  ∃ e', Triangular M n N e' true ∧ M.kind = A.kind ∧ (∀ p, (e' p).1 = (e p).1 ∧ (e' p).2.1 = (e p).2.1) ∧
    (∀ p, p < N → ¬ inTri upper (e p) → e' p = e p) ∧
    ((∀ x, sq x ≠ 0 → sq x * sq x = x) → (∀ j, j < n → dense N e' j j ≠ 0) → IsIchol upper n N e e')

private def lo (upper : Bool) (e : Ent α) : Nat := if upper then e.1 else e.2.1
private def hi (upper : Bool) (e : Ent α) : Nat := if upper then e.2.1 else e.1

private theorem inTri_iff (upper : Bool) (e : Ent α) : inTri upper e ↔ lo upper e ≤ hi upper e := by
  cases upper <;> simp [inTri, lo, hi]

private theorem low_eq [Field α] {N : Nat} {e : Nat → Ent α} (upper : Bool)
    (hu : ∀ p q, p < N → q < N → (e p).1 = (e q).1 → (e p).2.1 = (e q).2.1 → p = q) {R : Nat → Nat → α}
    (hR : ∀ a b, ¬ (a ≤ b ∧ ∃ p, p < N ∧ lo upper (e p) = a ∧ hi upper (e p) = b) → R a b = 0) {w : Nat → α}
    (hw : ∀ p, p < N → inTri upper (e p) → w p = R (lo upper (e p)) (hi upper (e p))) (i j : Nat) :
    lowFac upper (dense N (fun p => ((e p).1, (e p).2.1, w p))) i j = R j i := by
  have hu' : ∀ p q, p < N → q < N → ((e p).1, (e p).2.1, w p).1 = ((e q).1, (e q).2.1, w q).1 →
      ((e p).1, (e p).2.1, w p).2.1 = ((e q).1, (e q).2.1, w q).2.1 → p = q := fun p q h1 h2 h3 h4 => hu p q h1 h2 h3 h4
  have key : ∀ r c, (if upper then r else c) ≤ (if upper then c else r) →
      dense N (fun p => ((e p).1, (e p).2.1, w p)) r c = R (if upper then r else c) (if upper then c else r) := by
    intro r c hrc
    by_cases h : ∃ p, p < N ∧ (e p).1 = r ∧ (e p).2.1 = c
    · obtain ⟨p, h1, h2, h3⟩ := h
      subst h2 h3
      rw [dense_self (e := fun p => ((e p).1, (e p).2.1, w p)) hu' h1]
      have e1 : lo upper (e p) = if upper then (e p).1 else (e p).2.1 := rfl
      have e2 : hi upper (e p) = if upper then (e p).2.1 else (e p).1 := rfl
      rw [← e1, ← e2] at hrc ⊢
      exact hw p h1 ((inTri_iff _ _).mpr hrc)
    · rw [dense_zero (e := fun p => ((e p).1, (e p).2.1, w p)) r c h, hR]
      rintro ⟨-, p, h1, h2, h3⟩
      refine h ⟨p, h1, ?_⟩
      cases upper
      · simp only [lo, hi, Bool.false_eq_true, if_false] at h2 h3; exact ⟨h3, h2⟩
      · simp only [lo, hi, if_true] at h2 h3; exact ⟨h2, h3⟩
  have hgt : i < j → R j i = 0 := fun h => hR j i (fun x => by omega)
  unfold lowFac triOf
  cases upper with
  | true =>
    simp only [if_true, Bool.false_eq_true, if_false] at key ⊢
    by_cases c : j = i
    · rw [if_pos c]; exact key j i (by omega)
    · rw [if_neg c]
      by_cases c2 : j < i
      · rw [if_pos c2]; exact key j i (by omega)
      · rw [if_neg c2, hgt (by omega)]
  | false =>
    simp only [Bool.false_eq_true, if_false] at key ⊢
    by_cases c : i = j
    · rw [if_pos c]; exact key i j (by omega)
    · rw [if_neg c]
      by_cases c2 : j < i
      · rw [if_pos c2]; exact key i j (by omega)
      · rw [if_neg c2, hgt (by omega)]

private theorem uniq_csr [Field α] {A : Sp α} {n N : Nat} {e : Nat → Ent α} (T : Triangular A n N e true) :
    ∀ p q, p < N → q < N → (e p).1 = (e q).1 → (e p).2.1 = (e q).2.1 → p = q := by
  have hk := T.kind
  cases h : A.kind with
  | coo => exact absurd h hk
  | csr =>
    have TM := triMat_csr T h
    have P : Pat A n N e := ⟨TM.comp, TM.nnz, TM.sd⟩
    exact fun p q a b c d => P.uniq a b c d
  | csc =>
    have TM := triMat_csc T h
    have P : Pat A n N (fun p => (e p).flip) := ⟨TM.comp, TM.nnz, TM.sd⟩
    exact fun p q a b c d => P.uniq a b d c

private noncomputable def start [Field α] (upper : Bool) (N : Nat) (e : Nat → Ent α) (a b : Nat) : α := lowFac upper (dense N e) b a

private theorem start_eq [Field α] {N : Nat} {e : Nat → Ent α} (upper : Bool)
    (hu : ∀ p q, p < N → q < N → (e p).1 = (e q).1 → (e p).2.1 = (e q).2.1 → p = q) {p : Nat} (hp : p < N) (h : inTri upper (e p)) :
    start upper N e (lo upper (e p)) (hi upper (e p)) = (e p).2.2 := by
  unfold start lowFac triOf
  cases upper with
  | true =>
    simp only [inTri, lo, hi, if_true, Bool.false_eq_true, if_false] at h ⊢
    rw [dense_self hu hp]
    by_cases c : (e p).1 = (e p).2.1
    · rw [if_pos c]
    · rw [if_neg c, if_pos (by omega)]
  | false =>
    simp only [inTri, lo, hi, Bool.false_eq_true, if_false] at h ⊢
    rw [dense_self hu hp]
    by_cases c : (e p).1 = (e p).2.1
    · rw [if_pos c]
    · rw [if_neg c, if_pos (by omega)]

private theorem start_zero [Field α] {N : Nat} {e : Nat → Ent α} (upper : Bool) (a b : Nat)
    (h : ¬ (a ≤ b ∧ ∃ p, p < N ∧ lo upper (e p) = a ∧ hi upper (e p) = b)) : start upper N e a b = 0 := by
  unfold start lowFac triOf
  cases upper with
  | true =>
    simp only [lo, hi, if_true, Bool.false_eq_true, if_false] at h ⊢
    by_cases c : a = b
    · rw [if_pos c]; exact dense_zero _ _ (fun x => h ⟨by omega, x⟩)
    · rw [if_neg c]
      by_cases c2 : a < b
      · rw [if_pos c2]; exact dense_zero _ _ (fun x => h ⟨by omega, x⟩)
      · rw [if_neg c2]
  | false =>
    simp only [lo, hi, Bool.false_eq_true, if_false] at h ⊢
    have hx : a ≤ b → ¬ ∃ p, p < N ∧ (e p).1 = b ∧ (e p).2.1 = a := fun hab ⟨p, x, y, z⟩ => h ⟨hab, p, x, z, y⟩
    by_cases c : b = a
    · rw [if_pos c]; exact dense_zero _ _ (hx (by omega))
    · rw [if_neg c]
      by_cases c2 : a < b
      · rw [if_pos c2]; exact dense_zero _ _ (hx (by omega))
      · rw [if_neg c2]

private theorem finish [Field α] {A : Sp α} {n N : Nat} {e : Nat → Ent α} (T : Triangular A n N e true) (sq : α → α) (upper : Bool)
    {S : Nat → Nat → Prop} (hS : ∀ a b, S a b ↔ a ≤ b ∧ ∃ p, p < N ∧ lo upper (e p) = a ∧ hi upper (e p) = b) {v' : Mem α} {w : Nat → α}
    (hv : Vals v' N w) (hw : ∀ p, p < N → inTri upper (e p) → w p = icSeq sq S (start upper N e) n (lo upper (e p)) (hi upper (e p)))
    (hw' : ∀ p, p < N → ¬ inTri upper (e p) → w p = (e p).2.2) : IcholOk sq upper A n N e { A with v := v' } := by
  have hu := uniq_csr T
  have hz0 : ∀ a b, ¬ S a b → start upper N e a b = 0 := fun a b h => start_zero upper a b (fun x => h ((hS a b).mpr x))
  have hz : ∀ a b, ¬ (a ≤ b ∧ ∃ p, p < N ∧ lo upper (e p) = a ∧ hi upper (e p) = b) → icSeq sq S (start upper N e) n a b = 0 := fun a b h =>
    icSeq_zero hz0 n a b (fun x => h ((hS a b).mp x))
  have hlow := low_eq upper hu hz hw
  have hrange : ∀ p, p < N → lo upper (e p) < n ∧ hi upper (e p) < n := by
    intro p hp
    have : (e p).1 < n ∧ (e p).2.1 < n := by
      have hk := T.kind
      cases h : A.kind with
      | coo => exact absurd h hk
      | csr => have TM := triMat_csr T h; exact ⟨TM.comp.major p hp, TM.comp.minor p hp⟩
      | csc => have TM := triMat_csc T h; exact ⟨TM.comp.minor p hp, TM.comp.major p hp⟩
    cases upper <;> simp only [lo, hi, Bool.false_eq_true, if_false, if_true] <;> omega
  have hdS : ∀ j, j < n → S j j := fun j hj => by
    obtain ⟨p, h1, h2, h3⟩ := T.diag j hj
    refine (hS j j).mpr ⟨le_refl _, p, h1, ?_⟩
    cases upper <;> simp only [lo, hi, Bool.false_eq_true, if_false, if_true] <;> omega
  refine ⟨fun p => ((e p).1, (e p).2.1, w p), ?_, rfl, fun p => ⟨rfl, rfl⟩, fun p hp h => ?_, fun hsq hd => ?_⟩
  · obtain ⟨⟨h1, h2⟩, T2, T3, T4, T5, T6, T7⟩ := T
    refine ⟨⟨h1, ?_⟩, T2, T3, T4, ?_, T6, by simp⟩
    · dsimp only
      cases h : A.kind with
      | coo => exact absurd h T2
      | csr =>
        rw [h] at h2
        obtain ⟨a, b⟩ := h2
        exact ⟨a, ⟨b.sorted, b.major, b.minor, b.ptr, b.ix, hv⟩⟩
      | csc =>
        rw [h] at h2
        obtain ⟨a, b⟩ := h2
        exact ⟨a, ⟨b.sorted, b.major, b.minor, b.ptr, b.ix, hv⟩⟩
    · dsimp only
      cases h : A.kind with
      | coo => exact absurd h T2
      | csr => rw [h] at T5; exact T5
      | csc => rw [h] at T5; exact T5
  · dsimp only; rw [hw' p hp h]
  · intro p hp ht
    rw [← start_eq upper hu hp ht]
    have hs : S (lo upper (e p)) (hi upper (e p)) := (hS _ _).mpr ⟨(inTri_iff _ _).mp ht, p, hp, rfl, rfl⟩
    rw [← icSeq_factor (n := n) hz0 hdS (fun a b h => ((hS a b).mp h).1) hsq (fun j hj => ?_) (hrange p hp).1 hs]
    · refine sum_congr rfl fun k _ => ?_
      rw [hlow, hlow]
      cases upper <;> simp only [lo, hi, Bool.false_eq_true, if_false, if_true]
      rw [mul_comm]
    · have := hd j hj
      rw [← hlow j j]
      unfold lowFac triOf
      cases upper <;> simpa using this

/-- C80 for a square compressed matrix with ascending indices and stored diagonal; for lower compressed rows and upper compressed columns also
one readable element behind the index array (see `C80_behind_end_false`).  For every function `sq` in the place of the square root the code
returns 0 and the positions are kept; if `sq` gives square roots wherever its value is not zero (like the real square root, with 0 for negative
numbers) and no element of the new diagonal is zero, then `L Lᵀ` agrees with the matrix on the stored positions of the selected triangle.  That
a pivot is not positive is not reported (see `C80_pivot_false`). -/
theorem C80_icholz_partial [Field α] {A : Sp α} {n N : Nat} {e : Nat → Ent α} (T : Triangular A n N e true) (sq : α → α) (upper lower : Bool)
    (hx : (A.kind = .csr ↔ (upper && !lower) = false) → ∃ c, A.ix N = some c) :
    Runs (spIcholz sq A upper lower) (fun r => r.1 = 0 ∧ IcholOk sq (upper && !lower) A n N e r.2) := by
  unfold spIcholz
  generalize hup : (upper && !lower) = up at hx ⊢
  have hu := uniq_csr T
  have hk := T.kind
  refine Runs.bind (P := fun M => IcholOk sq up A n N e M) ?_ fun M h => Runs.pure ⟨rfl, h⟩
  cases h : A.kind with
  | coo => exact absurd h hk
  | csr =>
    have TM := triMat_csr T h
    have P : Pat A n N e := ⟨TM.comp, TM.nnz, TM.sd⟩
    cases up with
    | true =>
      simp only [if_true]
      rw [T.rows]
      have hS : ∀ a b, InR N e a b ↔ a ≤ b ∧ ∃ p, p < N ∧ lo true (e p) = a ∧ hi true (e p) = b := fun a b => Iff.rfl
      refine (illtzRight_spec (sq := sq) P (E := start true N e) (g0 := fun p => (e p).2.2)
        (fun a b h => start_zero true a b (fun x => h ((hS a b).mpr x))) ?_).mono ?_
      · intro p hp
        rw [P.comp.v p hp]
        unfold rightSeq
        by_cases c : inTri true (e p)
        · refine Eq.trans ?_ (congrArg some (if_pos c).symm); exact congrArg some (start_eq true hu hp c).symm
        · refine Eq.trans ?_ (congrArg some (if_neg c).symm); rfl
      · rintro M ⟨v', rfl, hv'⟩
        exact finish T sq true hS hv' (fun p _ ht => if_pos ht) (fun p _ ht => if_neg ht)
    | false =>
      simp only [Bool.false_eq_true, if_false, if_true]
      rw [T.rows]
      have hS : ∀ a b, InL N e a b ↔ a ≤ b ∧ ∃ p, p < N ∧ lo false (e p) = a ∧ hi false (e p) = b := fun a b =>
        and_congr_right fun _ => exists_congr fun p => and_congr_right fun _ => and_comm
      refine (illtzLeft_spec (sq := sq) P (hx (by simp [h])) (E := start false N e) (g0 := fun p => (e p).2.2)
        (fun a b h => start_zero false a b (fun x => h ((hS a b).mpr x))) ?_).mono ?_
      · intro p hp
        rw [P.comp.v p hp]
        unfold leftSeq
        by_cases c : inTri false (e p)
        · refine Eq.trans ?_ (congrArg some (if_pos c).symm); exact congrArg some (start_eq false hu hp c).symm
        · refine Eq.trans ?_ (congrArg some (if_neg c).symm); rfl
      · rintro M ⟨v', rfl, hv'⟩
        exact finish T sq false hS hv' (fun p _ ht => if_pos ht) (fun p _ ht => if_neg ht)
  | csc =>
    have TM := triMat_csc T h
    have P : Pat A n N (fun p => (e p).flip) := ⟨TM.comp, TM.nnz, TM.sd⟩
    cases up with
    | true =>
      simp only [if_true, reduceCtorEq, if_false]
      rw [T.rows, T.cols]
      have hS : ∀ a b, InL N (fun p => (e p).flip) a b ↔ a ≤ b ∧ ∃ p, p < N ∧ lo true (e p) = a ∧ hi true (e p) = b := fun a b =>
        and_congr_right fun _ => exists_congr fun p => and_congr_right fun _ => and_comm
      refine (illtzLeft_spec (sq := sq) P (hx (by simp [h])) (E := start true N e) (g0 := fun p => (e p).2.2)
        (fun a b h => start_zero true a b (fun x => h ((hS a b).mpr x))) ?_).mono ?_
      · intro p hp
        rw [P.comp.v p hp]
        unfold leftSeq
        by_cases c : inTri true (e p)
        · refine Eq.trans ?_ (congrArg some (if_pos c).symm); exact congrArg some (start_eq true hu hp c).symm
        · refine Eq.trans ?_ (congrArg some (if_neg c).symm); rfl
      · rintro M ⟨v', rfl, hv'⟩
        exact finish T sq true hS hv' (fun p _ ht => if_pos ht) (fun p _ ht => if_neg ht)
    | false =>
      simp only [Bool.false_eq_true, reduceCtorEq, if_false]
      rw [T.cols]
      have hS : ∀ a b, InR N (fun p => (e p).flip) a b ↔ a ≤ b ∧ ∃ p, p < N ∧ lo false (e p) = a ∧ hi false (e p) = b := fun a b => Iff.rfl
      refine (illtzRight_spec (sq := sq) P (E := start false N e) (g0 := fun p => (e p).2.2)
        (fun a b h => start_zero false a b (fun x => h ((hS a b).mpr x))) ?_).mono ?_
      · intro p hp
        rw [P.comp.v p hp]
        unfold rightSeq
        by_cases c : inTri false (e p)
        · refine Eq.trans ?_ (congrArg some (if_pos c).symm); exact congrArg some (start_eq false hu hp c).symm
        · refine Eq.trans ?_ (congrArg some (if_neg c).symm); rfl
      · rintro M ⟨v', rfl, hv'⟩
        exact finish T sq false hS hv' (fun p _ ht => if_pos ht) (fun p _ ht => if_neg ht)

/-- The lower triangle of (4 2; 2 5) in compressed rows, with room for one more element. -/
def demoIc : Sp ℚ :=
  ⟨.csr, 2, 2, 3, 2, 4, 100, 4, 3, fun k => [(4 : ℚ), 2, 5, 0][k]?, fun k => [0, 1, 3][k]?, fun k => [0, 0, 1, 0][k]?, noMem⟩

def demoIcEnt (p : Nat) : Ent ℚ := [(0, 0, 4), (1, 0, 2), (1, 1, 5)].getD p (0, 0, 0)

theorem demoIc_is (unit : Bool) : Triangular demoIc 2 3 demoIcEnt unit := by
  have l3 : ∀ {P : Nat → Prop}, P 0 → P 1 → P 2 → ∀ p, p < 3 → P p := by
    intro P h0 h1 h2 p hp
    have : p = 0 ∨ p = 1 ∨ p = 2 := by omega
    rcases this with rfl | rfl | rfl <;> assumption
  have hmaj : ∀ p, p < 3 → (demoIcEnt p).1 = [0, 1, 1].getD p 0 := l3 rfl rfl rfl
  have hmin : ∀ p, p < 3 → (demoIcEnt p).2.1 = [0, 0, 1].getD p 0 := l3 rfl rfl rfl
  refine ⟨⟨rfl, rfl, ⟨?_, ?_, ?_, ?_, ?_, ?_⟩⟩, by decide, rfl, rfl, ?_, ?_, ?_⟩
  · intro p q hpq hq
    have : (p = 0 ∨ p = 1 ∨ p = 2) ∧ (q = 0 ∨ q = 1 ∨ q = 2) := by omega
    rcases this with ⟨rfl | rfl | rfl, rfl | rfl | rfl⟩ <;> first | (exfalso; omega) | decide
  · exact l3 (by decide) (by decide) (by decide)
  · exact l3 (by decide) (by decide) (by decide)
  · intro k hk
    have hk : k ≤ 2 := hk
    have : k = 0 ∨ k = 1 ∨ k = 2 := by omega
    rcases this with rfl | rfl | rfl <;> decide
  · exact l3 (by rfl) (by rfl) (by rfl)
  · exact l3 (by rfl) (by rfl) (by rfl)
  · intro p q hpq hq
    have : (p = 0 ∨ p = 1 ∨ p = 2) ∧ (q = 0 ∨ q = 1 ∨ q = 2) := by omega
    show (demoIcEnt p).1 = (demoIcEnt q).1 → (demoIcEnt p).2.1 < (demoIcEnt q).2.1
    rcases this with ⟨rfl | rfl | rfl, rfl | rfl | rfl⟩ <;> first | (exfalso; omega) | decide
  · intro j hj
    have : j = 0 ∨ j = 1 := by omega
    rcases this with rfl | rfl
    · exact ⟨0, by decide, rfl, rfl⟩
    · exact ⟨2, by decide, rfl, rfl⟩
  · intro _ j hj
    have : j = 0 ∨ j = 1 := by omega
    rcases this with rfl | rfl <;> simp [dense, sum_range_succ, demoIcEnt]

/-- A square root that is enough for `demoIc`. -/
def demoSqrt (x : ℚ) : ℚ := if x = 4 then 2 else 0

example := C80_icholz_partial (demoIc_is true) demoSqrt false true (fun _ => ⟨0, rfl⟩)

example : ∀ x, demoSqrt x ≠ 0 → demoSqrt x * demoSqrt x = x := by
  intro x h
  unfold demoSqrt at h ⊢
  by_cases c : x = 4
  · rw [if_pos c, c]; norm_num
  · rw [if_neg c] at h; exact absurd rfl h

example : ∀ x : ℝ, Real.sqrt x ≠ 0 → Real.sqrt x * Real.sqrt x = x := fun x h =>
  Real.mul_self_sqrt (le_of_lt (not_le.mp fun h0 => h (Real.sqrt_eq_zero_of_nonpos h0)))

/-- The factor of `demoIc` is (2 0; 1 2), no element of the diagonal is zero. -/
example : (match spIcholz demoSqrt demoIc false true with
    | .ok (_, M) => (List.range 3).map M.v
    | _ => []) = [some 2, some 1, some 2] := by decide +kernel

/-- For the lower triangle in compressed rows and the upper one in compressed columns the index behind the last element is read: without
spare room in the arrays the factorization of (4 2; 2 5) is undefined. -/
theorem C80_behind_end_false :
    isUB (spIcholz demoSqrt
      (⟨.csr, 2, 2, 3, 2, 3, 100, 3, 3, fun k => [(4 : ℚ), 2, 5][k]?, fun k => [0, 1, 3][k]?, fun k => [0, 0, 1][k]?, noMem⟩ : Sp ℚ) false true) = true ∧
    isUB (spIcholz demoSqrt
      (⟨.csc, 2, 2, 3, 2, 3, 100, 3, 3, fun k => [(4 : ℚ), 2, 5][k]?, fun k => [0, 1, 3][k]?, fun k => [0, 0, 1][k]?, noMem⟩ : Sp ℚ) true false) = true := by
  decide +kernel

/-- A pivot that is not positive is not reported: for the 1 × 1 matrix -1 the return value is 0 and the factor is the square root of -1, for
every square root function `sq`. -/
theorem C80_pivot_false (sq : ℝ → ℝ) :
    ∃ M : Sp ℝ, spIcholz sq ⟨.csr, 1, 1, 1, 1, 2, 100, 2, 2, fun k => [(-1 : ℝ), 0][k]?, fun k => [0, 1][k]?, fun k => [0, 0][k]?, noMem⟩ false true =
      .ok (0, M) ∧ M.v 0 = some (sq (-1)) ∧ sq (-1) * sq (-1) ≠ -1 := by
  refine ⟨_, rfl, rfl, ?_⟩
  have := mul_self_nonneg (sq (-1))
  intro h
  linarith

/-- The format is not checked: a matrix in coordinate format is taken for compressed columns, and its pointers, which do not exist, are read. -/
theorem C80_format_false :
    isUB (spIcholz demoSqrt (⟨.coo, 1, 1, 1, 0, 1, 100, 0, 0, noMem, noMem, noMem, fun _ => some (0, 0, 4)⟩ : Sp ℚ) false true) = true := by
  decide +kernel

/-! ## C81 -/

private theorem fac_apply [Field α] {n : Nat} (l : Nat → Nat → α) (up tr : Bool) (a : Nat → Nat → α) (hl : l = lowFac up a) (z : Nat → α)
    (i : Nat) :
    ∑ j ∈ range n, (if tr then triOf up false a j i else triOf up false a i j) * z j =
      ∑ j ∈ range n, (if tr = up then l i j else l j i) * z j := by
  subst hl
  refine sum_congr rfl fun j _ => ?_
  congr 1
  unfold lowFac
  cases up <;> cases tr <;> rfl

/-- C81: with `ARMAS_UPPER` or `ARMAS_LOWER` (not both) as the flags of the preconditioner, and no zero on the diagonal of the factored matrix,
the result is the solution of `L (Lᵀ z) = x`, for `z` in the place of `x` or apart from it, and nothing but `z` changes. -/
theorem C81_precond_partial [Field α] {M : Sp α} {n N : Nat} {e : Nat → Ent α} (T : Triangular M n N e false) (hn : 0 < n) {Z X : View}
    {same upper lower : Bool} (hul : ¬ (upper = true ∧ lower = true)) {m : Mem α} {xv zv : Nat → α} (hZc : Z.cols = 1) (hZr : Z.rows = n)
    (hXc : X.cols = 1) (hXr : X.rows = n) (hx : HoldsV m X xv) (hz : HoldsV m Z zv) (hs : if same then X = Z else Disjoint X.foot Z.foot)
    {l : Nat → Nat → α} (hl : l = lowFac upper (dense N e)) :
    Runs (precondIchol Z M X same upper lower false false m) (fun r => r.1 = 0 ∧ Frame Z.foot m r.2 ∧ ∃ z, HoldsV r.2 Z z ∧
      ∀ i, i < n → ∑ j ∈ range n, l i j * (∑ k ∈ range n, l k j * z k) = xv i) := by
  unfold precondIchol
  have hc : Runs (precondCopy Z X same m) (fun r => HoldsV r.2 Z xv ∧ Frame Z.foot m r.2) := by
    unfold precondCopy
    cases same with
    | true =>
      simp only [if_true] at hs ⊢
      rw [hs] at hx
      exact Runs.pure ⟨hx, Frame.refl _ _⟩
    | false =>
      simp only [Bool.false_eq_true, if_false] at hs ⊢
      exact (C05_mcopy_vector false (Or.inr (by omega)) (Or.inr hZc) (Or.inr hXc) hz hx hs
        (by rw [View.colSize hZc, View.colSize hXc, hZr, hXr])).mono fun r h => h.2
  refine Runs.bind hc fun r1 h1 => ?_
  have two : ∀ t1 t2 : Bool, t1 = upper → t2 = !upper →
      Runs (do
        let (_, m) ← spMvsolveTrm Z 1 M upper lower t1 false r1.2
        let (_, m) ← spMvsolveTrm Z 1 M upper lower t2 false m
        pure ((0 : Int), m)) (fun r => r.1 = 0 ∧ Frame Z.foot m r.2 ∧ ∃ z, HoldsV r.2 Z z ∧
          ∀ i, i < n → ∑ j ∈ range n, l i j * (∑ k ∈ range n, l k j * z k) = xv i) := by
    intro t1 t2 ht1 ht2
    refine Runs.bind (C41_solve_partial T hn hul hZc hZr h1.1) fun r2 h2 => ?_
    obtain ⟨-, hf2, y, hy, hye⟩ := h2
    refine Runs.bind (C41_solve_partial T hn hul hZc hZr hy) fun r3 h3 => ?_
    obtain ⟨-, hf3, z, hz', hze⟩ := h3
    refine Runs.pure ⟨rfl, (h1.2.trans hf2).trans hf3, z, hz', fun i hi => ?_⟩
    have e1 := hye i hi
    rw [fac_apply l upper t1 _ hl, ht1] at e1
    simp only [if_true] at e1
    rw [← e1]
    refine sum_congr rfl fun j hj => ?_
    have e2 := hze j (mem_range.mp hj)
    rw [fac_apply l upper t2 _ hl, ht2] at e2
    rw [← e2]
    congr 1
    refine sum_congr rfl fun k _ => ?_
    cases upper <;> rfl
  cases upper with
  | true => exact two true false rfl rfl
  | false => exact two false true rfl rfl

example := C81_precond_partial (same := false) (upper := true) (lower := false) (demoTri_is false) (by decide) (by decide) (Z := ⟨20, 3, 3, 1⟩)
  (X := ⟨10, 3, 3, 1⟩) (m := tot (fun p => (p : ℚ))) rfl rfl rfl rfl (holdsV_tot _ _) (holdsV_tot _ _) (View.disj_below (by decide)) rfl

/-- C81, use with the conjugate gradient method: the preconditioner applies a symmetric positive definite matrix, the inverse of `L Lᵀ`, so that
`C73_pcgrad_partial` is true for it. -/
theorem C81_contract_partial [Field α] [LinearOrder α] [IsStrictOrderedRing α] {M : Sp α} {n N : Nat} {e : Nat → Ent α}
    (T : Triangular M n N e false) (hn : 0 < n) {upper lower : Bool} (hul : ¬ (upper = true ∧ lower = true)) {l : Nat → Nat → α}
    (hl : l = lowFac upper (dense N e)) :
    ∃ mm : Nat → Nat → α, Preconditions (fun m Z R => precondIchol Z M R false upper lower false false m) n mm ∧ PosDef n mm ∧
      (∀ i j, mm i j = mm j i) ∧
      ∀ i j, i < n → j < n → ∑ k ∈ range n, (∑ q ∈ range n, l i q * l k q) * mm k j = if i = j then 1 else 0 := by
  have hlt : ∀ i j, i < j → l i j = 0 := by
    intro i j h
    subst hl
    unfold lowFac triOf
    cases upper with
    | true => simp [show ¬ j = i by omega, show ¬ j < i by omega]
    | false => simp [show ¬ i = j by omega, show ¬ j < i by omega]
  have hd : ∀ i, i < n → l i i ≠ 0 := by
    intro i hi
    have := T.nz rfl i hi
    subst hl
    unfold lowFac triOf
    cases upper <;> simpa using this
  obtain ⟨x, hx⟩ := triInv_exists false n (t := l) (fun i j _ _ h => hlt i j (by simpa using h)) hd
  have hxt : TriInv true n (fun i j => l j i) (fun i j => x j i) := by
    refine ⟨fun i j hi hj h => hx.zero j i hj hi (by simpa using h), fun i j hi hj => ?_, fun i j hi hj => ?_⟩
    · rw [sum_congr rfl (fun p _ => mul_comm _ _), hx.left j i hj hi]
      by_cases c : i = j
      · rw [if_pos c, if_pos c.symm]
      · rw [if_neg c, if_neg (fun h => c h.symm)]
    · rw [sum_congr rfl (fun p _ => mul_comm _ _), hx.right j i hj hi]
      by_cases c : i = j
      · rw [if_pos c, if_pos c.symm]
      · rw [if_neg c, if_neg (fun h => c h.symm)]
  have happ : ∀ (b : Nat → α) i, ∑ p ∈ range n, x p i * (∑ j ∈ range n, x p j * b j) =
      ∑ j ∈ range n, (∑ p ∈ range n, x p i * x p j) * b j := by
    intro b i
    rw [sum_congr rfl (fun p _ => mul_sum _ _ _), sum_comm]
    refine sum_congr rfl fun j _ => ?_
    rw [sum_mul]
    exact sum_congr rfl fun p _ => by ring
  refine ⟨fun i j => ∑ p ∈ range n, x p i * x p j, ?_, ?_, fun i j => sum_congr rfl fun p _ => mul_comm _ _, ?_⟩
  · intro m Z R z r hZc hZr hRc hRr hz hr hdj
    refine (C81_precond_partial (same := false) T hn hul hZc hZr hRc hRr hr hz hdj.symm hl).mono ?_
    rintro q ⟨-, hf, z', hz', he⟩
    refine ⟨hz'.congr fun i hi => ?_, hf⟩
    rw [View.colSize hZc, hZr] at hi
    have h1 : ∀ j, j < n → ∑ k ∈ range n, l k j * z' k = ∑ p ∈ range n, x j p * r p := fun j hj =>
      hx.solve (z := fun j => ∑ k ∈ range n, l k j * z' k) he hj
    rw [hxt.solve h1 hi, happ]
  · rintro v ⟨i0, hi0, hv⟩
    have hq : quadForm n (fun i j => ∑ p ∈ range n, x p i * x p j) v =
        ∑ p ∈ range n, (∑ i ∈ range n, x p i * v i) * (∑ i ∈ range n, x p i * v i) := by
      unfold quadForm
      rw [sum_congr rfl (fun i _ => by rw [← happ, mul_sum]), sum_comm]
      refine sum_congr rfl fun p _ => ?_
      rw [sum_mul]
      exact sum_congr rfl fun i _ => by ring
    rw [hq]
    have hnn : ∀ p ∈ range n, 0 ≤ (∑ i ∈ range n, x p i * v i) * (∑ i ∈ range n, x p i * v i) := fun p _ => mul_self_nonneg _
    refine lt_of_le_of_ne (sum_nonneg hnn) fun h0 => hv ?_
    have hall := (sum_eq_zero_iff_of_nonneg hnn).mp h0.symm
    have hzero : ∀ p, p < n → ∑ i ∈ range n, x p i * v i = 0 := fun p hp => mul_self_eq_zero.mp (hall p (mem_range.mpr hp))
    have e1 : ∑ p ∈ range n, l i0 p * (∑ i ∈ range n, x p i * v i) = v i0 := by
      rw [sum_congr rfl (fun p _ => mul_sum _ _ _), sum_comm,
        sum_congr rfl (g := fun j => if j = i0 then v j else 0) (fun j hj => by
          rw [sum_congr rfl (fun p _ => (mul_assoc _ _ _).symm), ← sum_mul, hx.right i0 j hi0 (mem_range.mp hj)]
          by_cases c : j = i0
          · rw [if_pos c, if_pos c.symm, one_mul]
          · rw [if_neg c, if_neg (fun h => c h.symm), zero_mul]),
        sum_ite_eq' (range n), if_pos (mem_range.mpr hi0)]
    rw [← e1]
    exact sum_eq_zero fun p hp => by rw [hzero p (mem_range.mp hp), mul_zero]
  · intro i j hi hj
    have e1 : ∀ q, q < n → ∑ k ∈ range n, l k q * (∑ p ∈ range n, x p k * x p j) = x q j := by
      intro q hq
      rw [sum_congr rfl (fun p _ => mul_sum _ _ _), sum_comm,
        sum_congr rfl (g := fun p => if p = q then x p j else 0) (fun p hp => by
          rw [sum_congr rfl (fun k _ => show l k q * (x p k * x p j) = x p k * l k q * x p j by ring), ← sum_mul, hx.left p q (mem_range.mp hp) hq]
          by_cases c : p = q
          · rw [if_pos c, if_pos c, one_mul]
          · rw [if_neg c, if_neg c, zero_mul]),
        sum_ite_eq' (range n), if_pos (mem_range.mpr hq)]
    rw [← hx.right i j hi hj, sum_congr rfl (fun k _ => sum_mul _ _ _), sum_comm]
    refine sum_congr rfl fun q hq => ?_
    rw [← e1 q (mem_range.mp hq), mul_sum]
    exact sum_congr rfl fun k _ => by ring

example := C81_contract_partial (upper := false) (lower := true) (demoIc_is false) (by decide) (by decide) rfl

end Armas.Props
