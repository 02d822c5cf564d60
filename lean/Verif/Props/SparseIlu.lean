import Verif.SparseIlu
import Verif.Props.SparseMv

/-!
# Property C43: the incomplete LU factorization
-/

namespace Armas.Props

open Armas Finset

variable {α : Type}

theorem dense_pat [Field α] {N : Nat} {e : Nat → Ent α} (hu : ∀ p q, p < N → q < N → (e p).1 = (e q).1 → (e p).2.1 = (e q).2.1 → p = q)
    {E : Nat → Nat → α} (hz : ∀ r c, ¬ (∃ p, p < N ∧ (e p).1 = r ∧ (e p).2.1 = c) → E r c = 0) :
    dense N (fun p => ((e p).1, (e p).2.1, E (e p).1 (e p).2.1)) = E := by
  funext r c
  unfold dense
  by_cases h : ∃ p, p < N ∧ (e p).1 = r ∧ (e p).2.1 = c
  · obtain ⟨p, h1, h2, h3⟩ := h
    rw [sum_eq_single p]
    · rw [if_pos ⟨h2, h3⟩]; dsimp only; rw [h2, h3]
    · intro q hq hne
      rw [if_neg]
      rintro ⟨a, b⟩
      exact hne (hu q p (mem_range.mp hq) h1 (by simp only at a; omega) (by simp only at b; omega))
    · intro hp; exact absurd (mem_range.mpr h1) hp
  · rw [hz r c h]
    refine sum_eq_zero fun p hp => ?_
    rw [if_neg]
    rintro ⟨a, b⟩
    exact h ⟨p, mem_range.mp hp, a, b⟩

theorem dense_self [Field α] {N : Nat} {e : Nat → Ent α} (hu : ∀ p q, p < N → q < N → (e p).1 = (e q).1 → (e p).2.1 = (e q).2.1 → p = q)
    {p : Nat} (hp : p < N) : dense N e (e p).1 (e p).2.1 = (e p).2.2 := by
  unfold dense
  rw [sum_eq_single p]
  · rw [if_pos ⟨rfl, rfl⟩]
  · intro q hq hne
    rw [if_neg]
    rintro ⟨a, b⟩
    exact hne (hu q p (mem_range.mp hq) hp a b)
  · intro h; exact absurd (mem_range.mpr hp) h

theorem dense_zero [Field α] {N : Nat} {e : Nat → Ent α} (r c : Nat) (h : ¬ (∃ p, p < N ∧ (e p).1 = r ∧ (e p).2.1 = c)) : dense N e r c = 0 := by
  unfold dense
  refine sum_eq_zero fun p hp => ?_
  rw [if_neg]
  rintro ⟨a, b⟩
  exact h ⟨p, mem_range.mp hp, a, b⟩

/-- What the factorization must achieve: with `L` the unit lower and `U` the upper triangle of the new elements `e'`, the product agrees with
the old matrix `e` at every stored position. -/
def IsIlu [Field α] (n N : Nat) (e e' : Nat → Ent α) : Prop :=
  ∀ p, p < N → ∑ k ∈ range n, triOf false true (dense N e') (e p).1 k * triOf true false (dense N e') k (e p).2.1 = (e p).2.2

private theorem csr_case [Field α] {A : Sp α} {n N : Nat} {e : Nat → Ent α} (T : Triangular A n N e true) (hk : A.kind = .csr) :
    Runs (csrIluz A) (fun M => ∃ e', Triangular M n N e' true ∧ M.kind = A.kind ∧ (∀ p, (e' p).1 = (e p).1 ∧ (e' p).2.1 = (e p).2.1) ∧
      ((∀ j, j < n → dense N e' j j ≠ 0) → IsIlu n N e e')) := by
  have TM := triMat_csr T hk
  have P : Pat A n N e := ⟨TM.comp, TM.nnz, TM.sd⟩
  have hu : ∀ p q, p < N → q < N → (e p).1 = (e q).1 → (e p).2.1 = (e q).2.1 → p = q := fun p q a b c d => P.uniq a b c d
  refine (csrIluz_spec P T.rows (a := dense N e) (fun r c h => dense_zero r c h) (fun p hp => ?_)).mono ?_
  · beta_reduce
    rw [P.comp.v p hp, dense_self hu hp]
  rintro M ⟨v', rfl, hv'⟩
  have hz := iluSeq_zero (S := Stored N e) (a := dense N e) (fun r c h => dense_zero r c h) n
  refine ⟨fun p => ((e p).1, (e p).2.1, iluSeq (Stored N e) (dense N e) n (e p).1 (e p).2.1), ?_, rfl, fun p => ⟨rfl, rfl⟩, ?_⟩
  · obtain ⟨⟨h1, h2⟩, T2, T3, T4, T5, T6, T7⟩ := T
    rw [hk] at h2 T5
    refine ⟨⟨h1, ?_⟩, T2, T3, T4, ?_, T6, by simp⟩
    · dsimp only; rw [hk]
      obtain ⟨a, b⟩ := h2
      exact ⟨a, ⟨b.sorted, b.major, b.minor, b.ptr, b.ix, hv'⟩⟩
    · dsimp only; rw [hk]; exact T5
  · intro hp p hpN
    rw [dense_pat hu hz] at hp ⊢
    rw [iluSeq_factor (S := Stored N e) (fun r c h => dense_zero r c h) hp ⟨p, hpN, rfl, rfl⟩ (P.comp.major p hpN) (P.comp.minor p hpN), dense_self hu hpN]

private theorem csc_case [Field α] {A : Sp α} {n N : Nat} {e : Nat → Ent α} (T : Triangular A n N e true) (hk : A.kind = .csc) :
    Runs (cscIluz A) (fun M => ∃ e', Triangular M n N e' true ∧ M.kind = A.kind ∧ (∀ p, (e' p).1 = (e p).1 ∧ (e' p).2.1 = (e p).2.1) ∧
      ((∀ j, j < n → dense N e' j j ≠ 0) → IsIlu n N e e')) := by
  have TM := triMat_csc T hk
  have P : Pat A n N (fun p => (e p).flip) := ⟨TM.comp, TM.nnz, TM.sd⟩
  have hu : ∀ p q, p < N → q < N → (e p).1 = (e q).1 → (e p).2.1 = (e q).2.1 → p = q := fun p q a b c d => P.uniq a b d c
  have hst : ∀ r c, Stored N (fun p => (e p).flip) c r ↔ ∃ p, p < N ∧ (e p).1 = r ∧ (e p).2.1 = c := fun r c =>
    ⟨fun ⟨p, a, b, d⟩ => ⟨p, a, d, b⟩, fun ⟨p, a, b, d⟩ => ⟨p, a, d, b⟩⟩
  have hz0 : ∀ r c, ¬ Stored N (fun p => (e p).flip) c r → dense N e r c = 0 := fun r c h => dense_zero r c (fun x => h ((hst r c).mpr x))
  refine (cscIluz_spec P T.cols (a := dense N e) hz0 (fun p hp => ?_)).mono ?_
  · show A.v p = some (dense N e (e p).1 (e p).2.1)
    rw [P.comp.v p hp, dense_self hu hp]; rfl
  rintro M ⟨v', rfl, hv'⟩
  have hz := iluSeq_zero (S := fun r c => Stored N (fun p => (e p).flip) c r) (a := dense N e) hz0 n
  have hz' : ∀ r c, ¬ (∃ p, p < N ∧ (e p).1 = r ∧ (e p).2.1 = c) →
      iluSeq (fun r c => Stored N (fun p => (e p).flip) c r) (dense N e) n r c = 0 := fun r c h => hz r c (fun x => h ((hst r c).mp x))
  refine ⟨fun p => ((e p).1, (e p).2.1, iluSeq (fun r c => Stored N (fun p => (e p).flip) c r) (dense N e) n (e p).1 (e p).2.1), ?_, rfl,
    fun p => ⟨rfl, rfl⟩, ?_⟩
  · obtain ⟨⟨h1, h2⟩, T2, T3, T4, T5, T6, T7⟩ := T
    rw [hk] at h2 T5
    refine ⟨⟨h1, ?_⟩, T2, T3, T4, ?_, T6, by simp⟩
    · dsimp only; rw [hk]
      obtain ⟨a, b⟩ := h2
      exact ⟨a, ⟨b.sorted, b.major, b.minor, b.ptr, b.ix, hv'⟩⟩
    · dsimp only; rw [hk]; exact T5
  · intro hp p hpN
    rw [dense_pat hu hz'] at hp ⊢
    rw [iluSeq_factor (S := fun r c => Stored N (fun p => (e p).flip) c r) (r := (e p).1) (c := (e p).2.1) hz0 hp ⟨p, hpN, rfl, rfl⟩
      (P.comp.minor p hpN) (P.comp.major p hpN), dense_self hu hpN]

/-- `armassp_iluz` on a square compressed matrix with strictly ascending indices and stored diagonal: it stays inside the arrays, keeps the
pattern, and if no pivot is zero the unit lower and the upper triangle of the result are incomplete LU factors of the matrix: `L*U` agrees with
it at every stored position. -/
theorem C43_iluz_partial [Field α] {A : Sp α} {n N : Nat} {e : Nat → Ent α} (T : Triangular A n N e true) :
    Runs (spIluz A) (fun r => ∃ M e', r = some M ∧ Triangular M n N e' true ∧ M.kind = A.kind ∧
      (∀ p, (e' p).1 = (e p).1 ∧ (e' p).2.1 = (e p).2.1) ∧ ((∀ j, j < n → dense N e' j j ≠ 0) → IsIlu n N e e')) := by
  unfold spIluz
  have hk := T.kind
  cases h : A.kind with
  | coo => exact absurd h hk
  | csr =>
    dsimp only
    refine Runs.bind (csr_case T h) fun M ⟨e', h1, h2, h3, h4⟩ => Runs.pure ⟨M, e', rfl, h1, by rw [h2, h], h3, h4⟩
  | csc =>
    dsimp only
    refine Runs.bind (csc_case T h) fun M ⟨e', h1, h2, h3, h4⟩ => Runs.pure ⟨M, e', rfl, h1, by rw [h2, h], h3, h4⟩

example := C43_iluz_partial (demoTri_is true)

/-- The factors of `demoTri` = (2 1 0; 4 3 5; 0 6 1): `l21` = 2, `u22` = 1, `l32` = 6, `u33` = -29, no pivot is zero. -/
example : (match spIluz demoTri with
    | .ok (some M) => (List.range 7).map M.v
    | _ => []) = [some 2, some 1, some 2, some 1, some 5, some 6, some (-29)] := by decide +kernel

/-- A matrix in coordinate format is rejected. -/
theorem C43_reject_partial [Field α] {A : Sp α} (h : A.kind = .coo) : spIluz A = .ok none := by
  unfold spIluz; rw [h]; rfl

example := C43_reject_partial (α := ℚ) (A := ⟨.coo, 3, 3, 0, 0, 0, 60, 2, 4, noMem, noMem, noMem, noMem⟩) rfl

end Armas.Props
