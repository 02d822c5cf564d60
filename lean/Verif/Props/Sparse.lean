import Verif.SparseSort
import Mathlib.Data.Int.Basic

/-!
# C38, C39: sparse matrix conversion and copying
-/

namespace Armas.Props

open Armas

variable {α : Type}

private theorem flip_flip (e : Ent α) : e.flip.flip = e := rfl

private theorem same_of_rank {N n : Nat} {e e' : Nat → Ent α} {key : Nat → Nat} (hk : ∀ p, p < N → key p < n)
    (h : ∀ p, p < N → e' (rankOf key N p) = e p) : SameEntries N e e' := ⟨rankOf key N, rankOf_bij hk, h⟩

private theorem fits_of_room {A : Sp α} {r c N : Nat} {k : SpKind} (h : Room A r c N k) : spFits A r c N k = true := by
  simp [spFits, h.bytes, h.plen, h.vlen]

/-- Entries ordered by a stable sort from a sequence in ascending order of the other index. -/
private theorem asc_of_rank {N : Nat} {e e' : Nat → Ent α} {key : Nat → Nat} {n : Nat} (hk : ∀ p, p < N → key p < n)
    (hkey : ∀ p, p < N → key p = (e p).2.1)
    (hs : ∀ p q, p ≤ q → q < N → (e p).1 ≤ (e q).1) (h : ∀ p, p < N → e' (rankOf key N p) = (e p).flip) :
    ∀ p q, p < q → q < N → (e' p).1 = (e' q).1 → (e' p).2.1 ≤ (e' q).2.1 := by
  intro p q hpq hq heq
  obtain ⟨a, ha, rfl⟩ := (rankOf_bij hk).2.2 (show p ∈ {p | p < N} from lt_trans hpq hq)
  obtain ⟨b, hb, rfl⟩ := (rankOf_bij hk).2.2 (show q ∈ {p | p < N} from hq)
  have ha' : a < N := ha
  have hb' : b < N := hb
  rw [h a ha, h b hb] at heq ⊢
  simp only [Ent.flip] at heq ⊢
  refine hs a b ?_ hb
  by_contra c
  have := rankOf_lt_of_eq (N := N) (key := key) (p := b) (p' := a) (by rw [hkey a ha, hkey b hb, heq]) (by omega)
  omega

/-- C38: conversion of a coordinate list to compressed rows or columns, and between compressed rows and columns.  For every source with
entries `e` (any number, any order, duplicates, empty rows), and a target with room for them whose pointers are zero if the source is a
coordinate list, the target afterwards stores the same entries, in its own format — so pointers are monotone and end with the number of
entries (`Compressed`) — with ascending indices inside each row (column).  No access outside the arrays. -/
theorem C38_convert_partial {A B : Sp α} {N : Nat} {e : Nat → Ent α} {target : SpKind} (hB : SpIs B N e) (ht : target ≠ .coo)
    (hne : target ≠ B.kind) (hA : Room A B.rows B.cols N target)
    (hz : B.kind = .coo → ∀ k, k ≤ spMajor target B.rows B.cols → A.ptr k = some 0) :
    Runs (convertTo A B target) (fun r => ∃ A' e', r = some A' ∧ A'.kind = target ∧ A'.rows = B.rows ∧ A'.cols = B.cols ∧
      SpIs A' N e' ∧ SameEntries N e e' ∧ Ascending target N e') := by
  obtain ⟨hN, hB⟩ := hB
  unfold convertTo
  rw [if_neg ht, if_neg (by rw [hN, fits_of_room hA]; simp)]
  cases hk : B.kind with
  | coo =>
    rw [hk] at hB hne
    dsimp only at hB ⊢
    have hz := hz hk
    obtain ⟨h1, h2⟩ := hB
    cases target with
    | coo => exact absurd rfl ht
    | csr =>
      rw [if_pos rfl]
      simp only [spMajor, if_true] at hz ⊢
      unfold csrConvert
      rw [hA.rows]
      refine Runs.bind (Runs.bind (cooPlace_spec (d := B.cols) (fun e => e.1) (fun e => e.2.1) h1 hN (fun p hp => (h2 p hp).1)
        (fun p hp => (h2 p hp).2) hz hA.ix hA.v) (fun r hr => Runs.pure (Q := fun A' : Sp α => ∃ e', 
          Compressed A'.ptr A'.ix A'.v B.rows B.cols N e' ∧ SameEntries N e e' ∧ A'.nptr = B.rows ∧ A'.rows = B.rows ∧
          A'.cols = B.cols ∧ A'.nnz = N ∧ A'.kind = .csr) ?_)) ?_
      · obtain ⟨e', k1, k2⟩ := hr
        exact ⟨e', k1, same_of_rank (fun p hp => (h2 p hp).1) (fun p hp => by rw [k2 p hp]), rfl, by first | rfl | exact hA.rows, by first | rfl | exact hA.cols, hN, rfl⟩
      · rintro A1 ⟨e1, k1, k2, k3, k4, k5, k6, k7⟩
        unfold spSort
        rw [if_neg (by rw [k7]; simp)]
        refine Runs.bind (Runs.bind (compressedSort_spec k1 k3) (fun A2 h2 => Runs.pure
          (Q := fun r : Int × Sp α => ∃ e', Compressed r.2.ptr r.2.ix r.2.v B.rows B.cols N e' ∧ SameEntries N e1 e' ∧
            (∀ p q, p < q → q < N → (e' p).1 = (e' q).1 → (e' p).2.1 ≤ (e' q).2.1) ∧
            r.2 = { A1 with ix := r.2.ix, v := r.2.v }) h2)) ?_
        rintro ⟨_, A2⟩ ⟨e2, l1, l2, l3, l4⟩
        dsimp only at l1 l4 ⊢
        refine Runs.pure ⟨A2, e2, rfl, by rw [l4]; exact k7, by rw [l4]; exact k4, by rw [l4]; exact k5, ⟨by rw [l4]; exact k6, ?_⟩,
          k2.trans l2, l3⟩
        rw [show A2.kind = .csr by rw [l4]; exact k7]
        refine ⟨by rw [l4]; dsimp only; rw [k3, k4], ?_⟩
        rw [show A2.rows = B.rows by rw [l4]; exact k4, show A2.cols = B.cols by rw [l4]; exact k5]
        exact l1
    | csc =>
      rw [if_neg (by simp)]
      simp only [spMajor, reduceCtorEq, if_false] at hz ⊢
      unfold cscConvert
      rw [hA.cols]
      refine Runs.bind (Runs.bind (cooPlace_spec (d := B.rows) (fun e => e.2.1) (fun e => e.1) h1 hN (fun p hp => (h2 p hp).2)
        (fun p hp => (h2 p hp).1) hz hA.ix hA.v) (fun r hr => Runs.pure (Q := fun A' : Sp α => ∃ e', 
          Compressed A'.ptr A'.ix A'.v B.cols B.rows N e' ∧ SameEntries N (fun p => (e p).flip) e' ∧ A'.nptr = B.cols ∧ A'.rows = B.rows ∧
          A'.cols = B.cols ∧ A'.nnz = N ∧ A'.kind = .csc) ?_)) ?_
      · obtain ⟨e', k1, k2⟩ := hr
        exact ⟨e', k1, same_of_rank (fun p hp => (h2 p hp).2) (fun p hp => by rw [k2 p hp]; rfl), rfl, by first | rfl | exact hA.rows, by first | rfl | exact hA.cols, hN, rfl⟩
      · rintro A1 ⟨e1, k1, k2, k3, k4, k5, k6, k7⟩
        unfold spSort
        rw [if_neg (by rw [k7]; simp)]
        refine Runs.bind (Runs.bind (compressedSort_spec k1 k3) (fun A2 h2 => Runs.pure
          (Q := fun r : Int × Sp α => ∃ e', Compressed r.2.ptr r.2.ix r.2.v B.cols B.rows N e' ∧ SameEntries N e1 e' ∧
            (∀ p q, p < q → q < N → (e' p).1 = (e' q).1 → (e' p).2.1 ≤ (e' q).2.1) ∧
            r.2 = { A1 with ix := r.2.ix, v := r.2.v }) h2)) ?_
        rintro ⟨_, A2⟩ ⟨e2, l1, l2, l3, l4⟩
        dsimp only at l1 l4 ⊢
        obtain ⟨σ, b, hσ⟩ := k2.trans l2
        refine Runs.pure ⟨A2, fun p => (e2 p).flip, rfl, by rw [l4]; exact k7, by rw [l4]; exact k4, by rw [l4]; exact k5,
          ⟨by rw [l4]; exact k6, ?_⟩, ⟨σ, b, fun p hp => by dsimp only; rw [hσ p hp]; rfl⟩, l3⟩
        rw [show A2.kind = .csc by rw [l4]; exact k7]
        refine ⟨by rw [l4]; dsimp only; rw [k3, k5], ?_⟩
        rw [show A2.rows = B.rows by rw [l4]; exact k4, show A2.cols = B.cols by rw [l4]; exact k5]
        exact l1
  | csr =>
    rw [hk] at hB hne
    dsimp only at hB ⊢
    obtain ⟨h1, h2⟩ := hB
    cases target with
    | coo => exact absurd rfl ht
    | csr => exact absurd rfl hne
    | csc =>
      rw [if_pos rfl]
      unfold csrToCsc
      have hp := hA.ptr
      simp only [spMajor, reduceCtorEq, if_false] at hp ⊢
      rw [hA.cols]
      refine Runs.bind (Runs.bind (recompress_spec (da := B.rows) h2 hN (le_refl _) hp hA.ix hA.v) (fun r hr => Runs.pure
        (Q := fun A' : Sp α => ∃ e', Compressed A'.ptr A'.ix A'.v B.cols B.rows N e' ∧
          (∀ p, p < N → e' (rankOf (fun p => (e p).2.1) N p) = (e p).flip) ∧ A'.nptr = B.cols ∧ A'.rows = B.rows ∧
          A'.cols = B.cols ∧ A'.nnz = N ∧ A'.kind = .csc) ?_)) ?_
      · obtain ⟨e', k1, k2⟩ := hr
        exact ⟨e', k1, k2, rfl, by first | rfl | exact hA.rows, by first | rfl | exact hA.cols, hN, rfl⟩
      · rintro A1 ⟨e1, k1, k2, k3, k4, k5, k6, k7⟩
        refine Runs.pure ⟨A1, fun p => (e1 p).flip, rfl, k7, k4, k5, ⟨k6, ?_⟩,
          same_of_rank h2.minor (fun p hp => by rw [k2 p hp]; rfl), ?_⟩
        · rw [k7]
          refine ⟨by rw [k3, k5], ?_⟩
          rw [k4, k5]
          exact k1
        · exact asc_of_rank h2.minor (fun p hp => rfl) h2.sorted k2
  | csc =>
    rw [hk] at hB hne
    dsimp only at hB ⊢
    obtain ⟨h1, h2⟩ := hB
    cases target with
    | coo => exact absurd rfl ht
    | csc => exact absurd rfl hne
    | csr =>
      rw [if_pos rfl]
      unfold cscToCsr
      have hp := hA.ptr
      simp only [spMajor, if_true] at hp ⊢
      rw [hA.rows]
      refine Runs.bind (Runs.bind (recompress_spec (da := B.cols) h2 hN (le_refl _) hp hA.ix hA.v) (fun r hr => Runs.pure
        (Q := fun A' : Sp α => ∃ e', Compressed A'.ptr A'.ix A'.v B.rows B.cols N e' ∧
          (∀ p, p < N → e' (rankOf (fun p => (e p).1) N p) = e p) ∧ A'.nptr = B.rows ∧ A'.rows = B.rows ∧
          A'.cols = B.cols ∧ A'.nnz = N ∧ A'.kind = .csr) ?_)) ?_
      · obtain ⟨e', k1, k2⟩ := hr
        exact ⟨e', k1, k2, rfl, by first | rfl | exact hA.rows, by first | rfl | exact hA.cols, hN, rfl⟩
      · rintro A1 ⟨e1, k1, k2, k3, k4, k5, k6, k7⟩
        refine Runs.pure ⟨A1, e1, rfl, k7, k4, k5, ⟨k6, ?_⟩, same_of_rank h2.minor k2, ?_⟩
        · rw [k7]
          refine ⟨by rw [k3, k4], ?_⟩
          rw [k4, k5]
          exact k1
        · exact asc_of_rank (e := fun p => (e p).flip) h2.minor (fun p hp => rfl) h2.sorted k2

private theorem room_new [Zero α] {r c N : Nat} {k : SpKind} (hk : k ≠ .coo) (h0 : 0 < N) (h1 : 0 < r) (h2 : 0 < c) :
    Room (spNew r c N k : Sp α) r c N k ∧ ∀ i, i ≤ spMajor k r c → (spNew r c N k : Sp α).ptr i = some 0 := by
  have e : (spNew r c N k : Sp α) = spMake r c N k := by
    unfold spNew; rw [if_neg (by omega)]
  rw [e]
  have hz : ∀ i, i ≤ spMajor k r c → (spMake r c N k : Sp α).ptr i = some 0 := by
    intro i hi
    cases k with
    | coo => exact absurd rfl hk
    | csr => simp only [spMake, zeros]; rw [if_pos (by omega)]
    | csc => simp only [spMake, zeros]; rw [if_pos (by omega)]
  refine ⟨?_, hz⟩
  cases k with
  | coo => exact absurd rfl hk
  | csr => exact ⟨rfl, rfl, le_refl _, rfl, rfl, fun i hi => ⟨0, hz i hi⟩, fun p hp => ⟨0, by simp [spMake, zeros, hp]⟩,
      fun p hp => ⟨0, by simp [spMake, zeros, hp]⟩⟩
  | csc => exact ⟨rfl, rfl, le_refl _, rfl, rfl, fun i hi => ⟨0, hz i hi⟩, fun p hp => ⟨0, by simp [spMake, zeros, hp]⟩,
      fun p hp => ⟨0, by simp [spMake, zeros, hp]⟩⟩

private theorem dims_pos {B : Sp α} {N : Nat} {e : Nat → Ent α} (hB : SpIs B N e) (h0 : 0 < N) : 0 < B.rows ∧ 0 < B.cols := by
  obtain ⟨-, hB⟩ := hB
  cases hk : B.kind with
  | coo => rw [hk] at hB; have := hB.2 0 h0; omega
  | csr => rw [hk] at hB; have h1 := hB.2.major 0 h0; have h2 := hB.2.minor 0 h0; omega
  | csc => rw [hk] at hB; have h1 := hB.2.major 0 h0; have h2 := hB.2.minor 0 h0; omega

/-- C38 for `armassp_convert`: every matrix with at least one entry is converted to a new matrix with the same entries.  Missing: matrices
without entries, for which the result is the null pointer (`C38_empty_false`), and conversion to the own format (`C39_same_false`). -/
theorem C38_convert_new_partial [Zero α] {B : Sp α} {N : Nat} {e : Nat → Ent α} {target : SpKind} (hB : SpIs B N e) (hN : 0 < N)
    (ht : target ≠ .coo) (hne : target ≠ B.kind) :
    Runs (convert B target) (fun r => ∃ A' e', r = some A' ∧ A'.kind = target ∧ A'.rows = B.rows ∧ A'.cols = B.cols ∧
      SpIs A' N e' ∧ SameEntries N e e' ∧ Ascending target N e') := by
  obtain ⟨h1, h2⟩ := dims_pos hB hN
  obtain ⟨k1, k2⟩ := room_new (α := α) ht hN h1 h2
  unfold convert
  rw [hB.1]
  exact C38_convert_partial hB ht hne k1 (fun _ => k2)

/-- C38 for `armassp_transpose`: a compressed matrix with at least one entry is transposed into a new matrix of the
same storage kind that holds the entries with exchanged indices. -/
theorem C38_transpose_partial [Zero α] {B : Sp α} {N : Nat} {e : Nat → Ent α} (hB : SpIs B N e) (hN : 0 < N)
    (hk : B.kind ≠ .coo) :
    Runs (transpose B) (fun r => ∃ A' e', r = some A' ∧ A'.kind = B.kind ∧ A'.rows = B.cols ∧ A'.cols = B.rows ∧
      SpIs A' N e' ∧ SameEntries N (fun p => ((e p).2.1, (e p).1, (e p).2.2)) e' ∧ Ascending B.kind N e') := by
  have key : ∀ target, target ≠ .coo → target ≠ B.kind →
      Runs (convertTo (spNew B.rows B.cols B.nnz target) B target) (fun r => ∃ A' e', r = some A' ∧
        A'.kind = target ∧ A'.rows = B.rows ∧ A'.cols = B.cols ∧ SpIs A' N e' ∧ SameEntries N e e' ∧
        Ascending target N e') := fun t h1 h2 => C38_convert_new_partial hB hN h1 h2
  unfold transpose transposeTo
  rw [if_neg hk]
  cases hkind : B.kind with
  | coo => exact absurd hkind hk
  | csr =>
    rw [if_neg (by simp)]
    refine (key .csc (by simp) (by rw [hkind]; simp)).bind ?_
    rintro r ⟨A', e', rfl, k1, k2, k3, ⟨k4, k5⟩, ⟨σ, s1, s2⟩, k7⟩
    rw [k1] at k5
    refine Runs.pure ⟨_, fun p => (e' p).flip, rfl, rfl, rfl, rfl, ⟨k4, ?_⟩, ⟨σ, s1, fun p hp => ?_⟩, fun p q h1 h2 => ?_⟩
    · dsimp only; rw [← k2, ← k3]; exact k5
    · beta_reduce; rw [s2 p hp]; rfl
    · exact k7 p q h1 h2
  | csc =>
    rw [if_pos rfl]
    refine (key .csr (by simp) (by rw [hkind]; simp)).bind ?_
    rintro r ⟨A', e', rfl, k1, k2, k3, ⟨k4, k5⟩, ⟨σ, s1, s2⟩, k7⟩
    rw [k1] at k5
    refine Runs.pure ⟨_, fun p => (e' p).flip, rfl, rfl, rfl, rfl, ⟨k4, ?_⟩, ⟨σ, s1, fun p hp => ?_⟩, fun p q h1 h2 => ?_⟩
    · dsimp only; rw [← k2, ← k3]; exact k5
    · beta_reduce; rw [s2 p hp]; rfl
    · exact k7 p q h1 h2

/-- The coordinate list (2,1,5), (0,3,7), (2,0,1), (2,1,4) in a 4 × 5 matrix. -/
def demoCoo : Sp Int :=
  ⟨.coo, 4, 5, 4, 0, 4, 64, 0, 0, noMem, noMem, noMem, fun p => [(2, 1, 5), (0, 3, 7), (2, 0, 1), (2, 1, 4)][p]?⟩

/-- Its entries. -/
def demoEnt (p : Nat) : Ent Int := [(2, 1, 5), (0, 3, 7), (2, 0, 1), (2, 1, 4)].getD p (0, 0, 0)

theorem demoCoo_is : SpIs demoCoo 4 demoEnt := by
  refine ⟨rfl, ?_, ?_⟩
  · intro p hp
    have : p = 0 ∨ p = 1 ∨ p = 2 ∨ p = 3 := by omega
    rcases this with rfl | rfl | rfl | rfl <;> rfl
  · intro p hp
    have : p = 0 ∨ p = 1 ∨ p = 2 ∨ p = 3 := by omega
    rcases this with rfl | rfl | rfl | rfl <;> decide

example := C38_convert_new_partial (target := .csr) demoCoo_is (by decide) (by decide) (by decide)
example := C38_convert_partial (target := .csr) demoCoo_is (by decide) (by decide) (room_new (by decide) (by decide) (by decide) (by decide)).1
  (fun _ => (room_new (by decide) (by decide) (by decide) (by decide)).2)

/-- `Compressed` describes every compressed matrix: any array of monotone pointers, starting with zero, gives entries. -/
theorem C38_compressed_general {ptr ix : Mem Nat} {v : Mem α} {n d : Nat} {P X : Nat → Nat} {V : Nat → α} (h0 : P 0 = 0)
    (hm : ∀ k, k < n → P k ≤ P (k + 1)) (hp : ∀ k, k ≤ n → ptr k = some (P k)) (hx : ∀ p, p < P n → ix p = some (X p) ∧ X p < d)
    (hv : ∀ p, p < P n → v p = some (V p)) :
    ∃ e : Nat → Ent α, Compressed ptr ix v n d (P n) e ∧ ∀ p k, k < n → P k ≤ p → p < P (k + 1) → e p = (k, X p, V p) := by
  classical
  have mono : ∀ i j, i ≤ j → j ≤ n → P i ≤ P j := by
    intro i j hij
    induction hij with
    | refl => exact fun _ => le_refl _
    | step _ ih => exact fun h => le_trans (ih (by omega)) (hm _ (by omega))
  have ex : ∀ p, p < P n → ∃ k, k < n ∧ P k ≤ p ∧ p < P (k + 1) := by
    intro p hp
    have hex : ∃ k, p < P k := ⟨n, hp⟩
    have h1 := Nat.find_spec hex
    have hle := Nat.find_min' hex hp
    have hne : Nat.find hex ≠ 0 := fun h => by rw [h, h0] at h1; omega
    obtain ⟨k, hk⟩ := Nat.exists_eq_succ_of_ne_zero hne
    have h2 := Nat.find_min hex (m := k) (by omega)
    rw [hk] at h1 hle
    exact ⟨k, by omega, by omega, h1⟩
  choose! r hr1 hr2 hr3 using ex
  have uniq : ∀ p k, k < n → P k ≤ p → p < P (k + 1) → p < P n → r p = k := by
    intro p k hk h1 h2 hp
    rcases Nat.lt_trichotomy (r p) k with h | h | h
    · have := mono (r p + 1) k h (by omega); have := hr3 p hp; omega
    · exact h
    · have := mono (k + 1) (r p) h (by have := hr1 p hp; omega); have := hr2 p hp; omega
  have hlt : ∀ p k, p < P n → k ≤ n → (r p < k ↔ p < P k) := by
    intro p k hp hk
    constructor
    · intro h; exact lt_of_lt_of_le (hr3 p hp) (mono _ _ h hk)
    · intro h; by_contra c; push Not at c
      have := mono k (r p) c (by have := hr1 p hp; omega)
      have := hr2 p hp; omega
  refine ⟨fun p => (r p, X p, V p), ⟨?_, hr1, fun p hp => (hx p hp).2, ?_, fun p hp => (hx p hp).1, hv⟩, ?_⟩
  · intro p q hpq hq
    dsimp only
    by_contra c
    push Not at c
    have h1 := (hlt q (r p) hq (by have := hr1 p (by omega); omega)).mp c
    have := hr2 p (by omega); omega
  · intro k hk
    rw [hp k hk]
    congr 1
    have hle := mono k n hk (le_refl _)
    rw [Nat.count_eq_card_filter_range]
    have : (Finset.range (P n)).filter (fun p => r p < k) = Finset.range (P k) := by
      ext p
      rw [Finset.mem_filter, Finset.mem_range, Finset.mem_range]
      constructor
      · rintro ⟨h1, h2⟩; exact (hlt p k h1 hk).mp h2
      · intro h; exact ⟨by omega, (hlt p k (by omega) hk).mpr h⟩
    rw [this, Finset.card_range]
  · intro p k hk h1 h2
    dsimp only
    rw [uniq p k hk h1 h2 (lt_of_lt_of_le h2 (mono _ _ hk (le_refl _)))]

example : ∃ e : Nat → Ent Int, Compressed (fun k => [0, 2, 2, 3][k]?) (fun k => [1, 0, 3][k]?) (fun k => [(5 : Int), 6, 7][k]?) 3 4 3 e ∧
    ∀ p k, k < 3 → [0, 2, 2, 3].getD k 0 ≤ p → p < [0, 2, 2, 3].getD (k + 1) 0 → e p = (k, [1, 0, 3].getD p 0, [(5 : Int), 6, 7].getD p 0) :=
  C38_compressed_general (P := fun k => [0, 2, 2, 3].getD k 0) (X := fun k => [1, 0, 3].getD k 0) (V := fun k => [(5 : Int), 6, 7].getD k 0)
    rfl (by decide)
    (by intro k hk; have : k = 0 ∨ k = 1 ∨ k = 2 ∨ k = 3 := by omega
        rcases this with rfl | rfl | rfl | rfl <;> rfl)
    (by intro k hk; have hk : k < 3 := hk; have : k = 0 ∨ k = 1 ∨ k = 2 := by omega
        rcases this with rfl | rfl | rfl <;> decide)
    (by intro k hk; have hk : k < 3 := hk; have : k = 0 ∨ k = 1 ∨ k = 2 := by omega
        rcases this with rfl | rfl | rfl <;> rfl)

/-- The outcome is undefined behaviour. -/
def isUB {β : Type} : Res β → Bool
  | .ub => true
  | _ => false

/-- Converting a coordinate list into a target used before (pointers not zero) fails although the target has room: the pointers are
not cleared, the assertion on their sum fails. -/
theorem C38_reuse_false : ∃ (A B : Sp Int) (e : Nat → Ent Int), SpIs B 2 e ∧ Room A B.rows B.cols 2 .csr ∧
    convertTo A B .csr = .ub := by
  refine ⟨⟨.csr, 2, 2, 2, 2, 2, 40, 2, 3, fun p => [5, 6][p]?, fun p => [0, 1, 2][p]?, fun p => [0, 1][p]?, noMem⟩,
    ⟨.coo, 2, 2, 2, 0, 2, 32, 0, 0, noMem, noMem, noMem, fun p => [(0, 0, 5), (1, 1, 6)][p]?⟩,
    fun p => [(0, 0, 5), (1, 1, 6)].getD p (0, 0, 0), ⟨rfl, ?_, ?_⟩, ⟨rfl, rfl, by decide, rfl, rfl, ?_, ?_, ?_⟩, rfl⟩
  · intro p hp
    have : p = 0 ∨ p = 1 := by omega
    rcases this with rfl | rfl <;> rfl
  · intro p hp
    have : p = 0 ∨ p = 1 := by omega
    rcases this with rfl | rfl <;> decide
  · intro p hp
    have hp : p ≤ 2 := hp
    have : p = 0 ∨ p = 1 ∨ p = 2 := by omega
    rcases this with rfl | rfl | rfl <;> exact ⟨_, rfl⟩
  · intro p hp
    have : p = 0 ∨ p = 1 := by omega
    rcases this with rfl | rfl <;> exact ⟨_, rfl⟩
  · intro p hp
    have : p = 0 ∨ p = 1 := by omega
    rcases this with rfl | rfl <;> exact ⟨_, rfl⟩

/-- A matrix without entries is not converted: the result is the null pointer. -/
theorem C38_empty_false [Zero α] {B : Sp α} {e : Nat → Ent α} (hB : SpIs B 0 e) (target : SpKind) :
    convert B target = .ok none := by
  unfold convert
  rw [hB.1]
  unfold spNew
  rw [if_pos (by omega)]
  unfold convertTo
  by_cases h : target = .coo
  · rw [if_pos h]; rfl
  · rw [if_neg h, if_pos]
    · rfl
    · rw [hB.1]
      cases target <;> simp [spFits, spMajor]

example := C38_empty_false (B := (⟨.coo, 3, 3, 0, 0, 0, 0, 0, 0, noMem, noMem, noMem, noMem⟩ : Sp Int)) (e := fun _ => (0, 0, 0))
  ⟨rfl, by intro p hp; omega, by intro p hp; omega⟩ .csr

/-! ## C39 -/

/-- Converting a matrix to the compressed format it already has returns a matrix without entries. -/
theorem C39_same_false [Zero α] {B : Sp α} {N : Nat} {e : Nat → Ent α} (hB : SpIs B N e) (hN : 0 < N) (hk : B.kind ≠ .coo) :
    ∃ A', convert B B.kind = .ok (some A') ∧ A'.nnz = 0 ∧ ∀ k, k ≤ spMajor B.kind B.rows B.cols → A'.ptr k = some 0 := by
  obtain ⟨h1, h2⟩ := dims_pos hB hN
  obtain ⟨k1, k2⟩ := room_new (α := α) hk hN h1 h2
  have e1 : (spNew B.rows B.cols N B.kind : Sp α).nnz = 0 := by
    unfold spNew; rw [if_neg (by omega)]
    cases B.kind <;> rfl
  unfold convert
  rw [hB.1]
  unfold convertTo
  rw [if_neg hk, if_neg (by rw [hB.1, fits_of_room k1]; simp)]
  cases h : B.kind with
  | coo => exact absurd h hk
  | csr => rw [h] at e1 k2; exact ⟨_, rfl, e1, k2⟩
  | csc => rw [h] at e1 k2; exact ⟨_, rfl, e1, k2⟩

/-- A 3 × 4 matrix in compressed rows. -/
def demoCsr : Sp Int :=
  ⟨.csr, 3, 4, 3, 3, 3, 56, 3, 4, fun k => [(5 : Int), 6, 7][k]?, fun k => [0, 2, 2, 3][k]?, fun k => [1, 0, 3][k]?, noMem⟩

theorem demoCsr_is : SpIs demoCsr 3 (fun p => [(0, 1, 5), (0, 0, 6), (2, 3, 7)].getD p (0, 0, 0)) := by
  refine ⟨rfl, rfl, ⟨?_, ?_, ?_, ?_, ?_, ?_⟩⟩
  · intro p q hpq hq
    have h1 : q = 0 ∨ q = 1 ∨ q = 2 := by omega
    have h2 : p = 0 ∨ p = 1 ∨ p = 2 := by omega
    rcases h1 with rfl | rfl | rfl <;> rcases h2 with rfl | rfl | rfl <;> first | decide | omega
  · intro q hq
    have : q = 0 ∨ q = 1 ∨ q = 2 := by omega
    rcases this with rfl | rfl | rfl <;> decide
  · intro q hq
    have : q = 0 ∨ q = 1 ∨ q = 2 := by omega
    rcases this with rfl | rfl | rfl <;> decide
  · intro k hk
    have hk : k ≤ 3 := hk
    have : k = 0 ∨ k = 1 ∨ k = 2 ∨ k = 3 := by omega
    rcases this with rfl | rfl | rfl | rfl <;> decide
  · intro q hq
    have : q = 0 ∨ q = 1 ∨ q = 2 := by omega
    rcases this with rfl | rfl | rfl <;> decide
  · intro q hq
    have : q = 0 ∨ q = 1 ∨ q = 2 := by omega
    rcases this with rfl | rfl | rfl <;> decide

example := C38_transpose_partial demoCsr_is (by decide) (by decide)

example := C39_same_false demoCsr_is (by decide) (by decide)
example := C38_convert_new_partial (target := .csc) demoCsr_is (by decide) (by decide) (by decide)

private theorem copyArr_spec {β : Type} {n : Nat} {src dst : Mem β} {f : Nat → β} (hs : ∀ k, k < n → src k = some (f k))
    (hd : ∀ k, k < n → ∃ x, dst k = some x) : Runs (copyArr n src dst) (fun d => ∀ k, k < n → d k = some (f k)) := by
  unfold copyArr
  refine Runs.bind (P := fun r : Nat × Mem β => ∀ k, k < n → r.2 k = some (f k)) ?_ (fun r hr => Runs.pure hr)
  refine Runs.forUp1 (fun i d => (∀ k, k < i → d k = some (f k)) ∧ ∀ k, k < n → ∃ x, d k = some x) (Nat.zero_le _)
    ⟨by intros; omega, hd⟩ ?_ (fun st h => h.1)
  rintro i d - hi ⟨h1, h2⟩
  obtain ⟨x, hx⟩ := h2 i hi
  refine Runs.rd_bind (hs i hi) (Runs.wr hx ⟨fun k hk => ?_, fun k hk => ?_⟩)
  · by_cases c : k = i
    · rw [c, Mem.set_same]
    · rw [Mem.set_ne _ _ c]; exact h1 k (by omega)
  · by_cases c : k = i
    · rw [c, Mem.set_same]; exact ⟨_, rfl⟩
    · rw [Mem.set_ne _ _ c]; exact h2 k hk

/-- C39 for `armassp_mkcopy`: the copy of a compressed matrix with at least one entry has the same entries in the same order.  Missing:
coordinate lists (`C39_coo_false`) and matrices without entries (`C39_empty_false`). -/
theorem C39_copy_partial [Zero α] {B : Sp α} {N : Nat} {e : Nat → Ent α} (hB : SpIs B N e) (hN : 0 < N) (hk : B.kind ≠ .coo) :
    Runs (mkcopy B) (fun r => ∃ A', r = some A' ∧ A'.kind = B.kind ∧ A'.rows = B.rows ∧ A'.cols = B.cols ∧ SpIs A' N e) := by
  obtain ⟨h1, h2⟩ := dims_pos hB hN
  obtain ⟨k1, k2⟩ := room_new (α := α) hk hN h1 h2
  have ek : (spNew B.rows B.cols N B.kind : Sp α).kind = B.kind := by
    unfold spNew; rw [if_neg (by omega)]
    cases B.kind <;> rfl
  obtain ⟨hn, hB'⟩ := hB
  unfold mkcopy copyTo
  rw [hn, if_neg (by have := k1.bytes; omega)]
  cases h : B.kind with
  | coo => exact absurd h hk
  | csr =>
    rw [h] at hB' k1 k2 ek
    dsimp only at hB' ⊢
    obtain ⟨l1, l2⟩ := hB'
    refine Runs.bind (copyArr_spec l2.v k1.v) fun v hv => Runs.bind (copyArr_spec l2.ix k1.ix) fun ix hix =>
      Runs.bind (copyArr_spec (f := fun k => Nat.count (fun p => (e p).1 < k) N) (fun k hk => l2.ptr k (by omega))
        (fun k hk => k1.ptr k (by simp only [spMajor, if_true]; omega))) fun ptr hptr => ?_
    refine Runs.pure ⟨_, rfl, ek, k1.rows, k1.cols, rfl, ?_⟩
    dsimp only
    rw [ek]
    dsimp only
    rw [k1.rows, k1.cols]
    exact ⟨l1, l2.sorted, l2.major, l2.minor, fun k hk => hptr k (by omega), hix, hv⟩
  | csc =>
    rw [h] at hB' k1 k2 ek
    dsimp only at hB' ⊢
    obtain ⟨l1, l2⟩ := hB'
    refine Runs.bind (copyArr_spec l2.v k1.v) fun v hv => Runs.bind (copyArr_spec l2.ix k1.ix) fun ix hix =>
      Runs.bind (copyArr_spec (f := fun k => Nat.count (fun p => ((e p).flip).1 < k) N) (fun k hk => l2.ptr k (by omega))
        (fun k hk => k1.ptr k (by simp only [spMajor, reduceCtorEq, if_false]; omega))) fun ptr hptr => ?_
    refine Runs.pure ⟨_, rfl, ek, k1.rows, k1.cols, rfl, ?_⟩
    dsimp only
    rw [ek]
    dsimp only
    rw [k1.rows, k1.cols]
    exact ⟨l1, l2.sorted, l2.major, l2.minor, fun k hk => hptr k (by omega), hix, hv⟩

example := C39_copy_partial demoCsr_is (by decide) (by decide)

/-- The copy of a coordinate list has no entries: the number of entries is not copied. -/
theorem C39_coo_false [Zero α] {B : Sp α} {N : Nat} {e : Nat → Ent α} (hB : SpIs B N e) (hN : 0 < N) (hk : B.kind = .coo) :
    Runs (mkcopy B) (fun r => ∃ A', r = some A' ∧ A'.nnz = 0) := by
  obtain ⟨h1, h2⟩ := dims_pos hB hN
  have e1 : (spNew B.rows B.cols N .coo : Sp α) = spMake B.rows B.cols N .coo := by
    unfold spNew; rw [if_neg (by omega)]
  obtain ⟨hn, hB'⟩ := hB
  rw [hk] at hB'
  unfold mkcopy copyTo
  rw [hn, hk, e1, if_neg (by simp [spMake])]
  dsimp only
  refine Runs.bind (copyArr_spec hB'.1 (fun k hk => ⟨(0, 0, 0), by simp [spMake, zeros, hk]⟩)) fun ep _ => ?_
  exact Runs.pure ⟨_, rfl, rfl⟩

example := C39_coo_false demoCoo_is (by decide) rfl

/-- A matrix without entries is not copied: the result is the null pointer for compressed matrices. -/
theorem C39_empty_false [Zero α] {B : Sp α} {e : Nat → Ent α} (hB : SpIs B 0 e) (hk : B.kind ≠ .coo) : mkcopy B = .ok none := by
  unfold mkcopy copyTo spNew
  rw [hB.1, if_pos (c := B.rows = 0 ∨ B.cols = 0 ∨ 0 = 0) (by omega), if_pos]
  · rfl
  · cases h : B.kind with
    | coo => exact absurd h hk
    | csr => simp only [spBytes, align8]; omega
    | csc => simp only [spBytes, align8]; omega

example := C39_empty_false (B := (⟨.csr, 0, 3, 0, 0, 0, 0, 0, 0, noMem, fun k => [0][k]?, noMem, noMem⟩ : Sp Int)) (e := fun _ => (0, 0, 0))
  ⟨rfl, rfl, ⟨by intros; omega, by intros; omega, by intros; omega,
    by intro k hk; have hk : k ≤ 0 := hk; have : k = 0 := by omega
       subst this; rfl, by intros; omega, by intros; omega⟩⟩ (by decide)

end Armas.Props
