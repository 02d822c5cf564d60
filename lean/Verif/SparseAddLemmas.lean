import Verif.SparseAdd
import Verif.SparseMvLemmas
import Mathlib.Data.Finset.Card

/-!
# Lemmas on the sparse accumulator
-/

namespace Armas

open Finset

variable {α : Type}

/-! ## The accumulator -/

/-- The accumulator, of dimension `n`, works on row `i`: `s c` is the sum of what was added at position `c`; the queue `q` lists the positions
that were touched, all in `T`. -/
structure AccQ [Zero α] (acc : Accum α) (n i : Nat) (T : Nat → Prop) (s : Nat → α) (q : Nat → Nat) : Prop where
  nz : acc.nz = n
  qin : ∀ h, h < acc.tail → q h < n ∧ acc.queue h = some (q h) ∧ T (q h)
  qinj : ∀ h h', h < acc.tail → h' < acc.tail → q h = q h' → h = h'
  qmem : ∀ h, h < n → ∃ x, acc.queue h = some x
  on : ∀ k, k < n → (∃ h, h < acc.tail ∧ q h = k) → acc.mark k = some (i : Int) ∧ acc.elems k = some (s k)
  off : ∀ k, k < n → (¬ ∃ h, h < acc.tail ∧ q h = k) → (∃ z, z < (i : Int) ∧ acc.mark k = some z) ∧ (∃ x, acc.elems k = some x) ∧ s k = 0

def AccIs [Zero α] (acc : Accum α) (n i : Nat) (T : Nat → Prop) (s : Nat → α) : Prop := ∃ q, AccQ acc n i T s q

theorem AccIs.congr [Zero α] {acc : Accum α} {n i : Nat} {T : Nat → Prop} {s s' : Nat → α} (h : AccIs acc n i T s) (e : ∀ c, c < n → s c = s' c) :
    AccIs acc n i T s' := by
  obtain ⟨q, h⟩ := h
  exact ⟨q, h.nz, h.qin, h.qinj, h.qmem, fun k hk a => by rw [← e k hk]; exact h.on k hk a, fun k hk a => by rw [← e k hk]; exact h.off k hk a⟩

theorem AccQ.tail_lt [Zero α] {acc : Accum α} {n i k : Nat} {T : Nat → Prop} {s : Nat → α} {q : Nat → Nat} (h : AccQ acc n i T s q) (hk : k < n)
    (hn : ¬ ∃ h, h < acc.tail ∧ q h = k) : acc.tail < n := by
  have : (insert k ((range acc.tail).image q)).card ≤ (range n).card := by
    refine card_le_card fun x hx => ?_
    rw [mem_insert, mem_image] at hx
    rcases hx with rfl | ⟨y, hy, rfl⟩
    · exact mem_range.mpr hk
    · exact mem_range.mpr (h.qin y (mem_range.mp hy)).1
  rw [card_insert_of_notMem, card_image_of_injOn, card_range, card_range] at this
  · omega
  · intro a ha b hb hab
    exact h.qinj a b (mem_range.mp ha) (mem_range.mp hb) hab
  · rw [mem_image]
    rintro ⟨y, hy, e⟩
    exact hn ⟨y, mem_range.mp hy, e⟩

theorem accAddpos_spec [CommRing α] {acc : Accum α} {n i k : Nat} {T : Nat → Prop} {s : Nat → α} (h : AccIs acc n i T s) (hk : k < n) (hT : T k) (x : α) :
    Runs (accAddpos acc k x i) (fun a => AccIs a n i T (fun c => s c + if c = k then x else 0)) := by
  obtain ⟨q, h⟩ := h
  unfold accAddpos
  by_cases c : ∃ h, h < acc.tail ∧ q h = k
  · obtain ⟨h1, h2⟩ := h.on k hk c
    refine Runs.rd_bind h1 ?_
    rw [if_neg (lt_irrefl _)]
    refine Runs.rd_bind h2 (Runs.wr_bind h2 (Runs.pure ⟨q, h.nz, h.qin, h.qinj, h.qmem, ?_, ?_⟩))
    · intro l hl hl'
      refine ⟨(h.on l hl hl').1, ?_⟩
      by_cases e : l = k
      · subst e; rw [if_pos rfl]; exact Mem.set_same _ _ _
      · rw [if_neg e, add_zero]; dsimp only; rw [Mem.set_ne _ _ e]; exact (h.on l hl hl').2
    · intro l hl hl'
      obtain ⟨a, b, d⟩ := h.off l hl hl'
      have e : l ≠ k := by rintro rfl; exact hl' c
      refine ⟨a, ?_, ?_⟩
      · dsimp only; rw [Mem.set_ne _ _ e]; exact b
      · rw [if_neg e, d, add_zero]
  · obtain ⟨⟨z, hz, h1⟩, ⟨y, h2⟩, h3⟩ := h.off k hk c
    have ht := h.tail_lt hk c
    obtain ⟨w, hw⟩ := h.qmem _ ht
    refine Runs.rd_bind h1 ?_
    rw [if_pos hz]
    refine Runs.wr_bind h1 (Runs.wr_bind h2 (Runs.wr_bind hw (Runs.pure
      ⟨fun g => if g = acc.tail then k else q g, h.nz, ?_, ?_, ?_, ?_, ?_⟩)))
    · intro g hg
      dsimp only at hg ⊢
      by_cases e : g = acc.tail
      · subst e; rw [if_pos rfl]; exact ⟨hk, Mem.set_same _ _ _, hT⟩
      · rw [if_neg e, Mem.set_ne _ _ e]; exact h.qin g (by omega)
    · intro g g' hg hg' he
      dsimp only at hg hg' he
      by_cases e : g = acc.tail
      · by_cases e' : g' = acc.tail
        · omega
        · rw [if_pos e, if_neg e'] at he
          exact absurd ⟨g', by omega, he.symm⟩ c
      · by_cases e' : g' = acc.tail
        · rw [if_neg e, if_pos e'] at he
          exact absurd ⟨g, by omega, he⟩ c
        · rw [if_neg e, if_neg e'] at he
          exact h.qinj g g' (by omega) (by omega) he
    · intro g hg
      dsimp only
      by_cases e : g = acc.tail
      · subst e; exact ⟨_, Mem.set_same _ _ _⟩
      · rw [Mem.set_ne _ _ e]; exact h.qmem g hg
    · intro l hl hl'
      dsimp only at hl' ⊢
      by_cases e : l = k
      · subst e; rw [Mem.set_same, Mem.set_same, if_pos rfl, h3, zero_add]; exact ⟨rfl, rfl⟩
      · rw [Mem.set_ne _ _ e, Mem.set_ne _ _ e, if_neg e, add_zero]
        refine h.on l hl ?_
        obtain ⟨g, hg, hg'⟩ := hl'
        by_cases e2 : g = acc.tail
        · rw [if_pos e2] at hg'; exact absurd hg'.symm e
        · rw [if_neg e2] at hg'; exact ⟨g, by omega, hg'⟩
    · intro l hl hl'
      dsimp only at hl' ⊢
      have e : l ≠ k := by rintro rfl; exact hl' ⟨acc.tail, by omega, if_pos rfl⟩
      rw [Mem.set_ne _ _ e, Mem.set_ne _ _ e, if_neg e, add_zero]
      refine h.off l hl ?_
      rintro ⟨g, hg, hg'⟩
      exact hl' ⟨g, by omega, by rw [if_neg (by omega)]; exact hg'⟩

/-- Next row. -/
theorem AccIs.next [Zero α] {acc : Accum α} {n i : Nat} {T T' : Nat → Prop} {s : Nat → α} (h : AccIs acc n i T s) :
    AccIs { acc with tail := 0 } n (i + 1) T' (fun _ => 0) := by
  obtain ⟨q, h⟩ := h
  refine ⟨q, h.nz, fun g hg => absurd hg (Nat.not_lt_zero _), fun g _ hg => absurd hg (Nat.not_lt_zero _), h.qmem,
    fun k _ ⟨g, hg, _⟩ => absurd hg (Nat.not_lt_zero _), fun k hk _ => ?_⟩
  by_cases c : ∃ h, h < acc.tail ∧ q h = k
  · exact ⟨⟨i, by push_cast; omega, (h.on k hk c).1⟩, ⟨_, (h.on k hk c).2⟩, rfl⟩
  · obtain ⟨⟨z, hz, h1⟩, h2, h3⟩ := h.off k hk c
    exact ⟨⟨z, by push_cast; omega, h1⟩, h2, rfl⟩

theorem accClear_spec [Zero α] {n len : Nat} {junk : Junk α} {acc : Accum α} (h : accMake n len junk = some acc) (T : Nat → Prop) :
    Runs (accClear acc) (fun a => AccIs a n 0 T (fun _ => 0)) := by
  unfold accMake at h
  split at h
  · exact absurd h (by simp)
  · simp only [Option.some.injEq] at h
    subst h
    unfold accClear
    dsimp only
    refine Runs.bind (P := fun r : Nat × Mem Int => ∀ k, k < n → r.2 k = some (-1)) ?_ fun r hr => Runs.pure ⟨fun _ => 0, rfl,
      fun g hg => absurd hg (Nat.not_lt_zero _), fun g _ hg => absurd hg (Nat.not_lt_zero _), fun g hg => ⟨_, if_pos hg⟩,
      fun k _ ⟨g, hg, _⟩ => absurd hg (Nat.not_lt_zero _), fun k hk _ => ⟨⟨-1, by simp, hr k hk⟩, ⟨_, if_pos hk⟩, rfl⟩⟩
    refine Runs.forUp1 (I := fun i mk => (∀ k, k < n → ∃ z, mk k = some z) ∧ ∀ k, k < i → mk k = some (-1)) (Nat.zero_le _)
      ⟨fun k hk => ⟨_, if_pos hk⟩, fun k hk => absurd hk (Nat.not_lt_zero _)⟩ ?_ (fun mk h => h.2)
    intro i mk _ hi ⟨h1, h2⟩
    obtain ⟨z, hz⟩ := h1 i hi
    refine Runs.wr hz ⟨fun k hk => ?_, fun k hk => ?_⟩
    · by_cases e : k = i
      · subst e; exact ⟨_, Mem.set_same _ _ _⟩
      · rw [Mem.set_ne _ _ e]; exact h1 k hk
    · by_cases e : k = i
      · subst e; exact Mem.set_same _ _ _
      · rw [Mem.set_ne _ _ e]; exact h2 k (by omega)

/-! ## The result matrix -/

/-- Space in the result: `m + 1` pointers and `size` elements. -/
structure Space (C : Sp α) (m : Nat) : Prop where
  ptr : ∀ k, k ≤ m → ∃ x, C.ptr k = some x
  ix : ∀ p, p < C.size → ∃ x, C.ix p = some x
  v : ∀ p, p < C.size → ∃ x, C.v p = some x

/-- `C` differs from `C0` in `nnz`, `nptr` and the arrays only. -/
def SameHead (C0 C : Sp α) : Prop := C.kind = C0.kind ∧ C.rows = C0.rows ∧ C.cols = C0.cols ∧ C.size = C0.size

/-- The rows before `i` of the result are complete, the first `N` elements are `e`; all at different positions in `F`. -/
structure RowsPart (C0 C : Sp α) (m n i : Nat) (F : Finset (Nat × Nat)) (N : Nat) (e : Nat → Ent α) : Prop where
  head : SameHead C0 C
  space : Space C m
  nnz : C.nnz = N
  size : N < C.size
  sorted : ∀ p q, p ≤ q → q < N → (e p).1 ≤ (e q).1
  major : ∀ p, p < N → (e p).1 < i
  minor : ∀ p, p < N → (e p).2.1 < n
  ptr : ∀ k, k < i → C.ptr k = some (Nat.count (fun p => (e p).1 < k) N)
  ix : ∀ p, p < N → C.ix p = some (e p).2.1
  v : ∀ p, p < N → C.v p = some (e p).2.2
  inj : ∀ p q, p < N → q < N → (e p).1 = (e q).1 → (e p).2.1 = (e q).2.1 → p = q
  inF : ∀ p, p < N → ((e p).1, (e p).2.1) ∈ F

/-- The entries after adding `alpha * s (q h)` at row `i`, column `q h`. -/
def gathered [Mul α] (N : Nat) (e : Nat → Ent α) (i : Nat) (alpha : α) (s : Nat → α) (q : Nat → Nat) (p : Nat) : Ent α :=
  if p < N then e p else (i, q (p - N), alpha * s (q (p - N)))

theorem gathered_lt [Mul α] {N i p : Nat} {e : Nat → Ent α} {alpha : α} {s : Nat → α} {q : Nat → Nat} (h : p < N) :
    gathered N e i alpha s q p = e p := if_pos h

theorem gathered_ge [Mul α] {N i p : Nat} {e : Nat → Ent α} {alpha : α} {s : Nat → α} {q : Nat → Nat} (h : ¬ p < N) :
    gathered N e i alpha s q p = (i, q (p - N), alpha * s (q (p - N))) := if_neg h

theorem count_congr' {P Q : Nat → Prop} [DecidablePred P] [DecidablePred Q] : ∀ {N : Nat}, (∀ p, p < N → (P p ↔ Q p)) → Nat.count P N = Nat.count Q N
  | 0, _ => rfl
  | N + 1, h => by
    rw [Nat.count_succ, Nat.count_succ, count_congr' (fun p hp => h p (by omega))]
    simp only [h N (by omega)]

theorem count_gathered [Mul α] {N i : Nat} {e : Nat → Ent α} {alpha : α} {s : Nat → α} {q : Nat → Nat} {k : Nat} (hk : k ≤ i) : ∀ t,
    Nat.count (fun p => (gathered N e i alpha s q p).1 < k) (N + t) = Nat.count (fun p => (e p).1 < k) N
  | 0 => count_congr' (N := N) (fun p hp => by rw [gathered_lt hp])
  | t + 1 => by
    rw [← Nat.add_assoc, Nat.count_succ, count_gathered hk t, if_neg, Nat.add_zero]
    rw [gathered_ge (by omega)]
    dsimp only
    omega

theorem count_all {P : Nat → Prop} [DecidablePred P] : ∀ {N : Nat}, (∀ p, p < N → P p) → Nat.count P N = N
  | 0, _ => rfl
  | N + 1, h => by rw [Nat.count_succ, count_all (fun p hp => h p (by omega)), if_pos (h N (by omega))]

theorem accGather_spec [CommRing α] {C0 C : Sp α} {m n i N : Nat} {F : Finset (Nat × Nat)} {e : Nat → Ent α} (hC : RowsPart C0 C m n i F N e) (hi : i ≤ m)
    (hF : F.card < C0.size) {acc : Accum α} {s : Nat → α} {q : Nat → Nat} (hq : AccQ acc n i (fun c => (i, c) ∈ F) s q) (alpha : α) :
    Runs (accGather C alpha acc i) (fun C' => RowsPart C0 C' m n (i + 1) F (N + acc.tail) (gathered N e i alpha s q)) := by
  unfold accGather
  obtain ⟨x, hx⟩ := hC.space.ptr i hi
  refine Runs.wr_bind hx ?_
  refine Runs.bind (P := fun r : Nat × Sp α => RowsPart C0 r.2 m n (i + 1) F (N + acc.tail) (gathered N e i alpha s q)) ?_ fun r hr => Runs.pure hr
  refine Runs.forUp1 (I := fun t C' => RowsPart C0 C' m n (i + 1) F (N + t) (gathered N e i alpha s q)) (Nat.zero_le _) ?_ ?_ (fun _ h => h)
  · refine ⟨hC.head, ⟨fun k hk => ?_, hC.space.ix, hC.space.v⟩, hC.nnz, hC.size, ?_, ?_, ?_, ?_, ?_, ?_, ?_, ?_⟩
    · dsimp only
      by_cases c : k = i
      · subst c; exact ⟨_, Mem.set_same _ _ _⟩
      · rw [Mem.set_ne _ _ c]; exact hC.space.ptr k hk
    · intro a b hab hb
      rw [gathered_lt (by omega), gathered_lt (by omega)]; exact hC.sorted a b hab hb
    · intro a ha
      rw [gathered_lt (by omega)]
      have := hC.major a ha
      omega
    · intro a ha
      rw [gathered_lt (by omega)]; exact hC.minor a ha
    · intro k hk
      rw [count_gathered (by omega)]
      dsimp only
      by_cases c : k = i
      · subst c; rw [Mem.set_same, hC.nnz, count_all hC.major]
      · rw [Mem.set_ne _ _ c]; exact hC.ptr k (by omega)
    · intro a ha
      rw [gathered_lt (by omega)]; exact hC.ix a ha
    · intro a ha
      rw [gathered_lt (by omega)]; exact hC.v a ha
    · intro a b ha hb
      rw [gathered_lt (by omega), gathered_lt (by omega)]; exact hC.inj a b ha hb
    · intro a ha
      rw [gathered_lt (by omega)]; exact hC.inF a ha
  · intro t C' _ ht h
    obtain ⟨q1, q2, q3⟩ := hq.qin t ht
    have hs : N + t < C'.size := h.size
    obtain ⟨y, hy⟩ := h.space.ix _ hs
    obtain ⟨z, hz⟩ := h.space.v _ hs
    have hg : ∀ p, N ≤ p → gathered N e i alpha s q p = (i, q (p - N), alpha * s (q (p - N))) := fun p hp => gathered_ge (by omega)
    have hinj : ∀ a b, a < N + (t + 1) → b < N + (t + 1) → (gathered N e i alpha s q a).1 = (gathered N e i alpha s q b).1 →
        (gathered N e i alpha s q a).2.1 = (gathered N e i alpha s q b).2.1 → a = b := by
      intro a b ha hb h1 h2
      by_cases ca : a < N
      · by_cases cb : b < N
        · rw [gathered_lt ca, gathered_lt cb] at h1 h2; exact hC.inj a b ca cb h1 h2
        · rw [gathered_lt ca, gathered_ge cb] at h1
          have := hC.major a ca
          dsimp only at h1; omega
      · by_cases cb : b < N
        · rw [gathered_ge ca, gathered_lt cb] at h1
          have := hC.major b cb
          dsimp only at h1; omega
        · rw [gathered_ge ca, gathered_ge cb] at h2
          have := hq.qinj (a - N) (b - N) (by omega) (by omega) h2
          omega
    have hinF : ∀ a, a < N + (t + 1) → ((gathered N e i alpha s q a).1, (gathered N e i alpha s q a).2.1) ∈ F := by
      intro a ha
      by_cases ca : a < N
      · rw [gathered_lt ca]; exact hC.inF a ca
      · rw [gathered_ge ca]; exact (hq.qin (a - N) (by omega)).2.2
    have hcard : N + (t + 1) ≤ F.card := by
      have := card_le_card_of_injOn (s := range (N + (t + 1))) (t := F)
        (fun a => ((gathered N e i alpha s q a).1, (gathered N e i alpha s q a).2.1))
        (fun a ha => hinF a (mem_range.mp ha))
        (fun a ha b hb hab => hinj a b (mem_range.mp ha) (mem_range.mp hb) (Prod.mk.inj hab).1 (Prod.mk.inj hab).2)
      rwa [card_range] at this
    have hnn := h.nnz
    rw [← hnn] at hy hz
    refine Runs.rd_bind q2 (Runs.wr_bind hy (Runs.rd_bind (hq.on _ q1 ⟨t, ht, rfl⟩).2 (Runs.wr_bind hz ?_)))
    rw [if_pos (by have := h.head.2.2.2; omega)]
    rw [hnn]
    have hcell : ∀ {β : Type} {M : Mem β} {w : β} {p : Nat}, (∃ x, M p = some x) → ∃ x, (M.set (N + t) w) p = some x := by
      intro β M w p hp
      by_cases c : p = N + t
      · subst c; exact ⟨_, Mem.set_same _ _ _⟩
      · rw [Mem.set_ne _ _ c]; exact hp
    refine Runs.pure ⟨h.head, ⟨h.space.ptr, fun p hp => hcell (h.space.ix p hp), fun p hp => hcell (h.space.v p hp)⟩, rfl, ?_, ?_, ?_, ?_, ?_, ?_, ?_,
      hinj, hinF⟩
    · have := h.head.2.2.2
      show N + (t + 1) < C'.size
      omega
    · intro a b hab hb
      by_cases cb : b < N
      · rw [gathered_lt cb, gathered_lt (by omega)]; exact hC.sorted a b hab cb
      · rw [gathered_ge cb]
        by_cases ca : a < N
        · rw [gathered_lt ca]; exact le_of_lt (hC.major a ca)
        · rw [gathered_ge ca]
    · intro a ha
      by_cases ca : a < N
      · rw [gathered_lt ca]; have := hC.major a ca; omega
      · rw [gathered_ge ca]; exact Nat.lt_succ_self i
    · intro a ha
      by_cases ca : a < N
      · rw [gathered_lt ca]; exact hC.minor a ca
      · rw [gathered_ge ca]; exact (hq.qin (a - N) (by omega)).1
    · intro k hk
      rw [count_gathered (by omega)]
      have := h.ptr k hk
      rwa [count_gathered (by omega)] at this
    · intro a ha
      by_cases c : a = N + t
      · subst c
        rw [hg _ (by omega)]
        dsimp only
        rw [Mem.set_same, Nat.add_sub_cancel_left]
      · dsimp only; rw [Mem.set_ne _ _ c]; exact h.ix a (by omega)
    · intro a ha
      by_cases c : a = N + t
      · subst c
        rw [hg _ (by omega)]
        dsimp only
        rw [Mem.set_same, Nat.add_sub_cancel_left]
      · dsimp only; rw [Mem.set_ne _ _ c]; exact h.v a (by omega)

theorem dense_gathered [CommRing α] {n i N : Nat} {T : Nat → Prop} {e : Nat → Ent α} {acc : Accum α} {s : Nat → α} {q : Nat → Nat} (hq : AccQ acc n i T s q)
    (alpha : α) (r c : Nat) (hc : c < n) :
    dense (N + acc.tail) (gathered N e i alpha s q) r c = dense N e r c + if r = i then alpha * s c else 0 := by
  unfold dense
  rw [sum_range_add]
  congr 1
  · refine sum_congr rfl fun p hp => ?_
    rw [gathered_lt (mem_range.mp hp)]
  · have hg : ∀ h, gathered N e i alpha s q (N + h) = (i, q h, alpha * s (q h)) := fun h => by
      rw [gathered_ge (by omega), Nat.add_sub_cancel_left]
    simp only [hg]
    by_cases h1 : r = i
    · rw [if_pos h1]
      by_cases h2 : ∃ h, h < acc.tail ∧ q h = c
      · obtain ⟨h, h3, h4⟩ := h2
        rw [sum_eq_single h]
        · rw [if_pos ⟨h1.symm, h4⟩, h4]
        · intro g hg' hne
          rw [if_neg]
          rintro ⟨-, h5⟩
          exact hne (hq.qinj g h (mem_range.mp hg') h3 (by omega))
        · intro h5; exact absurd (mem_range.mpr h3) h5
      · rw [(hq.off c hc h2).2.2, mul_zero]
        refine sum_eq_zero fun g hg' => ?_
        rw [if_neg]
        rintro ⟨-, h5⟩
        exact h2 ⟨g, mem_range.mp hg', h5⟩
    · rw [if_neg h1]
      refine sum_eq_zero fun g _ => ?_
      rw [if_neg]
      rintro ⟨h5, -⟩
      exact h1 h5.symm

/-- The common frame: if the program for row `i` accumulates `t i`, the result holds `alpha * t`. -/
theorem accRows_spec [CommRing α] {C : Sp α} {m n len : Nat} {F : Finset (Nat × Nat)} (hS : Space C m) (hF : F.card < C.size) {junk : Junk α}
    {acc : Accum α} (hacc : accMake n len junk = some acc) (alpha : α) {row : Nat → Accum α → Res (Accum α)} {t : Nat → Nat → α}
    (hrow : ∀ i acc, i < m → AccIs acc n i (fun c => (i, c) ∈ F) (fun _ => 0) →
      Runs (row i acc) (fun a => AccIs a n i (fun c => (i, c) ∈ F) (t i))) :
    Runs (accRows C m m alpha row acc) (fun C' => ∃ N e, SameHead C C' ∧ C'.nnz = N ∧ C'.nptr = m ∧ Compressed C'.ptr C'.ix C'.v m n N e ∧
      (∀ p q, p < N → q < N → (e p).1 = (e q).1 → (e p).2.1 = (e q).2.1 → p = q) ∧
      ∀ r c, r < m → c < n → dense N e r c = alpha * t r c) := by
  unfold accRows
  refine Runs.bind (accClear_spec hacc (fun c => (0, c) ∈ F)) fun a ha => ?_
  refine Runs.bind (P := fun r : Nat × Sp α × Accum α => ∃ N e, RowsPart C r.2.1 m n m F N e ∧ ∀ r c, c < n → dense N e r c = if r < m then alpha * t r c else 0) ?_ ?_
  · refine Runs.forUp1 (I := fun i (st : Sp α × Accum α) => AccIs st.2 n i (fun c => (i, c) ∈ F) (fun _ => 0) ∧
      ∃ N e, RowsPart C st.1 m n i F N e ∧ ∀ r c, c < n → dense N e r c = if r < i then alpha * t r c else 0) (Nat.zero_le _) ?_ ?_ (fun _ h => h.2)
    · refine ⟨ha, 0, fun _ => (0, 0, 0), ⟨⟨rfl, rfl, rfl, rfl⟩, ⟨hS.ptr, hS.ix, hS.v⟩, rfl, by show 0 < C.size; omega, ?_, ?_, ?_, ?_, ?_, ?_, ?_, ?_⟩, ?_⟩
      all_goals first | (intros; omega) | (intros; simp [dense])
    · intro i st _ hi ⟨h1, N, e, h2, h3⟩
      refine Runs.bind (hrow i _ hi h1) fun a ⟨q, hq⟩ => ?_
      refine Runs.bind (accGather_spec h2 (le_of_lt hi) hF hq alpha) fun C' hC' => ?_
      refine Runs.pure ⟨AccIs.next ⟨q, hq⟩, _, _, hC', fun r c hc => ?_⟩
      rw [dense_gathered hq alpha r c hc, h3 r c hc]
      by_cases e1 : r = i
      · subst e1; rw [if_neg (lt_irrefl _), if_pos rfl, if_pos (Nat.lt_succ_self r), zero_add]
      · rw [if_neg e1, add_zero]
        by_cases e2 : r < i
        · rw [if_pos e2, if_pos (by omega)]
        · rw [if_neg e2, if_neg (by omega)]
  · rintro ⟨_, C', _⟩ ⟨N, e, h1, h2⟩
    dsimp only at h1 ⊢
    obtain ⟨x, hx⟩ := h1.space.ptr m (le_refl m)
    refine Runs.wr_bind hx (Runs.pure ⟨N, e, h1.head, h1.nnz, rfl, ⟨h1.sorted, h1.major, h1.minor, ?_, h1.ix, h1.v⟩, h1.inj, fun r c hr hc => by
      rw [h2 r c hc, if_pos hr]⟩)
    intro k hk
    dsimp only
    by_cases c : k = m
    · subst c; rw [Mem.set_same, h1.nnz, count_all h1.major]
    · rw [Mem.set_ne _ _ c]; exact h1.ptr k (by omega)

end Armas
