import Verif.SpUtil
import Verif.SparseMvLemmas
import Verif.Logic
import Mathlib.Data.Finset.Card

/-!
# C107, C108: growing a coordinate list, test for a stored diagonal
-/

namespace Armas.Props

variable {α : Type}

/-- A coordinate list that holds exactly the entries of the list, in the array of `size` elements of which it is the beginning. -/
structure CooIs (A : Sp α) (l : List (Nat × Nat × α)) : Prop where
  kind : A.kind = .coo
  nnz : A.nnz = l.length
  room : l.length ≤ A.size
  ep : ∀ k, k < A.size → ∃ x, A.ep k = some x
  elem : ∀ k, (h : k < l.length) → A.ep k = some l[k]

/-- C107, partial: resizing a coordinate list to any size that is not below the number of entries keeps the entries.
Missing: a smaller size (false, `C107_resize_false`). -/
theorem C107_resize_partial [Zero α] {A : Sp α} {l : List (Nat × Nat × α)} (hA : CooIs A l) {newsize : Nat} (hs : l.length ≤ newsize) :
    Runs (spResize A newsize) (fun r => r.1 = 0 ∧ CooIs r.2 l ∧ r.2.size = newsize ∧ r.2.rows = A.rows ∧ r.2.cols = A.cols) := by
  unfold spResize
  rw [if_pos hA.kind]
  refine Runs.bind (P := fun r : Nat × Mem (Nat × Nat × α) => (∀ k, k < newsize → ∃ x, r.2 k = some x) ∧
    ∀ k, (h : k < l.length) → r.2 k = some l[k]) ?_ ?_
  · refine Runs.forUp1 (fun n nb => (∀ k, k < newsize → ∃ x, nb k = some x) ∧ ∀ k, (h : k < l.length) → k < n → nb k = some l[k])
      (Nat.zero_le _) ⟨fun k hk => ⟨(0, 0, 0), by simp [zeros, hk]⟩, fun k _ h => absurd h (Nat.not_lt_zero _)⟩ ?_ ?_
    · intro j nb _ hj ⟨h1, h2⟩
      rw [hA.nnz] at hj
      obtain ⟨y, hy⟩ := h1 j (by omega)
      refine Runs.rd_bind (hA.elem j hj) (Runs.wr hy ⟨?_, ?_⟩)
      · intro k hk
        by_cases e : k = j
        · subst e; exact ⟨_, Mem.set_same _ _ _⟩
        · rw [Mem.set_ne _ _ e]; exact h1 k hk
      · intro k hk hkj
        by_cases e : k = j
        · subst e; exact Mem.set_same _ _ _
        · rw [Mem.set_ne _ _ e]; exact h2 k hk (by omega)
    · intro nb ⟨h1, h2⟩
      exact ⟨h1, fun k hk => h2 k hk (by rw [hA.nnz]; exact hk)⟩
  · rintro ⟨n, nb⟩ ⟨h1, h2⟩
    exact Runs.pure ⟨rfl, ⟨hA.kind, hA.nnz, hs, h1, h2⟩, rfl, rfl, rfl⟩

/-- C107, partial: `armassp_append` adds one entry at the end. -/
theorem C107_append_partial [Zero α] {A : Sp α} {l : List (Nat × Nat × α)} (hA : CooIs A l) (x : Nat × Nat × α) :
    Runs (spAppend A x.1 x.2.1 x.2.2) (fun r => r.1 = 0 ∧ CooIs r.2 (l ++ [x]) ∧ A.size ≤ r.2.size ∧ r.2.rows = A.rows ∧ r.2.cols = A.cols) := by
  unfold spAppend
  rw [if_neg (by simp [hA.kind])]
  refine Runs.bind (P := fun r : Int × Sp α => r.1 = 0 ∧ CooIs r.2 l ∧ l.length < r.2.size ∧ A.size ≤ r.2.size ∧ r.2.rows = A.rows ∧
    r.2.cols = A.cols) ?_ ?_
  · unfold spGrow
    by_cases h : A.nnz = A.size
    · rw [if_pos h]
      have h3 := hA.nnz
      exact (C107_resize_partial hA (newsize := A.size + 64) (by omega)).mono fun r ⟨h1, h2, h4, h5, h6⟩ =>
        ⟨h1, h2, by omega, by omega, h5, h6⟩
    · rw [if_neg h]
      have h3 := hA.nnz
      have h4 := hA.room
      exact Runs.pure ⟨rfl, hA, show l.length < A.size by omega, le_rfl, rfl, rfl⟩
  · rintro ⟨e, B⟩ ⟨h1, hB, h2, h3, h4, h5⟩
    obtain rfl : e = 0 := h1
    dsimp only at *
    rw [if_neg (by omega)]
    obtain ⟨y, hy⟩ := hB.ep _ h2
    rw [hB.nnz]
    refine Runs.wr_bind hy (Runs.pure ⟨rfl, ⟨hB.kind, by simp, by simp; omega, ?_, ?_⟩, h3, h4, h5⟩)
    · intro k hk
      by_cases e : k = l.length
      · subst e; exact ⟨_, Mem.set_same _ _ _⟩
      · exact ⟨_, (Mem.set_ne _ _ e).trans (hB.ep k hk).choose_spec⟩
    · intro k hk
      by_cases e : k = l.length
      · subst e; simpa using Mem.set_same _ _ _
      · have hk' : k < l.length := by simp at hk; omega
        refine (Mem.set_ne _ _ e).trans ?_
        rw [hB.elem k hk', List.getElem_append_left hk']

/-- C107, partial: any number of entries can be appended to a coordinate list, whatever its size; the list then holds the old entries followed
by the new ones, in this order.  Missing: a matrix made for no elements (false, `C107_empty_false`), the record of the number of bytes (false,
`C107_nbytes_false`); the indices are not compared with the dimensions (`C107_bounds_false`). -/
theorem C107_append_all_partial [Zero α] (xs : List (Nat × Nat × α)) {A : Sp α} {l : List (Nat × Nat × α)} (hA : CooIs A l) :
    Runs (spAppendAll A xs) (fun r => r.1 = 0 ∧ CooIs r.2 (l ++ xs) ∧ r.2.rows = A.rows ∧ r.2.cols = A.cols) := by
  induction xs generalizing A l with
  | nil => exact Runs.pure ⟨rfl, by simpa using hA, rfl, rfl⟩
  | cons x xs ih =>
    unfold spAppendAll
    refine (C107_append_partial hA x).bind ?_
    rintro ⟨e, B⟩ ⟨h1, hB, -, h4, h5⟩
    obtain rfl : e = 0 := h1
    dsimp only at *
    rw [if_neg (by omega)]
    refine (ih hB).mono fun r ⟨h1, h2, h6, h7⟩ => ⟨h1, by simpa using h2, h6.trans h4, h7.trans h5⟩

/-- C107: a new coordinate list with room for at least one element is empty. -/
theorem C107_new [Zero α] {r c n : Nat} (hr : r ≠ 0) (hc : c ≠ 0) (hn : n ≠ 0) : CooIs (spNew r c n .coo : Sp α) [] := by
  have e : (spNew r c n .coo : Sp α) = spMake r c n .coo := by unfold spNew; rw [if_neg (by simp [hr, hc, hn])]
  rw [e]
  exact ⟨rfl, rfl, Nat.zero_le _, fun k hk => ⟨(0, 0, 0), by
    have : k < n := hk
    simp [spMake, zeros, this]⟩, fun k hk => absurd hk (Nat.not_lt_zero _)⟩

example : Runs (spAppendAll (spNew 3 4 1 .coo : Sp Int) [(0, 1, 5), (2, 3, -1), (0, 1, 7)]) fun r => r.1 = 0 ∧ CooIs r.2 [(0, 1, 5), (2, 3, -1), (0, 1, 7)] :=
  (C107_append_all_partial _ (C107_new (by decide) (by decide) (by decide))).mono fun _ h => ⟨h.1, h.2.1⟩

example := C107_resize_partial (C107_new (α := Int) (r := 3) (c := 3) (n := 5) (by decide) (by decide) (by decide)) (newsize := 0) (by decide)

/-- C107 is false for a coordinate list made without room: `armassp_new` gives a matrix that is no coordinate list, and nothing can be appended. -/
theorem C107_empty_false [Zero α] (r c m n : Nat) (v : α) : spAppend (spNew r c 0 .coo : Sp α) m n v = .ok (-1, spNew r c 0 .coo) := by
  simp [spAppend, spNew]

/-- C107 is false for a size below the number of entries: `memcpy` writes past the new array. -/
theorem C107_resize_false [Zero α] {A : Sp α} {l : List (Nat × Nat × α)} (hA : CooIs A l) {newsize : Nat} (hs : newsize < l.length) :
    spResize A newsize = .ub := by
  unfold spResize
  rw [if_pos hA.kind, hA.nnz]
  have key : ∀ c n (nb : Mem (Nat × Nat × α)), c = newsize - n → n ≤ newsize → (∀ k, newsize ≤ k → nb k = none) →
      Armas.forUp n l.length 1 (fun k nb => do
        let x ← rd A.ep k
        wr nb k x) nb = .ub := by
    intro c
    induction c with
    | zero =>
      intro n nb hc hn h
      obtain rfl : n = newsize := by omega
      rw [forUp_eq, if_pos hs, rd_ok (hA.elem _ hs)]
      simp [wr, h _ le_rfl]
    | succ c ih =>
      intro n nb hc hn h
      have hl : n < l.length := by omega
      rw [forUp_eq, if_pos hl, rd_ok (hA.elem _ hl), Res.ok_bind]
      cases hw : nb n with
      | none => simp [wr, hw]
      | some y =>
        rw [wr_ok hw, Res.ok_bind]
        exact ih _ _ (by omega) (by omega) fun k hk => by rw [Mem.set_ne _ _ (by omega)]; exact h k hk
  rw [key _ 0 _ rfl (Nat.zero_le _) (fun k hk => by simp [zeros]; omega)]
  rfl

/-- A coordinate list with two entries. -/
def demoTwo : Sp Int := ⟨.coo, 2, 2, 2, 0, 2, 32, 0, 0, noMem, noMem, noMem, fun p => [(1, 0, 5), (0, 0, 7)][p]?⟩

theorem demoTwo_is : CooIs demoTwo [(1, 0, 5), (0, 0, 7)] := by
  refine ⟨rfl, rfl, by decide, ?_, ?_⟩
  · intro k hk
    have hk : k < 2 := hk
    obtain rfl | rfl : k = 0 ∨ k = 1 := by omega
    all_goals exact ⟨_, rfl⟩
  · intro k hk
    have hk : k < 2 := hk
    obtain rfl | rfl : k = 0 ∨ k = 1 := by omega
    all_goals rfl

example := C107_resize_false demoTwo_is (newsize := 1) (by decide)

/-- C107 is false for the number of bytes: after the array has grown it still is that of the old array. -/
theorem C107_nbytes_false : ∃ B : Sp Int, spAppend demoTwo 0 1 3 = .ok (0, B) ∧ B.nbytes = 32 ∧ spBytes B.rows B.cols B.size B.kind = 1056 :=
  ⟨_, rfl, rfl, rfl⟩

/-- C107 is false for indices outside of the matrix: they are appended. -/
theorem C107_bounds_false : ∃ B : Sp Int, spAppend (spNew 1 1 1 .coo) 7 9 3 = .ok (0, B) ∧ B.ep 0 = some (7, 9, 3) ∧ B.rows = 1 ∧ B.cols = 1 :=
  ⟨_, rfl, rfl, rfl, rfl⟩

/-! ### C108 -/

theorem hasIx_spec {ix : Mem Nat} {i : Nat} {g : Nat → Nat} : ∀ c p, (∀ q, p ≤ q → q < p + c → ix q = some (g q)) →
    Runs (hasIx ix i c p) (fun b => b = true ↔ ∃ q, p ≤ q ∧ q < p + c ∧ g q = i)
  | 0, p, _ => Runs.pure (by simp; omega)
  | c + 1, p, h => by
    unfold hasIx
    refine Runs.rd_bind (h p le_rfl (by omega)) ?_
    by_cases e : g p = i
    · rw [if_pos e]; exact Runs.pure ⟨fun _ => ⟨p, le_rfl, by omega, e⟩, fun _ => rfl⟩
    · rw [if_neg e]
      refine (hasIx_spec c (p + 1) fun q h1 h2 => h q (by omega) (by omega)).mono fun b hb => hb.trans ⟨?_, ?_⟩
      · rintro ⟨q, h1, h2, h3⟩; exact ⟨q, by omega, by omega, h3⟩
      · rintro ⟨q, h1, h2, h3⟩
        have : q ≠ p := by rintro rfl; exact e h3
        exact ⟨q, by omega, by omega, h3⟩

theorem hasLines_spec {A : Sp α} {n d N : Nat} {f : Nat → Ent α} (H : Compressed A.ptr A.ix A.v n d N f) {start stop : Nat} (h1 : start ≤ stop)
    (h2 : stop ≤ n) : Runs (hasLines A start stop) (fun nc => nc = 0 ↔ ∀ j, start ≤ j → j < stop → ∃ p, p < N ∧ (f p).1 = j ∧ (f p).2.1 = j - start) := by
  unfold hasLines
  refine Runs.bind (P := fun r : Nat × Int => r.2 = 0 ↔ ∀ j, start ≤ j → j < stop → ∃ p, p < N ∧ (f p).1 = j ∧ (f p).2.1 = j - start) ?_
    fun r hr => Runs.pure hr
  refine Runs.forUp1 (fun t (nc : Int) => ∃ miss : Nat, nc = (stop : Int) - t + miss ∧
    (miss = 0 ↔ ∀ j, start ≤ j → j < t → ∃ p, p < N ∧ (f p).1 = j ∧ (f p).2.1 = j - start)) h1 ⟨0, by simp, by simp; omega⟩ ?_ ?_
  · rintro j nc hj1 hj2 ⟨miss, e1, e2⟩
    refine Runs.rd_bind (H.ptr j (by omega)) (Runs.rd_bind (H.ptr (j + 1) (by omega)) ?_)
    have hmono : pst f N j ≤ pst f N (j + 1) := Nat.count_mono_left (fun p _ h => Nat.lt_succ_of_lt h)
    have hle := H.ptr_le (j + 1)
    refine (hasIx_spec (g := fun p => (f p).2.1) _ _ fun q _ hq => H.ix q (by omega)).bind fun b hb => ?_
    have hb' : b = true ↔ ∃ p, p < N ∧ (f p).1 = j ∧ (f p).2.1 = j - start := by
      rw [hb]
      constructor
      · rintro ⟨q, a1, a2, a3⟩
        have hq : q < N := by omega
        exact ⟨q, hq, (H.mem_seg hq).mp ⟨a1, by omega⟩, a3⟩
      · rintro ⟨q, a1, a2, a3⟩
        obtain ⟨a4, a5⟩ := (H.mem_seg a1).mpr a2
        exact ⟨q, a4, by omega, a3⟩
    cases b with
    | true =>
      refine Runs.pure ⟨miss, by simp; omega, e2.trans ⟨fun h k k1 k2 => ?_, fun h k k1 k2 => h k k1 (by omega)⟩⟩
      by_cases e : k = j
      · subst e; exact hb'.mp rfl
      · exact h k k1 (by omega)
    | false =>
      refine Runs.pure ⟨miss + 1, by simp; omega, by simp, fun h => ?_⟩
      exact absurd (hb'.mpr (h j hj1 (by omega))) (by simp)
  · rintro nc ⟨miss, e1, e2⟩
    rw [← e2]
    dsimp only
    omega

/-- The entry in row `i` and column `j` is stored. -/
def Stored (N : Nat) (e : Nat → Ent α) (i j : Nat) : Prop := ∃ p, p < N ∧ (e p).1 = i ∧ (e p).2.1 = j

/-- All entries of the diagonal `diag` (positive above the main diagonal) are stored. -/
def DiagStored (n N : Nat) (e : Nat → Ent α) (diag : Int) : Prop := ∀ i j, i < n → j < n → (j : Int) = i + diag → Stored N e i j

theorem coo_count {n N : Nat} {e : Nat → Ent α} {d : Nat} (hd : d ≤ n) (hb : ∀ p, p < N → (e p).1 < n ∧ (e p).2.1 < n)
    (hn : ∀ p q, p < N → q < N → (e p).1 = (e q).1 → (e p).2.1 = (e q).2.1 → p = q) :
    Nat.count (fun p => (e p).1 = (e p).2.1 + d) N = n - d ↔ DiagStored n N e (-d) := by
  classical
  rw [Nat.count_eq_card_filter_range]
  have hinj : Set.InjOn (fun p => (e p).2.1) ((Finset.range N).filter fun p => (e p).1 = (e p).2.1 + d : Finset Nat) := by
    intro p hp q hq h
    simp only [Finset.coe_filter, Finset.mem_range, Set.mem_setOf_eq] at hp hq
    have h' : (e p).2.1 = (e q).2.1 := h
    exact hn p q hp.1 hq.1 (by omega) h'
  have hsub : ((Finset.range N).filter fun p => (e p).1 = (e p).2.1 + d).image (fun p => (e p).2.1) ⊆ Finset.range (n - d) := by
    intro j hj
    simp only [Finset.mem_image, Finset.mem_filter, Finset.mem_range] at hj ⊢
    obtain ⟨p, ⟨hp, h1⟩, rfl⟩ := hj
    have := hb p hp
    omega
  rw [← Finset.card_image_of_injOn hinj]
  constructor
  · intro h i j hi hj hij
    have he := Finset.eq_of_subset_of_card_le hsub (by rw [Finset.card_range, h])
    have : j ∈ Finset.range (n - d) := by rw [Finset.mem_range]; omega
    rw [← he] at this
    simp only [Finset.mem_image, Finset.mem_filter, Finset.mem_range] at this
    obtain ⟨p, ⟨hp, h1⟩, h2⟩ := this
    exact ⟨p, hp, by omega, h2⟩
  · intro h
    rw [← Finset.card_range (n - d)]
    congr 1
    refine Finset.Subset.antisymm hsub fun j hj => ?_
    rw [Finset.mem_range] at hj
    obtain ⟨p, hp, h1, h2⟩ := h (j + d) j (by omega) (by omega) (by omega)
    simp only [Finset.mem_image, Finset.mem_filter, Finset.mem_range]
    exact ⟨p, ⟨hp, by omega⟩, h2⟩

/-- C108, partial: for the main diagonal of every matrix, the diagonals above it with compressed columns and those below it in the other formats,
`armassp_hasdiag` tells whether the matrix is square and all entries of the diagonal are stored.
Missing: the other diagonals (false, `C108_csc_false`, `C108_csr_false`, `C108_coo_false`), coordinate lists that contain an entry twice (false,
`C108_twice_false`). -/
theorem C108_hasdiag_partial {A : Sp α} {N : Nat} {e : Nat → Ent α} (hA : SpIs A N e) {diag : Int}
    (hd : match A.kind with
      | .csc => 0 ≤ diag
      | .csr => diag ≤ 0
      | .coo => diag ≤ 0 ∧ ∀ p q, p < N → q < N → (e p).1 = (e q).1 → (e p).2.1 = (e q).2.1 → p = q) :
    Runs (spHasdiag A diag) (fun r => r = true ↔ A.rows = A.cols ∧ diag.natAbs ≤ A.rows ∧ DiagStored A.rows N e diag) := by
  unfold spHasdiag
  by_cases h1 : A.rows ≠ A.cols
  · rw [if_pos h1]; exact Runs.pure (by simp [h1])
  rw [if_neg h1]
  push Not at h1
  by_cases h2 : diag < 0 ∧ (A.rows : Int) < -diag
  · rw [if_pos h2]; exact Runs.pure (by simp; omega)
  rw [if_neg h2]
  by_cases h3 : diag > 0 ∧ (A.cols : Int) < diag
  · rw [if_pos h3]; exact Runs.pure (by simp; omega)
  rw [if_neg h3]
  have h4 : diag.natAbs ≤ A.rows := by omega
  suffices h : Runs (spHasCount A diag) (fun nc => nc = 0 ↔ DiagStored A.rows N e diag) from
    h.bind fun nc hnc => Runs.pure (by simp [hnc, h1, h1 ▸ h4])
  unfold spHasCount
  obtain ⟨hN, hA⟩ := hA
  cases hk : A.kind with
  | coo =>
    rw [hk] at hA hd
    dsimp only at hA hd ⊢
    obtain ⟨hd, hn⟩ := hd
    obtain ⟨he, hb⟩ := hA
    have hcnt := coo_count (d := diag.natAbs) (n := A.rows) h4 (fun p hp => by have := hb p hp; omega) hn
    rw [show -(diag.natAbs : Int) = diag by omega] at hcnt
    refine Runs.bind (P := fun r : Nat × Int => r.2 = 0 ↔ DiagStored A.rows N e diag) ?_ fun r hr => Runs.pure hr
    refine Runs.forUp1 (fun t (nc : Int) => nc = (A.rows - diag.natAbs : Nat) - (Nat.count (fun p => (e p).1 = (e p).2.1 + diag.natAbs) t : Nat))
      (Nat.zero_le _) ?_ ?_ ?_
    · rw [Nat.count_zero]; split <;> omega
    · intro j nc _ hj hnc
      rw [hN] at hj
      refine Runs.rd_bind (he j hj) (Runs.pure ?_)
      rw [Nat.count_succ, hnc]
      have : ((e j).1 : Int) + (if diag > 0 then 0 else diag) = (e j).2.1 + (if diag < 0 then 0 else diag) ↔ (e j).1 = (e j).2.1 + diag.natAbs := by
        rw [if_neg (by omega)]
        split <;> omega
      by_cases c : (e j).1 = (e j).2.1 + diag.natAbs
      · rw [if_pos (this.mpr c), if_pos c]; push_cast; omega
      · rw [if_neg (fun h => c (this.mp h)), if_neg c]; simp
    · intro nc hnc
      rw [← hcnt]
      dsimp only
      rw [hN] at hnc
      omega
  | csc =>
    rw [hk] at hA hd
    dsimp only at hA hd ⊢
    obtain ⟨-, H⟩ := hA
    refine (hasLines_spec H (start := diag.toNat) (by omega) (by omega)).mono fun nc hnc => hnc.trans ⟨?_, ?_⟩
    · intro h i j hi hj hij
      obtain ⟨p, p1, p2, p3⟩ := h j (by omega) (by omega)
      exact ⟨p, p1, by simp only [Ent.flip] at p3; omega, p2⟩
    · intro h j hj1 hj2
      obtain ⟨p, p1, p2, p3⟩ := h (j - diag.toNat) j (by omega) (by omega) (by omega)
      exact ⟨p, p1, p3, p2⟩
  | csr =>
    rw [hk] at hA hd
    dsimp only at hA hd ⊢
    obtain ⟨-, H⟩ := hA
    refine (hasLines_spec H (start := (-diag).toNat) (by omega) (by omega)).mono fun nc hnc => hnc.trans ⟨?_, ?_⟩
    · intro h i j hi hj hij
      obtain ⟨p, p1, p2, p3⟩ := h i (by omega) (by omega)
      exact ⟨p, p1, p2, by omega⟩
    · intro h i hi1 hi2
      obtain ⟨p, p1, p2, p3⟩ := h i (i - (-diag).toNat) (by omega) (by omega) (by omega)
      exact ⟨p, p1, p2, p3⟩

example := C108_hasdiag_partial (A := demoTwo) (N := 2) (e := fun p => [(1, 0, 5), (0, 0, 7)].getD p (0, 0, 0)) (diag := -1)
  ⟨rfl, fun p hp => by obtain rfl | rfl : p = 0 ∨ p = 1 := by omega
                       all_goals rfl,
    fun p hp => by obtain rfl | rfl : p = 0 ∨ p = 1 := by omega
                   all_goals decide⟩
  ⟨by decide, fun p q hp hq => by
    obtain rfl | rfl : p = 0 ∨ p = 1 := by omega
    all_goals obtain rfl | rfl : q = 0 ∨ q = 1 := by omega
    all_goals decide⟩

/-- A 2 × 2 matrix with the entry (1,0) alone, in compressed columns. -/
def demoSub : Sp Int := ⟨.csc, 2, 2, 1, 2, 1, 24, 1, 3, fun k => [(5 : Int)][k]?, fun k => [0, 1, 1][k]?, fun k => [1][k]?, noMem⟩

/-- C108 is false for compressed columns and a diagonal below the main one: an element behind the pointers is read. -/
theorem C108_csc_false : spHasdiag demoSub (-1) = .ub := by decide +kernel

/-- A 2 × 2 matrix with the entry (0,0) alone, in compressed rows. -/
def demoOne : Sp Int := ⟨.csr, 2, 2, 1, 2, 1, 24, 1, 3, fun k => [(5 : Int)][k]?, fun k => [0, 1, 1][k]?, fun k => [0][k]?, noMem⟩

/-- C108 is false for compressed rows and a diagonal above the main one: the element (0,0) is taken for the element (0,1). -/
theorem C108_csr_false : spHasdiag demoOne 1 = .ok true ∧ demoOne.nnz = 1 ∧ demoOne.ix 0 = some 0 := by decide +kernel

/-- C108 is false for coordinate lists and a diagonal above the main one: the element (1,0) is taken for the element (0,1). -/
theorem C108_coo_false : spHasdiag demoTwo 1 = .ok true ∧ demoTwo.ep 0 = some (1, 0, 5) ∧ demoTwo.ep 1 = some (0, 0, 7) ∧ demoTwo.nnz = 2 := by
  decide +kernel

/-- A coordinate list that contains the entry (0,0) twice and no other. -/
def demoTwice : Sp Int := ⟨.coo, 2, 2, 2, 0, 2, 32, 0, 0, noMem, noMem, noMem, fun p => [(0, 0, 5), (0, 0, 7)][p]?⟩

/-- C108 is false for a coordinate list with an entry stored twice: it is counted twice. -/
theorem C108_twice_false : spHasdiag demoTwice 0 = .ok true ∧ demoTwice.ep 0 = some (0, 0, 5) ∧ demoTwice.ep 1 = some (0, 0, 7) ∧ demoTwice.nnz = 2 := by
  decide +kernel

end Armas.Props
