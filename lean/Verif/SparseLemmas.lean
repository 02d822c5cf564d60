import Verif.SparseSpec
import Verif.Logic
import Mathlib.Data.Finset.Card
import Mathlib.Data.Set.Finite.Basic

/-!
# Lemmas on sparse matrices
-/

namespace Armas

open Finset

variable {α : Type}

/-! ## Counting sort -/

/-- Number of entries with smaller key. -/
def startOf (key : Nat → Nat) (N c : Nat) : Nat := Nat.count (fun p => key p < c) N

/-- Number of entries with key `c` among the first `P`. -/
def cntOf (key : Nat → Nat) (c P : Nat) : Nat := Nat.count (fun p => key p = c) P

/-- Position of entry `p` in the order by key. -/
def rankOf (key : Nat → Nat) (N p : Nat) : Nat := startOf key N (key p) + cntOf key (key p) p

theorem startOf_zero (key : Nat → Nat) (N : Nat) : startOf key N 0 = 0 := by
  unfold startOf
  induction N with
  | zero => rfl
  | succ N ih => rw [Nat.count_succ, ih]; simp

theorem startOf_succ (key : Nat → Nat) (N c : Nat) : startOf key N (c + 1) = startOf key N c + cntOf key c N := by
  unfold startOf cntOf
  induction N with
  | zero => rfl
  | succ N ih =>
    rw [Nat.count_succ, Nat.count_succ, Nat.count_succ, ih]
    split_ifs <;> omega

theorem startOf_mono (key : Nat → Nat) (N : Nat) {c c' : Nat} (h : c ≤ c') : startOf key N c ≤ startOf key N c' := by
  induction h with
  | refl => exact le_refl _
  | step _ ih => rw [Nat.succ_eq_add_one, startOf_succ]; omega

theorem startOf_all {key : Nat → Nat} {N n : Nat} (h : ∀ p, p < N → key p < n) : startOf key N n = N :=
  Nat.count_iff_forall.mpr fun p hp => h p hp

theorem cntOf_zero (key : Nat → Nat) (c : Nat) : cntOf key c 0 = 0 := rfl

theorem cntOf_succ (key : Nat → Nat) (c P : Nat) : cntOf key c (P + 1) = cntOf key c P + if key P = c then 1 else 0 := by
  unfold cntOf; rw [Nat.count_succ]

theorem rankOf_lt_next {key : Nat → Nat} {N p : Nat} (hp : p < N) : rankOf key N p < startOf key N (key p + 1) := by
  rw [startOf_succ, rankOf]
  have : cntOf key (key p) p < cntOf key (key p) N := Nat.count_strict_mono (p := fun q => key q = key p) rfl hp
  omega

theorem rankOf_ge {key : Nat → Nat} {N p : Nat} : startOf key N (key p) ≤ rankOf key N p := Nat.le_add_right _ _

theorem rankOf_lt_of_key {key : Nat → Nat} {N p p' : Nat} (hp : p < N) (h : key p < key p') : rankOf key N p < rankOf key N p' :=
  lt_of_lt_of_le (rankOf_lt_next hp) (le_trans (startOf_mono key N h) rankOf_ge)

theorem rankOf_lt_of_eq {key : Nat → Nat} {N p p' : Nat} (h : key p = key p') (hpp : p < p') : rankOf key N p < rankOf key N p' := by
  unfold rankOf
  rw [← h]
  have : cntOf key (key p) p < cntOf key (key p) p' := Nat.count_strict_mono (p := fun q => key q = key p) rfl hpp
  omega

theorem rankOf_inj {key : Nat → Nat} {N p p' : Nat} (hp : p < N) (hp' : p' < N) (h : rankOf key N p = rankOf key N p') : p = p' := by
  rcases Nat.lt_trichotomy (key p) (key p') with h1 | h1 | h1
  · have := rankOf_lt_of_key hp h1; omega
  · rcases Nat.lt_trichotomy p p' with h2 | h2 | h2
    · have := rankOf_lt_of_eq (N := N) h1 h2; omega
    · exact h2
    · have := rankOf_lt_of_eq (N := N) h1.symm h2; omega
  · have := rankOf_lt_of_key hp' h1; omega

theorem rankOf_lt {key : Nat → Nat} {N n p : Nat} (hk : ∀ p, p < N → key p < n) (hp : p < N) : rankOf key N p < N := by
  have h1 := rankOf_lt_next (key := key) hp
  have h2 := startOf_mono key N (show key p + 1 ≤ n from hk p hp)
  rw [startOf_all hk] at h2
  omega

/-- A one to one map of `0..N-1` into itself is onto. -/
theorem bijOn_of_inj {σ : Nat → Nat} {N : Nat} (h1 : ∀ p, p < N → σ p < N) (h2 : ∀ p p', p < N → p' < N → σ p = σ p' → p = p') :
    Set.BijOn σ {p | p < N} {p | p < N} := by
  refine ⟨fun p hp => h1 p hp, fun p hp p' hp' h => h2 p p' hp hp' h, ?_⟩
  have : (range N).image σ = range N := by
    refine eq_of_subset_of_card_le ?_ ?_
    · intro q hq
      obtain ⟨p, hp, rfl⟩ := mem_image.mp hq
      exact mem_range.mpr (h1 p (mem_range.mp hp))
    · rw [card_image_of_injOn]
      intro p hp p' hp' h
      exact h2 p p' (by simpa using hp) (by simpa using hp') h
  intro q hq
  have hq' : q ∈ (range N).image σ := by rw [this]; exact mem_range.mpr hq
  obtain ⟨p, hp, rfl⟩ := mem_image.mp hq'
  exact ⟨p, mem_range.mp hp, rfl⟩

theorem rankOf_bij {key : Nat → Nat} {N n : Nat} (hk : ∀ p, p < N → key p < n) :
    Set.BijOn (rankOf key N) {p | p < N} {p | p < N} :=
  bijOn_of_inj (fun _ hp => rankOf_lt hk hp) (fun _ _ hp hp' h => rankOf_inj hp hp' h)

/-- Counting is the same through a one to one correspondence. -/
theorem count_bij {σ : Nat → Nat} {N : Nat} (h : Set.BijOn σ {p | p < N} {p | p < N}) (P Q : Nat → Prop) [DecidablePred P]
    [DecidablePred Q] (hPQ : ∀ p, p < N → (P p ↔ Q (σ p))) : Nat.count P N = Nat.count Q N := by
  rw [Nat.count_eq_card_filter_range, Nat.count_eq_card_filter_range]
  refine card_bij (fun p _ => σ p) ?_ ?_ ?_
  · intro p hp
    rw [mem_filter, mem_range] at hp ⊢
    exact ⟨h.1 hp.1, (hPQ p hp.1).mp hp.2⟩
  · intro p hp p' hp' e
    rw [mem_filter, mem_range] at hp hp'
    exact h.2.1 hp.1 hp'.1 e
  · intro q hq
    rw [mem_filter, mem_range] at hq
    obtain ⟨p, hp, rfl⟩ := h.2.2 hq.1
    exact ⟨p, mem_filter.mpr ⟨mem_range.mpr hp, (hPQ p hp).mpr hq.2⟩, rfl⟩

/-- For a predicate that holds on an initial part, being counted is being in that part. -/
theorem lt_count_iff {P : Nat → Prop} [DecidablePred P] {N : Nat} (h : ∀ p q, p ≤ q → q < N → P q → P p) {p : Nat} (hp : p < N) :
    p < Nat.count P N ↔ P p := by
  induction N with
  | zero => omega
  | succ N ih =>
    rw [Nat.count_succ]
    by_cases c : P N
    · have e : Nat.count P N = N := Nat.count_iff_forall.mpr fun q hq => h q N (by omega) (by omega) c
      rw [if_pos c, e]
      exact ⟨fun _ => h p N (by omega) (by omega) c, fun _ => hp⟩
    · rw [if_neg c, add_zero]
      by_cases c' : p = N
      · subst c'
        have := Nat.count_le (p := P) (n := p)
        exact ⟨fun h => by omega, fun h => absurd h c⟩
      · exact ih (fun p q hpq hq => h p q hpq (by omega)) (by omega)

namespace Compressed

variable {ptr ix : Mem Nat} {v : Mem α} {n d N : Nat} {e : Nat → Ent α}

/-- Positions of row (column) `k`. -/
theorem mem_seg (H : Compressed ptr ix v n d N e) {p k : Nat} (hp : p < N) :
    (Nat.count (fun p => (e p).1 < k) N ≤ p ∧ p < Nat.count (fun p => (e p).1 < k + 1) N) ↔ (e p).1 = k := by
  have d1 := lt_count_iff (P := fun p => (e p).1 < k) (N := N)
    (fun p q hpq hq h => lt_of_le_of_lt (H.sorted p q hpq hq) h) hp
  have d2 := lt_count_iff (P := fun p => (e p).1 < k + 1) (N := N)
    (fun p q hpq hq h => lt_of_le_of_lt (H.sorted p q hpq hq) h) hp
  rw [d2, ← not_lt, d1]
  omega

theorem ptr_le (_H : Compressed ptr ix v n d N e) (k : Nat) : Nat.count (fun p => (e p).1 < k) N ≤ N := Nat.count_le _

theorem ptr_mono (_H : Compressed ptr ix v n d N e) (k : Nat) :
    Nat.count (fun p => (e p).1 < k) N ≤ Nat.count (fun p => (e p).1 < k + 1) N :=
  startOf_mono (fun p => (e p).1) N (Nat.le_succ k)

theorem ptr_zero (_H : Compressed ptr ix v n d N e) : Nat.count (fun p => (e p).1 < 0) N = 0 :=
  startOf_zero (fun p => (e p).1) N

theorem ptr_end (H : Compressed ptr ix v n d N e) : Nat.count (fun p => (e p).1 < n) N = N :=
  startOf_all (key := fun p => (e p).1) H.major

end Compressed

/-! ## The loops of the conversions -/

theorem ptrZero_spec {n : Nat} {ptr : Mem Nat} (h : ∀ k, k < n → ∃ x, ptr k = some x) :
    Runs (ptrZero n ptr) (fun ptr' => (∀ k, k < n → ptr' k = some 0) ∧ ∀ k, n ≤ k → ptr' k = ptr k) := by
  unfold ptrZero
  refine Runs.bind (P := fun r : Nat × Mem Nat => (∀ k, k < n → r.2 k = some 0) ∧ ∀ k, n ≤ k → r.2 k = ptr k) ?_ (fun r hr => Runs.pure hr)
  refine Runs.forUp1 (fun i p => (∀ k, k < i → p k = some 0) ∧ ∀ k, i ≤ k → p k = ptr k) (Nat.zero_le _)
    ⟨fun k hk => by omega, fun k _ => rfl⟩ ?_ (fun st h => h)
  rintro i p - hi ⟨h1, h2⟩
  obtain ⟨x, hx⟩ := h i hi
  refine Runs.wr (v := x) (by rw [h2 i (le_refl i), hx]) ⟨fun k hk => ?_, fun k hk => ?_⟩
  · by_cases c : k = i
    · rw [c, Mem.set_same]
    · rw [Mem.set_ne _ _ c, h1 k (by omega)]
  · rw [Mem.set_ne _ _ (by omega), h2 k (by omega)]

theorem ptrCount_spec {n N : Nat} {key : Nat → Nat} {kf : Nat → Res Nat} {ptr : Mem Nat} (hkf : ∀ k, k < N → kf k = .ok (key k))
    (hk : ∀ p, p < N → key p < n) (h : ∀ c, c < n → ptr c = some 0) :
    Runs (ptrCount N kf ptr) (fun ptr' => (∀ c, c < n → ptr' c = some (cntOf key c N)) ∧ ∀ k, n ≤ k → ptr' k = ptr k) := by
  unfold ptrCount
  refine Runs.bind (P := fun r : Nat × Mem Nat => (∀ c, c < n → r.2 c = some (cntOf key c N)) ∧ ∀ k, n ≤ k → r.2 k = ptr k) ?_
    (fun r hr => Runs.pure hr)
  refine Runs.forUp1 (fun i p => (∀ c, c < n → p c = some (cntOf key c i)) ∧ ∀ k, n ≤ k → p k = ptr k) (Nat.zero_le _)
    ⟨fun c hc => by rw [h c hc, cntOf_zero], fun k _ => rfl⟩ ?_ (fun st h => h)
  rintro i p - hi ⟨h1, h2⟩
  rw [hkf i hi, Res.ok_bind]
  have hki := hk i hi
  refine Runs.rd_bind (h1 _ hki) (Runs.wr (h1 _ hki) ⟨fun c hc => ?_, fun k hk => ?_⟩)
  · rw [cntOf_succ]
    by_cases e : c = key i
    · rw [e, Mem.set_same, if_pos rfl]
    · rw [Mem.set_ne _ _ e, h1 c hc, if_neg (fun h => e h.symm), add_zero]
  · rw [Mem.set_ne _ _ (by omega), h2 k hk]

theorem ptrSum_spec {n N : Nat} {key : Nat → Nat} {ptr : Mem Nat} (h : ∀ c, c < n → ptr c = some (cntOf key c N)) :
    Runs (ptrSum n ptr) (fun r => (∀ c, c < n → r.1 c = some (startOf key N c)) ∧ (∀ k, n ≤ k → r.1 k = ptr k) ∧
      r.2 = startOf key N n) := by
  unfold ptrSum
  refine Runs.bind (P := fun r : Nat × Mem Nat × Nat => (∀ c, c < n → r.2.1 c = some (startOf key N c)) ∧
    (∀ k, n ≤ k → r.2.1 k = ptr k) ∧ r.2.2 = startOf key N n) ?_ (fun r hr => Runs.pure hr)
  refine Runs.forUp1 (fun i st => (∀ c, c < i → st.1 c = some (startOf key N c)) ∧ (∀ k, i ≤ k → st.1 k = ptr k) ∧
    st.2 = startOf key N i) (Nat.zero_le _) ⟨fun c hc => by omega, fun k _ => rfl, (startOf_zero key N).symm⟩ ?_ (fun st h => h)
  rintro i ⟨p, s⟩ - hi ⟨h1, h2, h3⟩
  dsimp only at h1 h2 h3 ⊢
  have e : p i = some (cntOf key i N) := by rw [h2 i (le_refl i), h i hi]
  refine Runs.rd_bind e (Runs.wr_bind e (Runs.pure ⟨fun c hc => ?_, fun k hk => ?_, ?_⟩))
  · dsimp only
    by_cases c' : c = i
    · rw [c', Mem.set_same, h3]
    · rw [Mem.set_ne _ _ c', h1 c (by omega)]
  · dsimp only
    rw [Mem.set_ne _ _ (by omega), h2 k (by omega)]
  · dsimp only
    rw [h3, startOf_succ]

/-- State of the placing loop after `P` entries. -/
structure Placed (n N : Nat) (key idx : Nat → Nat) (val : Nat → α) (P : Nat) (ptr0 : Mem Nat) (st : Mem Nat × Mem Nat × Mem α) :
    Prop where
  ptr : ∀ c, c < n → st.1 c = some (startOf key N c + cntOf key c P)
  rest : ∀ k, n ≤ k → st.1 k = ptr0 k
  ix : ∀ p, p < P → st.2.1 (rankOf key N p) = some (idx p)
  v : ∀ p, p < P → st.2.2 (rankOf key N p) = some (val p)
  ixA : ∀ q, q < N → ∃ x, st.2.1 q = some x
  vA : ∀ q, q < N → ∃ x, st.2.2 q = some x

theorem ptrPlace_spec {n N : Nat} {key idx : Nat → Nat} {val : Nat → α} {P : Nat} {ptr0 : Mem Nat} {st : Mem Nat × Mem Nat × Mem α}
    (hk : ∀ p, p < N → key p < n) (H : Placed n N key idx val P ptr0 st) (hP : P < N) :
    Runs (ptrPlace (key P) (idx P) (val P) st) (Placed n N key idx val (P + 1) ptr0) := by
  unfold ptrPlace
  have hq := H.ptr _ (hk P hP)
  have hr : startOf key N (key P) + cntOf key (key P) P = rankOf key N P := rfl
  rw [hr] at hq
  have hlt := rankOf_lt hk hP
  obtain ⟨x, hx⟩ := H.ixA _ hlt
  obtain ⟨y, hy⟩ := H.vA _ hlt
  refine Runs.rd_bind hq (Runs.wr_bind hx (Runs.wr_bind hy (Runs.wr_bind hq (Runs.pure ⟨?_, ?_, ?_, ?_, ?_, ?_⟩))))
  · intro c hc
    dsimp only
    rw [cntOf_succ]
    by_cases e : c = key P
    · rw [e, Mem.set_same, if_pos rfl, ← hr]; rfl
    · rw [Mem.set_ne _ _ e, H.ptr c hc, if_neg (fun h => e h.symm), add_zero]
  · intro k hk'
    dsimp only
    rw [Mem.set_ne _ _ (by have := hk P hP; omega), H.rest k hk']
  · intro p hp
    dsimp only
    by_cases e : p = P
    · rw [e, Mem.set_same]
    · rw [Mem.set_ne _ _ (fun h => e (rankOf_inj (by omega) hP h)), H.ix p (by omega)]
  · intro p hp
    dsimp only
    by_cases e : p = P
    · rw [e, Mem.set_same]
    · rw [Mem.set_ne _ _ (fun h => e (rankOf_inj (by omega) hP h)), H.v p (by omega)]
  · intro q hq'
    dsimp only
    by_cases e : q = rankOf key N P
    · exact ⟨_, by rw [e, Mem.set_same]⟩
    · rw [Mem.set_ne _ _ e]; exact H.ixA q hq'
  · intro q hq'
    dsimp only
    by_cases e : q = rankOf key N P
    · exact ⟨_, by rw [e, Mem.set_same]⟩
    · rw [Mem.set_ne _ _ e]; exact H.vA q hq'

theorem ptrRestore_spec {n N : Nat} {key : Nat → Nat} {ptr : Mem Nat} (h : ∀ c, c < n → ptr c = some (startOf key N (c + 1))) :
    Runs (ptrRestore n ptr) (fun p => (∀ c, c < n → p c = some (startOf key N c)) ∧ ∀ k, n ≤ k → p k = ptr k) := by
  unfold ptrRestore
  refine Runs.bind (P := fun r : Nat × Mem Nat × Nat => (∀ c, c < n → r.2.1 c = some (startOf key N c)) ∧
    (∀ k, n ≤ k → r.2.1 k = ptr k)) ?_ (fun r hr => Runs.pure hr)
  refine Runs.forUp1 (fun i st => (∀ c, c < i → st.1 c = some (startOf key N c)) ∧ (∀ k, i ≤ k → st.1 k = ptr k) ∧
    st.2 = startOf key N i) (Nat.zero_le _) ⟨fun c hc => by omega, fun k _ => rfl, (startOf_zero key N).symm⟩ ?_
    (fun st h => ⟨h.1, h.2.1⟩)
  rintro i ⟨p, s⟩ - hi ⟨h1, h2, h3⟩
  dsimp only at h1 h2 h3 ⊢
  have e : p i = some (startOf key N (i + 1)) := by rw [h2 i (le_refl i), h i hi]
  refine Runs.rd_bind e (Runs.wr_bind e (Runs.pure ⟨fun c hc => ?_, fun k hk => ?_, ?_⟩))
  · dsimp only
    by_cases c' : c = i
    · rw [c', Mem.set_same, h3]
    · rw [Mem.set_ne _ _ c', h1 c (by omega)]
  · dsimp only
    rw [Mem.set_ne _ _ (by omega), h2 k (by omega)]
  · rfl

/-- Result of the counting sort by `key`. -/
theorem placed_compressed {n d N : Nat} {key idx : Nat → Nat} {val : Nat → α} {ptr ix : Mem Nat} {v : Mem α}
    (hk : ∀ p, p < N → key p < n) (hd : ∀ p, p < N → idx p < d)
    (hptr : ∀ k, k ≤ n → ptr k = some (startOf key N k))
    (hix : ∀ p, p < N → ix (rankOf key N p) = some (idx p)) (hv : ∀ p, p < N → v (rankOf key N p) = some (val p)) :
    ∃ e' : Nat → Ent α, Compressed ptr ix v n d N e' ∧ (∀ p, p < N → e' (rankOf key N p) = (key p, idx p, val p)) := by
  have bij := rankOf_bij hk
  have surj : ∀ q, q < N → ∃ p, p < N ∧ rankOf key N p = q := fun q hq => by
    obtain ⟨p, hp, h⟩ := bij.2.2 (show q ∈ {p | p < N} from hq)
    exact ⟨p, hp, h⟩
  choose! g hg1 hg2 using surj
  have gr : ∀ p, p < N → g (rankOf key N p) = p := fun p hp =>
    rankOf_inj (hg1 _ (rankOf_lt hk hp)) hp (hg2 _ (rankOf_lt hk hp))
  refine ⟨fun q => (key (g q), idx (g q), val (g q)), ⟨?_, ?_, ?_, ?_, ?_, ?_⟩, ?_⟩
  · intro p q hpq hq
    dsimp only
    by_contra hcon
    push Not at hcon
    have := rankOf_lt_of_key (hg1 q hq) hcon
    rw [hg2 q hq, hg2 p (by omega)] at this
    omega
  · intro p hp; exact hk _ (hg1 p hp)
  · intro p hp; exact hd _ (hg1 p hp)
  · intro k hk'
    rw [hptr k hk']
    congr 1
    exact count_bij bij _ _ (fun p hp => by simp only [gr p hp])
  · intro q hq
    have := hix (g q) (hg1 q hq)
    rwa [hg2 q hq] at this
  · intro q hq
    have := hv (g q) (hg1 q hq)
    rwa [hg2 q hq] at this
  · intro p hp
    dsimp only
    rw [gr p hp]

/-! ## Compressed to compressed -/

theorem recompress_spec {na nb da N : Nat} {A B : Sp α} {e : Nat → Ent α} (hB : Compressed B.ptr B.ix B.v nb na N e) (hN : B.nnz = N)
    (hda : nb ≤ da)
    (hp : ∀ k, k ≤ na → ∃ x, A.ptr k = some x) (hi : ∀ p, p < N → ∃ x, A.ix p = some x) (hv : ∀ p, p < N → ∃ x, A.v p = some x) :
    Runs (recompress na nb A B) (fun r => ∃ e' : Nat → Ent α, Compressed r.1 r.2.1 r.2.2 na da N e' ∧
      ∀ p, p < N → e' (rankOf (fun p => (e p).2.1) N p) = (e p).flip) := by
  subst hN
  unfold recompress
  set N := B.nnz
  set key : Nat → Nat := fun p => (e p).2.1 with hkey
  have hk : ∀ p, p < N → key p < na := hB.minor
  refine Runs.bind (ptrZero_spec fun k hk => hp k (by omega)) ?_
  rintro p1 ⟨a1, a2⟩
  refine Runs.bind (ptrCount_spec (key := key) (fun k hk => rd_ok (hB.ix k hk)) hk a1) ?_
  rintro p2 ⟨b1, b2⟩
  refine Runs.bind (ptrSum_spec b1) ?_
  rintro ⟨p3, cs⟩ ⟨c1, c2, c3⟩
  dsimp only at c1 c2 c3 ⊢
  obtain ⟨x, hx⟩ := hp na (le_refl _)
  have hx3 : p3 na = some x := by rw [c2 na (le_refl _), b2 na (le_refl _), a2 na (le_refl _), hx]
  refine Runs.wr_bind hx3 ?_
  have P0 : Placed na N key (fun p => (e p).1) (fun p => (e p).2.2) 0 (p3.set na cs) (p3.set na cs, A.ix, A.v) := by
    refine ⟨?_, fun k _ => rfl, by intros; omega, by intros; omega, hi, hv⟩
    intro c hc
    dsimp only
    rw [Mem.set_ne _ _ (by omega), c1 c hc, cntOf_zero, add_zero]
  refine Runs.bind (P := Placed na N key (fun p => (e p).1) (fun p => (e p).2.2) N (p3.set na cs)) ?_ ?_
  · unfold placeAll
    refine Runs.bind (P := fun r => Placed na N key (fun p => (e p).1) (fun p => (e p).2.2) N (p3.set na cs) r.2) ?_
      (fun r hr => Runs.pure hr)
    refine Runs.forUp1 (fun k st => Placed na N key (fun p => (e p).1) (fun p => (e p).2.2)
      (Nat.count (fun p => (e p).1 < k) N) (p3.set na cs) st) (Nat.zero_le _) (by rw [hB.ptr_zero]; exact P0) ?_
      (fun st h => by rw [hB.ptr_end] at h; exact h)
    rintro k st - hk' hst
    refine Runs.rd_bind (hB.ptr k (by omega)) (Runs.rd_bind (hB.ptr (k + 1) (by omega)) ?_)
    refine Runs.bind (P := fun r => Placed na N key (fun p => (e p).1) (fun p => (e p).2.2)
      (Nat.count (fun p => (e p).1 < k + 1) N) (p3.set na cs) r.2) ?_ (fun r hr => Runs.pure hr)
    refine Runs.forUp1 (fun p st => Placed na N key (fun p => (e p).1) (fun p => (e p).2.2) p (p3.set na cs) st)
      (hB.ptr_mono k) hst ?_ (fun st h => h)
    rintro p st hp1 hp2 hst
    have hpN : p < N := lt_of_lt_of_le hp2 (hB.ptr_le _)
    have hek : (e p).1 = k := (hB.mem_seg hpN).mp ⟨hp1, hp2⟩
    refine Runs.rd_bind (hB.ix p hpN) (Runs.rd_bind (hB.v p hpN) ?_)
    have := ptrPlace_spec hk hst hpN
    rw [hek] at this
    exact this
  rintro ⟨p4, ix, v⟩ HP
  dsimp only
  refine Runs.bind (ptrRestore_spec (N := N) (key := key) fun c hc => by rw [startOf_succ]; exact HP.ptr c hc) ?_
  rintro p5 ⟨d1, d2⟩
  have hx5 : p5 na = some cs := by
    rw [d2 na (le_refl _)]
    have := HP.rest na (le_refl _)
    dsimp only at this
    rw [this, Mem.set_same]
  refine Runs.wr_bind hx5 (Runs.pure ?_)
  dsimp only
  obtain ⟨e', h1, h2⟩ := placed_compressed (d := da) (ptr := p5.set na N) (ix := ix) (v := v) hk
    (fun p hp => lt_of_lt_of_le (hB.major p hp) hda) (fun k hk' => by
      by_cases c : k = na
      · rw [c, Mem.set_same, startOf_all hk]
      · rw [Mem.set_ne _ _ c, d1 k (by omega)]) HP.ix HP.v
  exact ⟨e', h1, fun p hp => h2 p hp⟩

/-! ## Coordinates to compressed -/

theorem cooPlace_spec {n d N : Nat} {A B : Sp α} {e : Nat → Ent α} (kf xf : Nat × Nat × α → Nat) (hB : ∀ p, p < N → B.ep p = some (e p))
    (hN : B.nnz = N) (hk : ∀ p, p < N → kf (e p) < n) (hd : ∀ p, p < N → xf (e p) < d)
    (hp : ∀ k, k ≤ n → A.ptr k = some 0) (hi : ∀ p, p < N → ∃ x, A.ix p = some x) (hv : ∀ p, p < N → ∃ x, A.v p = some x) :
    Runs (cooPlace kf xf n n A B) (fun r => ∃ e' : Nat → Ent α, Compressed r.1 r.2.1 r.2.2 n d N e' ∧
      ∀ p, p < N → e' (rankOf (fun p => kf (e p)) N p) = (kf (e p), xf (e p), (e p).2.2)) := by
  subst hN
  unfold cooPlace
  set N := B.nnz
  set key : Nat → Nat := fun p => kf (e p) with hkey
  refine Runs.bind (ptrCount_spec (n := n + 1) (key := key) (fun k hk => by rw [rd_ok (hB k hk)]; rfl)
    (fun p hp => Nat.lt_succ_of_lt (hk p hp)) (fun c hc => hp c (by omega))) ?_
  rintro p2 ⟨b1, b2⟩
  refine Runs.bind (ptrSum_spec b1) ?_
  rintro ⟨p3, cs⟩ ⟨c1, c2, c3⟩
  dsimp only at c1 c2 c3 ⊢
  have hn : p3 n = some N := by rw [c1 n (by omega), startOf_all hk]
  refine Runs.rd_bind hn ?_
  rw [if_neg (by simp)]
  have P0 : Placed n N key (fun p => xf (e p)) (fun p => (e p).2.2) 0 p3 (p3, A.ix, A.v) := by
    refine ⟨?_, fun k _ => rfl, by intros; omega, by intros; omega, hi, hv⟩
    intro c hc
    dsimp only
    rw [c1 c (by omega), cntOf_zero, add_zero]
  refine Runs.bind (P := fun r => Placed n N key (fun p => xf (e p)) (fun p => (e p).2.2) N p3 r.2) ?_ ?_
  · refine Runs.forUp1 (fun p st => Placed n N key (fun p => xf (e p)) (fun p => (e p).2.2) p p3 st) (Nat.zero_le _) P0 ?_ (fun st h => h)
    rintro p st - hpN hst
    refine Runs.rd_bind (hB p hpN) ?_
    exact ptrPlace_spec hk hst hpN
  rintro ⟨_, p4, ix, v⟩ HP
  dsimp only at HP ⊢
  refine Runs.bind (ptrRestore_spec (N := N) (key := key) fun c hc => by rw [startOf_succ]; exact HP.ptr c hc) ?_
  rintro p5 ⟨d1, d2⟩
  refine Runs.pure ?_
  dsimp only
  obtain ⟨e', h1, h2⟩ := placed_compressed (d := d) (ptr := p5) (ix := ix) (v := v) hk hd (fun k hk' => by
      by_cases c : k = n
      · rw [c, d2 n (le_refl _), startOf_all hk, ← hn]
        exact HP.rest n (le_refl _)
      · rw [d1 k (by omega)]) HP.ix HP.v
  exact ⟨e', h1, h2⟩

end Armas
