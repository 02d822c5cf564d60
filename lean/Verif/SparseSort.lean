import Verif.SparseLemmas
import Mathlib.Logic.Equiv.Basic
import Mathlib.GroupTheory.Perm.Basic

/-!
# Lemmas on the sorting of compressed matrices
-/

namespace Armas

variable {α : Type}

theorem SameEntries.refl (N : Nat) (e : Nat → Ent α) : SameEntries N e e :=
  ⟨id, Set.bijOn_id _, fun _ _ => rfl⟩

theorem SameEntries.trans {N : Nat} {e e' e'' : Nat → Ent α} (h : SameEntries N e e') (h' : SameEntries N e' e'') :
    SameEntries N e e'' := by
  obtain ⟨σ, b, hs⟩ := h
  obtain ⟨τ, b', ht⟩ := h'
  exact ⟨τ ∘ σ, b'.comp b, fun p hp => by rw [Function.comp, ht _ (b.1 hp), hs p hp]⟩

theorem SameEntries.of_perm {N : Nat} {e : Nat → Ent α} {σ : Equiv.Perm Nat} (h : ∀ p, N ≤ p → σ p = p) :
    SameEntries N e (fun p => e (σ p)) := by
  have h' : ∀ p, p < N → σ.symm p < N := by
    intro p hp
    by_contra c
    have := h (σ.symm p) (by omega)
    rw [Equiv.apply_symm_apply] at this
    omega
  exact ⟨σ.symm, bijOn_of_inj h' (fun p p' _ _ e => σ.symm.injective e), fun p _ => by simp⟩

/-- The pairs at the positions `0..N-1`. -/
def PairsAt (st : Mem Nat × Mem α) (N : Nat) (g : Nat → Nat × α) : Prop :=
  ∀ p, p < N → st.1 p = some (g p).1 ∧ st.2 p = some (g p).2

theorem sortIns_spec {N o k : Nat} (hk : o + k < N) (j : Nat) (hj : j ≤ k) :
    ∀ {st : Mem Nat × Mem α} {g : Nat → Nat × α}, PairsAt st N g →
    (∀ p q, p < q → q ≤ k → q ≠ j → (g (o + p)).1 ≤ (g (o + q)).1) →
    Runs (sortIns o j st) (fun st' => ∃ σ : Equiv.Perm Nat, (∀ p, p < o ∨ o + k < p → σ p = p) ∧ PairsAt st' N (fun p => g (σ p)) ∧
      ∀ p q, p < q → q ≤ k → (g (σ (o + p))).1 ≤ (g (σ (o + q))).1) := by
  induction j with
  | zero =>
    intro st g h hs
    unfold sortIns
    exact Runs.pure ⟨1, fun _ _ => rfl, h, fun p q hpq hq => hs p q hpq hq (by omega)⟩
  | succ j ih =>
    intro st g h hs
    unfold sortIns
    obtain ⟨x1, x2⟩ := h (o + (j + 1)) (by omega)
    obtain ⟨y1, y2⟩ := h (o + j) (by omega)
    refine Runs.rd_bind x1 (Runs.rd_bind y1 ?_)
    by_cases c : (g (o + (j + 1))).1 < (g (o + j)).1
    · rw [if_pos c]
      have ne : o + j ≠ o + (j + 1) := by omega
      refine Runs.rd_bind x2 (Runs.wr_bind x1 (Runs.rd_bind y2 (Runs.wr_bind x2 (Runs.wr_bind (v := (g (o + j)).1) ?_
        (Runs.wr_bind (v := (g (o + j)).2) ?_ ?_)))))
      · rw [Mem.set_ne _ _ ne, y1]
      · rw [Mem.set_ne _ _ ne, y2]
      refine (ih (by omega) (g := fun p => g (Equiv.swap (o + j) (o + (j + 1)) p)) ?_ ?_).mono ?_
      · intro p hp
        dsimp only
        by_cases c1 : p = o + j
        · subst c1
          rw [Mem.set_same, Mem.set_same, Equiv.swap_apply_left]
          exact ⟨rfl, rfl⟩
        · rw [Mem.set_ne _ _ c1, Mem.set_ne _ _ c1]
          by_cases c2 : p = o + (j + 1)
          · subst c2
            rw [Mem.set_same, Mem.set_same, Equiv.swap_apply_right]
            exact ⟨rfl, rfl⟩
          · rw [Mem.set_ne _ _ c2, Mem.set_ne _ _ c2, Equiv.swap_apply_of_ne_of_ne c1 c2]
            exact h p hp
      · intro p q hpq hq hqj
        have sw : ∀ r, r ≠ j → r ≠ j + 1 → Equiv.swap (o + j) (o + (j + 1)) (o + r) = o + r := fun r h1 h2 =>
          Equiv.swap_apply_of_ne_of_ne (by omega) (by omega)
        by_cases q1 : q = j + 1
        · subst q1
          rw [Equiv.swap_apply_right]
          by_cases p1 : p = j
          · rw [p1, Equiv.swap_apply_left]; omega
          · rw [sw p p1 (by omega)]
            exact hs p j (by omega) (by omega) (by omega)
        · rw [sw q hqj q1]
          by_cases p1 : p = j
          · rw [p1, Equiv.swap_apply_left]
            exact hs (j + 1) q (by omega) hq (by omega)
          · by_cases p2 : p = j + 1
            · rw [p2, Equiv.swap_apply_right]
              exact hs j q (by omega) hq (by omega)
            · rw [sw p p1 p2]
              exact hs p q hpq hq q1
      · rintro st' ⟨σ, h1, h2, h3⟩
        refine ⟨Equiv.swap (o + j) (o + (j + 1)) * σ, fun p hp => ?_, h2, h3⟩
        rw [Equiv.Perm.mul_apply, h1 p hp]
        exact Equiv.swap_apply_of_ne_of_ne (by omega) (by omega)
    · rw [if_neg c]
      refine Runs.pure ⟨1, fun _ _ => rfl, h, fun p q hpq hq => ?_⟩
      simp only [Equiv.Perm.coe_one, id]
      by_cases e : q = j + 1
      · subst e
        by_cases e' : p = j
        · subst e'; omega
        · have := hs p j (by omega) (by omega) (by omega)
          omega
      · exact hs p q hpq hq e

theorem simpleSort_spec {N o n : Nat} {st : Mem Nat × Mem α} {g : Nat → Nat × α} (hn : o + n ≤ N) (h : PairsAt st N g) :
    Runs (simpleSort o n st) (fun st' => ∃ σ : Equiv.Perm Nat, (∀ p, p < o ∨ o + n ≤ p → σ p = p) ∧ PairsAt st' N (fun p => g (σ p)) ∧
      ∀ p q, p < q → q < n → (g (σ (o + p))).1 ≤ (g (σ (o + q))).1) := by
  unfold simpleSort
  by_cases c : n ≤ 1
  · rw [forUp_eq, if_neg (by omega), Res.ok_bind]
    exact Runs.pure ⟨1, fun _ _ => rfl, h, by intros; omega⟩
  refine Runs.bind (P := fun r : Nat × Mem Nat × Mem α => ∃ σ : Equiv.Perm Nat, (∀ p, p < o ∨ o + n ≤ p → σ p = p) ∧
    PairsAt r.2 N (fun p => g (σ p)) ∧
      ∀ p q, p < q → q < n → (g (σ (o + p))).1 ≤ (g (σ (o + q))).1) ?_ (fun r hr => Runs.pure hr)
  refine Runs.forUp1 (fun k st' => ∃ σ : Equiv.Perm Nat, (∀ p, p < o ∨ o + n ≤ p → σ p = p) ∧ PairsAt st' N (fun p => g (σ p)) ∧
      ∀ p q, p < q → q < k → (g (σ (o + p))).1 ≤ (g (σ (o + q))).1) (by omega) ⟨1, fun _ _ => rfl, h, by intros; omega⟩ ?_
      (fun st h => h)
  rintro k st1 hk1 hk2 ⟨σ, h1, h2, h3⟩
  refine (sortIns_spec (N := N) (o := o) (k := k) (by omega) k (le_refl k) h2 (fun p q hpq hq hne => h3 p q hpq (by omega))).mono ?_
  rintro st2 ⟨τ, k1, k2, k3⟩
  refine ⟨σ * τ, fun p hp => ?_, k2, fun p q hpq hq => k3 p q hpq (by omega)⟩
  rw [Equiv.Perm.mul_apply, k1 p (by omega), h1 p hp]

/-- The sort of the rows (columns) of a compressed matrix. -/
theorem compressedSort_spec {A : Sp α} {n d N : Nat} {e : Nat → Ent α} (hA : Compressed A.ptr A.ix A.v n d N e) (hn : A.nptr = n) :
    Runs (compressedSort A) (fun A' => ∃ e', Compressed A'.ptr A'.ix A'.v n d N e' ∧ SameEntries N e e' ∧
      (∀ p q, p < q → q < N → (e' p).1 = (e' q).1 → (e' p).2.1 ≤ (e' q).2.1) ∧
      A' = { A with ix := A'.ix, v := A'.v }) := by
  unfold compressedSort
  refine Runs.bind (P := fun r : Nat × Mem Nat × Mem α => ∃ σ : Equiv.Perm Nat, (∀ p, N ≤ p → σ p = p) ∧
    (∀ p, p < N → (e (σ p)).1 = (e p).1) ∧ PairsAt r.2 N (fun p => (e (σ p)).2) ∧
    ∀ p q, p < q → q < N → (e p).1 < n → (e p).1 = (e q).1 → (e (σ p)).2.1 ≤ (e (σ q)).2.1) ?_ ?_
  · refine Runs.forUp1 (fun k st => ∃ σ : Equiv.Perm Nat, (∀ p, N ≤ p → σ p = p) ∧
      (∀ p, p < N → (e (σ p)).1 = (e p).1) ∧ PairsAt st N (fun p => (e (σ p)).2) ∧
      ∀ p q, p < q → q < N → (e p).1 < k → (e p).1 = (e q).1 → (e (σ p)).2.1 ≤ (e (σ q)).2.1) (Nat.zero_le _)
      ⟨1, fun _ _ => rfl, fun _ _ => rfl, fun p hp => ⟨hA.ix p hp, hA.v p hp⟩, by intros; omega⟩ ?_ (fun st h => by rwa [hn] at h)
    rintro k st - hk ⟨σ, h1, h2, h3, h4⟩
    refine Runs.rd_bind (hA.ptr k (by omega)) (Runs.rd_bind (hA.ptr (k + 1) (by omega)) ?_)
    set s := Nat.count (fun p => (e p).1 < k) N with hs
    set t := Nat.count (fun p => (e p).1 < k + 1) N with ht
    have hst : s ≤ t := hA.ptr_mono k
    have htN : t ≤ N := hA.ptr_le (k + 1)
    refine (simpleSort_spec (N := N) (by omega) h3).mono ?_
    rintro st' ⟨τ, k1, k2, k3⟩
    have hin : ∀ p, s ≤ p ∧ p < t → s ≤ τ p ∧ τ p < t := by
      intro p hp
      by_contra c
      have := k1 (τ p) (by omega)
      have := τ.injective this
      omega
    have hmaj : ∀ p, p < N → (e (τ p)).1 = (e p).1 := by
      intro p hp
      by_cases c : s ≤ p ∧ p < t
      · have c' := hin p c
        rw [(hA.mem_seg hp).mp c, (hA.mem_seg (by omega)).mp c']
      · rw [k1 p (by omega)]
    have hlt : ∀ p, p < N → τ p < N := by
      intro p hp
      by_cases c : s ≤ p ∧ p < t
      · have := hin p c; omega
      · rw [k1 p (by omega)]; exact hp
    refine ⟨σ * τ, fun p hp => ?_, fun p hp => ?_, k2, ?_⟩
    · rw [Equiv.Perm.mul_apply, k1 p (by omega), h1 p hp]
    · rw [Equiv.Perm.mul_apply, h2 _ (hlt p hp), hmaj p hp]
    · intro p q hpq hq hpk heq
      rw [Equiv.Perm.mul_apply, Equiv.Perm.mul_apply]
      by_cases c : (e p).1 = k
      · have cp := (hA.mem_seg (k := k) (show p < N by omega)).mpr c
        have cq := (hA.mem_seg (k := k) hq).mpr (by omega)
        have := k3 (p - s) (q - s) (by omega) (by omega)
        rwa [show s + (p - s) = p by omega, show s + (q - s) = q by omega] at this
      · have np : ¬ (s ≤ p ∧ p < t) := fun h => c ((hA.mem_seg (by omega)).mp h)
        have nq : ¬ (s ≤ q ∧ q < t) := fun h => c (by rw [heq]; exact (hA.mem_seg hq).mp h)
        rw [k1 p (by omega), k1 q (by omega)]
        exact h4 p q hpq hq (by omega) heq
  · rintro ⟨_, ix, v⟩ ⟨σ, h1, h2, h3, h4⟩
    dsimp only at h3 ⊢
    have hlt : ∀ p, p < N → σ p < N := by
      intro p hp
      by_contra c
      have := h1 (σ p) (by omega)
      have := σ.injective this
      omega
    refine Runs.pure ⟨fun p => e (σ p), ⟨?_, ?_, ?_, ?_, fun p hp => (h3 p hp).1, fun p hp => (h3 p hp).2⟩, SameEntries.of_perm h1, ?_, rfl⟩
    · intro p q hpq hq
      rw [h2 p (by omega), h2 q hq]; exact hA.sorted p q hpq hq
    · intro p hp; rw [h2 p hp]; exact hA.major p hp
    · intro p hp; exact hA.minor _ (hlt p hp)
    · intro k hk
      dsimp only
      rw [hA.ptr k hk]
      congr 1
      exact count_bij (σ := id) (Set.bijOn_id _) _ _ (fun p hp => by simp only [id, h2 p hp])
    · intro p q hpq hq heq
      rw [h2 p (by omega), h2 q hq] at heq
      exact h4 p q hpq hq (hA.major p (by omega)) heq

end Armas
