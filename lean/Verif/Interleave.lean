import Verif.Logic
import Mathlib.Logic.Relation
import Mathlib.Data.Set.Lattice
import Mathlib.Data.Fintype.BigOperators
import Mathlib.Algebra.BigOperators.Group.Finset.Basic
import Mathlib.Algebra.Order.BigOperators.Group.Finset

/-!
# Threads with shared memory

A thread is a tree of memory accesses (`Prog`): what it does next depends on the values it has read.
Threads run in any interleaving of their single accesses on one memory (sequential consistency; the
threads started by `src/threaded/*.c` share no cell that one of them writes, so the C memory model gives
the same executions).  An access to a cell that is not allocated is undefined behaviour.

A sequential model `f : Mem α → Res (β × Mem α)` of a piece of code and a thread `P` are connected by
`P.Realises f`: run alone, `P` has the result of `f` wherever `f` has one.
-/

namespace Armas

/-- A thread: finished (or undefined behaviour or an endless loop without accesses), a read, a write. -/
inductive Prog (α β : Type) where
  | ret (r : Res β)
  | rd (p : Nat) (k : α → Prog α β)
  | wr (p : Nat) (v : α) (k : Prog α β)

namespace Prog

variable {α β γ : Type}

/-- The thread run alone. -/
def run : Prog α β → Mem α → Res (β × Mem α)
  | ret r, m => r.bind (fun b => .ok (b, m))
  | rd p k, m => (Armas.rd m p).bind (fun v => run (k v) m)
  | wr p v k, m => (Armas.wr m p v).bind (fun m' => run k m')

/-- Every write of the thread, whatever values it reads, is to a cell of `W`. -/
def Writes (W : Set Nat) : Prog α β → Prop
  | ret _ => True
  | rd _ k => ∀ v, Writes W (k v)
  | wr p _ k => p ∈ W ∧ Writes W k

/-- `P` computes what the sequential model `f` computes. -/
def Realises (P : Prog α β) (f : Mem α → Res (β × Mem α)) : Prop :=
  ∀ m r, f m = .ok r → P.run m = .ok r

/-- Sequential composition. -/
def bind : Prog α β → (β → Prog α γ) → Prog α γ
  | ret (.ok b), g => g b
  | ret .ub, _ => ret .ub
  | ret .diverge, _ => ret .diverge
  | rd p k, g => rd p (fun v => (k v).bind g)
  | wr p v k, g => wr p v (k.bind g)

theorem run_bind (P : Prog α β) (g : β → Prog α γ) : ∀ m,
    (P.bind g).run m = (P.run m).bind (fun x => (g x.1).run x.2) := by
  induction P with
  | ret r => intro m; cases r <;> rfl
  | rd p k ih =>
    intro m
    simp only [bind, run]
    cases h : Armas.rd m p with
    | ok v => exact ih v m
    | ub => rfl
    | diverge => rfl
  | wr p v k ih =>
    intro m
    simp only [bind, run]
    cases h : Armas.wr m p v with
    | ok m' => exact ih m'
    | ub => rfl
    | diverge => rfl

theorem Writes.bind {W : Set Nat} {P : Prog α β} {g : β → Prog α γ} (h : P.Writes W)
    (hg : ∀ b, (g b).Writes W) : (P.bind g).Writes W := by
  induction P with
  | ret r => cases r with
    | ok b => exact hg b
    | ub => trivial
    | diverge => trivial
  | rd p k ih => exact fun v => ih v (h v)
  | wr p v k ih => exact ⟨h.1, ih h.2⟩

end Prog

open Classical in
/-- The memory as far as it lies in `F`. -/
noncomputable def Mem.only {α : Type} (m : Mem α) (F : Set Nat) : Mem α :=
  fun p => if p ∈ F then m p else none

section threads
variable {α β : Type} {ι : Type} [DecidableEq ι]

/-- All threads and the memory. -/
structure TState (ι α β : Type) where
  th : ι → Prog α β
  mem : Mem α

/-- One access of one thread. -/
inductive TStep : TState ι α β → TState ι α β → Prop
  | rd {s : TState ι α β} (i : ι) {p : Nat} {k : α → Prog α β} {v : α} (h : s.th i = .rd p k)
      (hv : s.mem p = some v) : TStep s ⟨Function.update s.th i (k v), s.mem⟩
  | wr {s : TState ι α β} (i : ι) {p : Nat} {v old : α} {k : Prog α β} (h : s.th i = .wr p v k)
      (hv : s.mem p = some old) : TStep s ⟨Function.update s.th i k, s.mem.set p v⟩

/-- A thread is about to do something undefined or is caught in an endless loop. -/
def TState.Bad (s : TState ι α β) : Prop :=
  ∃ i, (∃ r, s.th i = .ret r ∧ ∀ b, r ≠ .ok b) ∨ (∃ p k, s.th i = .rd p k ∧ s.mem p = none) ∨
    (∃ p v k, s.th i = .wr p v k ∧ s.mem p = none)

/-- All threads have finished. -/
def TState.Done (s : TState ι α β) : Prop := ∀ i, ∃ b, s.th i = .ret (.ok b)

open Classical in
/-- What holds in every state reached: each thread, continued alone on its part of the memory, has the
result of the thread run alone from the beginning. -/
def ThInv (F W : ι → Set Nat) (b : ι → β) (mf : ι → Mem α) (m0 : Mem α) (s : TState ι α β) : Prop :=
  (∀ i, (s.th i).run (s.mem.only (F i)) = .ok (b i, mf i)) ∧ (∀ i, (s.th i).Writes (W i)) ∧
    Frame (⋃ i, W i) m0 s.mem

open Classical in
theorem ThInv.step {F W : ι → Set Nat} {b : ι → β} {mf : ι → Mem α} {m0 : Mem α} {s s' : TState ι α β}
    (hd : ∀ i j, i ≠ j → Disjoint (W i) (F j)) (h : ThInv F W b mf m0 s) (st : TStep s s') :
    ThInv F W b mf m0 s' := by
  obtain ⟨h1, h2, h3⟩ := h
  cases st with
  | @rd i p k v hi hv =>
    refine ⟨fun j => ?_, fun j => ?_, h3⟩
    · by_cases hj : j = i
      · subst hj
        have e := h1 j
        rw [hi] at e
        simp only [Function.update_self]
        simp only [Prog.run] at e
        have hF : p ∈ F j := by
          by_contra hc
          have : Armas.rd (s.mem.only (F j)) p = .ub := by
            unfold Armas.rd Mem.only; rw [if_neg hc]
          rw [this] at e
          exact absurd e (by simp [Res.bind])
        rw [rd_ok (show s.mem.only (F j) p = some v by unfold Mem.only; rw [if_pos hF, hv])] at e
        exact e
      · simp only [Function.update_of_ne hj]; exact h1 j
    · by_cases hj : j = i
      · subst hj
        have e := h2 j
        rw [hi] at e
        simp only [Function.update_self]
        exact e v
      · simp only [Function.update_of_ne hj]; exact h2 j
  | @wr i p v old k hi hv =>
    have hW : p ∈ W i := by have e := h2 i; rw [hi] at e; exact e.1
    refine ⟨fun j => ?_, fun j => ?_, ?_⟩
    · by_cases hj : j = i
      · subst hj
        have e := h1 j
        rw [hi] at e
        simp only [Function.update_self]
        simp only [Prog.run] at e
        have hF : p ∈ F j := by
          by_contra hc
          have : Armas.wr (s.mem.only (F j)) p v = .ub := by
            unfold Armas.wr Mem.only; rw [if_neg hc]
          rw [this] at e
          exact absurd e (by simp [Res.bind])
        rw [wr_ok (show s.mem.only (F j) p = some old by unfold Mem.only; rw [if_pos hF, hv])] at e
        have hm : (s.mem.set p v).only (F j) = (s.mem.only (F j)).set p v := by
          funext q
          by_cases hq : q = p
          · subst hq; rw [Mem.set_same]; unfold Mem.only; rw [if_pos hF, Mem.set_same]
          · rw [Mem.set_ne _ _ hq]; unfold Mem.only; rw [Mem.set_ne _ _ hq]
        rw [hm]; exact e
      · simp only [Function.update_of_ne hj]
        have hm : (s.mem.set p v).only (F j) = s.mem.only (F j) := by
          funext q
          unfold Mem.only
          by_cases hq : q ∈ F j
          · rw [if_pos hq, if_pos hq, Mem.set_ne]
            rintro rfl
            exact Set.disjoint_left.mp (hd i j (Ne.symm hj)) hW hq
          · rw [if_neg hq, if_neg hq]
        rw [hm]; exact h1 j
    · by_cases hj : j = i
      · subst hj
        have e := h2 j
        rw [hi] at e
        simp only [Function.update_self]
        exact e.2
      · simp only [Function.update_of_ne hj]; exact h2 j
    · intro q hq
      have : q ≠ p := by rintro rfl; exact hq (Set.mem_iUnion.mpr ⟨i, hW⟩)
      simp only [Mem.set_ne _ _ this]
      exact h3 q hq

open Classical in
theorem ThInv.not_bad {F W : ι → Set Nat} {b : ι → β} {mf : ι → Mem α} {m0 : Mem α} {s : TState ι α β}
    (h : ThInv F W b mf m0 s) : ¬ s.Bad := by
  rintro ⟨i, ⟨r, hr, hb⟩ | ⟨p, k, hr, hp⟩ | ⟨p, v, k, hr, hp⟩⟩
  · have e := h.1 i
    rw [hr] at e
    cases r with
    | ok b => exact hb b rfl
    | ub => exact absurd e (by simp [Prog.run, Res.bind])
    | diverge => exact absurd e (by simp [Prog.run, Res.bind])
  · have e := h.1 i
    rw [hr] at e
    simp only [Prog.run] at e
    have : Armas.rd (s.mem.only (F i)) p = .ub := by
      unfold Armas.rd Mem.only; split <;> simp_all
    rw [this] at e
    exact absurd e (by simp [Res.bind])
  · have e := h.1 i
    rw [hr] at e
    simp only [Prog.run] at e
    have : Armas.wr (s.mem.only (F i)) p v = .ub := by
      unfold Armas.wr Mem.only; split <;> simp_all
    rw [this] at e
    exact absurd e (by simp [Res.bind])

open Classical in
theorem ThInv.done {F W : ι → Set Nat} {b : ι → β} {mf : ι → Mem α} {m0 : Mem α} {s : TState ι α β}
    (h : ThInv F W b mf m0 s) (hd : s.Done) : (∀ i, s.th i = .ret (.ok (b i))) ∧
      (∀ i, ∀ p ∈ F i, s.mem p = mf i p) ∧ Frame (⋃ i, W i) m0 s.mem := by
  have key : ∀ i, s.th i = .ret (.ok (b i)) ∧ s.mem.only (F i) = mf i := by
    intro i
    obtain ⟨b', hb⟩ := hd i
    have e := h.1 i
    rw [hb] at e
    simp only [Prog.run, Res.bind, Res.ok.injEq, Prod.mk.injEq] at e
    rw [hb, e.1]
    exact ⟨rfl, e.2⟩
  refine ⟨fun i => (key i).1, fun i p hp => ?_, h.2.2⟩
  rw [← (key i).2]
  unfold Mem.only
  rw [if_pos hp]

/-- Accesses left when a thread is continued alone on a memory. -/
def Prog.left : Prog α β → Mem α → Nat
  | .ret _, _ => 0
  | .rd p k, m => match m p with
    | some v => (k v).left m + 1
    | none => 0
  | .wr p v k, m => k.left (m.set p v) + 1

open Classical in
/-- Accesses left in all threads. -/
noncomputable def TState.left [Fintype ι] (F : ι → Set Nat) (s : TState ι α β) : Nat :=
  ∑ i, (s.th i).left (s.mem.only (F i))

open Classical in
theorem ThInv.left_lt [Fintype ι] {F W : ι → Set Nat} {b : ι → β} {mf : ι → Mem α} {m0 : Mem α}
    {s s' : TState ι α β} (hd : ∀ i j, i ≠ j → Disjoint (W i) (F j)) (h : ThInv F W b mf m0 s)
    (st : TStep s s') : s'.left F < s.left F := by
  have other : ∀ (i : ι), (∀ j, j ≠ i → (s'.th j).left (s'.mem.only (F j)) = (s.th j).left (s.mem.only (F j))) →
      (s'.th i).left (s'.mem.only (F i)) < (s.th i).left (s.mem.only (F i)) → s'.left F < s.left F := by
    intro i h1 h2
    unfold TState.left
    refine Finset.sum_lt_sum (fun j _ => ?_) ⟨i, Finset.mem_univ _, h2⟩
    by_cases hj : j = i
    · subst hj; exact h2.le
    · exact (h1 j hj).le
  cases st with
  | @rd i p k v hi hv =>
    refine other i (fun j hj => by simp only [Function.update_of_ne hj]) ?_
    have e := h.1 i
    rw [hi] at e ⊢
    simp only [Function.update_self]
    simp only [Prog.run] at e
    have hF : p ∈ F i := by
      by_contra hc
      have : Armas.rd (s.mem.only (F i)) p = .ub := by
        unfold Armas.rd Mem.only; rw [if_neg hc]
      rw [this] at e
      exact absurd e (by simp [Res.bind])
    have hp : s.mem.only (F i) p = some v := by unfold Mem.only; rw [if_pos hF, hv]
    simp only [Prog.left, hp]
    omega
  | @wr i p v old k hi hv =>
    have hW : p ∈ W i := by have e := h.2.1 i; rw [hi] at e; exact e.1
    refine other i (fun j hj => ?_) ?_
    · simp only [Function.update_of_ne hj]
      have hm : (s.mem.set p v).only (F j) = s.mem.only (F j) := by
        funext q
        unfold Mem.only
        by_cases hq : q ∈ F j
        · rw [if_pos hq, if_pos hq, Mem.set_ne]
          rintro rfl
          exact Set.disjoint_left.mp (hd i j (Ne.symm hj)) hW hq
        · rw [if_neg hq, if_neg hq]
      rw [hm]
    · have e := h.1 i
      rw [hi] at e ⊢
      simp only [Function.update_self]
      simp only [Prog.run] at e
      have hF : p ∈ F i := by
        by_contra hc
        have : Armas.wr (s.mem.only (F i)) p v = .ub := by
          unfold Armas.wr Mem.only; rw [if_neg hc]
        rw [this] at e
        exact absurd e (by simp [Res.bind])
      have hm : (s.mem.set p v).only (F i) = (s.mem.only (F i)).set p v := by
        funext q
        by_cases hq : q = p
        · subst hq; rw [Mem.set_same]; unfold Mem.only; rw [if_pos hF, Mem.set_same]
        · rw [Mem.set_ne _ _ hq]; unfold Mem.only; rw [Mem.set_ne _ _ hq]
      simp only [Prog.left, hm]
      omega

open Classical in
/-- **Threads that do not share written cells.**  If each thread, run alone on its part `F i` of the
memory, ends with the memory `mf i`, writes only to `W i`, and no `W i` meets the part of another thread,
then in every interleaving nothing undefined happens, there is no endless execution, and at the end every
thread's part is what the thread leaves when run alone. -/
theorem threads_result [Finite ι] {F W : ι → Set Nat} {P : ι → Prog α β} {b : ι → β} {mf : ι → Mem α} {m0 : Mem α}
    (hrun : ∀ i, (P i).run (m0.only (F i)) = .ok (b i, mf i)) (hw : ∀ i, (P i).Writes (W i))
    (hd : ∀ i j, i ≠ j → Disjoint (W i) (F j)) :
    (∀ s, Relation.ReflTransGen TStep ⟨P, m0⟩ s → ¬ s.Bad ∧ (¬ s.Done → ∃ s', TStep s s') ∧
      (s.Done → (∀ i, s.th i = .ret (.ok (b i))) ∧ (∀ i, ∀ p ∈ F i, s.mem p = mf i p) ∧
        Frame (⋃ i, W i) m0 s.mem)) ∧
    ¬ ∃ σ : Nat → TState ι α β, σ 0 = ⟨P, m0⟩ ∧ ∀ k, TStep (σ k) (σ (k + 1)) := by
  have h0 : ThInv F W b mf m0 ⟨P, m0⟩ := ⟨hrun, hw, Frame.refl _ _⟩
  have hall : ∀ s, Relation.ReflTransGen TStep ⟨P, m0⟩ s → ThInv F W b mf m0 s := by
    intro s hs
    induction hs with
    | refl => exact h0
    | tail _ st ih => exact ih.step hd st
  refine ⟨fun s hs => ⟨(hall s hs).not_bad, ?_, (hall s hs).done⟩, ?_⟩
  · intro hnd
    have hnb := (hall s hs).not_bad
    unfold TState.Done at hnd
    push Not at hnd
    obtain ⟨i, hi⟩ := hnd
    cases ht : s.th i with
    | ret r =>
      exact absurd ⟨i, Or.inl ⟨r, ht, fun b hb => hi b (by rw [ht, hb])⟩⟩ hnb
    | rd p k =>
      cases hp : s.mem p with
      | none => exact absurd ⟨i, Or.inr (Or.inl ⟨p, k, ht, hp⟩)⟩ hnb
      | some v => exact ⟨_, TStep.rd i ht hp⟩
    | wr p v k =>
      cases hp : s.mem p with
      | none => exact absurd ⟨i, Or.inr (Or.inr ⟨p, v, k, ht, hp⟩)⟩ hnb
      | some o => exact ⟨_, TStep.wr i ht hp⟩
  · rintro ⟨σ, hσ0, hσ⟩
    have := Fintype.ofFinite ι
    have hinv : ∀ k, ThInv F W b mf m0 (σ k) := by
      intro k
      induction k with
      | zero => rw [hσ0]; exact h0
      | succ k ih => exact ih.step hd (hσ k)
    have hlt : ∀ k, (σ (k + 1)).left F < (σ k).left F := fun k => (hinv k).left_lt hd (hσ k)
    have hbd : ∀ k, (σ k).left F + k ≤ (σ 0).left F := by
      intro k
      induction k with
      | zero => simp
      | succ k ih => have := hlt k; omega
    have := hbd ((σ 0).left F + 1)
    omega

end threads

end Armas
