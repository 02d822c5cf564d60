import Verif.Props.Pool
import Mathlib.Data.List.Perm.Subperm

/-! # C31: the on-demand scheduler -/

namespace Armas.Props

open Armas

/-- Tasks being run by the threads. -/
def runsOf : List (Nat × TrPc) → List Nat
  | [] => []
  | (_, .run T) :: l => T :: runsOf l
  | _ :: l => runsOf l

/-- Threads that have not returned. -/
def aliveOf : List (Nat × TrPc) → Nat
  | [] => 0
  | (_, .dead) :: l => aliveOf l
  | _ :: l => aliveOf l + 1

/-- Slots of the threads that have not yet given their slot back. -/
def slotsOf : List (Nat × TrPc) → List Nat
  | [] => []
  | (_, .dead) :: l => slotsOf l
  | (_, .dropping) :: l => slotsOf l
  | (k, _) :: l => k :: slotsOf l

theorem runsOf_append (a b : List (Nat × TrPc)) : runsOf (a ++ b) = runsOf a ++ runsOf b := by
  induction a with
  | nil => rfl
  | cons x a ih => obtain ⟨k, p⟩ := x; cases p <;> simp [runsOf, ih]

theorem aliveOf_append (a b : List (Nat × TrPc)) : aliveOf (a ++ b) = aliveOf a + aliveOf b := by
  induction a with
  | nil => simp [aliveOf]
  | cons x a ih => obtain ⟨k, p⟩ := x; cases p <;> simp [aliveOf, ih] <;> omega

theorem slotsOf_append (a b : List (Nat × TrPc)) : slotsOf (a ++ b) = slotsOf a ++ slotsOf b := by
  induction a with
  | nil => rfl
  | cons x a ih => obtain ⟨k, p⟩ := x; cases p <;> simp [slotsOf, ih]

theorem slotsOf_length (a : List (Nat × TrPc)) : (slotsOf a).length ≤ aliveOf a := by
  induction a with
  | nil => simp [slotsOf]
  | cons x a ih => obtain ⟨k, p⟩ := x; cases p <;> simp [slotsOf, aliveOf] <;> omega

theorem freeSlot_full {n : Nat} {slot : Nat → Bool} {k : Nat}
    (h : ¬ freeSlot n slot k < n) : ∀ j, k ≤ j → j < n → slot j = true := by
  induction hd : n - k generalizing k with
  | zero => intro j h1 h2; omega
  | succ d ih =>
    intro j h1 h2
    rw [freeSlot] at h
    by_cases hc : k < n ∧ slot k = true
    · rw [if_pos hc] at h
      by_cases e : j = k
      · subst e; exact hc.2
      · exact ih h (by omega) j (by omega) h2
    · rw [if_neg hc] at h
      exact absurd (show k < n by omega) h

/-- Invariant of the on-demand scheduler. -/
structure TInv (s : Tr) : Prop where
  sub : s.submitted = s.started ++ s.queue
  nodup : s.submitted.Nodup
  fin : s.started.Perm (s.finished ++ runsOf s.threads)
  cnt : s.nrunning = (aliveOf s.threads : Int) - (if s.main = .created then 1 else 0)
  slots : ∀ k, s.slot k = true → k ∈ slotsOf s.threads
  drain : s.lastSpawned = true ∧ s.main ≠ .enqueued ∨ s.main = .created → s.queue = [] ∨
    ∃ k T, (k, TrPc.poll) ∈ s.threads ∨ (k, TrPc.run T) ∈ s.threads

theorem tInv_init : TInv trInit := by
  constructor <;> simp [trInit, runsOf, aliveOf]

theorem tInv_step {n cap : Nat} {s s' : Tr} (h : TInv s) (hs : TrStep n cap s (.st s')) :
    TInv s' := by
  obtain ⟨i1, i2, i3, i4, i5, i6⟩ := h
  cases hs with
  | enqueue T hm hT hc =>
    refine ⟨by simp [i1], ?_, i3, ?_, i5, ?_⟩
    · simp only [List.nodup_append, i2, true_and]
      simp
      intro a ha e; subst e; exact hT ha
    · simp [i4, hm]
    · simp
  | block hm hc =>
    refine ⟨i1, i2, i3, ?_, i5, ?_⟩
    · simp [i4, hm]
    · intro hh
      simp at hh
      exact i6 (Or.inl ⟨hh, by simp [hm]⟩)
  | noSpawn hm hn =>
    refine ⟨i1, i2, i3, ?_, i5, ?_⟩
    · simp [i4, hm]
    · simp
  | spawn hm h0 hn hk =>
    refine ⟨i1, i2, ?_, ?_, ?_, ?_⟩
    · simpa [runsOf_append, runsOf] using i3
    · simp [i4, hm, aliveOf_append, aliveOf]
    · intro k hk'
      simp only [slotsOf_append, List.mem_append, slotsOf, List.mem_singleton]
      by_cases e : k = freeSlot n s.slot 0
      · exact Or.inr e
      · exact Or.inl (i5 k (by simpa [upd_ne _ _ e] using hk'))
    · intro _
      exact Or.inr ⟨freeSlot n s.slot 0, 0, Or.inl (by simp)⟩
  | inc hm =>
    refine ⟨i1, i2, i3, ?_, i5, ?_⟩
    · simp [i4, hm]
    · intro _; exact i6 (Or.inr hm)
  | take l1 l2 k T q hth hq =>
    refine ⟨by simp [i1, hq], i2, ?_, ?_, ?_, ?_⟩
    · rw [hth] at i3
      simp only [runsOf_append, runsOf] at i3 ⊢
      have : (s.started ++ [T]).Perm ((s.finished ++ (runsOf l1 ++ runsOf l2)) ++ [T]) :=
        i3.append_right [T]
      refine this.trans ?_
      simp only [List.append_assoc]
      refine List.Perm.append_left _ (List.Perm.append_left _ ?_)
      exact List.perm_append_comm
    · rw [hth] at i4; simpa [aliveOf_append, aliveOf] using i4
    · intro k' hk'
      have := i5 k' hk'
      rw [hth] at this
      simpa [slotsOf_append, slotsOf] using this
    · intro _
      exact Or.inr ⟨k, T, Or.inr (by simp)⟩
  | empty l1 l2 k hth hq =>
    refine ⟨i1, i2, ?_, ?_, ?_, ?_⟩
    · rw [hth] at i3; simpa [runsOf_append, runsOf] using i3
    · rw [hth] at i4; simpa [aliveOf_append, aliveOf] using i4
    · intro k' hk'
      have := i5 k' hk'
      rw [hth] at this
      simpa [slotsOf_append, slotsOf] using this
    · intro _; exact Or.inl hq
  | fin l1 l2 k T hth =>
    refine ⟨i1, i2, ?_, ?_, ?_, ?_⟩
    · rw [hth] at i3
      simp only [runsOf_append, runsOf] at i3 ⊢
      refine i3.trans ?_
      simp only [List.append_assoc]
      refine List.Perm.append_left _ ?_
      exact List.perm_middle
    · rw [hth] at i4; simpa [aliveOf_append, aliveOf] using i4
    · intro k' hk'
      have := i5 k' hk'
      rw [hth] at this
      simpa [slotsOf_append, slotsOf] using this
    · intro _
      exact Or.inr ⟨k, T, Or.inl (by simp)⟩
  | unslot l1 l2 k hth =>
    refine ⟨i1, i2, ?_, ?_, ?_, ?_⟩
    · rw [hth] at i3; simpa [runsOf_append, runsOf] using i3
    · rw [hth] at i4; simpa [aliveOf_append, aliveOf] using i4
    · intro k' hk'
      by_cases e : k' = k
      · subst e; simp at hk'
      · have := i5 k' (by simpa [upd_ne _ _ e] using hk')
        rw [hth] at this
        simpa [slotsOf_append, slotsOf, e] using this
    · intro hh
      rcases i6 hh with hq | ⟨k', T, hk'⟩
      · exact Or.inl hq
      · right
        refine ⟨k', T, ?_⟩
        rw [hth] at hk'
        simpa using hk'
  | drop l1 l2 k hth =>
    refine ⟨i1, i2, ?_, ?_, ?_, ?_⟩
    · rw [hth] at i3; simpa [runsOf_append, runsOf] using i3
    · rw [hth] at i4
      simp only [aliveOf_append, aliveOf] at i4 ⊢
      rw [i4]; push_cast; ring
    · intro k' hk'
      have := i5 k' hk'
      rw [hth] at this
      simpa [slotsOf_append, slotsOf] using this
    · intro hh
      rcases i6 hh with hq | ⟨k', T, hk'⟩
      · exact Or.inl hq
      · right
        refine ⟨k', T, ?_⟩
        rw [hth] at hk'
        simpa using hk'

theorem tInv_exec {n cap : Nat} {s : Tr} (h : TrExec n cap trInit s) : TInv s := by
  induction h with
  | refl => exact tInv_init
  | tail _ hs ih => exact tInv_step ih hs

/-- **C31 (at most once, in order).** In every reachable state the tasks are started in the order
of submission, each at most once, and nothing is lost: what has been submitted is exactly what has
been started followed by what is queued; every started task is finished or being run. -/
theorem C31_at_most_once (n cap : Nat) (s : Tr) (h : TrExec n cap trInit s) :
    s.submitted = s.started ++ s.queue ∧ s.started.Nodup ∧
      s.started.Perm (s.finished ++ runsOf s.threads) := by
  have hi := tInv_exec h
  refine ⟨hi.sub, ?_, hi.fin⟩
  have := hi.nodup
  rw [hi.sub] at this
  exact (List.nodup_append.mp this).1

/-- **C31 (memory safety of the slot search).** With one submitting thread the search for a free
slot never runs past the slot array. -/
theorem C31_no_oob (n cap : Nat) (s : Tr) (h : TrExec n cap trInit s) :
    ¬ TrStep n cap s .oob := by
  intro hs
  have hi := tInv_exec h
  cases hs with
  | spawnOob hm h0 hn hk =>
    have hfull := freeSlot_full hk
    have hsub : List.range n ⊆ slotsOf s.threads := by
      intro j hj
      exact hi.slots j (hfull j (Nat.zero_le _) (List.mem_range.mp hj))
    have hl := (List.subperm_of_subset List.nodup_range hsub).length_le
    have h2 := slotsOf_length s.threads
    have h3 := hi.cnt
    rw [hm] at h3
    simp at h3 hl
    omega

/-- **C31 (partial).** If all threads have returned, the submitting thread is idle and its last
submission created a thread, then every submitted task has been executed exactly once, completely.
(Missing for the full property: a last submission that saw all threads busy, see
`C31_lost_task_false`, and submissions blocked on a full queue, see `C31_blocked_false`.) -/
theorem C31_executed_partial (n cap : Nat) (s : Tr) (h : TrExec n cap trInit s)
    (hdead : ∀ p ∈ s.threads, p.2 = .dead) (hm : s.main = .idle) (hl : s.lastSpawned = true) :
    s.started = s.submitted ∧ s.finished.Perm s.submitted := by
  have hi := tInv_exec h
  have hq : s.queue = [] := by
    rcases hi.drain (Or.inl ⟨hl, by simp [hm]⟩) with hq | ⟨k, T, hk | hk⟩
    · exact hq
    · have := hdead _ hk; cases this
    · have := hdead _ hk; cases this
  have hr : ∀ l : List (Nat × TrPc), (∀ p ∈ l, p.2 = .dead) → runsOf l = [] := by
    intro l
    induction l with
    | nil => intro _; rfl
    | cons x l ih =>
      intro hx
      obtain ⟨k, p⟩ := x
      have hp : p = .dead := hx (k, p) (by simp)
      subst hp
      simp only [runsOf]
      exact ih fun p hp => hx p (List.mem_cons_of_mem _ hp)
  have h1 := hi.sub
  rw [hq, List.append_nil] at h1
  have h2 := hi.fin
  rw [hr _ hdead, List.append_nil] at h2
  exact ⟨h1.symm, h1 ▸ h2.symm⟩

/-- **C31 is false of the code: lost task.** One worker slot: the on-demand thread finds the queue
empty and leaves its loop; before it decrements `nrunning` the main thread enqueues task 1, sees
`nrunning = 1` and creates no thread.  In the resulting state every thread has returned, no step
but a new submission is possible, and task 1 is still queued, unexecuted. -/
theorem C31_lost_task_false : ∃ s, TrExec 1 2 trInit s ∧ 1 ∈ s.submitted ∧ 1 ∉ s.started ∧
    s.main = .idle ∧ (∀ p ∈ s.threads, p.2 = .dead) ∧
    ∀ s', TrStep 1 2 s (.st s') → s'.submitted ≠ s.submitted := by
  have fs : freeSlot 1 (fun _ => false) 0 = 0 := by simp [freeSlot]
  have h1 := Relation.ReflTransGen.single (r := fun s s' => TrStep 1 2 s (.st s'))
    (TrStep.enqueue (n := 1) (cap := 2) trInit 0 rfl (by simp [trInit]) (by simp [trInit]))
  have h2 := h1.tail (TrStep.spawn _ rfl (by simp [trInit]) (by simp [trInit])
    (by simp [trInit, fs]))
  have h3 := h2.tail (TrStep.inc _ rfl)
  have h4 := h3.tail (TrStep.take _ [] [] _ 0 [] rfl rfl)
  have h5 := h4.tail (TrStep.fin _ [] [] _ 0 rfl)
  have h6 := h5.tail (TrStep.empty _ [] [] _ rfl rfl)
  have h7 := h6.tail (TrStep.enqueue _ 1 rfl (by simp [trInit]) (by simp))
  have h8 := h7.tail (TrStep.noSpawn _ rfl (by simp [trInit]))
  have h9 := h8.tail (TrStep.unslot _ [] [] _ rfl)
  have h10 := h9.tail (TrStep.drop _ [] [] _ rfl)
  refine ⟨_, h10, by simp, by simp [trInit], rfl, by simp, ?_⟩
  intro s' hs
  cases hs with
  | enqueue T hm hT hc => simp
  | block hm hc => simp at hc
  | noSpawn hm => cases hm
  | spawn hm => cases hm
  | inc hm => cases hm
  | take l1 l2 k T q h hq =>
    have : (k, TrPc.poll) ∈ l1 ++ (k, TrPc.poll) :: l2 := by simp
    rw [← h] at this; simp at this
  | empty l1 l2 k h hq => simp at hq
  | fin l1 l2 k T h =>
    have : (k, TrPc.run T) ∈ l1 ++ (k, TrPc.run T) :: l2 := by simp
    rw [← h] at this; simp at this
  | unslot l1 l2 k h =>
    have : (k, TrPc.leaving) ∈ l1 ++ (k, TrPc.leaving) :: l2 := by simp
    rw [← h] at this; simp at this
  | drop l1 l2 k h =>
    have : (k, TrPc.dropping) ∈ l1 ++ (k, TrPc.dropping) :: l2 := by simp
    rw [← h] at this; simp at this

/-- **C31, blocked submission.** With one worker slot (queue capacity two) the third submission can
block on the full queue; the thread then executes everything and returns, and nothing in the system
can move any more: the submitting thread never gets its task in. -/
theorem C31_blocked_false : ∃ s, TrExec 1 2 trInit s ∧ s.main = .blocked ∧ s.queue = [] ∧
    ∀ o, ¬ TrStep 1 2 s o := by
  have fs : freeSlot 1 (fun _ => false) 0 = 0 := by simp [freeSlot]
  have h1 := Relation.ReflTransGen.single (r := fun s s' => TrStep 1 2 s (.st s'))
    (TrStep.enqueue (n := 1) (cap := 2) trInit 0 rfl (by simp [trInit]) (by simp [trInit]))
  have h2 := h1.tail (TrStep.spawn _ rfl (by simp [trInit]) (by simp [trInit])
    (by simp [trInit, fs]))
  have h3 := h2.tail (TrStep.inc _ rfl)
  have h4 := h3.tail (TrStep.enqueue _ 1 rfl (by simp [trInit]) (by simp [trInit]))
  have h5 := h4.tail (TrStep.noSpawn _ rfl (by simp [trInit]))
  have h6 := h5.tail (TrStep.block _ rfl (by simp [trInit]))
  have h7 := h6.tail (TrStep.take _ [] [] _ 0 [1] rfl rfl)
  have h8 := h7.tail (TrStep.fin _ [] [] _ 0 rfl)
  have h9 := h8.tail (TrStep.take _ [] [] _ 1 [] rfl rfl)
  have h10 := h9.tail (TrStep.fin _ [] [] _ 1 rfl)
  have h11 := h10.tail (TrStep.empty _ [] [] _ rfl rfl)
  have h12 := h11.tail (TrStep.unslot _ [] [] _ rfl)
  have h13 := h12.tail (TrStep.drop _ [] [] _ rfl)
  refine ⟨_, h13, rfl, rfl, ?_⟩
  intro o hs
  cases hs with
  | enqueue T hm hT hc => cases hm
  | block hm hc => cases hm
  | noSpawn hm => cases hm
  | spawn hm => cases hm
  | spawnOob hm => cases hm
  | inc hm => cases hm
  | take l1 l2 k T q h hq => simp at hq
  | empty l1 l2 k h hq =>
    have : (k, TrPc.poll) ∈ l1 ++ (k, TrPc.poll) :: l2 := by simp
    rw [← h] at this; simp at this
  | fin l1 l2 k T h =>
    have : (k, TrPc.run T) ∈ l1 ++ (k, TrPc.run T) :: l2 := by simp
    rw [← h] at this; simp at this
  | unslot l1 l2 k h =>
    have : (k, TrPc.leaving) ∈ l1 ++ (k, TrPc.leaving) :: l2 := by simp
    rw [← h] at this; simp at this
  | drop l1 l2 k h =>
    have : (k, TrPc.dropping) ∈ l1 ++ (k, TrPc.dropping) :: l2 := by simp
    rw [← h] at this; simp at this

/-- The hypotheses of `C31_executed_partial` are met by a run with one task. -/
example : ∃ s, TrExec 1 2 trInit s ∧ (∀ p ∈ s.threads, p.2 = .dead) ∧ s.main = .idle ∧
    s.lastSpawned = true ∧ s.submitted = [0] := by
  have fs : freeSlot 1 (fun _ => false) 0 = 0 := by simp [freeSlot]
  have h1 := Relation.ReflTransGen.single (r := fun s s' => TrStep 1 2 s (.st s'))
    (TrStep.enqueue (n := 1) (cap := 2) trInit 0 rfl (by simp [trInit]) (by simp [trInit]))
  have h2 := h1.tail (TrStep.spawn _ rfl (by simp [trInit]) (by simp [trInit])
    (by simp [trInit, fs]))
  have h3 := h2.tail (TrStep.inc _ rfl)
  have h4 := h3.tail (TrStep.take _ [] [] _ 0 [] rfl rfl)
  have h5 := h4.tail (TrStep.fin _ [] [] _ 0 rfl)
  have h6 := h5.tail (TrStep.empty _ [] [] _ rfl rfl)
  have h7 := h6.tail (TrStep.unslot _ [] [] _ rfl)
  have h8 := h7.tail (TrStep.drop _ [] [] _ rfl)
  exact ⟨_, h8, by simp, rfl, rfl, by simp [trInit]⟩

end Armas.Props
