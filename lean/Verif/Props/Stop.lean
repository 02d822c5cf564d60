import Verif.Props.Pool

/-! # C32 (stopping workers) and C33 (task counter) -/

namespace Armas.Props

open Armas

/-! ## C32 -/

/-- **C32, stop before start.** If the stop request is made while the worker thread has not yet
executed `W->running = 1`, then `pthread_join` never returns, in any execution. -/
theorem C32_stop_before_start (cap : Nat) (s s' : Ctl) (hpc : s.pc = .notStarted)
    (hm : s.main = .writeNull) (hex : CtlExec cap s s') : s'.main ≠ .joined ∧ s'.pc ≠ .exited := by
  have key : (s'.main = .writeNull ∨ s'.main = .joining) ∧
      (s'.pc = .notStarted ∨ (s'.running = true ∧ s'.pc ≠ .exited)) := by
    induction hex with
    | refl => exact ⟨Or.inl hm, Or.inl hpc⟩
    | tail _ hs ih =>
      cases hs <;> simp_all
  rcases key with ⟨h1, h2⟩
  constructor
  · rcases h1 with h | h <;> simp [h]
  · rcases h2 with h | h
    · simp [h]
    · exact h.2

/-- **C32 is false of the code.** For every queue capacity there is an execution in which the pool
is started and stopped, the stop request is completely issued, and from there the worker never
terminates and the join never returns in any continuation. -/
theorem C32_stop_false (cap : Nat) (hc : 0 < cap) :
    ∃ s, CtlExec cap ctlInit s ∧ s.main = .joining ∧
      ∀ s', CtlExec cap s s' → s'.main ≠ .joined ∧ s'.pc ≠ .exited := by
  have h1 := CtlStep.stopFlag (cap := cap) ctlInit rfl
  have h2 := CtlStep.stopNull (cap := cap)
    { ctlInit with running := false, main := .writeNull } rfl (by simpa [ctlInit] using hc)
  refine ⟨_, (Relation.ReflTransGen.single h1).tail h2, rfl, ?_⟩
  intro s' hex
  exact C32_stop_before_start cap { ctlInit with running := false, main := .writeNull } s' rfl rfl
    (Relation.ReflTransGen.head h2 hex)

/-- **C32, full queue.** Second failure: the worker sees the flag after finishing a task and exits
while its queue is full; `sched_workers_stop` then retries `taskq_write(…, NULL)` forever.  For
every capacity such a state is reachable. -/
theorem C32_stop_full_queue_false (cap : Nat) :
    ∃ s, CtlExec cap ctlInit s ∧ s.main = .writeNull ∧ s.pc = .exited ∧
      ∀ s', CtlExec cap s s' → s'.main = .writeNull := by
  have fill : ∀ k, k ≤ cap → CtlExec cap
      { running := true, queue := [], pc := .loopTest, main := .sched, executed := [] }
      { running := true, queue := List.replicate k (some 0), pc := .loopTest, main := .sched,
        executed := [] } := by
    intro k
    induction k with
    | zero => intro _; exact .refl
    | succ k ih =>
      intro hk
      have := (ih (by omega)).tail (CtlStep.submit _ 0 rfl (by simp; omega))
      simpa [← List.replicate_succ'] using this
  have h0 := CtlStep.start (cap := cap) ctlInit rfl
  have h1 := (Relation.ReflTransGen.single h0).trans (fill cap (Nat.le_refl _))
  have h2 := h1.tail (CtlStep.stopFlag _ rfl)
  have h3 := h2.tail (CtlStep.leave _ rfl rfl)
  refine ⟨_, h3, rfl, rfl, ?_⟩
  intro s' hex
  have key : s'.main = .writeNull ∧ s'.pc = .exited ∧ s'.queue.length = cap := by
    induction hex with
    | refl => exact ⟨rfl, rfl, by simp⟩
    | tail _ hs ih =>
      cases hs <;> simp_all
  exact key.1

/-- **C32, tasks dropped.** Stopping does not drain the queue: a submitted task can remain
unexecuted when `sched_workers_stop` returns. -/
theorem C32_stop_drops_tasks : ∃ s, CtlExec 16 ctlInit s ∧ s.main = .joined ∧
    s.executed = [] ∧ some 5 ∈ s.queue := by
  have h0 := (Relation.ReflTransGen.single (CtlStep.start (cap := 16) ctlInit rfl))
  have h1 := h0.tail (CtlStep.submit _ 5 rfl (by simp [ctlInit]))
  have h2 := h1.tail (CtlStep.stopFlag _ rfl)
  have h3 := h2.tail (CtlStep.leave _ rfl rfl)
  have h4 := h3.tail (CtlStep.stopNull _ rfl (by simp [ctlInit]))
  have h5 := h4.tail (CtlStep.join _ rfl rfl)
  exact ⟨_, h5, rfl, rfl, by simp⟩

/-- Steps left once stop has been requested. -/
def stopLeft (s : Ctl) : Nat :=
  (match s.pc with
    | .notStarted => 4 | .reading => 3 | .process _ => 2 | .loopTest => 1 | .exited => 0) +
  (match s.main with | .sched => 3 | .writeNull => 2 | .joining => 1 | .joined => 0)

/-- **C32 (partial).** If the worker had started (`W->running = 1` executed) and its queue was not
full when stop was requested, then every continuation is finite (`stopLeft` decreases with every
step) and can only end with the worker exited and the join returned.  (Missing for the full
property: stop before start, stop with a full queue; both fail, see above.) -/
theorem C32_stop_partial (cap : Nat) (s s' : Ctl) (hpc : s.pc ≠ .notStarted)
    (_hm : s.main = .sched) (hq : s.queue.length < cap)
    (hex : CtlExec cap { s with running := false, main := .writeNull } s') :
    (∀ s'', CtlStep cap s' s'' → stopLeft s'' < stopLeft s') ∧
    ((∀ s'', ¬ CtlStep cap s' s'') → s'.main = .joined ∧ s'.pc = .exited) := by
  have key : s'.running = false ∧ s'.pc ≠ .notStarted ∧ s'.main ≠ .sched ∧
      (s'.main = .writeNull → s'.queue.length < cap) ∧
      (s'.main = .joining → s'.pc = .reading → s'.queue ≠ []) ∧
      (s'.main = .joined → s'.pc = .exited) := by
    induction hex with
    | refl => exact ⟨rfl, hpc, by simp, fun _ => hq, by simp, by simp⟩
    | tail _ hs ih =>
      cases hs with
      | start h => simp_all
      | again h hr => simp_all
      | leave h hr => simp_all
      | readNull q h hq =>
        simp_all
        intro hw
        simp_all
        omega
      | readTask T q h hq =>
        simp_all
        intro hw
        simp_all
        omega
      | done T h => simp_all
      | submit T h hc => simp_all
      | stopFlag h => simp_all
      | stopNull h hc => simp_all
      | join h hx => simp_all
  obtain ⟨k1, k2, k3, k4, k5, k6⟩ := key
  constructor
  · intro s'' hs
    cases hs <;> simp_all [stopLeft]
  · intro hstuck
    have hx : s'.pc = .exited := by
      cases hp : s'.pc with
      | notStarted => exact absurd hp k2
      | loopTest => exact absurd (CtlStep.leave s' hp k1) (hstuck _)
      | reading =>
        cases hl : s'.queue with
        | nil =>
          cases hmm : s'.main with
          | sched => exact absurd hmm k3
          | writeNull => exact absurd (CtlStep.stopNull s' hmm (k4 hmm)) (hstuck _)
          | joining => exact absurd hl (k5 hmm hp)
          | joined => exact absurd (k6 hmm) (by simp [hp])
        | cons x q =>
          cases x with
          | none => exact absurd (CtlStep.readNull s' q hp hl) (hstuck _)
          | some T => exact absurd (CtlStep.readTask s' T q hp hl) (hstuck _)
      | process T => exact absurd (CtlStep.done s' T hp) (hstuck _)
      | exited => rfl
    refine ⟨?_, hx⟩
    cases hmm : s'.main with
    | sched => exact absurd hmm k3
    | writeNull => exact absurd (CtlStep.stopNull s' hmm (k4 hmm)) (hstuck _)
    | joining => exact absurd (CtlStep.join s' hmm hx) (hstuck _)
    | joined => rfl

/-- A reachable state meeting the hypotheses: the worker is reading, one task is queued. -/
example : ∃ s, CtlExec 16 ctlInit s ∧ s.pc ≠ .notStarted ∧ s.main = .sched ∧
    s.queue = [some 5] ∧ s.queue.length < 16 := by
  have h0 := (Relation.ReflTransGen.single (CtlStep.start (cap := 16) ctlInit rfl))
  have h1 := h0.tail (CtlStep.again _ rfl rfl)
  have h2 := h1.tail (CtlStep.submit _ 5 rfl (by simp [ctlInit]))
  exact ⟨_, h2, by simp, rfl, rfl, by simp [ctlInit]⟩

example : ∃ s, CtlExec 16 ctlInit s ∧ s.pc = .notStarted ∧ s.main = .writeNull :=
  ⟨_, .single (CtlStep.stopFlag _ rfl), rfl, rfl⟩

/-! ## C33 -/

/-- **C33 (partial: without spurious wake-ups).** In every execution with `n` tasks and any number
of waiting threads, whoever has returned from `armas_counter_wait` did so after all `n` tasks have
called `armas_counter_decrement`.  (Missing: spurious wake-ups, see `C33_spurious_false`.) -/
theorem C33_wait_partial (n : Nat) (s : Cnt) (hex : CntExec false (cntInit n) s) (t : Nat)
    (ht : s.pc t = .returned) : s.left = 0 ∧ s.count = 0 := by
  have key : s.count = s.left ∧ ∀ t, (s.pc t = .returned ∨ s.pc t = .woken) → s.left = 0 := by
    clear ht
    induction hex with
    | refl => exact ⟨rfl, by intro t h; simp [cntInit] at h⟩
    | tail _ hs ih =>
      obtain ⟨i1, i2⟩ := ih
      cases hs with
      | dec h hc =>
        refine ⟨by simp only; omega, fun t ht => ?_⟩
        have := i2 t ht; omega
      | decWake h hc u hu =>
        refine ⟨by simp only; omega, fun t _ => ?_⟩
        simp only; omega
      | decNone h hc hu =>
        refine ⟨by simp only; omega, fun t ht => ?_⟩
        have := i2 t ht; omega
      | call u h =>
        refine ⟨i1, fun t ht => ?_⟩
        by_cases e : t = u
        · subst e; simp at ht
        · exact i2 t (by simpa [upd_ne _ _ e] using ht)
      | sleep u h hc =>
        refine ⟨i1, fun t ht => ?_⟩
        by_cases e : t = u
        · subst e; simp at ht
        · exact i2 t (by simpa [upd_ne _ _ e] using ht)
      | pass u h hc =>
        refine ⟨i1, fun t ht => ?_⟩
        simp only; omega
      | ret u h =>
        refine ⟨i1, fun t ht => ?_⟩
        by_cases e : t = u
        · exact i2 u (Or.inr h)
        · exact i2 t (by simpa [upd_ne _ _ e] using ht)
      | spurious u hsp h => cases hsp
  have h0 := key.2 t (Or.inl ht)
  exact ⟨h0, by rw [key.1, h0]; rfl⟩

/-- **C33 (progress).** With a single waiting thread (the only use in the library), also with
spurious wake-ups: when nothing can move, all tasks have decremented and the waiter has returned if
it ever called `armas_counter_wait`; and it is never left asleep once the count is zero. -/
theorem C33_wait_returns (n : Nat) (spur : Bool) (s : Cnt) (hex : CntExec spur (cntInit n) s)
    (hone : ∀ t, t ≠ 0 → s.pc t = .idle) :
    (s.left = 0 → s.pc 0 ≠ .asleep) ∧
    ((∀ s', CntStep spur s s' → ∃ t, s.pc t = .idle ∧ s'.pc t = .calling) →
      s.left = 0 ∧ (s.pc 0 = .idle ∨ s.pc 0 = .returned)) := by
  have key : ∀ s, CntExec spur (cntInit n) s → s.count = s.left ∧
      ((∀ t, t ≠ 0 → s.pc t = .idle) → s.left = 0 → s.pc 0 ≠ .asleep) := by
    intro s hex
    induction hex with
    | refl => exact ⟨rfl, fun _ _ => by simp [cntInit]⟩
    | tail _ hs ih =>
      obtain ⟨i1, i2⟩ := ih
      cases hs with
      | dec h hc =>
        refine ⟨by simp only; omega, fun h1 h2 => ?_⟩
        simp only at h2; omega
      | decWake h hc u hu =>
        refine ⟨by simp only; omega, fun h1 h2 => ?_⟩
        have : u = 0 := by
          by_contra hne
          have := h1 u hne
          simp at this
        subst this; simp
      | decNone h hc hu => exact ⟨by simp only; omega, fun _ _ => hu 0⟩
      | call u h =>
        refine ⟨i1, fun h1 h2 => ?_⟩
        by_cases e : u = 0
        · subst e; simp
        · have := h1 u e; simp at this
      | sleep u h hc =>
        refine ⟨i1, fun h1 h2 => ?_⟩
        simp only at h2; omega
      | pass u h hc =>
        refine ⟨i1, fun h1 h2 => ?_⟩
        by_cases e : u = 0
        · subst e; simp
        · have := h1 u e; simp at this
      | ret u h =>
        refine ⟨i1, fun h1 h2 => ?_⟩
        by_cases e : u = 0
        · subst e; simp
        · have := h1 u e; simp at this
      | spurious u hsp h =>
        refine ⟨i1, fun h1 h2 => ?_⟩
        by_cases e : u = 0
        · subst e; simp
        · have := h1 u e; simp at this
  obtain ⟨k1, k2⟩ := key s hex
  refine ⟨k2 hone, ?_⟩
  intro hstuck
  have hnot : ∀ s', CntStep spur s s' → (∀ t, s.pc t = .idle → s'.pc t ≠ .calling) → False := by
    intro s' hs hno
    obtain ⟨t, h1, h2⟩ := hstuck s' hs
    exact hno t h1 h2
  have hl : s.left = 0 := by
    by_contra hne
    have hpos : 0 < s.left := Nat.pos_of_ne_zero hne
    by_cases hc : s.count - 1 = 0
    · by_cases ha : ∃ t, s.pc t = .asleep
      · obtain ⟨t, ht⟩ := ha
        refine hnot _ (CntStep.decWake s hpos hc t ht) (fun u hu => ?_)
        by_cases e : u = t
        · subst e; simp
        · simp [upd_ne _ _ e, hu]
      · exact hnot _ (CntStep.decNone s hpos hc (fun t ht => ha ⟨t, ht⟩)) (fun u hu => by simp [hu])
    · exact hnot _ (CntStep.dec s hpos hc) (fun u hu => by simp [hu])
  refine ⟨hl, ?_⟩
  cases hp : s.pc 0 with
  | idle => exact Or.inl rfl
  | returned => exact Or.inr rfl
  | asleep => exact absurd hp (k2 hone hl)
  | calling =>
    exfalso
    refine hnot _ (CntStep.pass s 0 hp (by rw [k1, hl]; rfl)) (fun u hu => ?_)
    by_cases e : u = 0
    · subst e; simp
    · simp [upd_ne _ _ e, hu]
  | woken =>
    exfalso
    refine hnot _ (CntStep.ret s 0 hp) (fun u hu => ?_)
    by_cases e : u = 0
    · subst e; simp
    · simp [upd_ne _ _ e, hu]

/-- **C33 is false of the code with spurious wake-ups.** `armas_counter_wait` tests the counter
with `if`, not `while`: for any number `n > 0` of tasks there is an execution in which the wait
returns although no task has finished. -/
theorem C33_spurious_false (n : Nat) (hn : 0 < n) :
    ∃ s, CntExec true (cntInit n) s ∧ s.pc 0 = .returned ∧ s.left = n ∧ s.count ≠ 0 := by
  have h1 := Relation.ReflTransGen.single (CntStep.call (spur := true) (cntInit n) 0 rfl)
  have h2 := h1.tail (CntStep.sleep _ 0 (by simp) (by simp [cntInit]; omega))
  have h3 := h2.tail (CntStep.spurious _ 0 rfl (by simp))
  have h4 := h3.tail (CntStep.ret _ 0 (by simp))
  exact ⟨_, h4, by simp, rfl, by simp [cntInit]; omega⟩

/-- **C33, several waiters.** `armas_counter_decrement` signals only one thread: with two waiters
one of them can stay asleep for good. -/
theorem C33_second_waiter_stuck : ∃ s, CntExec false (cntInit 1) s ∧ s.left = 0 ∧
    s.pc 1 = .asleep ∧ ∀ s', CntExec false s s' → s'.pc 1 = .asleep := by
  have h1 := Relation.ReflTransGen.single (CntStep.call (spur := false) (cntInit 1) 0 rfl)
  have h2 := h1.tail (CntStep.sleep _ 0 (by simp) (by simp [cntInit]))
  have h3 := h2.tail (CntStep.call _ 1 (by simp [upd, cntInit]))
  have h4 := h3.tail (CntStep.sleep _ 1 (by simp) (by simp [cntInit]))
  have h5 := h4.tail (CntStep.decWake _ (by simp [cntInit]) (by simp [cntInit]) 0 (by simp [upd]))
  refine ⟨_, h5, by simp [cntInit], by simp [upd], ?_⟩
  intro s' hex
  have key : s'.left = 0 ∧ s'.pc 1 = .asleep := by
    induction hex with
    | refl => exact ⟨by simp [cntInit], by simp [upd]⟩
    | tail _ hs ih =>
      obtain ⟨i1, i2⟩ := ih
      cases hs with
      | dec h hc => omega
      | decWake h hc u hu => omega
      | decNone h hc hu => omega
      | call u h =>
        refine ⟨i1, ?_⟩
        have : 1 ≠ u := by intro e; subst e; rw [i2] at h; cases h
        simp [upd_ne _ _ this, i2]
      | sleep u h hc =>
        refine ⟨i1, ?_⟩
        have : 1 ≠ u := by intro e; subst e; rw [i2] at h; cases h
        simp [upd_ne _ _ this, i2]
      | pass u h hc =>
        refine ⟨i1, ?_⟩
        have : 1 ≠ u := by intro e; subst e; rw [i2] at h; cases h
        simp [upd_ne _ _ this, i2]
      | ret u h =>
        refine ⟨i1, ?_⟩
        have : 1 ≠ u := by intro e; subst e; rw [i2] at h; cases h
        simp [upd_ne _ _ this, i2]
      | spurious u hsp h => cases hsp
  exact key.2

/-- A reachable state with a returned waiter. -/
example : ∃ s, CntExec false (cntInit 1) s ∧ s.pc 0 = .returned ∧ ∀ t, t ≠ 0 → s.pc t = .idle := by
  have h1 := Relation.ReflTransGen.single (CntStep.call (spur := false) (cntInit 1) 0 rfl)
  have h2 := h1.tail (CntStep.sleep _ 0 (by simp) (by simp [cntInit]))
  have h3 := h2.tail (CntStep.decWake _ (by simp [cntInit]) (by simp [cntInit]) 0 (by simp))
  have h4 := h3.tail (CntStep.ret _ 0 (by simp))
  exact ⟨_, h4, by simp, fun t ht => by simp [upd, ht, cntInit]⟩

end Armas.Props
