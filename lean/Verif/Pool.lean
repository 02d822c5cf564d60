import Verif.Mem
import Mathlib.Logic.Relation

/-!
# Worker pool (`src/workers/workers.c`, `scheduler.h`)

Interleaving model of the persistent worker threads.  Each atomic step is one queue access (the
queue is the first-in first-out list of theorem `C28_fifo`), one compare-and-swap, or the start or
end of a task function.  Simplifications: tasks are numbers; a task function always returns; memory
is sequentially consistent; worker ids (`i+1`, workers.c:268) do not wrap.
-/

namespace Armas

/-- Position of a worker in the loop of `worker_thread` (workers.c:87-107). -/
inductive WPc where
  /-- in `taskq_read` (workers.c:88) -/
  | idle
  /-- has read task `T`, about to compare-and-swap `T->wid` (workers.c:95) -/
  | got (T : Nat)
  /-- owns task `T` and runs its function (workers.c:97-102) -/
  | run (T : Nat)
deriving DecidableEq

/-- Pool state.  `wid`, `wcnt` are the fields of `struct armas_ac_task` (scheduler.h:21-28);
`queue w` is the input queue of worker `w`; `pending` are the `taskq_write` calls that a
`sched_workers_schedule` call still has to make; `started`, `finished` count executions of the task
function; `submitted` is the history of scheduled tasks. -/
structure Pool where
  wid : Nat → Nat
  wcnt : Nat → Nat
  queue : Nat → List Nat
  pc : Nat → WPc
  pending : List (Nat × Nat)
  rrindex : Nat
  started : Nat → Nat
  finished : Nat → Nat
  submitted : List Nat

/-- Pool configuration: number of workers, queue capacity, options `ARMAS_OSCHED_TWO` and
`ARMAS_OSCHED_ROUNDROBIN`. -/
structure PoolCfg where
  nworker : Nat
  cap : Nat
  two : Bool
  rr : Bool

/-- `f` with the value at `k` replaced. -/
def upd {β : Type} (f : Nat → β) (k : Nat) (v : β) : Nat → β := fun j => if j = k then v else f j

/-- Worker queues chosen by `sched_workers_schedule` (workers.c:203-237) and the new `rrindex`.
`lrand48() % nworker` is an arbitrary number below `nworker`. -/
inductive Targets (c : PoolCfg) (r : Nat) : List Nat → Nat → Prop where
  /-- one worker (workers.c:203-207) -/
  | only (h : c.nworker = 1) : Targets c r [0] r
  /-- two workers, both get the task (workers.c:209-215) -/
  | both (h2 : c.two = true) (h : c.nworker = 2) : Targets c r [0, 1] r
  /-- two consecutive workers (workers.c:216-220) -/
  | twoRR (h2 : c.two = true) (h : 2 < c.nworker) (hr : c.rr = true) :
      Targets c r [r, (r + 1) % c.nworker] ((r + 1) % c.nworker + 1)
  /-- two different random workers (workers.c:221-224) -/
  | twoRand (h2 : c.two = true) (h : 2 < c.nworker) (hr : c.rr = false) (k j : Nat)
      (hk : k < c.nworker) (hj : j < c.nworker) (hkj : j ≠ k) : Targets c r [k, j] r
  /-- next worker (workers.c:231-233) -/
  | oneRR (h2 : c.two = false) (h : 1 < c.nworker) (hr : c.rr = true) :
      Targets c r [r] ((r + 1) % c.nworker)
  /-- random worker (workers.c:234-236) -/
  | oneRand (h2 : c.two = false) (h : 1 < c.nworker) (hr : c.rr = false) (k : Nat)
      (hk : k < c.nworker) : Targets c r [k] r

/-- `armas_task_init` (scheduler.h:30-39, `wid = 0`) and entry of `sched_workers_schedule`
(workers.c:190-238) for a new task: choose the target queues and set `wcnt`. -/
inductive PoolSubmit (c : PoolCfg) : Pool → Pool → Prop where
  | submit (s : Pool) (T : Nat) (hT : T ∉ s.submitted) (ks : List Nat) (r' : Nat)
      (h : Targets c s.rrindex ks r') :
      PoolSubmit c s { s with
        wid := upd s.wid T 0
        wcnt := upd s.wcnt T ks.length
        pending := s.pending ++ ks.map (fun k => (k, T))
        rrindex := r' % c.nworker
        submitted := T :: s.submitted }

/-- Steps of the pool that are not new submissions. -/
inductive PoolWork (c : PoolCfg) : Pool → Pool → Prop where
  /-- One `taskq_write(&workers[w].inqueue, T)` completes; it needs room in the queue.  Calls of
  several submitting threads may complete in any order. -/
  | write (s : Pool) (l1 l2 : List (Nat × Nat)) (w T : Nat)
      (h : s.pending = l1 ++ (w, T) :: l2) (hcap : (s.queue w).length < c.cap) :
      PoolWork c s { s with pending := l1 ++ l2, queue := upd s.queue w (s.queue w ++ [T]) }
  /-- `taskq_read` returns the oldest entry (workers.c:88). -/
  | read (s : Pool) (w T : Nat) (l : List Nat) (hw : w < c.nworker) (hpc : s.pc w = .idle)
      (h : s.queue w = T :: l) :
      PoolWork c s { s with queue := upd s.queue w l, pc := upd s.pc w (.got T) }
  /-- Compare-and-swap succeeds: claim the task, `atomic_dec(&T->wcnt)`, start the function
  (workers.c:95-99). -/
  | claim (s : Pool) (w T : Nat) (hw : w < c.nworker) (hpc : s.pc w = .got T)
      (h : s.wid T = 0) :
      PoolWork c s { s with
        wid := upd s.wid T (w + 1)
        wcnt := upd s.wcnt T (s.wcnt T - 1)
        pc := upd s.pc w (.run T)
        started := upd s.started T (s.started T + 1) }
  /-- Compare-and-swap fails: somebody else has the task (workers.c:103-106). -/
  | skip (s : Pool) (w T : Nat) (hw : w < c.nworker) (hpc : s.pc w = .got T)
      (h : s.wid T ≠ 0) :
      PoolWork c s { s with
        wcnt := upd s.wcnt T (s.wcnt T - 1)
        pc := upd s.pc w .idle }
  /-- The function returns and the task counter is decremented (workers.c:100-102). -/
  | finish (s : Pool) (w T : Nat) (hw : w < c.nworker) (hpc : s.pc w = .run T) :
      PoolWork c s { s with
        pc := upd s.pc w .idle
        finished := upd s.finished T (s.finished T + 1) }

/-- Any step of the pool. -/
def PoolStep (c : PoolCfg) (s s' : Pool) : Prop := PoolSubmit c s s' ∨ PoolWork c s s'

/-- Running workers, empty queues, nothing submitted (`worker_init`, workers.c:62-76). -/
def poolInit : Pool :=
  { wid := fun _ => 0, wcnt := fun _ => 0, queue := fun _ => [], pc := fun _ => .idle,
    pending := [], rrindex := 0, started := fun _ => 0, finished := fun _ => 0, submitted := [] }

/-- Executions of the pool. -/
abbrev PoolExec (c : PoolCfg) := Relation.ReflTransGen (PoolStep c)

/-! ## Starting and stopping one worker -/

/-- Position of the worker thread (workers.c:78-110); the claim and the run of a task are one
phase here. -/
inductive WkPc where
  /-- created, has not executed `W->running = 1` (workers.c:86) yet -/
  | notStarted
  /-- at the loop test `while (W->running)` (workers.c:87) -/
  | loopTest
  /-- in `taskq_read` (workers.c:88) -/
  | reading
  /-- processing task `T` (workers.c:92-106) -/
  | process (T : Nat)
  /-- thread function returned (workers.c:108-109) -/
  | exited
deriving DecidableEq

/-- Position of the controlling thread. -/
inductive MainPc where
  /-- scheduling tasks -/
  | sched
  /-- in `sched_workers_stop` after `running = 0`, in `taskq_write(…, NULL)` (workers.c:170-171) -/
  | writeNull
  /-- in `pthread_join` (workers.c:174) -/
  | joining
  /-- `sched_workers_stop` returned -/
  | joined
deriving DecidableEq

/-- One worker, its queue (`none` = the NULL entry), and the controlling thread. -/
structure Ctl where
  running : Bool
  queue : List (Option Nat)
  pc : WkPc
  main : MainPc
  executed : List Nat

/-- Steps of worker and controlling thread; `cap` is the queue capacity.  With several workers the
stop and join loops (workers.c:169-175) do this for each of them; a worker is not influenced by the
others. -/
inductive CtlStep (cap : Nat) : Ctl → Ctl → Prop where
  /-- `W->running = 1` (workers.c:86) -/
  | start (s : Ctl) (h : s.pc = .notStarted) :
      CtlStep cap s { s with running := true, pc := .loopTest }
  /-- `while (W->running)` continues (workers.c:87) -/
  | again (s : Ctl) (h : s.pc = .loopTest) (hr : s.running = true) :
      CtlStep cap s { s with pc := .reading }
  /-- `while (W->running)` ends -/
  | leave (s : Ctl) (h : s.pc = .loopTest) (hr : s.running = false) :
      CtlStep cap s { s with pc := .exited }
  /-- `taskq_read` returns NULL: `continue` (workers.c:89-91) -/
  | readNull (s : Ctl) (q : List (Option Nat)) (h : s.pc = .reading) (hq : s.queue = none :: q) :
      CtlStep cap s { s with queue := q, pc := .loopTest }
  /-- `taskq_read` returns a task (workers.c:92) -/
  | readTask (s : Ctl) (T : Nat) (q : List (Option Nat)) (h : s.pc = .reading)
      (hq : s.queue = some T :: q) : CtlStep cap s { s with queue := q, pc := .process T }
  /-- the task is done (workers.c:95-106) -/
  | done (s : Ctl) (T : Nat) (h : s.pc = .process T) :
      CtlStep cap s { s with pc := .loopTest, executed := s.executed ++ [T] }
  /-- a task is scheduled (workers.c:205) -/
  | submit (s : Ctl) (T : Nat) (h : s.main = .sched) (hc : s.queue.length < cap) :
      CtlStep cap s { s with queue := s.queue ++ [some T] }
  /-- `sched_workers_stop`: `running = 0` (workers.c:170) -/
  | stopFlag (s : Ctl) (h : s.main = .sched) :
      CtlStep cap s { s with running := false, main := .writeNull }
  /-- `taskq_write(&inqueue, NULL)` (workers.c:171); retries while the queue is full -/
  | stopNull (s : Ctl) (h : s.main = .writeNull) (hc : s.queue.length < cap) :
      CtlStep cap s { s with queue := s.queue ++ [none], main := .joining }
  /-- `pthread_join` returns when the thread has ended (workers.c:174) -/
  | join (s : Ctl) (h : s.main = .joining) (hx : s.pc = .exited) :
      CtlStep cap s { s with main := .joined }

/-- Just after `sched_workers_start` (workers.c:154-163): thread created, nothing run. -/
def ctlInit : Ctl :=
  { running := false, queue := [], pc := .notStarted, main := .sched, executed := [] }

/-- Executions. -/
abbrev CtlExec (cap : Nat) := Relation.ReflTransGen (CtlStep cap)

/-! ## Task counter (`counter.h`) -/

/-- Position of a thread with respect to `armas_counter_wait` (counter.h:35-43). -/
inductive CntPc where
  | idle
  /-- about to lock and test `c->count != 0` -/
  | calling
  /-- asleep in `pthread_cond_wait` -/
  | asleep
  /-- woken, about to re-acquire the lock and return (the test is an `if`, counter.h:39) -/
  | woken
  | returned
deriving DecidableEq

/-- Counter value, tasks that have not yet called `armas_counter_decrement`, waiting threads. -/
structure Cnt where
  count : Int
  left : Nat
  pc : Nat → CntPc

/-- Steps; `spur` allows spurious wake-ups. -/
inductive CntStep (spur : Bool) : Cnt → Cnt → Prop where
  /-- `armas_counter_decrement` (counter.h:24-33), result not zero -/
  | dec (s : Cnt) (h : 0 < s.left) (hc : s.count - 1 ≠ 0) :
      CntStep spur s { s with count := s.count - 1, left := s.left - 1 }
  /-- `armas_counter_decrement` to zero, `pthread_cond_signal` wakes sleeping thread `t` -/
  | decWake (s : Cnt) (h : 0 < s.left) (hc : s.count - 1 = 0) (t : Nat) (ht : s.pc t = .asleep) :
      CntStep spur s { count := s.count - 1, left := s.left - 1, pc := upd s.pc t .woken }
  /-- `armas_counter_decrement` to zero, nobody asleep -/
  | decNone (s : Cnt) (h : 0 < s.left) (hc : s.count - 1 = 0) (ht : ∀ t, s.pc t ≠ .asleep) :
      CntStep spur s { s with count := s.count - 1, left := s.left - 1 }
  /-- `armas_counter_wait` called -/
  | call (s : Cnt) (t : Nat) (h : s.pc t = .idle) : CntStep spur s { s with pc := upd s.pc t .calling }
  /-- count not zero: sleep (counter.h:39-41) -/
  | sleep (s : Cnt) (t : Nat) (h : s.pc t = .calling) (hc : s.count ≠ 0) :
      CntStep spur s { s with pc := upd s.pc t .asleep }
  /-- count zero: return -/
  | pass (s : Cnt) (t : Nat) (h : s.pc t = .calling) (hc : s.count = 0) :
      CntStep spur s { s with pc := upd s.pc t .returned }
  /-- return after the wait, no second test -/
  | ret (s : Cnt) (t : Nat) (h : s.pc t = .woken) :
      CntStep spur s { s with pc := upd s.pc t .returned }
  /-- spurious wake-up -/
  | spurious (s : Cnt) (t : Nat) (hs : spur = true) (h : s.pc t = .asleep) :
      CntStep spur s { s with pc := upd s.pc t .woken }

/-- `armas_counter_init(c, n)` (counter.h:16-22) for `n` tasks. -/
def cntInit (n : Nat) : Cnt := { count := n, left := n, pc := fun _ => .idle }

/-- Executions. -/
abbrev CntExec (spur : Bool) := Relation.ReflTransGen (CntStep spur)

/-! ## On-demand scheduler (`transient.c`) -/

/-- Position of an on-demand thread (transient.c:54-76). -/
inductive TrPc where
  /-- before `taskq_dequeue_nowait` (transient.c:64) -/
  | poll
  /-- runs task `T` (transient.c:67-68) -/
  | run (T : Nat)
  /-- left the loop, before `cmpxchg(&self->running, 1, 0)` (transient.c:73) -/
  | leaving
  /-- before `atomic_dec(&sc->nrunning)` (transient.c:74) -/
  | dropping
  /-- thread function returned -/
  | dead
deriving DecidableEq

/-- Position of the submitting thread in `sched_transient_schedule` (transient.c:105-121). -/
inductive TrMain where
  | idle
  /-- asleep in `taskq_enqueue` on a full queue; by `C29_never_released` it stays there -/
  | blocked
  /-- after `taskq_enqueue`, before the test `nrunning < nworker` (transient.c:112) -/
  | enqueued
  /-- thread created, before `atomic_inc(&nrunning)` (transient.c:118) -/
  | created
deriving DecidableEq

/-- State of the on-demand scheduler.  `nrunning` is an integer standing for the `size_t` value (it
can be one below zero for a moment, i.e. wrap).  `threads` are the threads created so far with
their slot; `slot k` is `threads[k].running`. -/
structure Tr where
  queue : List Nat
  nrunning : Int
  slot : Nat → Bool
  threads : List (Nat × TrPc)
  main : TrMain
  submitted : List Nat
  started : List Nat
  finished : List Nat
  /-- ghost: the last completed `sched_transient_schedule` call created a thread -/
  lastSpawned : Bool

/-- `for (k = 0; k < nworker && threads[k].running; k++)` (transient.c:113). -/
def freeSlot (nworker : Nat) (slot : Nat → Bool) (k : Nat) : Nat :=
  if k < nworker ∧ slot k = true then freeSlot nworker slot (k + 1) else k
termination_by nworker - k

/-- Outcome of a step: next state or undefined behaviour (write past `threads[]`). -/
inductive TrOut where
  | st (s : Tr)
  | oob

/-- Steps of the submitting thread and of the on-demand threads; `n` is `nworker`, `cap` the queue
capacity (`2*max_cores`, transient.c:141).  One submitting thread. -/
inductive TrStep (n cap : Nat) : Tr → TrOut → Prop where
  /-- `taskq_enqueue` with room (transient.c:111) -/
  | enqueue (s : Tr) (T : Nat) (h : s.main = .idle) (hT : T ∉ s.submitted)
      (hc : s.queue.length < cap) :
      TrStep n cap s (.st { s with
        queue := s.queue ++ [T], submitted := s.submitted ++ [T], main := .enqueued })
  /-- `taskq_enqueue` on a full queue -/
  | block (s : Tr) (h : s.main = .idle) (hc : s.queue.length = cap) :
      TrStep n cap s (.st { s with main := .blocked })
  /-- `nrunning < nworker` false (transient.c:112; `size_t` comparison: a wrapped value is large) -/
  | noSpawn (s : Tr) (h : s.main = .enqueued) (hn : s.nrunning < 0 ∨ (n : Int) ≤ s.nrunning) :
      TrStep n cap s (.st { s with main := .idle, lastSpawned := false })
  /-- find a slot, mark it, create the thread (transient.c:113-117) -/
  | spawn (s : Tr) (h : s.main = .enqueued) (h0 : 0 ≤ s.nrunning) (hn : s.nrunning < n)
      (hk : freeSlot n s.slot 0 < n) :
      TrStep n cap s (.st { s with
        slot := upd s.slot (freeSlot n s.slot 0) true
        threads := s.threads ++ [(freeSlot n s.slot 0, .poll)]
        main := .created })
  /-- no free slot: the writes to `threads[nworker]` are out of bounds -/
  | spawnOob (s : Tr) (h : s.main = .enqueued) (h0 : 0 ≤ s.nrunning) (hn : s.nrunning < n)
      (hk : ¬ freeSlot n s.slot 0 < n) : TrStep n cap s .oob
  /-- `atomic_inc(&nrunning)` (transient.c:118) -/
  | inc (s : Tr) (h : s.main = .created) :
      TrStep n cap s (.st { s with nrunning := s.nrunning + 1, main := .idle, lastSpawned := true })
  /-- a thread takes a task (transient.c:64-67) -/
  | take (s : Tr) (l1 l2 : List (Nat × TrPc)) (k T : Nat) (q : List Nat)
      (h : s.threads = l1 ++ (k, .poll) :: l2) (hq : s.queue = T :: q) :
      TrStep n cap s (.st { s with
        queue := q, threads := l1 ++ (k, .run T) :: l2, started := s.started ++ [T] })
  /-- a thread finds the queue empty and leaves the loop (transient.c:64-65) -/
  | empty (s : Tr) (l1 l2 : List (Nat × TrPc)) (k : Nat)
      (h : s.threads = l1 ++ (k, .poll) :: l2) (hq : s.queue = []) :
      TrStep n cap s (.st { s with threads := l1 ++ (k, .leaving) :: l2 })
  /-- a task ends (transient.c:67-68) -/
  | fin (s : Tr) (l1 l2 : List (Nat × TrPc)) (k T : Nat)
      (h : s.threads = l1 ++ (k, .run T) :: l2) :
      TrStep n cap s (.st { s with
        threads := l1 ++ (k, .poll) :: l2, finished := s.finished ++ [T] })
  /-- `cmpxchg(&self->running, 1, 0)` (transient.c:73) -/
  | unslot (s : Tr) (l1 l2 : List (Nat × TrPc)) (k : Nat)
      (h : s.threads = l1 ++ (k, .leaving) :: l2) :
      TrStep n cap s (.st { s with
        slot := upd s.slot k false, threads := l1 ++ (k, .dropping) :: l2 })
  /-- `atomic_dec(&nrunning)` (transient.c:74) -/
  | drop (s : Tr) (l1 l2 : List (Nat × TrPc)) (k : Nat)
      (h : s.threads = l1 ++ (k, .dropping) :: l2) :
      TrStep n cap s (.st { s with
        nrunning := s.nrunning - 1, threads := l1 ++ (k, .dead) :: l2 })

/-- Fresh scheduler (transient.c:130-157): `calloc`ed slots, empty queue. -/
def trInit : Tr :=
  { queue := [], nrunning := 0, slot := fun _ => false, threads := [], main := .idle,
    submitted := [], started := [], finished := [], lastSpawned := false }

/-- Executions that have not hit undefined behaviour. -/
abbrev TrExec (n cap : Nat) := Relation.ReflTransGen (fun s s' => TrStep n cap s (.st s'))

end Armas
