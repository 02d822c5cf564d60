import Verif.Mem
import Mathlib.Logic.Relation
import Mathlib.Tactic.IrreducibleDef

/-!
# The task queue (`src/workers/queue.h`)

A ring buffer of pointers protected by one mutex and two condition variables.  Values are of an
arbitrary type `β` with a distinguished `null` (`(void *)0`).  `uint32_t` arithmetic wraps at
`U32`.  Accesses outside the `items` buffer and `% 0` are undefined behaviour.
-/

namespace Armas

/-- Range of `uint32_t`. -/
irreducible_def U32 : Nat := 4294967296

/-- `struct armas_ac_queue` (queue.h:9-18) without the lock and the condition variables.
`items k` is the content of slot `k < size`. -/
structure Queue (β : Type) where
  items : Nat → β
  size : Nat
  count : Nat
  head : Nat
  tail : Nat

variable {β : Type}

/-- `taskq_init` (queue.h:21-35); `garbage` is the content of the fresh `malloc`ed buffer. -/
def taskqInit (qlen : Nat) (garbage : Nat → β) : Queue β :=
  { items := garbage, size := qlen, count := 0, head := 0, tail := 0 }

/-- `taskq_append` (queue.h:62-70): store at `tail`, returns the "signal" flag. -/
def taskqAppend (q : Queue β) (v : β) : Res (Bool × Queue β) :=
  if q.tail < q.size then
    .ok (q.count == 0,
      { q with
        items := fun k => if k = q.tail then v else q.items k
        count := (q.count + 1) % U32
        tail := ((q.tail + 1) % U32) % q.size })
  else .ub

/-- `taskq_remove` (queue.h:72-81): take from `head` and clear the slot, returns the value and
the "signal" flag. -/
def taskqRemove (null : β) (q : Queue β) : Res (β × Bool × Queue β) :=
  if q.head < q.size then
    .ok (q.items q.head, q.count == q.size,
      { q with
        items := fun k => if k = q.head then null else q.items k
        count := (q.count + (U32 - 1)) % U32
        head := ((q.head + 1) % U32) % q.size })
  else .ub

/-- `taskq_enqueue_nowait` (queue.h:83-100) as seen by the data: refused (`none`) when full.
The boolean tells whether the condition variable `empty` is signalled. -/
def taskqEnqueueNowait (q : Queue β) (v : β) : Res (Option (Bool × Queue β)) :=
  if q.count = q.size then .ok none
  else do
    let r ← taskqAppend q v
    .ok (some r)

/-- `taskq_dequeue_nowait` (queue.h:121-138) as seen by the data: refused (`none`) when empty.
The boolean tells whether the condition variable `empty` (not `full`) is signalled. -/
def taskqDequeueNowait (null : β) (q : Queue β) : Res (Option (β × Bool × Queue β)) :=
  if q.count = 0 then .ok none
  else do
    let r ← taskqRemove null q
    .ok (some r)

/-- One locked access to the queue by some thread. -/
inductive QOp (β : Type) where
  | write (v : β)
  | read

/-- Answer of an access: accepted write, refused write/read, value read. -/
inductive QOut (β : Type) where
  | wrote
  | got (v : β)
  | refused
deriving DecidableEq

/-- One access through the `_nowait` functions.  Any multi-threaded execution of
`taskq_enqueue/dequeue/read/write` is a sequence of these, since every access happens under
`mlock` (queue.h:86,105,124,143). -/
def qStep (null : β) (q : Queue β) : QOp β → Res (QOut β × Queue β)
  | .write v => do
    match ← taskqEnqueueNowait q v with
    | none => .ok (.refused, q)
    | some (_, q') => .ok (.wrote, q')
  | .read => do
    match ← taskqDequeueNowait null q with
    | none => .ok (.refused, q)
    | some (v, _, q') => .ok (.got v, q')

/-- A history of accesses. -/
def qRun (null : β) : Queue β → List (QOp β) → Res (List (QOut β) × Queue β)
  | q, [] => .ok ([], q)
  | q, op :: ops => do
    let (o, q') ← qStep null q op
    let (os, q'') ← qRun null q' ops
    .ok (o :: os, q'')

/-! ## Blocking operations: interleaving model

A thread's critical section between `pthread_mutex_lock` and `unlock`/`cond_wait` is one atomic
step.  `pthread_cond_wait` puts the thread to sleep on the condition variable; a signal moves it to
the "woken" state from which it re-acquires the lock and re-tests its `while` condition. -/

/-- Where a thread is. -/
inductive QPc (β : Type) where
  | idle
  /-- inside `taskq_enqueue`, asleep in `pthread_cond_wait(&ch->full, …)` (queue.h:107) -/
  | waitFull (v : β)
  /-- woken from `full`, about to re-acquire the lock and to re-test queue.h:106 -/
  | wokenFull (v : β)
  /-- inside `taskq_dequeue`, asleep in `pthread_cond_wait(&ch->empty, …)` (queue.h:145) -/
  | waitEmpty
  /-- woken from `empty`, about to re-test queue.h:144 -/
  | wokenEmpty
  /-- inside the `taskq_write` loop (queue.h:231-237) with value `v` -/
  | writing (v : β)
  /-- inside the `taskq_read` loop (queue.h:222-228) -/
  | reading

/-- Queue and threads. -/
structure QSys (β : Type) where
  q : Queue β
  pc : Nat → QPc β

/-- Thread `t` moves to `p`. -/
def QSys.go (s : QSys β) (t : Nat) (p : QPc β) : QSys β :=
  { s with pc := fun u => if u = t then p else s.pc u }

/-- Every thread asleep on `empty` is woken. -/
def wakeAll (pc : Nat → QPc β) : Nat → QPc β := fun u =>
  match pc u with
  | .waitEmpty => .wokenEmpty
  | p => p

/-- Effect of `pthread_cond_broadcast(&ch->empty)` / `pthread_cond_signal(&ch->empty)` on the
threads: broadcast wakes every thread asleep on `empty`, signal wakes one of them if there is one.
`empty` is the only condition variable that is ever signalled (queue.h:93-97, 111-114, 131-134,
149-152). -/
inductive WakeEmpty : Bool → (Nat → QPc β) → (Nat → QPc β) → Prop where
  | broadcast (pc : Nat → QPc β) :
      WakeEmpty true pc (wakeAll pc)
  | signalOne (pc : Nat → QPc β) (t : Nat) (h : pc t = .waitEmpty) :
      WakeEmpty false pc (fun u => if u = t then .wokenEmpty else pc u)
  | signalNone (pc : Nat → QPc β) (h : ∀ t, pc t ≠ .waitEmpty) : WakeEmpty false pc pc

/-- The signalling part at the end of the critical sections: nothing when `signal` is false. -/
def SignalIf (signal broadcast : Bool) (pc pc' : Nat → QPc β) : Prop :=
  if signal then WakeEmpty broadcast pc pc' else pc' = pc

/-- Steps of the threads.  `bc` is the `broadcast` argument of the calls (all call sites in the
library pass 1: queue.h:225,234, transient.c:64,111); `spur` allows spurious wake-ups. -/
inductive QTrans (null : β) (bc spur : Bool) : QSys β → QSys β → Prop where
  /-- `taskq_enqueue` finds the queue full and sleeps (queue.h:105-107); the thread has just
  called it, or was woken and re-tests. -/
  | enqSleep (s : QSys β) (t : Nat) (v : β) (hpc : s.pc t = .idle ∨ s.pc t = .wokenFull v)
      (hfull : s.q.count = s.q.size) : QTrans null bc spur s (s.go t (.waitFull v))
  /-- `taskq_enqueue` appends and returns (queue.h:109-117). -/
  | enqDone (s : QSys β) (t : Nat) (v : β) (hpc : s.pc t = .idle ∨ s.pc t = .wokenFull v)
      (sig : Bool) (q' : Queue β) (hq : taskqEnqueueNowait s.q v = .ok (some (sig, q')))
      (pc' : Nat → QPc β) (hs : SignalIf sig bc (s.go t .idle).pc pc') :
      QTrans null bc spur s ⟨q', pc'⟩
  /-- `taskq_dequeue` finds the queue empty and sleeps (queue.h:143-145). -/
  | deqSleep (s : QSys β) (t : Nat) (hpc : s.pc t = .idle ∨ s.pc t = .wokenEmpty)
      (hempty : s.q.count = 0) : QTrans null bc spur s (s.go t .waitEmpty)
  /-- `taskq_dequeue` removes and returns (queue.h:147-155); `taskq_dequeue_nowait` when the queue
  is not empty (queue.h:129-137) does the same. -/
  | deqDone (s : QSys β) (t : Nat) (hpc : s.pc t = .idle ∨ s.pc t = .wokenEmpty)
      (v : β) (sig : Bool) (q' : Queue β)
      (hq : taskqDequeueNowait null s.q = .ok (some (v, sig, q')))
      (pc' : Nat → QPc β) (hs : SignalIf sig bc (s.go t .idle).pc pc') :
      QTrans null bc spur s ⟨q', pc'⟩
  /-- A thread enters `taskq_write(ch, v)` (queue.h:231-234). -/
  | writeEnter (s : QSys β) (t : Nat) (v : β) (hpc : s.pc t = .idle) :
      QTrans null bc spur s (s.go t (.writing v))
  /-- The `taskq_write` loop: `taskq_enqueue_nowait` succeeds and the loop ends. -/
  | writeDone (s : QSys β) (t : Nat) (v : β) (hpc : s.pc t = .writing v)
      (sig : Bool) (q' : Queue β) (hq : taskqEnqueueNowait s.q v = .ok (some (sig, q')))
      (pc' : Nat → QPc β) (hs : SignalIf sig bc (s.go t .idle).pc pc') :
      QTrans null bc spur s ⟨q', pc'⟩
  /-- The `taskq_write` loop: refused, one `taskq_wait_onfull` (queue.h:199-210), try again.  The
  timed wait ends by itself, its time-out is an absolute time in 1970. -/
  | writeRetry (s : QSys β) (t : Nat) (v : β) (hpc : s.pc t = .writing v)
      (hq : taskqEnqueueNowait s.q v = .ok none) : QTrans null bc spur s s
  /-- A thread enters `taskq_read` (queue.h:222-225). -/
  | readEnter (s : QSys β) (t : Nat) (hpc : s.pc t = .idle) :
      QTrans null bc spur s (s.go t .reading)
  /-- The `taskq_read` loop: `taskq_dequeue_nowait` succeeds. -/
  | readDone (s : QSys β) (t : Nat) (hpc : s.pc t = .reading)
      (v : β) (sig : Bool) (q' : Queue β)
      (hq : taskqDequeueNowait null s.q = .ok (some (v, sig, q')))
      (pc' : Nat → QPc β) (hs : SignalIf sig bc (s.go t .idle).pc pc') :
      QTrans null bc spur s ⟨q', pc'⟩
  /-- The `taskq_read` loop: refused, one `taskq_wait_onempty`, try again. -/
  | readRetry (s : QSys β) (t : Nat) (hpc : s.pc t = .reading)
      (hq : taskqDequeueNowait null s.q = .ok none) : QTrans null bc spur s s
  /-- Spurious wake-up from `pthread_cond_wait(&ch->full, …)`. -/
  | spurFull (s : QSys β) (t : Nat) (v : β) (hsp : spur = true) (hpc : s.pc t = .waitFull v) :
      QTrans null bc spur s (s.go t (.wokenFull v))
  /-- Spurious wake-up from `pthread_cond_wait(&ch->empty, …)`. -/
  | spurEmpty (s : QSys β) (t : Nat) (hsp : spur = true) (hpc : s.pc t = .waitEmpty) :
      QTrans null bc spur s (s.go t .wokenEmpty)

/-- Fresh queue of capacity `n`, no thread inside a queue function. -/
def qSysInit (n : Nat) (garbage : Nat → β) : QSys β := ⟨taskqInit n garbage, fun _ => .idle⟩

/-- Executions. -/
abbrev QExec (null : β) (bc spur : Bool) := Relation.ReflTransGen (QTrans null bc spur)

end Armas
