import Verif.Queue
import Verif.Logic

/-! # C28, C29: the task queue -/

namespace Armas.Props

open Armas

variable {β : Type}

/-! ## Independent specification: a bounded first-in first-out list -/

/-- One access to a bounded list: writes append at the end unless `n` items are stored, reads take
the first item. -/
def fifoStep (n : Nat) (l : List β) : QOp β → QOut β × List β
  | .write v => if l.length = n then (.refused, l) else (.wrote, l ++ [v])
  | .read => match l with
    | [] => (.refused, [])
    | v :: l' => (.got v, l')

/-- A history of accesses to the bounded list. -/
def fifoRun (n : Nat) : List β → List (QOp β) → List (QOut β) × List β
  | l, [] => ([], l)
  | l, op :: ops =>
    ((fifoStep n l op).1 :: (fifoRun n (fifoStep n l op).2 ops).1,
      (fifoRun n (fifoStep n l op).2 ops).2)

/-- Values of the accepted writes of a history, oldest first. -/
def accepted : List (QOp β) → List (QOut β) → List β
  | .write v :: ops, .wrote :: os => v :: accepted ops os
  | _ :: ops, _ :: os => accepted ops os
  | _, _ => []

/-- Values returned by the reads of a history, oldest first. -/
def readOut : List (QOut β) → List β
  | .got v :: os => v :: readOut os
  | _ :: os => readOut os
  | [] => []

/-- The stored items, oldest first. -/
def stored (q : Queue β) : List β :=
  (List.range q.count).map fun k => q.items ((q.head + k) % q.size)

/-- Consistency of the ring buffer. -/
structure QInv (q : Queue β) : Prop where
  size : q.size < U32
  count : q.count ≤ q.size
  head : q.size = 0 ∨ q.head < q.size
  tail : q.size = 0 ∨ q.tail = (q.head + q.count) % q.size

theorem qInv_init (n : Nat) (hn : n < U32) (g : Nat → β) : QInv (taskqInit n g) := by
  refine ⟨hn, Nat.zero_le _, ?_, ?_⟩
  · rcases Nat.eq_zero_or_pos n with h | h
    · left; exact h
    · right; exact h
  · right; simp [taskqInit]

theorem enqueue_spec (q : Queue β) (h : QInv q) (v : β) (hc : q.count < q.size) :
    ∃ q', taskqEnqueueNowait q v = .ok (some (q.count == 0, q')) ∧ QInv q' ∧ q'.size = q.size ∧
      q'.count = q.count + 1 ∧ stored q' = stored q ++ [v] := by
  obtain ⟨h1, h2, h3, h4⟩ := h
  have hs : 0 < q.size := by omega
  have hh : q.head < q.size := by omega
  have ht : q.tail = (q.head + q.count) % q.size := by omega
  have htl : q.tail < q.size := ht ▸ Nat.mod_lt _ hs
  have hUU := U32_def
  refine ⟨{ q with
    items := fun k => if k = q.tail then v else q.items k
    count := (q.count + 1) % U32
    tail := ((q.tail + 1) % U32) % q.size }, by
      rw [taskqEnqueueNowait, if_neg (Nat.ne_of_lt hc), taskqAppend, if_pos htl]; rfl,
    ?_, rfl, ?_, ?_⟩
  · refine ⟨h1, ?_, Or.inr hh, Or.inr ?_⟩
    · show (q.count + 1) % U32 ≤ q.size
      rw [hUU]; omega
    · show (q.tail + 1) % U32 % q.size = (q.head + (q.count + 1) % U32) % q.size
      rw [Nat.mod_eq_of_lt (a := q.tail + 1) (by omega),
        Nat.mod_eq_of_lt (a := q.count + 1) (by omega), ht, Nat.mod_add_mod]
      rfl
  · show (q.count + 1) % U32 = _
    rw [hUU]; omega
  · have e : (q.count + 1) % U32 = q.count + 1 := by rw [hUU]; omega
    simp only [stored, e, List.range_succ, List.map_append, List.map_cons, List.map_nil]
    congr 1
    · apply List.map_congr_left
      intro k hk
      have hk' : k < q.count := List.mem_range.mp hk
      rw [if_neg]
      rw [ht]
      intro hbad
      have a1 : (q.head + k) % q.size = if q.head + k < q.size then q.head + k
          else q.head + k - q.size := by
        split
        · exact Nat.mod_eq_of_lt (by assumption)
        · rw [Nat.mod_eq_sub_mod (by omega), Nat.mod_eq_of_lt (by omega)]
      have a2 : (q.head + q.count) % q.size = if q.head + q.count < q.size then q.head + q.count
          else q.head + q.count - q.size := by
        split
        · exact Nat.mod_eq_of_lt (by assumption)
        · rw [Nat.mod_eq_sub_mod (by omega), Nat.mod_eq_of_lt (by omega)]
      rw [a1, a2] at hbad
      split at hbad <;> split at hbad <;> omega
    · rw [if_pos ht.symm]

theorem dequeue_spec (null : β) (q : Queue β) (h : QInv q) (hc : 0 < q.count) :
    ∃ v q', taskqDequeueNowait null q = .ok (some (v, q.count == q.size, q')) ∧ QInv q' ∧
      q'.size = q.size ∧ q'.count + 1 = q.count ∧ stored q = v :: stored q' := by
  obtain ⟨h1, h2, h3, h4⟩ := h
  have hs : 0 < q.size := by omega
  have hh : q.head < q.size := by omega
  have ht : q.tail = (q.head + q.count) % q.size := by omega
  have hUU := U32_def
  have e : (q.count + (U32 - 1)) % U32 = q.count - 1 := by rw [hUU]; omega
  have e2 : (q.head + 1) % U32 = q.head + 1 := by rw [hUU]; omega
  refine ⟨q.items q.head, { q with
    items := fun k => if k = q.head then null else q.items k
    count := (q.count + (U32 - 1)) % U32
    head := ((q.head + 1) % U32) % q.size }, by
      rw [taskqDequeueNowait, if_neg (Nat.ne_of_gt hc), taskqRemove, if_pos hh]; rfl,
    ?_, rfl, ?_, ?_⟩
  · refine ⟨h1, ?_, Or.inr (Nat.mod_lt _ hs), Or.inr ?_⟩
    · exact (Nat.le_of_eq e).trans (by bomega)
    · show q.tail = (((q.head + 1) % U32) % q.size + (q.count + (U32 - 1)) % U32) % q.size
      rw [e, e2, Nat.mod_add_mod, ht]
      congr 1; omega
  · exact (congrArg (· + 1) e).trans (by bomega)
  · simp only [stored, e, e2]
    obtain ⟨c, hcc⟩ : ∃ c, q.count = c + 1 := ⟨q.count - 1, by omega⟩
    rw [hcc, List.range_succ_eq_map]
    simp only [List.map_cons, Nat.add_zero, Nat.mod_eq_of_lt hh, List.map_map,
      Nat.add_sub_cancel]
    congr 1
    apply List.map_congr_left
    intro k hk
    have hk' : k < c := List.mem_range.mp hk
    simp only [Function.comp]
    have e3 : ((q.head + 1) % q.size + k) % q.size = (q.head + k.succ) % q.size := by
      rw [Nat.mod_add_mod]; congr 1; omega
    rw [e3, if_neg]
    have a1 : (q.head + k.succ) % q.size = if q.head + k.succ < q.size then q.head + k.succ
        else q.head + k.succ - q.size := by
      split
      · exact Nat.mod_eq_of_lt (by assumption)
      · rw [Nat.mod_eq_sub_mod (by omega), Nat.mod_eq_of_lt (by omega)]
    rw [a1]
    split <;> omega

theorem qStep_spec (null : β) (q : Queue β) (h : QInv q) (op : QOp β) :
    ∃ o q', qStep null q op = .ok (o, q') ∧ QInv q' ∧ q'.size = q.size ∧
      (o, stored q') = fifoStep q.size (stored q) op := by
  have hl : (stored q).length = q.count := by simp [stored]
  cases op with
  | write v =>
    by_cases hc : q.count = q.size
    · refine ⟨.refused, q, by simp [qStep, taskqEnqueueNowait, hc], h, rfl, ?_⟩
      simp [fifoStep, hl, hc]
    · obtain ⟨q', e, hi, hsz, hcn, hst⟩ := enqueue_spec q h v (Nat.lt_of_le_of_ne h.count hc)
      refine ⟨.wrote, q', by simp [qStep, e], hi, hsz, ?_⟩
      simp [fifoStep, hl, hc, hst]
  | read =>
    by_cases hc : q.count = 0
    · refine ⟨.refused, q, by simp [qStep, taskqDequeueNowait, hc], h, rfl, ?_⟩
      have : stored q = [] := by simp [stored, hc]
      simp [fifoStep, this]
    · obtain ⟨v, q', e, hi, hsz, hcn, hst⟩ := dequeue_spec null q h (Nat.pos_of_ne_zero hc)
      refine ⟨.got v, q', by simp [qStep, e], hi, hsz, ?_⟩
      simp [fifoStep, hst]

/-- **C28 (refinement).** For every capacity (a `uint32_t`), every history of accesses by any
threads runs without undefined behaviour and answers exactly like a bounded first-in first-out
list; the stored items are those of the list. -/
theorem C28_fifo (null : β) (n : Nat) (hn : n < U32) (g : Nat → β) (ops : List (QOp β)) :
    ∃ os q', qRun null (taskqInit n g) ops = .ok (os, q') ∧
      (os, stored q') = fifoRun n [] ops ∧ q'.count ≤ n ∧ q'.size = n := by
  have gen : ∀ (ops : List (QOp β)) (q : Queue β), QInv q → q.size = n →
      ∃ os q', qRun null q ops = .ok (os, q') ∧ (os, stored q') = fifoRun n (stored q) ops ∧
        q'.count ≤ n ∧ q'.size = n := by
    intro ops
    induction ops with
    | nil =>
      intro q hi hs
      exact ⟨[], q, rfl, rfl, hs ▸ hi.count, hs⟩
    | cons op ops ih =>
      intro q hi hs
      obtain ⟨o, q', e, hi', hs', ho⟩ := qStep_spec null q hi op
      obtain ⟨os, q'', e2, ho2, hc2, hs2⟩ := ih q' hi' (hs'.trans hs)
      refine ⟨o :: os, q'', by simp [qRun, e, e2], ?_, hc2, hs2⟩
      rw [hs] at ho
      have h1 : o = (fifoStep n (stored q) op).1 := congrArg Prod.fst ho
      have h2 : stored q' = (fifoStep n (stored q) op).2 := congrArg Prod.snd ho
      have h3 : os = (fifoRun n (stored q') ops).1 := congrArg Prod.fst ho2
      have h4 : stored q'' = (fifoRun n (stored q') ops).2 := congrArg Prod.snd ho2
      simp only [fifoRun, ← h2, ← h3, ← h4, ← h1]
  have := gen ops (taskqInit n g) (qInv_init n hn g) rfl
  simpa [stored, taskqInit] using this

theorem fifo_history (n : Nat) (ops : List (QOp β)) (l : List β) :
    l ++ accepted ops (fifoRun n l ops).1 =
      readOut (fifoRun n l ops).1 ++ (fifoRun n l ops).2 := by
  induction ops generalizing l with
  | nil => simp [fifoRun, accepted, readOut]
  | cons op ops ih =>
    cases op with
    | write v =>
      by_cases h : l.length = n
      · simp only [fifoRun, fifoStep, h, if_true, accepted, readOut]
        exact ih l
      · simp only [fifoRun, fifoStep, h, if_false, accepted, readOut]
        rw [← ih (l ++ [v])]; simp
    | read =>
      cases l with
      | nil =>
        simp only [fifoRun, fifoStep, accepted, readOut]
        exact ih []
      | cons v l' =>
        simp only [fifoRun, fifoStep, accepted, readOut, List.cons_append]
        rw [ih l']

/-- **C28 (no loss, no duplication, order).** In every history the accepted values are, in order,
the values read followed by the values still stored. -/
theorem C28_history (null : β) (n : Nat) (hn : n < U32) (g : Nat → β) (ops : List (QOp β)) :
    ∃ os q', qRun null (taskqInit n g) ops = .ok (os, q') ∧
      accepted ops os = readOut os ++ stored q' ∧ (stored q').length ≤ n := by
  obtain ⟨os, q', e, h, hc, _⟩ := C28_fifo null n hn g ops
  refine ⟨os, q', e, ?_, by simpa [stored] using hc⟩
  have h1 : os = (fifoRun n [] ops).1 := congrArg Prod.fst h
  have h2 : stored q' = (fifoRun n [] ops).2 := congrArg Prod.snd h
  have := fifo_history n ops ([] : List β)
  rw [← h1, ← h2] at this
  simpa using this

/-- **C28 (refusals).** A write is refused exactly when `n` items are stored, a read exactly when
none is, and a refused access leaves the queue unchanged. -/
theorem C28_refused (null : β) (q : Queue β) (h : QInv q) (v : β) :
    (∀ q', qStep null q (.write v) = .ok (.refused, q') ↔
      (stored q).length = q.size ∧ q' = q) ∧
    (∀ q', qStep null q .read = .ok (.refused, q') ↔ stored q = [] ∧ q' = q) := by
  have hl : (stored q).length = q.count := by simp [stored]
  constructor
  · intro q'
    by_cases hc : q.count = q.size
    · simp [qStep, taskqEnqueueNowait, hc, hl, eq_comm]
    · obtain ⟨q2, e, _⟩ := enqueue_spec q h v (Nat.lt_of_le_of_ne h.count hc)
      simp [qStep, e, hl, hc]
  · intro q'
    by_cases hc : q.count = 0
    · have : stored q = [] := by simp [stored, hc]
      simp [qStep, taskqDequeueNowait, hc, this, eq_comm]
    · obtain ⟨w, q2, e, _, _, _, hst⟩ := dequeue_spec null q h (Nat.pos_of_ne_zero hc)
      simp [qStep, e, hst]

/-- Non-trivial history: capacity 2, wrap-around, one refused write and one refused read. -/
example : fifoRun 2 ([] : List Nat)
      [.write 1, .write 2, .write 3, .read, .write 4, .read, .read, .read] =
    ([.wrote, .wrote, .refused, .got 1, .wrote, .got 2, .got 4, .refused], []) := by decide

example : ∃ os q', qRun 0 (taskqInit 2 (fun _ => 9))
      [.write 1, .write 2, .write 3, .read, .write 4, .read] = .ok (os, q') ∧
      readOut os = [1, 2] ∧ stored q' = [4] := by
  obtain ⟨os, q', e, h, _, _⟩ := C28_fifo (0 : Nat) 2 (by rw [U32_def]; decide) (fun _ => 9)
    [.write 1, .write 2, .write 3, .read, .write 4, .read]
  have h' : (os, stored q') = ([.wrote, .wrote, .refused, .got 1, .wrote, .got 2], [4]) := h
  refine ⟨os, q', e, ?_, congrArg Prod.snd h'⟩
  rw [show os = _ from congrArg Prod.fst h']
  decide

example : QInv (β := Nat) { items := fun k => k, size := 3, count := 2, head := 2, tail := 1 } :=
  ⟨by rw [U32_def]; decide, by decide, by decide, by decide⟩

/-! ## C29: blocked producers -/

theorem signalIf_waitFull {sig bc : Bool} {pc pc' : Nat → QPc β} (h : SignalIf sig bc pc pc')
    (t : Nat) (v : β) : pc t = .waitFull v → pc' t = .waitFull v := by
  intro ht
  unfold SignalIf at h
  split at h
  · cases h with
    | broadcast => simp [wakeAll, ht]
    | signalOne _ u hu =>
      by_cases e : t = u
      · subst e; rw [ht] at hu; cases hu
      · simp [e, ht]
    | signalNone => exact ht
  · rw [h]; exact ht

/-- **C29 (lost wake-up).** A producer asleep on a full queue stays asleep in every execution, for
every capacity and whatever the other threads do (no spurious wake-ups): no operation ever signals
the condition variable `full`. -/
theorem C29_never_released (null : β) (bc : Bool) (s s' : QSys β) (t : Nat) (v : β)
    (hex : QExec null bc false s s') (ht : s.pc t = .waitFull v) : s'.pc t = .waitFull v := by
  induction hex with
  | refl => exact ht
  | tail _ hstep ih =>
    have go_ne : ∀ (s : QSys β) (u : Nat) (p : QPc β), s.pc t = .waitFull v →
        s.pc u ≠ .waitFull v → (s.go u p).pc t = .waitFull v := by
      intro s u p h1 h2
      have : t ≠ u := by intro e; exact h2 (e ▸ h1)
      simp [QSys.go, this, h1]
    cases hstep with
    | enqSleep u w hpc hfull => exact go_ne _ _ _ ih (by rcases hpc with h | h <;> simp [h])
    | enqDone u w hpc sig q' hq pc' hs =>
      exact signalIf_waitFull hs t v (go_ne _ _ _ ih (by rcases hpc with h | h <;> simp [h]))
    | deqSleep u hpc hempty => exact go_ne _ _ _ ih (by rcases hpc with h | h <;> simp [h])
    | deqDone u hpc w sig q' hq pc' hs =>
      exact signalIf_waitFull hs t v (go_ne _ _ _ ih (by rcases hpc with h | h <;> simp [h]))
    | writeEnter u w hpc => exact go_ne _ _ _ ih (by simp [hpc])
    | writeDone u w hpc sig q' hq pc' hs =>
      exact signalIf_waitFull hs t v (go_ne _ _ _ ih (by simp [hpc]))
    | writeRetry => exact ih
    | readEnter u hpc => exact go_ne _ _ _ ih (by simp [hpc])
    | readDone u hpc w sig q' hq pc' hs =>
      exact signalIf_waitFull hs t v (go_ne _ _ _ ih (by simp [hpc]))
    | readRetry => exact ih
    | spurFull _ _ hsp => cases hsp
    | spurEmpty _ hsp => cases hsp

/-- **C29 is false of the code.** With a queue of any capacity `n > 0` there is an execution in
which thread 1 blocks in `taskq_enqueue` on the full queue, thread 0 then removes an item, so that
there is room again, and from there thread 1 stays blocked in every continuation. -/
theorem C29_released_false (null v : β) (n : Nat) (h0 : 0 < n) (hn : n < U32) (g : Nat → β)
    (bc : Bool) :
    ∃ s s' : QSys β, QExec null bc false (qSysInit n g) s ∧ s.pc 1 = .waitFull v ∧
      s.q.count = n ∧ QTrans null bc false s s' ∧ s'.q.count + 1 = n ∧
      ∀ s'', QExec null bc false s' s'' → s''.pc 1 = .waitFull v := by
  -- thread 0 fills the queue
  have fill : ∀ k, k ≤ n → ∃ q : Queue β, QInv q ∧ q.size = n ∧ q.count = k ∧
      QExec null bc false (qSysInit n g) ⟨q, fun _ => .idle⟩ := by
    intro k
    induction k with
    | zero =>
      intro _
      exact ⟨taskqInit n g, qInv_init n hn g, rfl, rfl, .refl⟩
    | succ k ih =>
      intro hk
      obtain ⟨q, hi, hs, hc, hx⟩ := ih (by omega)
      obtain ⟨q', e, hi', hs', hc', _⟩ := enqueue_spec q hi v (by omega)
      refine ⟨q', hi', hs'.trans hs, by omega, hx.tail ?_⟩
      refine QTrans.enqDone _ 0 v (Or.inl rfl) _ q' e _ ?_
      have hgo : ((⟨q, fun _ => .idle⟩ : QSys β).go 0 .idle).pc = fun _ => .idle := by
        funext u; simp [QSys.go]
      rw [hgo]
      unfold SignalIf
      split
      · cases bc with
        | true => exact WakeEmpty.broadcast (fun _ => QPc.idle)
        | false => exact WakeEmpty.signalNone _ (by intro t h; cases h)
      · rfl
  obtain ⟨q, hi, hs, hc, hx⟩ := fill n (Nat.le_refl n)
  -- thread 1 blocks
  let s : QSys β := (⟨q, fun _ => .idle⟩ : QSys β).go 1 (.waitFull v)
  have hx1 : QExec null bc false (qSysInit n g) s :=
    hx.tail (QTrans.enqSleep _ 1 v (Or.inl rfl) (by rw [hc, hs]))
  -- thread 0 removes one item
  obtain ⟨w, q', e, hi', hs', hc', _⟩ := dequeue_spec null q hi (by omega)
  have hgo : (s.go 0 .idle).pc = s.pc := by
    funext u
    by_cases h : u = 0
    · subst h; simp [s, QSys.go]
    · simp [QSys.go, h]
  have hnw : ∀ u, s.pc u ≠ .waitEmpty := by
    intro u
    by_cases h : u = 1
    · subst h; simp [s, QSys.go]
    · simp [s, QSys.go, h]
  have hsig : SignalIf (q.count == q.size) bc (s.go 0 .idle).pc s.pc := by
    rw [hgo]
    unfold SignalIf
    split
    · cases bc with
      | true =>
        have : wakeAll s.pc = s.pc := by
          funext u
          have := hnw u
          unfold wakeAll
          split
          · contradiction
          · rfl
        have hw := WakeEmpty.broadcast s.pc
        rwa [this] at hw
      | false => exact WakeEmpty.signalNone _ hnw
    · rfl
  have hstep : QTrans null bc false s ⟨q', s.pc⟩ :=
    QTrans.deqDone s 0 (Or.inl (by simp [s, QSys.go])) w _ q' e _ hsig
  refine ⟨s, ⟨q', s.pc⟩, hx1, by simp [s, QSys.go], hc, hstep, by simpa using hc'.trans hc, ?_⟩
  intro s'' hex
  exact C29_never_released null bc _ s'' 1 v hex (by simp [s, QSys.go])

example : (0 : Nat) < 16 ∧ 16 < U32 := by rw [U32_def]; decide

/-- Reachable states keep the ring buffer consistent. -/
theorem qExec_inv (null : β) (bc spur : Bool) (n : Nat) (hn : n < U32) (g : Nat → β) (s : QSys β)
    (hex : QExec null bc spur (qSysInit n g) s) : QInv s.q ∧ s.q.size = n := by
  have enq : ∀ (q q' : Queue β) (v : β) (sig : Bool), QInv q ∧ q.size = n →
      taskqEnqueueNowait q v = .ok (some (sig, q')) → QInv q' ∧ q'.size = n := by
    intro q q' v sig ⟨hi, hs⟩ e
    by_cases hc : q.count = q.size
    · simp [taskqEnqueueNowait, hc] at e
    · obtain ⟨q2, e2, hi2, hs2, _⟩ := enqueue_spec q hi v (Nat.lt_of_le_of_ne hi.count hc)
      rw [e2] at e; cases e; exact ⟨hi2, hs2.trans hs⟩
  have deq : ∀ (q q' : Queue β) (v : β) (sig : Bool), QInv q ∧ q.size = n →
      taskqDequeueNowait null q = .ok (some (v, sig, q')) → QInv q' ∧ q'.size = n := by
    intro q q' v sig ⟨hi, hs⟩ e
    by_cases hc : q.count = 0
    · simp [taskqDequeueNowait, hc] at e
    · obtain ⟨w, q2, e2, hi2, hs2, _⟩ := dequeue_spec null q hi (Nat.pos_of_ne_zero hc)
      rw [e2] at e; cases e; exact ⟨hi2, hs2.trans hs⟩
  induction hex with
  | refl => exact ⟨qInv_init n hn g, rfl⟩
  | tail _ hstep ih =>
    cases hstep with
    | enqSleep => exact ih
    | enqDone u w hpc sig q' hq pc' hs => exact enq _ _ _ _ ih hq
    | deqSleep => exact ih
    | deqDone u hpc w sig q' hq pc' hs => exact deq _ _ _ _ ih hq
    | writeEnter => exact ih
    | writeDone u w hpc sig q' hq pc' hs => exact enq _ _ _ _ ih hq
    | writeRetry => exact ih
    | readEnter => exact ih
    | readDone u hpc w sig q' hq pc' hs => exact deq _ _ _ _ ih hq
    | readRetry => exact ih
    | spurFull => exact ih
    | spurEmpty => exact ih

/-- **C29, polling producers (partial).** What does hold: a producer inside `taskq_write` (the
call used by the worker scheduler) is never asleep.  In every reachable state its next attempt
completes if there is room, and otherwise it stays in the loop, ready to try again.  (Missing for
the full property: `taskq_enqueue`, see `C29_released_false`.) -/
theorem C29_write_progress_partial (null : β) (bc spur : Bool) (n : Nat) (hn : n < U32)
    (g : Nat → β) (s : QSys β) (hex : QExec null bc spur (qSysInit n g) s) (t : Nat) (v : β)
    (ht : s.pc t = .writing v) :
    (s.q.count < n → ∃ s', QTrans null bc spur s s' ∧ s'.pc t = .idle ∧
        stored s'.q = stored s.q ++ [v]) ∧
    (s.q.count = n → QTrans null bc spur s s ∧
        ∀ q', taskqEnqueueNowait s.q v ≠ .ok (some q')) := by
  obtain ⟨hi, hs⟩ := qExec_inv null bc spur n hn g s hex
  constructor
  · intro hc
    obtain ⟨q', e, hi', hs', hc', hst⟩ := enqueue_spec s.q hi v (by omega)
    have hw : ∃ pc', SignalIf (s.q.count == 0) bc (s.go t .idle).pc pc' ∧ pc' t = .idle := by
      unfold SignalIf
      split
      · cases bc with
        | true => exact ⟨_, WakeEmpty.broadcast _, by simp [QSys.go, wakeAll]⟩
        | false =>
          by_cases hex : ∃ u, (s.go t .idle).pc u = .waitEmpty
          · obtain ⟨u, hu⟩ := hex
            have : t ≠ u := by
              intro e; subst e; simp [QSys.go] at hu
            exact ⟨_, WakeEmpty.signalOne _ u hu, by simp [this, QSys.go]⟩
          · exact ⟨_, WakeEmpty.signalNone _ (fun u h => hex ⟨u, h⟩), by simp [QSys.go]⟩
      · exact ⟨_, rfl, by simp [QSys.go]⟩
    obtain ⟨pc', hpc', hid⟩ := hw
    exact ⟨⟨q', pc'⟩, QTrans.writeDone s t v ht _ q' e pc' hpc', hid, hst⟩
  · intro hc
    have e : taskqEnqueueNowait s.q v = .ok none := by simp [taskqEnqueueNowait, hc, hs]
    refine ⟨QTrans.writeRetry s t v ht e, ?_⟩
    intro q' h
    rw [e] at h; cases h

example : ∃ s : QSys Nat, QExec 0 true false (qSysInit 1 (fun _ => 7)) s ∧ s.pc 3 = .writing 5 ∧
    s.q.count < 1 :=
  ⟨_, .single (QTrans.writeEnter _ 3 5 rfl), by simp [QSys.go], by decide⟩

/-- **C29, sleeping consumers.** With `broadcast` set (as in every call of the library), a consumer
asleep in `taskq_dequeue` implies that the queue is empty: consumers, unlike producers, are never
left asleep while there is something to take. -/
theorem C29_consumers_released (null : β) (spur : Bool) (n : Nat) (hn : n < U32) (g : Nat → β)
    (s : QSys β) (hex : QExec null true spur (qSysInit n g) s) (t : Nat)
    (ht : s.pc t = .waitEmpty) : stored s.q = [] := by
  have key : ∀ s, QExec null true spur (qSysInit n g) s → ∀ t, s.pc t = .waitEmpty →
      s.q.count = 0 := by
    intro s hex
    induction hex with
    | refl => intro t ht; cases ht
    | @tail s1 s2 hx hstep ih =>
      have hinv := qExec_inv null true spur n hn g _ hx
      have go_back : ∀ (s : QSys β) (u : Nat) (p : QPc β), p ≠ .waitEmpty →
          ∀ t, (s.go u p).pc t = .waitEmpty → s.pc t = .waitEmpty := by
        intro s u p hp t h
        by_cases e : t = u
        · subst e; simp [QSys.go] at h; exact absurd h hp
        · simpa [QSys.go, e] using h
      have sigT : ∀ (pc pc' : Nat → QPc β), SignalIf true true pc pc' →
          ∀ t, pc' t ≠ .waitEmpty := by
        intro pc pc' h t
        simp only [SignalIf, if_true] at h
        cases h
        unfold wakeAll
        split <;> simp_all
      have enq : ∀ (q' : Queue β) (v : β) (sig : Bool) (pc0 pc' : Nat → QPc β),
          (∀ t, pc0 t = .waitEmpty → s1.pc t = .waitEmpty) →
          taskqEnqueueNowait s1.q v = .ok (some (sig, q')) → SignalIf sig true pc0 pc' →
          ∀ t, pc' t = .waitEmpty → q'.count = 0 := by
        intro q' v sig pc0 pc' hb e hs t ht
        by_cases hc : s1.q.count = s1.q.size
        · simp [taskqEnqueueNowait, hc] at e
        · obtain ⟨q2, e2, _⟩ := enqueue_spec s1.q hinv.1 v
            (Nat.lt_of_le_of_ne hinv.1.count hc)
          rw [e2] at e
          have hsg : sig = (s1.q.count == 0) := by cases e; rfl
          cases hz : sig with
          | true => rw [hz] at hs; exact absurd ht (sigT _ _ hs t)
          | false =>
            rw [hz] at hs hsg
            have : pc' = pc0 := by simpa [SignalIf] using hs
            have h1 := ih t (hb t (this ▸ ht))
            simp [h1] at hsg
      have deq : ∀ (q' : Queue β) (v : β) (sig : Bool) (pc0 pc' : Nat → QPc β),
          (∀ t, pc0 t = .waitEmpty → s1.pc t = .waitEmpty) →
          taskqDequeueNowait null s1.q = .ok (some (v, sig, q')) → SignalIf sig true pc0 pc' →
          ∀ t, pc' t = .waitEmpty → q'.count = 0 := by
        intro q' v sig pc0 pc' hb e hs t ht
        by_cases hc : s1.q.count = 0
        · simp [taskqDequeueNowait, hc] at e
        · cases hz : sig with
          | true => rw [hz] at hs; exact absurd ht (sigT _ _ hs t)
          | false =>
            rw [hz] at hs
            have : pc' = pc0 := by simpa [SignalIf] using hs
            exact absurd (ih t (hb t (this ▸ ht))) hc
      cases hstep with
      | enqSleep u w hpc hfull => intro t ht; exact ih t (go_back _ _ _ (by simp) t ht)
      | enqDone u w hpc sig q' hq pc' hs =>
        exact enq q' w sig _ pc' (go_back _ _ _ (by simp)) hq hs
      | deqSleep u hpc hempty => intro t _; exact hempty
      | deqDone u hpc w sig q' hq pc' hs =>
        exact deq q' w sig _ pc' (go_back _ _ _ (by simp)) hq hs
      | writeEnter u w hpc => intro t ht; exact ih t (go_back _ _ _ (by simp) t ht)
      | writeDone u w hpc sig q' hq pc' hs =>
        exact enq q' w sig _ pc' (go_back _ _ _ (by simp)) hq hs
      | writeRetry => exact ih
      | readEnter u hpc => intro t ht; exact ih t (go_back _ _ _ (by simp) t ht)
      | readDone u hpc w sig q' hq pc' hs =>
        exact deq q' w sig _ pc' (go_back _ _ _ (by simp)) hq hs
      | readRetry => exact ih
      | spurFull u w _ hpc => intro t ht; exact ih t (go_back _ _ _ (by simp) t ht)
      | spurEmpty u _ hpc => intro t ht; exact ih t (go_back _ _ _ (by simp) t ht)
  simp [stored, key s hex t ht]

example : ∃ s : QSys Nat, QExec 0 true false (qSysInit 1 (fun _ => 7)) s ∧ s.pc 3 = .waitEmpty :=
  ⟨_, .single (QTrans.deqSleep _ 3 (Or.inl rfl) rfl), by simp [QSys.go]⟩

end Armas.Props
