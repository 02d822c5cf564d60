import Verif.Pool
import Mathlib.Algebra.BigOperators.Group.Finset.Basic
import Mathlib.Algebra.Order.BigOperators.Group.Finset

/-! # C30: every scheduled task runs exactly once -/

namespace Armas.Props

open Armas

@[simp] theorem upd_same {β : Type} (f : Nat → β) (k : Nat) (v : β) : upd f k v k = v := by
  simp [upd]

theorem upd_ne {β : Type} (f : Nat → β) {k j : Nat} (v : β) (h : j ≠ k) : upd f k v j = f j := by
  simp [upd, h]

/-- Invariant of the pool. -/
structure PInv (c : PoolCfg) (s : Pool) : Prop where
  st : ∀ T, s.started T = if s.wid T = 0 then 0 else 1
  run : ∀ w T, s.pc w = .run T → s.wid T = w + 1 ∧ s.finished T = 0
  own : ∀ T, s.wid T ≠ 0 → s.finished T = 1 ∨ ∃ w, w < c.nworker ∧ s.pc w = .run T
  fin0 : ∀ T, s.wid T = 0 → s.finished T = 0
  copy : ∀ T, T ∈ s.submitted → s.wid T = 0 → (∃ w, (w, T) ∈ s.pending) ∨
    (∃ w, w < c.nworker ∧ T ∈ s.queue w) ∨ ∃ w, w < c.nworker ∧ s.pc w = .got T
  subP : ∀ w T, (w, T) ∈ s.pending → T ∈ s.submitted ∧ w < c.nworker
  subQ : ∀ w T, T ∈ s.queue w → T ∈ s.submitted
  subG : ∀ w T, s.pc w = .got T → T ∈ s.submitted
  sub0 : ∀ T, T ∉ s.submitted → s.wid T = 0
  rr : s.rrindex < c.nworker

theorem targets_ok {c : PoolCfg} (hn : 0 < c.nworker) {r : Nat} (hr : r < c.nworker)
    {ks : List Nat} {r' : Nat} (h : Targets c r ks r') :
    ks ≠ [] ∧ ∀ k ∈ ks, k < c.nworker := by
  cases h <;> simp_all <;> first | omega | exact Nat.mod_lt _ hn

theorem pInv_init (c : PoolCfg) (hn : 0 < c.nworker) : PInv c poolInit := by
  constructor <;> simp [poolInit, hn]

theorem pInv_step {c : PoolCfg} (hn : 0 < c.nworker) {s s' : Pool} (h : PInv c s)
    (hs : PoolStep c s s') : PInv c s' := by
  rcases hs with hs | hs
  · cases hs with
    | submit T hT ks r' ht =>
      have hw0 := h.sub0 T hT
      have hwid : upd s.wid T 0 = s.wid := by
        funext j; by_cases e : j = T
        · subst e; simp [hw0]
        · simp [upd_ne _ _ e]
      obtain ⟨hne, hlt⟩ := targets_ok hn h.rr ht
      constructor
      · simp only [hwid]; exact h.st
      · simp only [hwid]; exact h.run
      · simp only [hwid]; exact h.own
      · simp only [hwid]; exact h.fin0
      · simp only [hwid]
        intro T' hT' h0
        rcases List.mem_cons.mp hT' with e | e
        · subst e
          left
          obtain ⟨k, l, rfl⟩ : ∃ k l, ks = k :: l := by
            cases ks with
            | nil => exact absurd rfl hne
            | cons k l => exact ⟨k, l, rfl⟩
          exact ⟨k, by simp⟩
        · rcases h.copy T' e h0 with ⟨w, hw⟩ | hr
          · exact Or.inl ⟨w, by simp [hw]⟩
          · exact Or.inr hr
      · intro w T' hm
        simp only [List.mem_append, List.mem_map, Prod.mk.injEq] at hm
        rcases hm with hm | ⟨k, hk, rfl, rfl⟩
        · exact ⟨List.mem_cons_of_mem _ (h.subP w T' hm).1, (h.subP w T' hm).2⟩
        · exact ⟨by simp, hlt _ hk⟩
      · intro w T' hm; exact List.mem_cons_of_mem _ (h.subQ w T' hm)
      · intro w T' hm; exact List.mem_cons_of_mem _ (h.subG w T' hm)
      · simp only [hwid]
        intro T' hm; exact h.sub0 T' (fun hx => hm (List.mem_cons_of_mem _ hx))
      · exact Nat.mod_lt _ hn
  · cases hs with
    | write l1 l2 w T hp hcap =>
      have hwT : (w, T) ∈ s.pending := by rw [hp]; simp
      constructor
      · exact h.st
      · exact h.run
      · exact h.own
      · exact h.fin0
      · intro T' hT' h0
        rcases h.copy T' hT' h0 with ⟨w', hw'⟩ | ⟨w', hw', hq⟩ | hr
        · rw [hp] at hw'
          simp only [List.mem_append, List.mem_cons, Prod.mk.injEq] at hw'
          rcases hw' with hw' | ⟨rfl, rfl⟩ | hw'
          · exact Or.inl ⟨w', by simp [hw']⟩
          · exact Or.inr (Or.inl ⟨_, (h.subP _ _ hwT).2, by simp⟩)
          · exact Or.inl ⟨w', by simp [hw']⟩
        · refine Or.inr (Or.inl ⟨w', hw', ?_⟩)
          by_cases e : w' = w
          · subst e; simp [hq]
          · simpa [upd_ne _ _ e] using hq
        · exact Or.inr (Or.inr hr)
      · intro w' T' hm
        apply h.subP; rw [hp]
        simp only [List.mem_append] at hm
        rcases hm with hm | hm <;> simp [hm]
      · intro w' T' hm
        by_cases e : w' = w
        · subst e
          simp only [upd_same, List.mem_append, List.mem_singleton] at hm
          rcases hm with hm | rfl
          · exact h.subQ _ _ hm
          · exact (h.subP _ _ hwT).1
        · exact h.subQ w' T' (by simpa [upd_ne _ _ e] using hm)
      · exact h.subG
      · exact h.sub0
      · exact h.rr
    | read w T l hw hpc hq =>
      have hTs : T ∈ s.submitted := h.subQ w T (by rw [hq]; simp)
      constructor
      · exact h.st
      · intro w' T' hr
        by_cases e : w' = w
        · subst e; simp at hr
        · exact h.run w' T' (by simpa [upd_ne _ _ e] using hr)
      · intro T' h0
        rcases h.own T' h0 with hf | ⟨w', hw', hr⟩
        · exact Or.inl hf
        · refine Or.inr ⟨w', hw', ?_⟩
          have : w' ≠ w := by intro e; subst e; rw [hpc] at hr; cases hr
          simpa [upd_ne _ _ this] using hr
      · exact h.fin0
      · intro T' hT' h0
        rcases h.copy T' hT' h0 with hp | ⟨w', hw', hm⟩ | ⟨w', hw', hg⟩
        · exact Or.inl hp
        · by_cases e : w' = w
          · subst e
            rw [hq] at hm
            rcases List.mem_cons.mp hm with rfl | hm
            · exact Or.inr (Or.inr ⟨w', hw', by simp⟩)
            · exact Or.inr (Or.inl ⟨w', hw', by simpa using hm⟩)
          · exact Or.inr (Or.inl ⟨w', hw', by simpa [upd_ne _ _ e] using hm⟩)
        · have : w' ≠ w := by intro e; subst e; rw [hpc] at hg; cases hg
          exact Or.inr (Or.inr ⟨w', hw', by simpa [upd_ne _ _ this] using hg⟩)
      · exact h.subP
      · intro w' T' hm
        by_cases e : w' = w
        · subst e; exact h.subQ w' T' (by rw [hq]; exact List.mem_cons_of_mem _ (by simpa using hm))
        · exact h.subQ w' T' (by simpa [upd_ne _ _ e] using hm)
      · intro w' T' hg
        by_cases e : w' = w
        · subst e; simp at hg; exact hg ▸ hTs
        · exact h.subG w' T' (by simpa [upd_ne _ _ e] using hg)
      · exact h.sub0
      · exact h.rr
    | claim w T hw hpc h0 =>
      have hf := h.fin0 T h0
      have hs0 := h.st T
      rw [if_pos h0] at hs0
      have hTs := h.subG w T hpc
      constructor
      · intro T'
        by_cases e : T' = T
        · subst e; simp [hs0]
        · simpa [upd_ne _ _ e] using h.st T'
      · intro w' T' hr
        by_cases e : w' = w
        · subst e; simp at hr; subst hr; simp [hf]
        · have hr' := h.run w' T' (by simpa [upd_ne _ _ e] using hr)
          have : T' ≠ T := by intro e2; subst e2; omega
          simpa [upd_ne _ _ this] using hr'
      · intro T' hne
        by_cases e : T' = T
        · subst e; exact Or.inr ⟨w, hw, by simp⟩
        · rcases h.own T' (by simpa [upd_ne _ _ e] using hne) with hf' | ⟨w', hw', hr⟩
          · exact Or.inl hf'
          · have : w' ≠ w := by intro e2; subst e2; rw [hpc] at hr; cases hr
            exact Or.inr ⟨w', hw', by simpa [upd_ne _ _ this] using hr⟩
      · intro T' hz
        by_cases e : T' = T
        · subst e; simp at hz
        · exact h.fin0 T' (by simpa [upd_ne _ _ e] using hz)
      · intro T' hT' hz
        have e : T' ≠ T := by intro e; subst e; simp at hz
        rcases h.copy T' hT' (by simpa [upd_ne _ _ e] using hz) with hp | hq | ⟨w', hw', hg⟩
        · exact Or.inl hp
        · exact Or.inr (Or.inl hq)
        · have : w' ≠ w := by
            intro e2; subst e2; rw [hpc] at hg; exact e (by injection hg with hg; exact hg.symm)
          exact Or.inr (Or.inr ⟨w', hw', by simpa [upd_ne _ _ this] using hg⟩)
      · exact h.subP
      · exact h.subQ
      · intro w' T' hg
        by_cases e : w' = w
        · subst e; simp at hg
        · exact h.subG w' T' (by simpa [upd_ne _ _ e] using hg)
      · intro T' hm
        have : T' ≠ T := by intro e; subst e; exact hm hTs
        simpa [upd_ne _ _ this] using h.sub0 T' hm
      · exact h.rr
    | skip w T hw hpc h0 =>
      constructor
      · exact h.st
      · intro w' T' hr
        by_cases e : w' = w
        · subst e; simp at hr
        · exact h.run w' T' (by simpa [upd_ne _ _ e] using hr)
      · intro T' hne
        rcases h.own T' hne with hf' | ⟨w', hw', hr⟩
        · exact Or.inl hf'
        · have : w' ≠ w := by intro e2; subst e2; rw [hpc] at hr; cases hr
          exact Or.inr ⟨w', hw', by simpa [upd_ne _ _ this] using hr⟩
      · exact h.fin0
      · intro T' hT' hz
        rcases h.copy T' hT' hz with hp | hq | ⟨w', hw', hg⟩
        · exact Or.inl hp
        · exact Or.inr (Or.inl hq)
        · have : w' ≠ w := by
            intro e2; subst e2; rw [hpc] at hg; injection hg with hg; subst hg; exact h0 hz
          exact Or.inr (Or.inr ⟨w', hw', by simpa [upd_ne _ _ this] using hg⟩)
      · exact h.subP
      · exact h.subQ
      · intro w' T' hg
        by_cases e : w' = w
        · subst e; simp at hg
        · exact h.subG w' T' (by simpa [upd_ne _ _ e] using hg)
      · exact h.sub0
      · exact h.rr
    | finish w T hw hpc =>
      obtain ⟨hwid, hf⟩ := h.run w T hpc
      constructor
      · exact h.st
      · intro w' T' hr
        by_cases e : w' = w
        · subst e; simp at hr
        · have hr' := h.run w' T' (by simpa [upd_ne _ _ e] using hr)
          have : T' ≠ T := by intro e2; subst e2; omega
          simpa [upd_ne _ _ this] using hr'
      · intro T' hne
        by_cases e : T' = T
        · subst e; left; simp [hf]
        · rcases h.own T' hne with hf' | ⟨w', hw', hr⟩
          · left; simpa [upd_ne _ _ e] using hf'
          · have : w' ≠ w := by
              intro e2; subst e2; rw [hpc] at hr; injection hr with hr; exact e hr.symm
            exact Or.inr ⟨w', hw', by simpa [upd_ne _ _ this] using hr⟩
      · intro T' hz
        have : T' ≠ T := by intro e2; subst e2; simp only at hz; omega
        simpa [upd_ne _ _ this] using h.fin0 T' hz
      · intro T' hT' hz
        rcases h.copy T' hT' hz with hp | hq | ⟨w', hw', hg⟩
        · exact Or.inl hp
        · exact Or.inr (Or.inl hq)
        · have : w' ≠ w := by intro e2; subst e2; rw [hpc] at hg; cases hg
          exact Or.inr (Or.inr ⟨w', hw', by simpa [upd_ne _ _ this] using hg⟩)
      · exact h.subP
      · exact h.subQ
      · intro w' T' hg
        by_cases e : w' = w
        · subst e; simp at hg
        · exact h.subG w' T' (by simpa [upd_ne _ _ e] using hg)
      · exact h.sub0
      · exact h.rr

theorem pInv_exec {c : PoolCfg} (hn : 0 < c.nworker) {s : Pool} (h : PoolExec c poolInit s) :
    PInv c s := by
  induction h with
  | refl => exact pInv_init c hn
  | tail _ hs ih => exact pInv_step hn ih hs

/-- **C30 (at most once).** In every reachable state no task function has been started more than
once, nor finished more often than started, for any number of workers, any queue capacity, any
scheduling option and any interleaving, although a task may be in several queues. -/
theorem C30_at_most_once (c : PoolCfg) (hn : 0 < c.nworker) (s : Pool)
    (h : PoolExec c poolInit s) (T : Nat) :
    s.started T ≤ 1 ∧ s.finished T ≤ s.started T := by
  have hi := pInv_exec hn h
  have h1 := hi.st T
  by_cases h0 : s.wid T = 0
  · rw [if_pos h0] at h1
    have := hi.fin0 T h0
    omega
  · rw [if_neg h0] at h1
    rcases hi.own T h0 with hf | ⟨w, _, hr⟩
    · omega
    · have := (hi.run w T hr).2; omega

/-- **C30 (exactly once).** When the pool can do nothing more with the submitted tasks (no queue
write, read, claim or run is possible), every submitted task has been started exactly once and has
finished exactly once. -/
theorem C30_exactly_once (c : PoolCfg) (hn : 0 < c.nworker) (hcap : 0 < c.cap) (s : Pool)
    (h : PoolExec c poolInit s) (hq : ∀ s', ¬ PoolWork c s s') (T : Nat) (hT : T ∈ s.submitted) :
    s.started T = 1 ∧ s.finished T = 1 := by
  have hi := pInv_exec hn h
  have hidle : ∀ w, w < c.nworker → s.pc w = .idle := by
    intro w hw
    cases hpc : s.pc w with
    | idle => rfl
    | got T' =>
      by_cases h0 : s.wid T' = 0
      · exact absurd (PoolWork.claim s w T' hw hpc h0) (hq _)
      · exact absurd (PoolWork.skip s w T' hw hpc h0) (hq _)
    | run T' => exact absurd (PoolWork.finish s w T' hw hpc) (hq _)
  have hempty : ∀ w, w < c.nworker → s.queue w = [] := by
    intro w hw
    cases hl : s.queue w with
    | nil => rfl
    | cons T' l => exact absurd (PoolWork.read s w T' l hw (hidle w hw) hl) (hq _)
  have hpend : s.pending = [] := by
    cases hl : s.pending with
    | nil => rfl
    | cons p l =>
      obtain ⟨w, T'⟩ := p
      have hw := (hi.subP w T' (by rw [hl]; simp)).2
      refine absurd (PoolWork.write s [] l w T' (by simpa using hl) ?_) (hq _)
      rw [hempty w hw]; simpa using hcap
  have hne : s.wid T ≠ 0 := by
    intro h0
    rcases hi.copy T hT h0 with ⟨w, hw⟩ | ⟨w, hw, hm⟩ | ⟨w, hw, hg⟩
    · rw [hpend] at hw; cases hw
    · rw [hempty w hw] at hm; cases hm
    · rw [hidle w hw] at hg; cases hg
  have h1 := hi.st T
  rw [if_neg hne] at h1
  refine ⟨h1, ?_⟩
  rcases hi.own T hne with hf | ⟨w, hw, hr⟩
  · exact hf
  · rw [hidle w hw] at hr; cases hr

/-- Work left: copies to be written, queued, claimed, and running tasks. -/
def workLeft (c : PoolCfg) (s : Pool) : Nat :=
  4 * s.pending.length + ∑ w ∈ Finset.range c.nworker, (3 * (s.queue w).length +
    match s.pc w with | .idle => 0 | .got _ => 2 | .run _ => 1)

theorem sum_upd_lt {n w : Nat} (hw : w < n) (f g : Nat → Nat) (d : Nat)
    (hne : ∀ j, j ≠ w → f j = g j) (hlt : f w + d = g w) :
    (∑ j ∈ Finset.range n, f j) + d = ∑ j ∈ Finset.range n, g j := by
  have hm : w ∈ Finset.range n := Finset.mem_range.mpr hw
  rw [← Finset.add_sum_erase _ f hm, ← Finset.add_sum_erase _ g hm, ← hlt]
  have : ∑ x ∈ (Finset.range n).erase w, f x = ∑ x ∈ (Finset.range n).erase w, g x :=
    Finset.sum_congr rfl fun j hj => hne j (Finset.ne_of_mem_erase hj)
  omega

theorem workLeft_step {c : PoolCfg} {s s' : Pool} (hi : PInv c s) (h : PoolWork c s s') :
    workLeft c s' + 1 = workLeft c s ∨ workLeft c s' + 2 = workLeft c s := by
  cases h with
  | write l1 l2 w T hp hcap =>
    left
    have hw := (hi.subP w T (by rw [hp]; simp)).2
    unfold workLeft
    have := sum_upd_lt hw (fun w => 3 * (s.queue w).length +
        match s.pc w with | .idle => 0 | .got _ => 2 | .run _ => 1)
      (fun j => 3 * (upd s.queue w (s.queue w ++ [T]) j).length +
        match s.pc j with | .idle => 0 | .got _ => 2 | .run _ => 1) 3
      (fun j hj => by simp [upd_ne _ _ hj]) (by simp; omega)
    simp only [hp, List.length_append, List.length_cons]
    omega
  | read w T l hw hpc hq =>
    left
    unfold workLeft
    have := sum_upd_lt hw (fun j => 3 * (upd s.queue w l j).length +
        match upd s.pc w (WPc.got T) j with | .idle => 0 | .got _ => 2 | .run _ => 1)
      (fun w => 3 * (s.queue w).length +
        match s.pc w with | .idle => 0 | .got _ => 2 | .run _ => 1) 1
      (fun j hj => by simp [upd_ne _ _ hj]) (by simp [hq, hpc]; omega)
    simp only
    omega
  | claim w T hw hpc h0 =>
    left
    unfold workLeft
    have := sum_upd_lt hw (fun j => 3 * (s.queue j).length +
        match upd s.pc w (WPc.run T) j with | .idle => 0 | .got _ => 2 | .run _ => 1)
      (fun w => 3 * (s.queue w).length +
        match s.pc w with | .idle => 0 | .got _ => 2 | .run _ => 1) 1
      (fun j hj => by simp [upd_ne _ _ hj]) (by simp [hpc])
    simp only
    omega
  | skip w T hw hpc h0 =>
    right
    unfold workLeft
    have := sum_upd_lt hw (fun j => 3 * (s.queue j).length +
        match upd s.pc w WPc.idle j with | .idle => 0 | .got _ => 2 | .run _ => 1)
      (fun w => 3 * (s.queue w).length +
        match s.pc w with | .idle => 0 | .got _ => 2 | .run _ => 1) 2
      (fun j hj => by simp [upd_ne _ _ hj]) (by simp [hpc])
    simp only
    omega
  | finish w T hw hpc =>
    left
    unfold workLeft
    have := sum_upd_lt hw (fun j => 3 * (s.queue j).length +
        match upd s.pc w WPc.idle j with | .idle => 0 | .got _ => 2 | .run _ => 1)
      (fun w => 3 * (s.queue w).length +
        match s.pc w with | .idle => 0 | .got _ => 2 | .run _ => 1) 1
      (fun j hj => by simp [upd_ne _ _ hj]) (by simp [hpc])
    simp only
    omega

/-- `k` steps of the pool without new submissions. -/
inductive WorkSteps (c : PoolCfg) : Nat → Pool → Pool → Prop where
  | zero (s : Pool) : WorkSteps c 0 s s
  | succ {k : Nat} {s s' s'' : Pool} (h : PoolWork c s s') (hs : WorkSteps c k s' s'') :
      WorkSteps c (k + 1) s s''

/-- **C30 (termination).** From every reachable state the pool finishes its work: without new
submissions at most `workLeft` steps are possible, in any order.  Together with
`C30_exactly_once` every task submitted is executed exactly once. -/
theorem C30_terminates (c : PoolCfg) (hn : 0 < c.nworker) (s s' : Pool)
    (h : PoolExec c poolInit s) (k : Nat) (hk : WorkSteps c k s s') : k ≤ workLeft c s := by
  induction hk with
  | zero => exact Nat.zero_le _
  | succ hw _ ih =>
    have := ih (h.tail (Or.inr hw))
    rcases workLeft_step (pInv_exec hn h) hw with e | e <;> omega

/-- Two workers with two-choice scheduling. -/
def cfg2 : PoolCfg := ⟨2, 16, true, true⟩

theorem exS {c : PoolCfg} {a s s' : Pool} (h : PoolExec c a s) (w : PoolSubmit c s s') :
    PoolExec c a s' := h.tail (Or.inl w)

theorem exW {c : PoolCfg} {a s s' : Pool} (h : PoolExec c a s) (w : PoolWork c s s') :
    PoolExec c a s' := h.tail (Or.inr w)

/-- Task 7 is submitted and written to both queues; worker 1 runs it to the end; worker 0 has not
looked at its copy yet. -/
theorem pool_two_copies : ∃ s, PoolExec cfg2 poolInit s ∧ s.submitted = [7] ∧ s.finished 7 = 1 ∧
    s.wcnt 7 = 1 ∧ s.queue 0 = [7] ∧ s.pending = [] ∧ s.queue 1 = [] ∧ s.pc 0 = .idle ∧
    s.pc 1 = .idle ∧ s.wid 7 = 2 := by
  have x1 := exS .refl (PoolSubmit.submit (c := cfg2) poolInit 7 (by simp [poolInit]) [0, 1] 0
    (Targets.both rfl rfl))
  have x2 := exW x1 (PoolWork.write _ [] [(1, 7)] 0 7 rfl (by simp [poolInit, cfg2]))
  have x3 := exW x2 (PoolWork.write _ [] [] 1 7 rfl (by simp [poolInit, cfg2, upd]))
  have x4 := exW x3 (PoolWork.read _ 1 7 [] (by decide) rfl (by simp [poolInit, upd]))
  have x5 := exW x4 (PoolWork.claim _ 1 7 (by decide) (by simp) (by simp [upd]))
  have x6 := exW x5 (PoolWork.finish _ 1 7 (by decide) (by simp))
  refine ⟨_, x6, ?_⟩
  simp [poolInit, upd]

/-- **C30, finding.** A task can be completely finished (its counter decremented, so that the
submitting thread returns from `armas_counter_wait`) while a copy of its pointer is still in
another worker's queue and `wcnt` is not zero: `worker_all_ready` (workers.h:40-53) then depends on
50 unsynchronised reads being slow enough, its caller asserts and frees the task
(workers/gemm.c:220-224). -/
theorem C30_copy_outlives_task : ∃ s, PoolExec cfg2 poolInit s ∧ s.submitted = [7] ∧
    s.finished 7 = 1 ∧ s.wcnt 7 ≠ 0 ∧ 7 ∈ s.queue 0 := by
  obtain ⟨s, h, h1, h2, h3, h4, _⟩ := pool_two_copies
  exact ⟨s, h, h1, h2, by omega, by simp [h4]⟩

/-- The hypotheses of the C30 theorems are met: after worker 0 has dropped its copy nothing is
left to do. -/
example : 0 < cfg2.nworker ∧ 0 < cfg2.cap ∧ ∃ s, PoolExec cfg2 poolInit s ∧ 7 ∈ s.submitted ∧
    ∀ s', ¬ PoolWork cfg2 s s' := by
  obtain ⟨s, h, h1, h2, h3, h4, h5, h6, h7, h8, h9⟩ := pool_two_copies
  have r1 := PoolWork.read s 0 7 [] (c := cfg2) (by decide) h7 h4
  have r2 := PoolWork.skip _ 0 7 (c := cfg2) (by decide)
    (show ({ s with queue := upd s.queue 0 [], pc := upd s.pc 0 (.got 7) } : Pool).pc 0 = .got 7
      by simp) (by simp [h9])
  refine ⟨by decide, by decide, _, (h.tail (Or.inr r1)).tail (Or.inr r2), by simp [h1], ?_⟩
  intro s' hs
  have hl : ∀ w, w < cfg2.nworker → w = 0 ∨ w = 1 := by
    intro w hw; simp [cfg2] at hw; omega
  cases hs with
  | write l1 l2 w T hp hcap => simp [h5] at hp
  | read w T l hw hpc hq =>
    rcases hl w hw with rfl | rfl
    · simp at hq
    · simp [upd, h6] at hq
  | claim w T hw hpc h0 =>
    rcases hl w hw with rfl | rfl
    · simp at hpc
    · simp [upd, h8] at hpc
  | skip w T hw hpc h0 =>
    rcases hl w hw with rfl | rfl
    · simp at hpc
    · simp [upd, h8] at hpc
  | finish w T hw hpc =>
    rcases hl w hw with rfl | rfl
    · simp at hpc
    · simp [upd, h8] at hpc

end Armas.Props
