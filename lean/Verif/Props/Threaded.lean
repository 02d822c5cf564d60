import Verif.Threaded

/-! # C57: error reporting of the threaded drivers -/

namespace Armas.Props

open Armas

theorem threadedRec_ok (ce be : Nat → Nat) (n : Nat) :
    ∀ d t, n = t + d + 1 → (∀ k, t ≤ k → k + 1 < n → ce k = 0) →
    threadedRec ce be n t = .ok ⟨-(be (n - 1) : Int), List.range' t (d + 1)⟩ := by
  intro d
  induction d with
  | zero =>
    intro t hn _
    rw [threadedRec, if_pos (by omega)]
    simp [hn]
  | succ d ih =>
    intro t hn hc
    rw [threadedRec, if_neg (by omega), if_neg (by omega),
      if_neg (by simp [hc t (Nat.le_refl _) (by omega)])]
    rw [ih (t + 1) (by omega) (fun k h1 h2 => hc k (by omega) h2)]
    simp [List.range'_succ]

theorem threadedRec_fail (ce be : Nat → Nat) (n f : Nat) (hf : f + 1 < n) (hfe : ce f ≠ 0) :
    ∀ d t, f = t + d → (∀ k, t ≤ k → k < f → ce k = 0) →
    threadedRec ce be n t = .ok ⟨-1, List.range' t d⟩ := by
  intro d
  induction d with
  | zero =>
    intro t ht _
    have : t = f := by omega
    subst this
    rw [threadedRec, if_neg (by omega), if_neg (by omega), if_pos hfe]
    simp
  | succ d ih =>
    intro t ht hc
    rw [threadedRec, if_neg (by omega), if_neg (by omega),
      if_neg (by simp [hc t (Nat.le_refl _) (by omega)])]
    rw [ih (t + 1) (by omega) (fun k h1 h2 => hc k (by omega) h2)]
    simp [List.range'_succ]

/-- **C57, what the drivers return.** When all threads can be created, every block is attempted and
the return code is the error of the last block alone, whatever happened in the other blocks. -/
theorem C57_only_last_reported (createErr blockErr : Nat → Nat) (n : Nat) (hn : 0 < n)
    (hc : ∀ k, k + 1 < n → createErr k = 0) :
    threadedDriver createErr blockErr n = .ok ⟨-(blockErr (n - 1) : Int), List.range n⟩ := by
  obtain ⟨d, rfl⟩ : ∃ d, n = d + 1 := ⟨n - 1, by omega⟩
  rw [threadedDriver, threadedRec_ok createErr blockErr (d + 1) d 0 (by omega)
    (fun k _ h => hc k h), List.range_eq_range']

/-- **C57 is false of the code.** For every number of threads above one and every choice of failing
blocks that leaves out the last one, the operation reports success (return code 0). -/
theorem C57_failures_dropped_false (n : Nat) (hn : 1 < n) (fails : Nat → Bool)
    (hlast : fails (n - 1) = false) (err : Nat) :
    ∃ out, threadedDriver (fun _ => 0) (fun k => if fails k then err else 0) n = .ok out ∧
      out.rc = 0 := by
  refine ⟨_, C57_only_last_reported _ _ n (by omega) (fun _ _ => rfl), ?_⟩
  simp [hlast]

/-- A concrete instance: four threads, the first three blocks fail with error 9. -/
example : (fun k : Nat => decide (k < 3)) (4 - 1) = false ∧
    threadedDriver (fun _ => 0) (fun k => if decide (k < 3) then 9 else 0) 4 =
      .ok ⟨0, [0, 1, 2, 3]⟩ :=
  ⟨by decide, C57_only_last_reported _ _ 4 (by decide) (fun _ _ => rfl)⟩

/-- **C57 (partial).** Failures that are reported: the failure of the block computed by the calling
thread, and a failing thread creation (first failing creation `f`; then only the blocks before `f`
are computed, the result matrix is left partly updated).  (Missing: failures inside created
threads, see `C57_failures_dropped_false`.) -/
theorem C57_reported_partial (createErr blockErr : Nat → Nat) (n : Nat) :
    (0 < n → (∀ k, k + 1 < n → createErr k = 0) → blockErr (n - 1) ≠ 0 →
      ∃ out, threadedDriver createErr blockErr n = .ok out ∧ out.rc < 0) ∧
    (∀ f, f + 1 < n → createErr f ≠ 0 → (∀ k, k < f → createErr k = 0) →
      ∃ out, threadedDriver createErr blockErr n = .ok out ∧ out.rc < 0 ∧
        out.blocks = List.range f) := by
  constructor
  · intro hn hc hb
    refine ⟨_, C57_only_last_reported createErr blockErr n hn hc, ?_⟩
    simp only; omega
  · intro f hf hfe hc
    refine ⟨_, threadedRec_fail createErr blockErr n f hf hfe f 0 (by omega)
      (fun k _ h => hc k h), ?_, ?_⟩
    · simp
    · rw [List.range_eq_range']

example : ∃ out, threadedDriver (fun k => if k = 2 then 11 else 0) (fun _ => 0) 4 = .ok out ∧
    out.rc < 0 ∧ out.blocks = [0, 1] :=
  (C57_reported_partial (fun k => if k = 2 then 11 else 0) (fun _ => 0) 4).2 2 (by decide)
    (by decide) (by intro k hk; simp; omega)

/-- **C57, no thread.** With a thread count of zero (an empty target or `max_cores` zero) the driver
runs into undefined behaviour. -/
theorem C57_zero_threads_ub (createErr blockErr : Nat → Nat) :
    threadedDriver createErr blockErr 0 = .ub := by
  rw [threadedDriver, threadedRec, if_neg (by omega), if_pos (by omega)]

end Armas.Props
