import Verif.Logic

/-!
# Loops without a bound

`whileR c body st` runs `body` as long as `c` holds; `.diverge` if this never ends.
-/

namespace Armas

open Classical

variable {σ : Type}

/-- At most `n` tests of the condition. -/
noncomputable def whileN (c : σ → Prop) (body : σ → Res σ) : Nat → σ → Res σ
  | 0, _ => .diverge
  | n + 1, st => if c st then body st >>= whileN c body n else .ok st

/-- `while (c) body`. -/
noncomputable def whileR (c : σ → Prop) (body : σ → Res σ) (st : σ) : Res σ :=
  if h : ∃ n, whileN c body n st ≠ .diverge then whileN c body (Nat.find h) st else .diverge

theorem whileN_mono {c : σ → Prop} {body : σ → Res σ} {n : Nat} {st : σ} (h : whileN c body n st ≠ .diverge) {k : Nat}
    (hk : n ≤ k) : whileN c body k st = whileN c body n st := by
  induction n generalizing st k with
  | zero => exact absurd rfl h
  | succ n ih =>
    obtain ⟨k, rfl⟩ : ∃ k', k = k' + 1 := ⟨k - 1, by omega⟩
    simp only [whileN] at h ⊢
    by_cases hc : c st
    · simp only [if_pos hc] at h ⊢
      cases hb : body st with
      | ok s =>
        simp only [hb, Res.ok_bind] at h ⊢
        exact ih h (by omega)
      | ub => rfl
      | diverge => rfl
    · simp only [if_neg hc]

theorem whileR_of {c : σ → Prop} {body : σ → Res σ} {n : Nat} {st : σ} (h : whileN c body n st ≠ .diverge) :
    whileR c body st = whileN c body n st := by
  have he : ∃ n, whileN c body n st ≠ .diverge := ⟨n, h⟩
  unfold whileR
  rw [dif_pos he]
  exact (whileN_mono (Nat.find_spec he) (Nat.find_min' he h)).symm

/-- The defining equation. -/
theorem whileR_eq (c : σ → Prop) (body : σ → Res σ) (st : σ) :
    whileR c body st = if c st then body st >>= whileR c body else .ok st := by
  by_cases hc : c st
  · rw [if_pos hc]
    cases hb : body st with
    | ub =>
      have h1 : whileN c body 1 st = .ub := by simp [whileN, hc, hb]
      rw [whileR_of (n := 1) (by rw [h1]; simp), h1]; rfl
    | diverge =>
      unfold whileR
      rw [dif_neg]
      · rfl
      · rintro ⟨n, hn⟩
        cases n with
        | zero => exact hn rfl
        | succ n => simp [whileN, hc, hb] at hn
    | ok s =>
      rw [Res.ok_bind]
      by_cases he : ∃ n, whileN c body n s ≠ .diverge
      · obtain ⟨n, hn⟩ := he
        have h1 : whileN c body (n + 1) st = whileN c body n s := by simp [whileN, hc, hb]
        rw [whileR_of hn, whileR_of (n := n + 1) (by rw [h1]; exact hn), h1]
      · unfold whileR
        rw [dif_neg he, dif_neg]
        rintro ⟨n, hn⟩
        cases n with
        | zero => exact hn rfl
        | succ n =>
          simp only [whileN, if_pos hc, hb, Res.ok_bind] at hn
          exact he ⟨n, hn⟩
  · rw [if_neg hc]
    have h1 : whileN c body 1 st = .ok st := by simp [whileN, hc]
    rw [whileR_of (n := 1) (by rw [h1]; simp), h1]

/-- Loop rule with invariant and variant. -/
theorem Runs.whileR {c : σ → Prop} {body : σ → Res σ} (I : σ → Prop) (V : σ → Nat) {st : σ} (h0 : I st)
    (hstep : ∀ st, I st → c st → Runs (body st) (fun st' => I st' ∧ V st' < V st)) :
    Runs (Armas.whileR c body st) (fun st' => I st' ∧ ¬ c st') := by
  generalize hn : V st = n
  induction n using Nat.strong_induction_on generalizing st with
  | _ n ih =>
    rw [whileR_eq]
    by_cases hc : c st
    · rw [if_pos hc]
      refine Runs.bind (hstep st h0 hc) ?_
      rintro s ⟨hI, hV⟩
      exact ih (V s) (by omega) hI rfl
    · rw [if_neg hc]
      exact Runs.ok ⟨h0, hc⟩

end Armas
