import Verif.TrsmLemmas
import Mathlib.Algebra.Field.Rat
import Mathlib.Tactic.IntervalCases
import Mathlib.Tactic.NormNum

/-! # Cases in which the triangular operations do not return, or return a wrong result -/

namespace Armas

open Finset

variable {α : Type}

theorem Res.bind_never {β γ : Type} {x : Res β} (hx : ∀ r, x ≠ .ok r) {k : β → Res γ} (r : γ) :
    (x >>= k) ≠ Res.ok r := by
  cases x with
  | ok y => exact absurd rfl (hx y)
  | ub => intro h; cases h
  | diverge => intro h; cases h

section ring
variable [CommRing α] [DecidableEq α]

theorem trmmUnb_empty (ab : α → α) (env : Env) (fuel : Nat) (m : Mem α) (B : View) (alpha : α) {A : View}
    (fl : Flags) (h : A.cols = 0) : trmmUnb ab env fuel m B alpha A fl = .ub := by
  unfold trmmUnb trmmUp trmmDown
  simp only [if_pos h]
  split <;> split <;> split <;> rfl

theorem trmmFwdRec_never (ab : α → α) {env : Env} (hmin : env.blas2min ≤ 1) (right : Bool) (alpha : α) (fl : Flags)
    (c : Cache) : ∀ fuel m B A r, trmmFwdRec ab env right alpha fl c fuel m B A ≠ .ok r := by
  intro fuel
  induction fuel with
  | zero => intro m B A r h; cases h
  | succ fuel ih =>
    intro m B A r
    unfold trmmFwdRec
    split
    · rw [trmmUnb_empty _ _ _ _ _ _ _ (by omega)]; intro h; cases h
    · dsimp only
      intro h
      cases hx : trmmFwdRec ab env right alpha fl c fuel m (partLines right B (A.cols / 2) true).1
        (partition2x2 A (A.rows / 2) (A.cols / 2) .fwd).tl with
      | ok x => exact ih _ _ _ _ hx
      | ub => rw [hx] at h; cases h
      | diverge => rw [hx] at h; cases h

theorem trmmBwdRec_never (ab : α → α) {env : Env} (hmin : env.blas2min ≤ 1) (right : Bool) (alpha : α) (fl : Flags)
    (c : Cache) : ∀ fuel m B A r, trmmBwdRec ab env right alpha fl c fuel m B A ≠ .ok r := by
  intro fuel
  induction fuel with
  | zero => intro m B A r h; cases h
  | succ fuel ih =>
    intro m B A r
    unfold trmmBwdRec
    split
    · rw [trmmUnb_empty _ _ _ _ _ _ _ (by omega)]; intro h; cases h
    · dsimp only
      intro h
      cases hx : trmmBwdRec ab env right alpha fl c fuel m (partLines right B (A.cols / 2) false).2
        (partition2x2 A (A.rows / 2) (A.cols / 2) .bwd).br with
      | ok x => exact ih _ _ _ _ hx
      | ub => rw [hx] at h; cases h
      | diverge => rw [hx] at h; cases h

theorem trmmRecursive_never (ab : α → α) {env : Env} (hmin : env.blas2min ≤ 1) (alpha : α) (fl : Flags)
    (c : Cache) (fuel : Nat) (m : Mem α) (B A : View) (r : Mem α) :
    trmmRecursive ab env fuel m B alpha A fl c ≠ .ok r := by
  unfold trmmRecursive
  split <;> first | exact trmmFwdRec_never ab hmin _ _ _ _ _ _ _ _ _ | exact trmmBwdRec_never ab hmin _ _ _ _ _ _ _ _ _

/-- A loop whose first round does not finish. -/
theorem forUp_never {σ : Type} {i n s : Nat} {body : Nat → σ → Res σ} {st : σ} (hi : i < n)
    (hb : ∀ r, body i st ≠ .ok r) (r : Nat × σ) : forUp i n s body st ≠ .ok r := by
  rw [forUp_eq]
  rw [if_pos hi]
  split
  · exact Res.bind_never hb r
  · intro h; cases h

end ring

section field
variable [Field α] [DecidableEq α]

theorem trsmUnb_empty (ab : α → α) (env : Env) (fuel : Nat) (m : Mem α) (B : View) (alpha : α) {A : View}
    (fl : Flags) (h : A.cols = 0) : trsmUnb ab env fuel m B alpha A fl = .ub := by
  unfold trsmUnb trsmUp trsmDown
  simp only [if_pos h]
  split <;> rfl

theorem trsmFwdRec_never (ab : α → α) {env : Env} (hmin : env.blas2min ≤ 1) (right : Bool) (alpha : α) (fl : Flags)
    (c : Cache) : ∀ fuel m B A r, trsmFwdRec ab env right alpha fl c fuel m B A ≠ .ok r := by
  intro fuel
  induction fuel with
  | zero => intro m B A r h; cases h
  | succ fuel ih =>
    intro m B A r
    unfold trsmFwdRec
    split
    · rw [trsmUnb_empty _ _ _ _ _ _ _ (by omega)]; intro h; cases h
    · dsimp only
      intro h
      cases hx : trsmFwdRec ab env right alpha fl c fuel m (partLines right B (A.cols / 2) true).1
        (partition2x2 A (A.rows / 2) (A.cols / 2) .fwd).tl with
      | ok x => exact ih _ _ _ _ hx
      | ub => rw [hx] at h; cases h
      | diverge => rw [hx] at h; cases h

theorem trsmBwdRec_never (ab : α → α) {env : Env} (hmin : env.blas2min ≤ 1) (right : Bool) (alpha : α) (fl : Flags)
    (c : Cache) : ∀ fuel m B A r, trsmBwdRec ab env right alpha fl c fuel m B A ≠ .ok r := by
  intro fuel
  induction fuel with
  | zero => intro m B A r h; cases h
  | succ fuel ih =>
    intro m B A r
    unfold trsmBwdRec
    split
    · rw [trsmUnb_empty _ _ _ _ _ _ _ (by omega)]; intro h; cases h
    · dsimp only
      intro h
      cases hx : trsmBwdRec ab env right alpha fl c fuel m (partLines right B (A.cols / 2) false).2
        (partition2x2 A (A.rows / 2) (A.cols / 2) .bwd).br with
      | ok x => exact ih _ _ _ _ hx
      | ub => rw [hx] at h; cases h
      | diverge => rw [hx] at h; cases h

theorem trsmRecursive_never (ab : α → α) {env : Env} (hmin : env.blas2min ≤ 1) (alpha : α) (fl : Flags)
    (c : Cache) (fuel : Nat) (m : Mem α) (B A : View) (r : Mem α) :
    trsmRecursive ab env fuel m B alpha A fl c ≠ .ok r := by
  unfold trsmRecursive
  split <;> first | exact trsmFwdRec_never ab hmin _ _ _ _ _ _ _ _ _ | exact trsmBwdRec_never ab hmin _ _ _ _ _ _ _ _ _

end field

/-- One step of the recursion on a system of two unknowns with a lower triangle of ones: both halves
are multiplied by `alpha`. -/
theorem trsm_alpha_twice {env : Env} (hmin : env.blas2min = 2) {c : Cache} {m : Mem ℚ} {B A : View}
    {f : Nat → Nat → ℚ} (H : TrPre c m B A f (fun _ _ => 1) { lower := true }) (hn : A.cols = 2) (hB : B.cols = 1)
    (hf : ∀ i, f i 0 = 1) (hAr : A.rows = 2) {fuel : Nat} (hfu : 5 < fuel) :
    ∃ m', trsmRecursive id env fuel m B 2 A { lower := true } c = .ok m' ∧
      m' (B.at' 0 0) = some 2 ∧ m' (B.at' 1 0) = some (-2) := by
  suffices h : Runs (trsmRecursive id env fuel m B 2 A { lower := true } c)
      (TrMid c m B false (fun i _ => if i = 0 then 2 else -2)) by
    obtain ⟨m', e, h⟩ := h
    have hr : B.rows = 2 := by have := H.hn; simp [View.nl] at this; omega
    refine ⟨m', e, ?_, ?_⟩
    · rw [h.hold 0 0 (by omega) (by omega)]; simp [opM]
    · rw [h.hold 1 0 (by omega) (by omega)]; simp [opM]
  obtain ⟨fuel, rfl⟩ : ∃ k, fuel = k + 1 := ⟨fuel - 1, by omega⟩
  have hup : Flags.up { lower := true } = false := rfl
  have hwd : B.wd false = 1 := by simpa [View.wd] using hB
  unfold trsmRecursive
  dsimp only
  unfold trsmFwdRec
  rw [if_neg (by omega)]
  dsimp only
  have hnl : B.nl false = 2 := by rw [← hn]; exact H.hn.symm
  rw [partLines_fwd (by omega)]
  simp only [partition2x2, hn, hAr, hnl, Bool.false_eq_true, if_false]
  have Hb := H.block H.init (p := 0) (n1 := 1) (g' := f) (by omega) (by omega)
    (fun i q _ => by rw [Nat.zero_add])
  refine Runs.bind (trsmFwdRec_spec (g := fun _ _ => 2) id (by omega) 2 rfl hup fuel Hb
    (by simp [hwd]; omega) (Or.inr (by simp [hmin])) ?_ ?_) (fun m1 hm => ?_)
  · intro i q hi hq
    simp only [View.sub_cols, lines_wd, hwd] at hi hq
    obtain rfl : i = 0 := by omega
    obtain rfl : q = 0 := by omega
    simp [trE, opM, trm, hf]
  · intro i hi
    simp [trE, opM, trm]
  have h1 := H.absorb H.init (by omega) hm
  have h2 := H.off id h1 (p := 1) (n1 := 1) (s := 0) (n0 := 1) (-1) (trans := false) (by omega) (by omega)
    (by simp [hup]) rfl
  refine Runs.bind (P := TrMid c m B false (fun i _ => if i = 0 then 2 else -1)) ?_ (fun m2 h3 => ?_)
  · refine h2.mono (fun m2 h2 => h2.congr (fun i q hi hq => ?_))
    simp only [hnl, hwd] at hi hq
    obtain rfl : q = 0 := by omega
    interval_cases i <;> simp [trE, opM, trm, hf] <;> norm_num
  · have Hb2 := H.block h3 (p := 1) (n1 := 1) (g' := fun _ _ => -1) (by omega) (by omega)
      (fun i q _ => by rw [if_neg (by omega)])
    refine (trsmFwdRec_spec (g := fun _ _ => -2) id (by omega) 2 rfl hup fuel Hb2
      (by simp [hwd]; omega) (Or.inr (by simp [hmin])) ?_ ?_).mono (fun m3 h4 => (H.absorb h3 (by omega) h4).congr ?_)
    · intro i q hi hq
      simp only [View.sub_cols, lines_wd, hwd] at hi hq
      obtain rfl : i = 0 := by omega
      simp [trE, opM, trm]
    · intro i hi
      simp [trE, opM, trm]
    · intro i q hi hq
      simp only [hnl] at hi
      interval_cases i <;> simp

end Armas
