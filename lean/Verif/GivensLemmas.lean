import Verif.Givens
import Verif.Blas1Lemmas
import Mathlib.Tactic.Ring
import Mathlib.Tactic.LinearCombination
import Mathlib.Algebra.BigOperators.Ring.Finset

/-!
# Lemmas on plane rotations
-/

namespace Armas

variable {α : Type} [CommRing α] [DecidableEq α]

/-- Number of lines and length of a line. -/
def nlines (left : Bool) (A : View) : Nat := if left then A.rows else A.cols
def linelen (left : Bool) (A : View) : Nat := if left then A.cols else A.rows

/-- Element `k` of line `p` of a matrix. -/
def ofLine (left : Bool) (a : Nat → Nat → α) (p k : Nat) : α := if left then a p k else a k p

theorem ofLine_ofLine (left : Bool) (a : Nat → Nat → α) : ofLine left (ofLine left a) = a := by
  funext i j; cases left <;> rfl

def LHolds (left : Bool) (m : Mem α) (A : View) (b : Nat → Nat → α) : Prop :=
  ∀ p k, p < nlines left A → k < linelen left A → m (lineAt left A p k) = some (b p k)

omit [CommRing α] [DecidableEq α] in
theorem lholds_iff {left : Bool} {m : Mem α} {A : View} {b : Nat → Nat → α} :
    LHolds left m A b ↔ Holds m A (fun i j => if left then b i j else b j i) := by
  cases left
  · exact ⟨fun h i j hi hj => h j i hj hi, fun h p k hp hk => h k p hk hp⟩
  · exact ⟨fun h i j hi hj => h i j hi hj, fun h p k hp hk => h p k hp hk⟩

theorem lineAt_inj {left : Bool} {A : View} (hw : A.WF) {p k p' k' : Nat} (hp : p < nlines left A)
    (hk : k < linelen left A) (hp' : p' < nlines left A) (hk' : k' < linelen left A)
    (h : lineAt left A p k = lineAt left A p' k') : p = p' ∧ k = k' := by
  cases left
  · have := View.at_inj hw (i := k) (j := p) (i' := k') (j' := p') hk hp hk' hp' h
    exact ⟨this.2, this.1⟩
  · exact View.at_inj hw (i := p) (j := k) (i' := p') (j' := k') hp hk hp' hk' h

theorem lineAt_mem {left : Bool} {A : View} {p k : Nat} (hp : p < nlines left A)
    (hk : k < linelen left A) : lineAt left A p k ∈ A.foot := by
  cases left
  · exact View.at_mem_foot (V := A) hk hp
  · exact View.at_mem_foot (V := A) hp hk

/-- The rotation of lines `p` and `q`, elements in `[f, t)`. -/
def rotB (c s : α) (p q f t : Nat) (b : Nat → Nat → α) (i k : Nat) : α :=
  if f ≤ k ∧ k < t then
    if i = p then c * b p k + s * b q k else if i = q then c * b q k - s * b p k else b i k
  else b i k

theorem gvLine_spec {left : Bool} {m : Mem α} {A : View} {b : Nat → Nat → α} (c s : α) {p q f n : Nat}
    (hw : A.WF) (h : LHolds left m A b) (hp : p < nlines left A) (hq : q < nlines left A) (hpq : p ≠ q)
    (hn : f + n ≤ linelen left A) :
    Runs (gvLine left m A c s p q f n)
      (fun m' => LHolds left m' A (rotB c s p q f (f + n) b) ∧ Frame A.foot m m') := by
  refine Runs.bind (P := fun r : Nat × Mem α => LHolds left r.2 A (rotB c s p q f (f + n) b) ∧ Frame A.foot m r.2) ?_
    (fun r hr => Runs.pure hr)
  refine Runs.forUp1 (I := fun k m' => LHolds left m' A (rotB c s p q f (f + k) b) ∧ Frame A.foot m m')
    (Nat.zero_le _) ⟨?_, Frame.refl _ _⟩ ?_ (fun st h => h)
  · intro i k hi hk
    rw [h i k hi hk, rotB, if_neg (by omega)]
  · rintro j m' - hj ⟨hL, hF⟩
    have hk : f + j < linelen left A := by omega
    have e0 := hL p (f + j) hp hk
    have e1 := hL q (f + j) hq hk
    rw [rotB, if_neg (by omega)] at e0 e1
    refine Runs.rd_bind e0 (Runs.rd_bind e1 (Runs.wr_bind e1 ?_))
    have hne : lineAt left A p (f + j) ≠ lineAt left A q (f + j) := fun e =>
      hpq (lineAt_inj hw hp hk hq hk e).1
    refine Runs.wr (by rw [Mem.set_ne _ _ hne]; exact e0) ⟨?_, ?_⟩
    · intro i k hi hk'
      by_cases hkj : k = f + j
      · subst hkj
        rw [rotB, if_pos (by omega)]
        by_cases hip : i = p
        · subst hip; rw [Mem.set_same, if_pos rfl]
        · rw [Mem.set_ne _ _ (fun e => hip (lineAt_inj hw hi hk' hp hk e).1), if_neg hip]
          by_cases hiq : i = q
          · subst hiq; rw [Mem.set_same, if_pos rfl]
          · rw [Mem.set_ne _ _ (fun e => hiq (lineAt_inj hw hi hk' hq hk e).1), if_neg hiq, hL i _ hi hk', rotB,
              if_neg (by omega)]
      · rw [Mem.set_ne _ _ (fun e => hkj (lineAt_inj hw hi hk' hp hk e).2),
          Mem.set_ne _ _ (fun e => hkj (lineAt_inj hw hi hk' hq hk e).2), hL i k hi hk']
        have hr : (f ≤ k ∧ k < f + (j + 1)) ↔ (f ≤ k ∧ k < f + j) := by omega
        simp only [rotB, hr]
    · exact hF.trans ((Frame.set (lineAt_mem hq hk) _).trans (Frame.set (lineAt_mem hp hk) _))

/-- Scaling of line `p`, elements in `[f, t)`. -/
def scaleB (c : α) (p f t : Nat) (b : Nat → Nat → α) (i k : Nat) : α :=
  if (f ≤ k ∧ k < t) ∧ i = p then c * b i k else b i k

theorem gvOne_spec {left : Bool} {m : Mem α} {A : View} {b : Nat → Nat → α} (c s : α) {p q f n : Nat}
    (hw : A.WF) (h : LHolds left m A b) (hp : p < nlines left A) (hq : q < nlines left A)
    (hn : p = q ∨ f + n ≤ linelen left A) :
    Runs (gvOne left m A c s p q f n)
      (fun m' => LHolds left m' A (if p = q then scaleB c p f (f + n) b else rotB c s p q f (f + n) b) ∧
        Frame A.foot m m') := by
  have hlen : (if left then A.cols else A.rows) = linelen left A := rfl
  unfold gvOne
  simp only [hlen]
  by_cases hf : f ≥ linelen left A
  · rw [if_pos hf]
    refine Runs.pure ⟨?_, Frame.refl _ _⟩
    intro i k hi hk
    rw [h i k hi hk]
    split
    · rw [scaleB, if_neg (by omega)]
    · rw [rotB, if_neg (by omega)]
  rw [if_neg hf]
  by_cases hpq : p = q
  · subst hpq
    rw [if_pos rfl, if_pos rfl]
    refine Runs.bind (P := fun r : Nat × Mem α => LHolds left r.2 A (scaleB c p f (f + n) b) ∧ Frame A.foot m r.2) ?_
      (fun r hr => Runs.pure hr)
    refine Runs.forUp1 (I := fun k m' => LHolds left m' A (scaleB c p f k b) ∧ Frame A.foot m m')
      (by omega) ⟨?_, Frame.refl _ _⟩ ?_ ?_
    · intro i k hi hk
      rw [h i k hi hk, scaleB, if_neg (by omega)]
    · rintro j m' hfj hj ⟨hL, hF⟩
      have hk : j < linelen left A := by omega
      have e0 := hL p j hp hk
      rw [scaleB, if_neg (by omega)] at e0
      refine Runs.rd_bind e0 (Runs.wr e0 ⟨?_, hF.trans (Frame.set (lineAt_mem hp hk) _)⟩)
      intro i k hi hk'
      by_cases he : i = p ∧ k = j
      · obtain ⟨rfl, rfl⟩ := he
        rw [Mem.set_same, scaleB, if_pos (by omega)]
      · rw [Mem.set_ne _ _ (fun e => he (lineAt_inj hw hi hk' hp hk e)), hL i k hi hk', scaleB, scaleB]
        by_cases hr : (f ≤ k ∧ k < j) ∧ i = p
        · rw [if_pos hr, if_pos (by omega)]
        · rw [if_neg hr, if_neg (by omega)]
    · rintro m' ⟨hL, hF⟩
      refine ⟨?_, hF⟩
      intro i k hi hk
      show m' _ = _
      rw [hL i k hi hk, scaleB, scaleB]
      by_cases hr : (f ≤ k ∧ k < f + n) ∧ i = p
      · rw [if_pos hr, if_pos (by omega)]
      · rw [if_neg hr, if_neg (by omega)]
  · rw [if_neg hpq, if_neg hpq]
    exact gvLine_spec c s hw h hp hq hpq (by omega)

theorem gvStep_spec {left : Bool} {m : Mem α} {A C S : View} {b : Nat → Nat → α} {c s : α} {n k : Nat}
    (hw : A.WF) (h : LHolds left m A b) (hc : m (C.vat n) = some c) (hs : m (S.vat n) = some s)
    (hk : k + 1 < nlines left A) :
    Runs (gvStep left A C S n k m)
      (fun m' => LHolds left m' A (rotB c s k (k + 1) 0 (linelen left A) b) ∧ Frame A.foot m m') := by
  refine Runs.rd_bind hc (Runs.rd_bind hs ?_)
  by_cases hid : c ≠ 1 ∨ s ≠ 0
  · rw [if_pos hid]
    have hs := gvLine_spec c s (f := 0) (n := linelen left A) hw h (p := k) (q := k + 1) (by omega) hk (by omega)
      (by omega)
    rw [Nat.zero_add] at hs
    exact hs
  · rw [if_neg hid]
    push Not at hid
    obtain ⟨rfl, rfl⟩ := hid
    refine Runs.pure ⟨?_, Frame.refl _ _⟩
    intro i l hi hl
    rw [h i l hi hl, rotB, if_pos (by omega)]
    split
    · subst_vars; simp
    · split
      · subst_vars; simp
      · rfl

end Armas
