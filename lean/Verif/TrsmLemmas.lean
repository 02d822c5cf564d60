import Verif.TrxmLemmas
import Mathlib.Tactic.LinearCombination

/-! # Specifications of the triangular solve with a matrix right hand side -/

namespace Armas

open Finset

variable {α : Type}

/-! ## Triangular systems have a solution -/

section existence
variable [Field α]

theorem lower_solvable (E : Nat → Nat → α) (b : Nat → α) : ∀ n, (∀ i, i < n → E i i ≠ 0) →
    ∃ z : Nat → α, ∀ i, i < n → ∑ k ∈ range i, E i k * z k + E i i * z i = b i := by
  intro n
  induction n with
  | zero => intro _; exact ⟨fun _ => 0, by intros; omega⟩
  | succ n ih =>
    intro h
    obtain ⟨z, hz⟩ := ih (fun i hi => h i (by omega))
    refine ⟨fun k => if k = n then (b n - ∑ k ∈ range n, E n k * z k) / E n n else z k, ?_⟩
    intro i hi
    have hs : ∀ j, j ≤ n → ∑ k ∈ range j, E i k * (if k = n then (b n - ∑ k ∈ range n, E n k * z k) / E n n
        else z k) = ∑ k ∈ range j, E i k * z k := by
      intro j hj
      refine Finset.sum_congr rfl (fun k hk => ?_)
      have := Finset.mem_range.mp hk
      rw [if_neg (by omega)]
    rw [hs i (by omega)]
    dsimp only
    by_cases e : i = n
    · subst e
      rw [if_pos rfl, mul_div_cancel₀ _ (h i (by omega))]
      ring
    · rw [if_neg e]; exact hz i (by omega)

theorem tri_solvable (fl : Flags) (a : Nat → Nat → α) (b : Nat → α) (n : Nat)
    (hnz : ∀ i, i < n → trE fl a i i ≠ 0) :
    ∃ z : Nat → α, ∀ i, i < n → ∑ k ∈ range n, trE fl a i k * z k = b i := by
  classical
  cases hup : fl.up
  · obtain ⟨z, hz⟩ := lower_solvable (trE fl a) b n hnz
    refine ⟨z, fun i hi => ?_⟩
    rw [← hz i hi, sum_lower (trE fl a) z (s := i + 1) (by omega) (fun k hk _ => trE_down hup a (by omega)),
      Finset.sum_range_succ]
  · obtain ⟨z, hz⟩ := lower_solvable (fun i k => trE fl a (n - 1 - i) (n - 1 - k)) (fun i => b (n - 1 - i)) n
      (fun i hi => hnz _ (by omega))
    refine ⟨fun k => z (n - 1 - k), fun i hi => ?_⟩
    have h1 := hz (n - 1 - i) (by omega)
    rw [show n - 1 - (n - 1 - i) = i by omega] at h1
    rw [← h1, ← Finset.sum_range_reflect,
      ← sum_lower (fun i' k => trE fl a i (n - 1 - k)) (fun k => z (n - 1 - (n - 1 - k))) (i := 0)
        (s := n - 1 - i + 1) (n := n) (by omega) (fun k hk _ => trE_up hup a (by omega)) |>.symm,
      Finset.sum_range_succ, show n - 1 - (n - 1 - (n - 1 - i)) = n - 1 - i by omega,
      show n - 1 - (n - 1 - i) = i by omega]
    congr 1
    refine Finset.sum_congr rfl (fun k hk => ?_)
    have := Finset.mem_range.mp hk
    rw [show n - 1 - (n - 1 - k) = k by omega]

end existence

section field
variable [Field α] [DecidableEq α]

theorem trsmFirst_spec {m : Mem α} {r : Bool} {B A : View} {p : Nat} {f : Nat → Nat → α} (alpha d : α)
    {unit : Bool} (hw : B.WF) (hB : Holds m B (opM r f)) (hp : p < B.nl r)
    (hu : unit = true → d = 1) (hA : unit = false → m (A.at' p p) = some d) :
    Runs (trsmFirst m (lines r B p 1) A alpha unit p) (fun m' =>
      Holds m' B (opM r (fun i q => if i = p then alpha / d * f p q else f i q)) ∧ Frame B.foot m m') := by
  unfold trsmFirst
  have : (if unit then pure alpha else do
      let d ← rd m (A.at' p p)
      pure (alpha / d)) = Res.ok (alpha / d) := by
    cases unit
    · simp [rd_ok (hA rfl)]
    · simp [hu rfl]
  rw [this, Res.ok_bind]
  exact lineScale _ hw hB hp

theorem trsmDiag_spec {m : Mem α} {r : Bool} {B A : View} {p : Nat} {f : Nat → Nat → α} (d : α)
    {unit : Bool} (hw : B.WF) (hB : Holds m B (opM r f)) (hp : p < B.nl r)
    (hu : unit = true → d = 1) (hA : unit = false → m (A.at' p p) = some d) :
    Runs (trsmDiag m (lines r B p 1) A unit p) (fun m' =>
      Holds m' B (opM r (fun i q => if i = p then f p q / d else f i q)) ∧ Frame B.foot m m') := by
  unfold trsmDiag
  cases unit
  · simp only [Bool.false_eq_true, if_false]
    rw [rd_ok (hA rfl), Res.ok_bind]
    unfold scaleUnsafe
    rw [if_pos line_isVec]
    refine (vecScale_spec (1 / d) line_isVec (lines_wf hw (by omega)) (le_refl _) (hB.line hp)).mono ?_
    rintro m' ⟨h, hf⟩
    refine ⟨(hB.setLine hw hp h hf).congr ?_, hf.mono (lines_foot (by omega))⟩
    intro i q hi hq
    cases r <;> simp only [opM, Bool.false_eq_true, if_true, if_false, line_size, View.wd]
    · by_cases e : i = p
      · rw [if_pos e, if_pos e, if_pos hq]; field_simp
      · rw [if_neg e, if_neg e]
    · by_cases e : q = p
      · rw [if_pos e, if_pos e, if_pos hi]; field_simp
      · rw [if_neg e, if_neg e]
  · refine Runs.pure ⟨hB.congr ?_, Frame.refl _ _⟩
    rw [hu rfl]
    have key : ∀ i q, f i q = if i = p then f p q / 1 else f i q := by
      intro i q; split
      · rename_i h; rw [h, div_one]
      · rfl
    intro i q _ _
    cases r <;> exact key _ _

/-- Lines in increasing order, lower triangular coefficients: the solution `g` is found. -/
theorem trsmUp_spec (ab : α → α) {env : Env} (hmin : env.blas2min ≠ 1) {fuel : Nat} {m : Mem α}
    {r : Bool} {B A : View} {f g E : Nat → Nat → α} {a1 : Nat → View} (alpha : α) {unit : Bool}
    (hw : B.WF) (hB : Holds m B (opM r f)) (hn : A.cols = B.nl r) (h0 : 0 < A.cols)
    (hf : B.wd r < fuel)
    (hg : ∀ i q, i < A.cols → q < B.wd r → ∑ k ∈ range i, E i k * g k q + E i i * g i q = alpha * f i q)
    (hnz : ∀ i, i < A.cols → E i i ≠ 0)
    (hu : ∀ i, i < A.cols → unit = true → E i i = 1)
    (hdg : ∀ i, i < A.cols → unit = false → m (A.at' i i) = some (E i i) ∧ A.at' i i ∉ B.foot)
    (ha : ∀ i, 0 < i → i < A.cols → HoldsV m (a1 i) (fun k => E i k) ∧ (a1 i).isVec ∧
      (a1 i).size = i ∧ Disjoint (a1 i).foot B.foot) :
    Runs (trsmUp ab env fuel r a1 m B alpha A unit) (fun m' =>
      Holds m' B (opM r g) ∧ Frame B.foot m m') := by
  unfold trsmUp
  rw [if_neg (by omega)]
  have cg : ∀ {m' : Mem α} {u v : Nat → Nat → α}, Holds m' B (opM r u) →
      (∀ i q, i < A.cols → q < B.wd r → u i q = v i q) → Holds m' B (opM r v) := by
    intro m' u v h e
    refine h.congr ?_
    intro i q hi hq
    cases r <;> simp only [View.nl, View.wd, Bool.false_eq_true, if_true, if_false] at hn e <;>
      simp only [opM, Bool.false_eq_true, if_true, if_false] <;> apply e <;> omega
  refine Runs.bind (trsmFirst_spec alpha (E 0 0) hw hB (p := 0) (by omega) (hu 0 h0)
    (fun h => (hdg 0 h0 h).1)) ?_
  rintro m1 ⟨h1, h2⟩
  refine Runs.bind (Runs.forUp1 (fun j m' => Holds m' B (opM r (fun p q => if p < j then g p q else f p q)) ∧
    Frame B.foot m m') (by omega) ⟨cg h1 ?_, h2⟩ ?_
    (Q := fun p => Holds p.2 B (opM r g) ∧ Frame B.foot m p.2)
    (fun m' h => ⟨cg h.1 (fun i q hi _ => if_pos hi), h.2⟩)) (fun p hp => Runs.pure hp)
  · intro i q hi hq
    by_cases e : i = 0
    · subst e
      rw [if_pos rfl, if_pos (by omega)]
      have := hg 0 q h0 hq
      simp only [Finset.range_zero, Finset.sum_empty, zero_add] at this
      have hz := hnz 0 h0
      field_simp
      rw [← this]
    · rw [if_neg e, if_neg (by omega)]
  · rintro j m2 hj1 hj ⟨h3, h4⟩
    obtain ⟨hx, hv, hs, hd⟩ := ha j (by omega) hj
    refine Runs.bind (lineGemv ab hmin alpha (-1) hw h3 (hx.frame hv h4 hd) hv hs hd (p := j) (s := 0)
      (by omega) (by omega) (by omega) (by omega) hf) ?_
    rintro m3 ⟨h5, h6⟩
    refine (trsmDiag_spec (E j j) hw h5 (p := j) (by omega) (hu j hj) (fun h => ?_)).mono ?_
    · rw [(h4.trans h6) _ (hdg j hj h).2]; exact (hdg j hj h).1
    · rintro m4 ⟨h7, h8⟩
      refine ⟨cg h7 ?_, (h4.trans h6).trans h8⟩
      intro i q hi hq
      by_cases e : i = j
      · subst e
        rw [if_pos rfl, if_pos rfl, if_neg (by omega), if_pos (by omega)]
        have h9 := hg i q hi hq
        have hz := hnz i hi
        rw [div_eq_iff hz]
        have : ∑ k ∈ range i, (if 0 + k < i then g (0 + k) q else f (0 + k) q) * E i k =
            ∑ k ∈ range i, E i k * g k q := by
          refine Finset.sum_congr rfl (fun k hk => ?_)
          have := Finset.mem_range.mp hk
          rw [if_pos (by omega), Nat.zero_add, mul_comm]
        rw [this, ← h9]; ring
      · rw [if_neg e, if_neg e]
        by_cases h : i < j
        · rw [if_pos h, if_pos (by omega)]
        · rw [if_neg h, if_neg (by omega)]

/-- Lines in decreasing order, upper triangular coefficients. -/
theorem trsmDown_spec (ab : α → α) {env : Env} (hmin : env.blas2min ≠ 1) {fuel : Nat} {m : Mem α}
    {r : Bool} {B A : View} {f g E : Nat → Nat → α} {a1 : Nat → View} (alpha : α) {unit : Bool}
    (hw : B.WF) (hB : Holds m B (opM r f)) (hn : A.cols = B.nl r) (h0 : 0 < A.cols)
    (hf : B.wd r < fuel)
    (hg : ∀ i q, i < A.cols → q < B.wd r →
      ∑ k ∈ range (A.cols - 1 - i), E i (i + 1 + k) * g (i + 1 + k) q + E i i * g i q = alpha * f i q)
    (hnz : ∀ i, i < A.cols → E i i ≠ 0)
    (hu : ∀ i, i < A.cols → unit = true → E i i = 1)
    (hdg : ∀ i, i < A.cols → unit = false → m (A.at' i i) = some (E i i) ∧ A.at' i i ∉ B.foot)
    (ha : ∀ i, i < A.cols - 1 → HoldsV m (a1 i) (fun k => E i (i + 1 + k)) ∧ (a1 i).isVec ∧
      (a1 i).size = A.cols - 1 - i ∧ Disjoint (a1 i).foot B.foot) :
    Runs (trsmDown ab env fuel r a1 m B alpha A unit) (fun m' =>
      Holds m' B (opM r g) ∧ Frame B.foot m m') := by
  unfold trsmDown
  rw [if_neg (by omega)]
  have cg : ∀ {m' : Mem α} {u v : Nat → Nat → α}, Holds m' B (opM r u) →
      (∀ i q, i < A.cols → q < B.wd r → u i q = v i q) → Holds m' B (opM r v) := by
    intro m' u v h e
    refine h.congr ?_
    intro i q hi hq
    cases r <;> simp only [View.nl, View.wd, Bool.false_eq_true, if_true, if_false] at hn e <;>
      simp only [opM, Bool.false_eq_true, if_true, if_false] <;> apply e <;> omega
  refine Runs.bind (trsmFirst_spec alpha (E (A.cols - 1) (A.cols - 1)) hw hB (p := A.cols - 1) (by omega)
    (hu _ (by omega)) (fun h => (hdg _ (by omega) h).1)) ?_
  rintro m1 ⟨h1, h2⟩
  refine (Runs.forDown (fun j m' => Holds m' B (opM r (fun p q => if j ≤ p then g p q else f p q)) ∧
    Frame B.foot m m') ⟨cg h1 ?_, h2⟩ ?_
    (Q := fun m' => Holds m' B (opM r g) ∧ Frame B.foot m m')
    (fun m' h => ⟨cg h.1 (fun i q hi _ => if_pos (Nat.zero_le _)), h.2⟩))
  · intro i q hi hq
    by_cases e : i = A.cols - 1
    · subst e
      rw [if_pos rfl, if_pos (le_refl _)]
      have := hg _ q hi hq
      rw [show A.cols - 1 - (A.cols - 1) = 0 by omega] at this
      simp only [Finset.range_zero, Finset.sum_empty, zero_add] at this
      have hz := hnz _ hi
      field_simp
      rw [← this]
    · rw [if_neg e, if_neg (by omega)]
  · rintro j m2 hj ⟨h3, h4⟩
    obtain ⟨hx, hv, hs, hd⟩ := ha j (by omega)
    refine Runs.bind (lineGemv ab hmin alpha (-1) hw h3 (hx.frame hv h4 hd) hv hs hd (p := j) (s := j + 1)
      (by omega) (by omega) (by omega) (by omega) hf) ?_
    rintro m3 ⟨h5, h6⟩
    refine (trsmDiag_spec (E j j) hw h5 (p := j) (by omega) (hu j (by omega)) (fun h => ?_)).mono ?_
    · rw [(h4.trans h6) _ (hdg j (by omega) h).2]; exact (hdg j (by omega) h).1
    · rintro m4 ⟨h7, h8⟩
      refine ⟨cg h7 ?_, (h4.trans h6).trans h8⟩
      intro i q hi hq
      by_cases e : i = j
      · subst e
        rw [if_pos rfl, if_pos rfl, if_neg (by omega), if_pos (le_refl _)]
        have h9 := hg i q hi hq
        have hz := hnz i hi
        rw [div_eq_iff hz]
        have : ∑ k ∈ range (A.cols - 1 - i), (if i + 1 ≤ i + 1 + k then g (i + 1 + k) q else f (i + 1 + k) q) *
            E i (i + 1 + k) = ∑ k ∈ range (A.cols - 1 - i), E i (i + 1 + k) * g (i + 1 + k) q := by
          refine Finset.sum_congr rfl (fun k hk => ?_)
          rw [if_pos (by omega), mul_comm]
        rw [this, ← h9]; ring
      · rw [if_neg e, if_neg e]
        by_cases h : j + 1 ≤ i
        · rw [if_pos h, if_pos (by omega)]
        · rw [if_neg h, if_neg (by omega)]

/-- `g` solves the system for the right hand side `alpha*f`. -/
def TrSol (fl : Flags) (alpha : α) (n w : Nat) (a f g : Nat → Nat → α) : Prop :=
  ∀ i q, i < n → q < w → ∑ k ∈ range n, trE fl a i k * g k q = alpha * f i q

theorem trsmUnb_spec (ab : α → α) {env : Env} (hmin : env.blas2min ≠ 1) {fuel : Nat} {m : Mem α}
    {B A : View} {f g a : Nat → Nat → α} (alpha : α) {fl : Flags} (hfl : fl.lower = !fl.upper)
    (hw : B.WF) (hB : Holds m B (opM fl.right f)) (hn : A.cols = B.nl fl.right) (hsq : A.rows = A.cols)
    (h0 : 0 < A.cols) (hf : B.wd fl.right < fuel)
    (hA : HoldsOn m A (InTri fl.upper fl.unit) a)
    (hd : Disjoint (A.footOn (InTri fl.upper fl.unit)) B.foot)
    (hg : TrSol fl alpha A.cols (B.wd fl.right) a f g) (hnz : ∀ i, i < A.cols → trE fl a i i ≠ 0) :
    Runs (trsmUnb ab env fuel m B alpha A fl) (fun m' =>
      Holds m' B (opM fl.right g) ∧ Frame B.foot m m') := by
  have hu : ∀ i, i < A.cols → fl.unit = true → trE fl a i i = 1 := by
    intro i _ h; rw [trE_diag, h]; simp
  have hdg : ∀ i, i < A.cols → fl.unit = false → m (A.at' i i) = some (trE fl a i i) ∧ A.at' i i ∉ B.foot := by
    intro i hi h
    have hin : InTri fl.upper fl.unit i i := by unfold InTri; rw [h]; simp
    refine ⟨?_, fun hm => Set.disjoint_left.mp hd ⟨i, i, by omega, hi, hin, rfl⟩ hm⟩
    rw [hA i i (by omega) hi hin, trE_diag, h]; simp
  have hup : fl.up = true → ∀ i, i < A.cols - 1 →
      HoldsV m (if fl.right ^^ fl.transA then A.sub (i + 1) i (A.cols - 1 - i) 1 else
        A.sub i (i + 1) 1 (A.cols - 1 - i)) (fun k => trE fl a i (i + 1 + k)) ∧
      (if fl.right ^^ fl.transA then A.sub (i + 1) i (A.cols - 1 - i) 1 else
        A.sub i (i + 1) 1 (A.cols - 1 - i)).isVec ∧
      (if fl.right ^^ fl.transA then A.sub (i + 1) i (A.cols - 1 - i) 1 else
        A.sub i (i + 1) 1 (A.cols - 1 - i)).size = A.cols - 1 - i ∧
      Disjoint (if fl.right ^^ fl.transA then A.sub (i + 1) i (A.cols - 1 - i) 1 else
        A.sub i (i + 1) 1 (A.cols - 1 - i)).foot B.foot := by
    intro h i hi
    refine ⟨offVec hA (by simp [h]) (by split <;> omega) (by split <;> omega),
      by split <;> simp [View.isVec], by split <;> simp, hd.mono_left (offFoot (by simp [h]) ?_ ?_)⟩ <;>
      split <;> omega
  have hdn : fl.up = false → ∀ i, 0 < i → i < A.cols →
      HoldsV m (if fl.right ^^ fl.transA then A.sub 0 i i 1 else A.sub i 0 1 i) (fun k => trE fl a i k) ∧
      (if fl.right ^^ fl.transA then A.sub 0 i i 1 else A.sub i 0 1 i).isVec ∧
      (if fl.right ^^ fl.transA then A.sub 0 i i 1 else A.sub i 0 1 i).size = i ∧
      Disjoint (if fl.right ^^ fl.transA then A.sub 0 i i 1 else A.sub i 0 1 i).foot B.foot := by
    intro h i _ hi
    refine ⟨(offVec hA (k := 0) (n := i) (by simp [h]) (by split <;> omega) (by split <;> omega)).congr
      (by intros; simp),
      by split <;> simp [View.isVec], by split <;> simp, hd.mono_left (offFoot (by simp [h]) ?_ ?_)⟩ <;>
      split <;> omega
  have D : fl.up = true → Runs (trsmDown ab env fuel fl.right (fun i => if fl.right ^^ fl.transA then
      A.sub (i + 1) i (A.cols - 1 - i) 1 else A.sub i (i + 1) 1 (A.cols - 1 - i)) m B alpha A fl.unit) (fun m' =>
      Holds m' B (opM fl.right g) ∧ Frame B.foot m m') := fun h =>
    trsmDown_spec ab hmin alpha hw hB hn h0 hf (fun i q hi hq => by
      rw [← hg i q hi hq, sumUp h a (fun k => g k q) (p := i) (n1 := 1) (n := A.cols) (i := i) (by omega) (by omega), add_comm,
        show A.cols - i - 1 = A.cols - 1 - i by omega]
      simp) hnz hu hdg (hup h)
  have U : fl.up = false → Runs (trsmUp ab env fuel fl.right (fun i => if fl.right ^^ fl.transA then
      A.sub 0 i i 1 else A.sub i 0 1 i) m B alpha A fl.unit) (fun m' =>
      Holds m' B (opM fl.right g) ∧ Frame B.foot m m') := fun h =>
    trsmUp_spec ab hmin alpha hw hB hn h0 hf (fun i q hi hq => by
      rw [← hg i q hi hq, sumDown h a (fun k => g k q) (p := i) (n1 := 1) (n := A.cols) (i := i) (by omega) (by omega), add_comm]
      simp) hnz hu hdg (hdn h)
  unfold trsmUnb
  unfold Flags.up at U D
  clear hup hdn
  generalize (fun m' => Holds m' B (opM fl.right g) ∧ Frame B.foot m m') = Q at *
  revert U D
  rw [hfl]
  cases fl.right <;> cases fl.upper <;> cases fl.transA <;> intro U D <;>
    first
    | (replace U := U rfl
       simp only [Bool.xor_self, Bool.xor_false, Bool.xor_true, Bool.not_true, Bool.not_false,
         Bool.false_eq_true, if_true, if_false] at U ⊢; exact U)
    | (replace D := D rfl
       simp only [Bool.xor_self, Bool.xor_false, Bool.xor_true, Bool.not_true, Bool.not_false,
         Bool.false_eq_true, if_true, if_false] at D ⊢; exact D)

/-! ## Recursive version -/

theorem trsmUnb_left (ab : α → α) (env : Env) (fuel : Nat) (m : Mem α) (B : View) (alpha : α) (A : View)
    (fl : Flags) (x : Bool) :
    trsmUnb ab env fuel m B alpha A { fl with right := fl.right || fl.right, left := x } =
      trsmUnb ab env fuel m B alpha A fl := by
  simp only [trsmUnb, Bool.or_self]

theorem trsmFwdRec_spec (ab : α → α) {env : Env} (hmin : 2 ≤ env.blas2min) {c : Cache} (alpha : α) {fl : Flags}
    (hfl : fl.lower = !fl.upper) (hup : fl.up = false) :
    ∀ (fuel : Nat) {m : Mem α} {B A : View} {f g a : Nat → Nat → α},
      TrPre c m B A f a fl → A.cols + B.wd fl.right < fuel → (alpha = 1 ∨ A.cols < env.blas2min) →
      TrSol fl alpha A.cols (B.wd fl.right) a f g → (∀ i, i < A.cols → trE fl a i i ≠ 0) →
      Runs (trsmFwdRec ab env fl.right alpha fl c fuel m B A) (TrMid c m B fl.right g) := by
  intro fuel
  induction fuel with
  | zero => intro m B A f g a _ h; omega
  | succ fuel ih =>
    intro m B A f g a H hf hal hg hnz
    have h0 := H.h0
    unfold trsmFwdRec
    by_cases hlt : A.cols < env.blas2min
    · rw [if_pos hlt, trsmUnb_left]
      refine (trsmUnb_spec ab (by omega) alpha hfl H.wf H.hB H.hn H.hsq H.h0 (by omega) H.hA H.dAB hg
        hnz).mono ?_
      rintro m' ⟨h1, h2⟩
      exact ⟨h1, h2.mono Set.subset_union_left, H.ready.frame h2 H.dBc.symm⟩
    · rw [if_neg hlt]
      obtain rfl : alpha = 1 := hal.resolve_right hlt
      dsimp only
      rw [partLines_fwd (by rw [← H.hn]; omega)]
      simp only [partition2x2, H.hsq, ← H.hn]
      obtain ⟨n1, hn1⟩ : ∃ n1, A.cols / 2 = n1 := ⟨_, rfl⟩
      rw [hn1]
      have Hb := H.block H.init (p := 0) (n1 := n1) (g' := f) (by omega) (by omega)
        (fun i q _ => by rw [Nat.zero_add])
      refine Runs.bind (ih (g := g) Hb (by simp; omega) (Or.inl rfl) ?_ ?_) (fun m1 hm => ?_)
      · intro i q hi hq
        simp only [View.sub_cols, lines_wd] at hi hq
        rw [← hg i q (by omega) hq, sumDown hup a (fun k => g k q) (p := 0) (n1 := n1) (by omega) (by omega)]
        simp [View.sub]
      · intro i hi
        simp only [View.sub_cols] at hi
        simpa using hnz i (by omega)
      have h1 := H.absorb H.init (by omega) hm
      have := H.off ab h1 (p := n1) (n1 := A.cols - n1) (s := 0) (n0 := n1) (-1)
        (trans := if fl.upper then !fl.right else fl.right) (by omega) (by omega) (by simp [hup]) (by
          revert hup; unfold Flags.up
          cases fl.right <;> cases fl.upper <;> cases fl.transA <;> simp)
      refine Runs.bind (P := TrMid c m B fl.right (fun i q => if i < n1 then g i q else
        f i q + -1 * ∑ k ∈ range n1, trE fl a i k * g k q)) ?_ (fun m2 h2 => ?_)
      · replace this := this.mono (fun m2 h2 => h2.congr (h := fun i q => if i < n1 then g i q else
          f i q + -1 * ∑ k ∈ range n1, trE fl a i k * g k q) (fun i q hi _ => ?_))
        · revert this hup
          unfold Flags.up
          generalize TrMid c m B fl.right _ = Q
          cases fl.right <;> cases fl.upper <;> cases fl.transA <;> intro hup this <;>
            first
            | exact absurd hup (by decide)
            | (simp only [Bool.xor_self, Bool.xor_false, Bool.xor_true, Bool.not_true, Bool.not_false,
                Bool.false_eq_true, if_true, if_false] at this ⊢; exact this)
        · rw [← H.hn] at hi
          by_cases e : i < n1
          · rw [if_neg (by omega), if_pos (by omega), if_pos e]; simp
          · rw [if_pos (by omega), if_neg (by omega), if_neg e]
            congr 2
            refine Finset.sum_congr rfl (fun k hk => ?_)
            have := Finset.mem_range.mp hk
            rw [if_pos (by omega)]
            simp
      · have Hb2 := H.block h2 (p := n1) (n1 := A.cols - n1)
          (g' := fun i q => f (n1 + i) q + -1 * ∑ k ∈ range n1, trE fl a (n1 + i) k * g k q) (by omega) (by omega)
          (fun i q _ => by rw [if_neg (by omega)])
        refine (ih (g := fun i q => g (n1 + i) q) Hb2 (by simp; omega) (Or.inl rfl) ?_ ?_).mono
          (fun m3 h3 => (H.absorb h2 (by omega) h3).congr ?_)
        · intro i q hi hq
          simp only [View.sub_cols, lines_wd] at hi hq
          have h9 := hg (n1 + i) q (by omega) hq
          rw [sumDown hup a (fun k => g k q) (p := n1) (n1 := A.cols - n1) (by omega) (by omega)] at h9
          simp only [View.sub_cols, trE_shift]
          linear_combination h9
        · intro i hi
          simp only [View.sub_cols] at hi
          rw [trE_shift]; exact hnz _ (by omega)
        · intro i q hi _
          rw [← H.hn] at hi
          by_cases e : i < n1
          · rw [if_neg (by omega), if_pos e]
          · rw [if_pos (by omega), show n1 + (i - n1) = i by omega]

theorem trsmBwdRec_spec (ab : α → α) {env : Env} (hmin : 2 ≤ env.blas2min) {c : Cache} (alpha : α) {fl : Flags}
    (hfl : fl.lower = !fl.upper) (hup : fl.up = true) :
    ∀ (fuel : Nat) {m : Mem α} {B A : View} {f g a : Nat → Nat → α},
      TrPre c m B A f a fl → A.cols + B.wd fl.right < fuel → (alpha = 1 ∨ A.cols < env.blas2min) →
      TrSol fl alpha A.cols (B.wd fl.right) a f g → (∀ i, i < A.cols → trE fl a i i ≠ 0) →
      Runs (trsmBwdRec ab env fl.right alpha fl c fuel m B A) (TrMid c m B fl.right g) := by
  intro fuel
  induction fuel with
  | zero => intro m B A f g a _ h; omega
  | succ fuel ih =>
    intro m B A f g a H hf hal hg hnz
    have h0 := H.h0
    unfold trsmBwdRec
    by_cases hlt : A.cols < env.blas2min
    · rw [if_pos hlt, trsmUnb_left]
      refine (trsmUnb_spec ab (by omega) alpha hfl H.wf H.hB H.hn H.hsq H.h0 (by omega) H.hA H.dAB hg
        hnz).mono ?_
      rintro m' ⟨h1, h2⟩
      exact ⟨h1, h2.mono Set.subset_union_left, H.ready.frame h2 H.dBc.symm⟩
    · rw [if_neg hlt]
      obtain rfl : alpha = 1 := hal.resolve_right hlt
      dsimp only
      rw [partLines_bwd (by rw [← H.hn]; omega)]
      simp only [partition2x2, H.hsq, ← H.hn]
      obtain ⟨n1, hn1⟩ : ∃ n1, A.cols / 2 = n1 := ⟨_, rfl⟩
      obtain ⟨p, hp⟩ : ∃ p, A.cols - n1 = p := ⟨_, rfl⟩
      rw [hn1, hp]
      have Hb := H.block H.init (p := p) (n1 := n1) (g' := fun i q => f (p + i) q) (by omega) (by omega)
        (fun i q _ => rfl)
      refine Runs.bind (ih (g := fun i q => g (p + i) q) Hb (by simp; omega) (Or.inl rfl) ?_ ?_) (fun m1 hm => ?_)
      · intro i q hi hq
        simp only [View.sub_cols, lines_wd] at hi hq
        have h9 := hg (p + i) q (by omega) hq
        rw [sumUp hup a (fun k => g k q) (p := p) (n1 := n1) (by omega) (by omega),
          show A.cols - p - n1 = 0 by omega] at h9
        simp only [View.sub_cols, trE_shift]
        simpa using h9
      · intro i hi
        simp only [View.sub_cols] at hi
        rw [trE_shift]; exact hnz _ (by omega)
      have h1 := H.absorb H.init (by omega) hm
      have := H.off ab h1 (p := 0) (n1 := p) (s := p) (n0 := n1) (-1)
        (trans := if fl.upper then fl.right else !fl.right) (by omega) (by omega) (by simp [hup]) (by
          revert hup; unfold Flags.up
          cases fl.right <;> cases fl.upper <;> cases fl.transA <;> simp)
      refine Runs.bind (P := TrMid c m B fl.right (fun i q => if p ≤ i then g i q else
        f i q + -1 * ∑ k ∈ range n1, trE fl a i (p + k) * g (p + k) q)) ?_ (fun m2 h2 => ?_)
      · replace this := this.mono (fun m2 h2 => h2.congr (h := fun i q => if p ≤ i then g i q else
          f i q + -1 * ∑ k ∈ range n1, trE fl a i (p + k) * g (p + k) q) (fun i q hi _ => ?_))
        · revert this hup
          unfold Flags.up
          generalize TrMid c m B fl.right _ = Q
          cases fl.right <;> cases fl.upper <;> cases fl.transA <;> intro hup this <;>
            first
            | exact absurd hup (by decide)
            | (simp only [Bool.xor_self, Bool.xor_false, Bool.xor_true, Bool.not_true, Bool.not_false,
                Bool.false_eq_true, if_true, if_false] at this ⊢; exact this)
        · rw [← H.hn] at hi
          by_cases e : p ≤ i
          · rw [if_neg (by omega), if_pos (by omega), if_pos e, show p + (i - p) = i by omega]
          · rw [if_pos (by omega), if_neg (by omega), if_neg e]
            congr 2
            refine Finset.sum_congr rfl (fun k hk => ?_)
            have := Finset.mem_range.mp hk
            rw [if_pos (by omega), Nat.add_sub_cancel_left]
      · have Hb2 := H.block h2 (p := 0) (n1 := p)
          (g' := fun i q => f i q + -1 * ∑ k ∈ range n1, trE fl a i (p + k) * g (p + k) q) (by omega) (by omega)
          (fun i q _ => by rw [if_neg (by omega), Nat.zero_add])
        refine (ih (g := g) Hb2 (by simp; omega) (Or.inl rfl) ?_ ?_).mono
          (fun m3 h3 => (H.absorb h2 (by omega) h3).congr ?_)
        · intro i q hi hq
          simp only [View.sub_cols, lines_wd] at hi hq
          have h9 := hg i q (by omega) hq
          rw [sumUp hup a (fun k => g k q) (p := 0) (n1 := p) (by omega) (by omega),
            show A.cols - 0 - p = n1 by omega] at h9
          simp only [View.sub_cols, Nat.zero_add] at h9 ⊢
          linear_combination h9
        · intro i hi
          simp only [View.sub_cols] at hi
          simpa using hnz i (by omega)
        · intro i q hi _
          rw [← H.hn] at hi
          by_cases e : p ≤ i
          · rw [if_neg (by omega), if_pos e]
          · rw [if_pos (by omega)]; simp

theorem trsmRecursive_spec (ab : α → α) {env : Env} (hmin : 2 ≤ env.blas2min) {c : Cache} (alpha : α) {fl : Flags}
    (hfl : fl.lower = !fl.upper) {fuel : Nat} {m : Mem α} {B A : View} {f g a : Nat → Nat → α}
    (H : TrPre c m B A f a fl) (hf : A.cols + B.wd fl.right < fuel) (hal : alpha = 1 ∨ A.cols < env.blas2min)
    (hg : TrSol fl alpha A.cols (B.wd fl.right) a f g) (hnz : ∀ i, i < A.cols → trE fl a i i ≠ 0) :
    Runs (trsmRecursive ab env fuel m B alpha A fl c) (TrMid c m B fl.right g) := by
  have h1 : fl.up = true → _ := fun hup => trsmBwdRec_spec ab hmin alpha hfl hup fuel H hf hal hg hnz
  have h2 : fl.up = false → _ := fun hup => trsmFwdRec_spec ab hmin alpha hfl hup fuel H hf hal hg hnz
  unfold trsmRecursive
  revert h1 h2
  rw [hfl]
  unfold Flags.up
  generalize TrMid c m B fl.right g = Q
  cases fl.right <;> cases fl.upper <;> cases fl.transA <;> intro h1 h2 <;>
    first
    | (replace h1 := h1 rfl
       simp only [Bool.not_true, Bool.not_false] at h1 ⊢; exact h1)
    | (replace h2 := h2 rfl
       simp only [Bool.not_true, Bool.not_false] at h2 ⊢; exact h2)

/-! ## Blocked version -/

/-- The kernel uses of its second operand only the address and the stride. -/
theorem multKernel_dims (ab : α → α) (m : Mem α) (beta : α) (C : View) (alpha : α) (A V : View)
    (r c nr nc nr' nc' : Nat) (fl : Flags) (ca : Cache) :
    multKernel ab m beta C alpha A (V.sub r c nr nc) fl ca =
      multKernel ab m beta C alpha A (V.sub r c nr' nc') fl ca := rfl

theorem trsmUpdate_spec (ab : α → α) {c : Cache} {m : Mem α} {fl : Flags} {transB : Bool} {B A0 : View}
    {g e : Nat → Nat → α} {p n1 s n0 : Nat} (alpha : α)
    (htb : fl.transB = false) (hfa : fl.absA = false) (hfb : fl.absB = false)
    (hw : B.WF) (hc : c.Ready m) (hB : Holds m B (opM fl.right g)) {x : Bool}
    (hx : x = if fl.right then !transB else fl.transA)
    (hA : Holds m A0 (opM x e))
    (hr : A0.rows = if x then n0 else n1) (hcl : A0.cols = if x then n1 else n0)
    (hp : p + n1 ≤ B.nl fl.right) (hs : s + n0 ≤ B.nl fl.right) (hps : p + n1 ≤ s ∨ s + n0 ≤ p)
    (hdA : Disjoint A0.foot c.foot) (hdAB : Disjoint A0.foot B.foot) (hdB : Disjoint B.foot c.foot) :
    Runs (trsmUpdate ab fl.right m alpha (lines fl.right B p n1) A0 (lines fl.right B s n0) transB fl c) (fun m' =>
      Holds m' B (opM fl.right (fun i q => if p ≤ i ∧ i < p + n1 then
        alpha * g i q + -1 * ∑ k ∈ range n0, e (i - p) k * g (s + k) q else g i q)) ∧
      Frame (B.foot ∪ c.foot) m m' ∧ c.Ready m') := by
  have hl1 : (lines fl.right B p n1).foot ⊆ B.foot := lines_foot hp
  have hl0 : (lines fl.right B s n0).foot ⊆ B.foot := lines_foot hs
  have fin : ∀ m', Holds m' (lines fl.right B p n1) (opM fl.right (fun i q => alpha * g (p + i) q +
      -1 * ∑ k ∈ range n0, e i k * g (s + k) q)) → Frame ((lines fl.right B p n1).foot ∪ c.foot) m m' →
      c.Ready m' →
      Holds m' B (opM fl.right (fun i q => if p ≤ i ∧ i < p + n1 then
        alpha * g i q + -1 * ∑ k ∈ range n0, e (i - p) k * g (s + k) q else g i q)) ∧
      Frame (B.foot ∪ c.foot) m m' ∧ c.Ready m' := by
    intro m' h1 h2 h3
    refine ⟨(hB.setLines hw hp h1 h2 hdB).congr ?_, h2.mono (Set.union_subset_union_left _ hl1), h3⟩
    have key : ∀ i q, (if p ≤ i ∧ i < p + n1 then alpha * g (p + (i - p)) q + -1 * ∑ k ∈ range n0,
        e (i - p) k * g (s + k) q else g i q) = if p ≤ i ∧ i < p + n1 then alpha * g i q + -1 * ∑ k ∈ range n0,
        e (i - p) k * g (s + k) q else g i q := by
      intro i q
      by_cases h : p ≤ i ∧ i < p + n1
      · rw [if_pos h, if_pos h, show p + (i - p) = i by omega]
      · rw [if_neg h, if_neg h]
    intro i q _ _
    unfold opM
    split <;> exact key _ _
  have h1 := hB.lines (p := p) (n := n1) hp
  have h0 := hB.lines (p := s) (n := n0) hs
  have hw1 := lines_wf (r := fl.right) hw hp
  have d10 := lines_disj (r := fl.right) hw hs hp (by omega)
  unfold trsmUpdate
  clear hl1 hl0
  have hl1 : (lines fl.right B p n1).foot ⊆ B.foot := lines_foot hp
  have hl0 : (lines fl.right B s n0).foot ⊆ B.foot := lines_foot hs
  revert fin h1 h0 hw1 d10 hl1 hl0 hx
  generalize fl.right = r
  cases r <;> intro hx fin h1 h0 hw1 d10 hl1 hl0 <;>
    simp only [Bool.false_eq_true, if_true, if_false] at hx ⊢
  · refine (multKernel_spec ab fl alpha (-1) hw1 hc hA h0 h1 hdA
      (hdB.mono_left hl0) (hdB.mono_left hl1) (hdAB.mono_right hl1) d10 ?_ ?_ ?_).mono ?_
    · rw [hr, hcl, hx]; cases fl.transA <;> simp [lines]
    · rw [htb]; simp [lines]
    · rw [hr, hcl, htb, hx]; cases fl.transA <;> simp [lines]
    · rintro m' ⟨k1, k2, k3⟩
      refine fin m' (k1.congr ?_) k2 k3
      intro i q _ _
      simp only [Flags.elt_id hfa hfb]
      rw [hr, hcl, htb, hx]
      cases fl.transA <;> simp [opM]
  · refine (multKernel_spec ab {transB := transB} alpha (-1) hw1 hc h0 hA h1
      (hdB.mono_left hl0) hdA (hdB.mono_left hl1) d10 (hdAB.mono_right hl1) ?_ ?_ ?_).mono ?_
    · simp [lines]
    · rw [hr, hcl, hx]; cases transB <;> simp [lines]
    · rw [hr, hcl, hx]; cases transB <;> simp [lines]
    · rintro m' ⟨k1, k2, k3⟩
      refine fin m' (k1.congr ?_) k2 k3
      intro i q _ _
      rw [hx]
      cases transB <;> simp [opM, Flags.elt, lines, mul_comm]

/-- The update of a block of lines from lines that hold the solution. -/
theorem TrPre.update (ab : α → α) {c : Cache} {m m' : Mem α} {B A : View} {f a g : Nat → Nat → α} {fl : Flags}
    (H : TrPre c m B A f a fl) (h : TrMid c m B fl.right g m') {p n1 s n0 : Nat} {transB : Bool} (alpha : α)
    (htb : fl.transB = false) (hfa : fl.absA = false) (hfb : fl.absB = false)
    (hp : p + n1 ≤ A.cols) (hs : s + n0 ≤ A.cols)
    (hps : if fl.up then p + n1 ≤ s else s + n0 ≤ p)
    (hx : (fl.right ^^ fl.transA) = if fl.right then !transB else fl.transA) :
    Runs (trsmUpdate ab fl.right m' alpha (lines fl.right B p n1)
        (if fl.right ^^ fl.transA then A.sub s p n0 n1 else A.sub p s n1 n0) (lines fl.right B s n0) transB fl c)
      (TrMid c m B fl.right (fun i q => if p ≤ i ∧ i < p + n1 then
        alpha * g i q + -1 * ∑ k ∈ range n0, trE fl a i (s + k) * g (s + k) q else g i q)) := by
  have hi : (if fl.right ^^ fl.transA then s + n0 else p + n1) ≤ A.rows := by
    have := H.hsq; split <;> omega
  have hj : (if fl.right ^^ fl.transA then p + n1 else s + n0) ≤ A.cols := by split <;> omega
  have hft : (if fl.right ^^ fl.transA then A.sub s p n0 n1 else A.sub p s n1 n0).foot ⊆
      A.footOn (InTri fl.upper fl.unit) := offFoot hps hi hj
  refine (trsmUpdate_spec ab alpha htb hfa hfb H.wf h.ready h.hold hx (offHolds (H.holdsA h) hps hi hj)
    (by split <;> simp) (by split <;> simp)
    (by rw [← H.hn]; omega) (by rw [← H.hn]; omega) (by revert hps; split <;> omega)
    (H.dAc.mono_left hft) (H.dAB.mono_left hft) H.dBc).mono ?_
  rintro m2 ⟨k1, k2, k3⟩
  refine TrMid.congr ⟨k1, h.frame.trans k2, k3⟩ ?_
  intro i q _ _
  by_cases e : p ≤ i ∧ i < p + n1
  · rw [if_pos e, if_pos e, show p + (i - p) = i by omega]
  · rw [if_neg e, if_neg e]

/-- The recursive solve in the blocked functions, which add the side flag. -/
theorem trsmRecursive_spec' (ab : α → α) {env : Env} (hmin : 2 ≤ env.blas2min) {c : Cache} (alpha : α) {fl : Flags}
    (hfl : fl.lower = !fl.upper) {fuel : Nat} {m : Mem α} {B A : View} {f g a : Nat → Nat → α}
    (H : TrPre c m B A f a fl) (hf : A.cols + B.wd fl.right < fuel) (hal : alpha = 1 ∨ A.cols < env.blas2min)
    (hg : TrSol fl alpha A.cols (B.wd fl.right) a f g) (hnz : ∀ i, i < A.cols → trE fl a i i ≠ 0) (x : Bool) :
    Runs (trsmRecursive ab env fuel m B alpha A { fl with right := fl.right || fl.right, left := x } c)
      (TrMid c m B fl.right g) := by
  rw [Bool.or_self]
  exact trsmRecursive_spec (fl := { fl with left := x }) ab hmin alpha hfl
    ⟨H.wf, H.ready, H.rb, H.hB, H.hn, H.hsq, H.h0, H.hA, H.dAB, H.dAc, H.dBc⟩ hf hal hg hnz

theorem trsmBlkUp_spec (ab : α → α) {env : Env} (hmin : 2 ≤ env.blas2min) {c : Cache} (alpha : α) {fl : Flags}
    (hfl : fl.lower = !fl.upper) (hup : fl.up = false)
    (htb : fl.transB = false) (hfa : fl.absA = false) (hfb : fl.absB = false)
    {fuel : Nat} {m : Mem α} {B A : View} {f g a : Nat → Nat → α}
    (H : TrPre c m B A f a fl) (hf : A.cols + B.wd fl.right < fuel)
    (hal : alpha = 1 ∨ min c.NB A.cols < env.blas2min)
    (hg : TrSol fl alpha A.cols (B.wd fl.right) a f g) (hnz : ∀ i, i < A.cols → trE fl a i i ≠ 0) :
    Runs (trsmBlkUp ab env fuel fl.right m B alpha A fl c) (TrMid c m B fl.right g) := by
  have hnb := H.ready.nb
  have h0 := H.h0
  unfold trsmBlkUp
  dsimp only
  obtain ⟨n1, hn1⟩ : ∃ n1, (if c.NB < A.cols then c.NB else A.cols) = n1 := ⟨_, rfl⟩
  rw [hn1]
  have hn : n1 = min c.NB A.cols := by rw [← hn1]; split <;> omega
  have Hb := H.block H.init (p := 0) (n1 := n1) (g' := f) (by omega) (by omega)
    (fun i q _ => by rw [Nat.zero_add])
  refine Runs.bind (trsmRecursive_spec' (g := g) ab hmin alpha hfl Hb (by simp; omega)
    (hal.imp_right (fun h => by simp; omega)) ?_ ?_ _) (fun m1 hm => ?_)
  · intro i q hi hq
    simp only [View.sub_cols, lines_wd] at hi hq
    rw [← hg i q (by omega) hq, sumDown hup a (fun k => g k q) (p := 0) (n1 := n1) (n := A.cols) (i := i)
      (by omega) (by omega)]
    simp [View.sub]
  · intro i hi
    simp only [View.sub_cols] at hi
    simpa using hnz i (by omega)
  have h1 := H.absorb H.init (by omega) hm
  refine Runs.bind (Runs.forUp (fun i m' => TrMid c m B fl.right
      (fun p q => if p < i then g p q else f p q) m') hnb
      (h1.congr (fun i q hi _ => ?_)) ?_ (Q := fun p => TrMid c m B fl.right g p.2)
      (fun k m' hk _ h => h.congr (fun i q hi _ => by rw [← H.hn] at hi; rw [if_pos (by omega)])))
      (fun p hp => Runs.pure hp)
  · rw [← H.hn] at hi
    by_cases e : i < n1
    · rw [if_pos (by omega), if_pos (by omega)]; simp
    · rw [if_neg (by omega), if_neg (by omega)]
  rintro i m2 hi0 hi h
  clear hn1 hn Hb h1 hm
  obtain ⟨n1, hn1⟩ : ∃ n1, (if i < A.cols - c.NB then c.NB else A.cols - i) = n1 := ⟨_, rfl⟩
  rw [hn1]
  have hn : n1 = min (A.cols - i) c.NB := by rw [← hn1]; split <;> omega
  have hu := H.update ab h (p := i) (n1 := n1) (s := 0) (n0 := i) (transB := fl.lower) alpha htb hfa hfb
    (by omega) (by omega) (by simp [hup]) (by
      rw [hfl]; revert hup; unfold Flags.up
      cases fl.right <;> cases fl.upper <;> cases fl.transA <;> simp)
  have hxu : (fl.right ^^ fl.transA) = fl.upper := by
    revert hup; unfold Flags.up
    cases fl.right <;> cases fl.upper <;> cases fl.transA <;> simp
  rw [hxu] at hu
  refine Runs.bind hu (fun m3 h3 => ?_)
  have h3' : TrMid c m B fl.right (fun p q => if p < i then g p q else if p < i + n1 then
      alpha * f p q + -1 * ∑ k ∈ range i, trE fl a p k * g k q else f p q) m3 := h3.congr (fun p q hp _ => by
    by_cases e : p < i
    · rw [if_neg (by omega), if_pos e, if_pos e]
    · rw [if_neg e]
      by_cases e2 : p < i + n1
      · rw [if_pos (by omega), if_neg e, if_pos e2]
        congr 2
        refine Finset.sum_congr rfl (fun k hk => ?_)
        have := Finset.mem_range.mp hk
        rw [if_pos (by omega), Nat.zero_add]
      · rw [if_neg (by omega), if_neg e, if_neg e2])
  have Hb2 := H.block h3' (p := i) (n1 := n1)
    (g' := fun k q => alpha * f (i + k) q + -1 * ∑ l ∈ range i, trE fl a (i + k) l * g l q) (by omega) (by omega)
    (fun k q _ => by rw [if_neg (by omega), if_pos (by omega)])
  refine (trsmRecursive_spec' (g := fun k q => g (i + k) q) ab hmin 1 hfl Hb2 (by simp; omega) (Or.inl rfl) ?_ ?_ _).mono
    (fun m4 h4 => (H.absorb h3' (by omega) h4).congr ?_)
  · intro k q hk hq
    simp only [View.sub_cols, lines_wd] at hk hq
    have h9 := hg (i + k) q (by omega) hq
    rw [sumDown hup a (fun k => g k q) (p := i) (n1 := n1) (by omega) (by omega)] at h9
    simp only [View.sub_cols, trE_shift]
    linear_combination h9
  · intro k hk
    simp only [View.sub_cols] at hk
    rw [trE_shift]; exact hnz _ (by omega)
  · intro k q hk _
    rw [← H.hn] at hk
    by_cases e : k < i
    · rw [if_neg (by omega), if_pos e, if_pos (by omega)]
    · by_cases e2 : k < i + n1
      · rw [if_pos (by omega), if_pos (by omega), show i + (k - i) = k by omega]
      · rw [if_neg (by omega), if_neg e, if_neg e2, if_neg (by omega)]

theorem trsmBlkDown_spec (ab : α → α) {env : Env} (hmin : 2 ≤ env.blas2min) {c : Cache} (alpha : α) {fl : Flags}
    (hfl : fl.lower = !fl.upper) (hup : fl.up = true)
    (htb : fl.transB = false) (hfa : fl.absA = false) (hfb : fl.absB = false)
    {fuel : Nat} {m : Mem α} {B A : View} {f g a : Nat → Nat → α}
    (H : TrPre c m B A f a fl) (hf : A.cols + B.wd fl.right < fuel)
    (hal : alpha = 1 ∨ min c.NB A.cols < env.blas2min)
    (hg : TrSol fl alpha A.cols (B.wd fl.right) a f g) (hnz : ∀ i, i < A.cols → trE fl a i i ≠ 0) :
    Runs (trsmBlkDown ab env fuel fl.right m B alpha A fl c) (TrMid c m B fl.right g) := by
  have hnb := H.ready.nb
  have h0 := H.h0
  unfold trsmBlkDown
  dsimp only
  obtain ⟨n1, hn1⟩ : ∃ n1, (if c.NB < A.cols then c.NB else A.cols) = n1 := ⟨_, rfl⟩
  obtain ⟨p, hp⟩ : ∃ p, (if c.NB < A.cols then A.cols - c.NB else 0) = p := ⟨_, rfl⟩
  rw [hn1, hp]
  have hn : n1 = min c.NB A.cols := by rw [← hn1]; split <;> omega
  have hp' : p = A.cols - n1 := by rw [← hp, hn]; split <;> omega
  have Hb := H.block H.init (p := p) (n1 := n1) (g' := fun i q => f (p + i) q) (by omega) (by omega)
    (fun i q _ => rfl)
  refine Runs.bind (trsmRecursive_spec' (g := fun i q => g (p + i) q) ab hmin alpha hfl Hb (by simp; omega)
    (hal.imp_right (fun h => by simp; omega)) ?_ ?_ _) (fun m1 hm => ?_)
  · intro i q hi hq
    simp only [View.sub_cols, lines_wd] at hi hq
    have h9 := hg (p + i) q (by omega) hq
    rw [sumUp hup a (fun k => g k q) (p := p) (n1 := n1) (by omega) (by omega),
      show A.cols - p - n1 = 0 by omega] at h9
    simp only [View.sub_cols, trE_shift]
    simpa using h9
  · intro i hi
    simp only [View.sub_cols] at hi
    rw [trE_shift]; exact hnz _ (by omega)
  have h1 := H.absorb H.init (by omega) hm
  refine Runs.bind (Runs.forUp (fun t m' => TrMid c m B fl.right
      (fun p q => if A.cols - t ≤ p then g p q else f p q) m') hnb
      (h1.congr (fun i q hi _ => ?_)) ?_ (Q := fun p => TrMid c m B fl.right g p.2)
      (fun k m' hk _ h => h.congr (fun i q hi _ => by rw [if_pos (by omega)])))
      (fun p hp => Runs.pure hp)
  · rw [← H.hn] at hi
    by_cases e : p ≤ i
    · rw [if_pos (by omega), if_pos (by omega), show p + (i - p) = i by omega]
    · rw [if_neg (by omega), if_neg (by omega)]
  rintro t m2 ht0 ht h
  clear hn1 hn Hb h1 hm hp hp'
  obtain ⟨i, hi⟩ : ∃ i, A.cols - t = i := ⟨_, rfl⟩
  simp only [hi] at h ⊢
  obtain ⟨n1, hn1⟩ : ∃ n1, (if i < c.NB then i else c.NB) = n1 := ⟨_, rfl⟩
  obtain ⟨p, hp⟩ : ∃ p, (if i < c.NB then 0 else i - c.NB) = p := ⟨_, rfl⟩
  rw [hn1, hp]
  have hn : n1 = min i c.NB := by rw [← hn1]; split <;> omega
  have hp' : p = i - n1 := by rw [← hp, hn]; split <;> omega
  have hu := H.update ab h (p := p) (n1 := n1) (s := i) (n0 := A.cols - i) (transB := fl.upper) alpha htb hfa hfb
    (by omega) (by omega) (by rw [if_pos hup]; omega) (by
      revert hup; unfold Flags.up
      cases fl.right <;> cases fl.upper <;> cases fl.transA <;> simp)
  have hxu : (fl.right ^^ fl.transA) = !fl.upper := by
    revert hup; unfold Flags.up
    cases fl.right <;> cases fl.upper <;> cases fl.transA <;> simp
  rw [hxu] at hu
  have hu' : Runs (trsmUpdate ab fl.right m2 alpha (lines fl.right B p n1)
      (if fl.right = true then
        if fl.upper = true then A.sub p i (A.rows - i) n1 else A.sub i p n1 (A.cols - i)
      else if fl.upper = true then A.sub p i n1 (A.cols - i) else A.sub i p (A.cols - i) n1)
      (lines fl.right B i (A.cols - i)) fl.upper fl c)
      (TrMid c m B fl.right (fun k q => if p ≤ k ∧ k < p + n1 then
        alpha * (if i ≤ k then g k q else f k q) + -1 * ∑ l ∈ range (A.cols - i), trE fl a k (i + l) *
          (if i ≤ i + l then g (i + l) q else f (i + l) q) else if i ≤ k then g k q else f k q)) := by
    revert hu
    generalize TrMid c m B fl.right _ = Q
    unfold trsmUpdate
    intro hu
    cases h1 : fl.right <;> cases h2 : fl.upper <;> rw [h1, h2] at hu <;>
      simp only [Bool.not_true, Bool.not_false, Bool.false_eq_true, if_true, if_false] at hu ⊢
    · exact hu
    · exact hu
    · rw [multKernel_dims ab _ _ _ _ _ _ _ _ _ _ (A.cols - i) n1]; exact hu
    · rw [multKernel_dims ab _ _ _ _ _ _ _ _ _ _ n1 (A.cols - i)]; exact hu
  refine Runs.bind hu' (fun m3 h3 => ?_)
  have h3' : TrMid c m B fl.right (fun k q => if i ≤ k then g k q else if p ≤ k then
      alpha * f k q + -1 * ∑ l ∈ range (A.cols - i), trE fl a k (i + l) * g (i + l) q else f k q) m3 :=
    h3.congr (fun k q hk _ => by
      by_cases e : i ≤ k
      · rw [if_neg (by omega), if_pos e, if_pos e]
      · rw [if_neg e]
        by_cases e2 : p ≤ k
        · rw [if_pos (by omega), if_neg e, if_pos e2]
          congr 2
          refine Finset.sum_congr rfl (fun l hl => ?_)
          rw [if_pos (by omega)]
        · rw [if_neg (by omega), if_neg e, if_neg e2])
  have Hb2 := H.block h3' (p := p) (n1 := n1)
    (g' := fun k q => alpha * f (p + k) q + -1 * ∑ l ∈ range (A.cols - i), trE fl a (p + k) (i + l) * g (i + l) q)
    (by omega) (by omega)
    (fun k q _ => by rw [if_neg (by omega), if_pos (by omega)])
  refine (trsmRecursive_spec' (g := fun k q => g (p + k) q) ab hmin 1 hfl Hb2 (by simp; omega) (Or.inl rfl) ?_ ?_ _).mono
    (fun m4 h4 => (H.absorb h3' (by omega) h4).congr ?_)
  · intro k q hk hq
    simp only [View.sub_cols, lines_wd] at hk hq
    have h9 := hg (p + k) q (by omega) hq
    rw [sumUp hup a (fun k => g k q) (p := p) (n1 := n1) (by omega) (by omega),
      show A.cols - p - n1 = A.cols - i by omega, show p + n1 = i by omega] at h9
    simp only [View.sub_cols, trE_shift]
    linear_combination h9
  · intro k hk
    simp only [View.sub_cols] at hk
    rw [trE_shift]; exact hnz _ (by omega)
  · intro k q hk _
    rw [← H.hn] at hk
    by_cases e : i ≤ k
    · rw [if_neg (by omega), if_pos e, if_pos (by omega)]
    · by_cases e2 : p ≤ k
      · rw [if_pos (by omega), if_pos (by omega), show p + (k - p) = k by omega]
      · rw [if_neg (by omega), if_neg e, if_neg e2, if_neg (by omega)]

theorem trsmBlk_spec (ab : α → α) {env : Env} (hmin : 2 ≤ env.blas2min) {c : Cache} (alpha : α) {fl : Flags}
    (hfl : fl.lower = !fl.upper)
    (htb : fl.transB = false) (hfa : fl.absA = false) (hfb : fl.absB = false)
    {fuel : Nat} {m : Mem α} {B A : View} {f g a : Nat → Nat → α}
    (H : TrPre c m B A f a fl) (hf : A.cols + B.wd fl.right < fuel)
    (hal : alpha = 1 ∨ min c.NB A.cols < env.blas2min)
    (hg : TrSol fl alpha A.cols (B.wd fl.right) a f g) (hnz : ∀ i, i < A.cols → trE fl a i i ≠ 0) :
    Runs (trsmBlk ab env fuel m B alpha A fl c) (TrMid c m B fl.right g) := by
  have h1 : fl.up = true → _ := fun hup => trsmBlkDown_spec ab hmin alpha hfl hup htb hfa hfb H hf hal hg hnz
  have h2 : fl.up = false → _ := fun hup => trsmBlkUp_spec ab hmin alpha hfl hup htb hfa hfb H hf hal hg hnz
  unfold trsmBlk
  revert h1 h2
  rw [hfl]
  unfold Flags.up
  generalize TrMid c m B fl.right g = Q
  cases fl.right <;> cases fl.upper <;> cases fl.transA <;> intro h1 h2 <;>
    first
    | (replace h1 := h1 rfl
       simp only [Bool.not_true, Bool.not_false] at h1 ⊢; exact h1)
    | (replace h2 := h2 rfl
       simp only [Bool.not_true, Bool.not_false] at h2 ⊢; exact h2)

end field

end Armas
