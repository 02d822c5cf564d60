import Verif.GemvReal
import Verif.TrsmLemmas

/-! Triangular multiply and solve as threads: which cells they write. -/

namespace Armas

variable {α : Type} {W : Set Nat}

theorem partLines_nl {r : Bool} {B : View} {n : Nat} (h : n ≤ B.nl r) :
    (partLines r B n true).1.nl r = n ∧ (partLines r B n true).2.nl r = B.nl r - n ∧
    (partLines r B n false).1.nl r = B.nl r - n ∧ (partLines r B n false).2.nl r = n ∧
    (partLines r B n true).1.foot ⊆ B.foot ∧ (partLines r B n true).2.foot ⊆ B.foot ∧
    (partLines r B n false).1.foot ⊆ B.foot ∧ (partLines r B n false).2.foot ⊆ B.foot := by
  rw [partLines_fwd h, partLines_bwd h]
  dsimp only
  refine ⟨?_, ?_, ?_, ?_, lines_foot ?_, lines_foot ?_, lines_foot ?_, lines_foot ?_⟩ <;> (try simp) <;> omega

section trmm
variable [Mul α] [Add α] [Zero α] [One α] [DecidableEq α] {ab : α → α} {env : Env} {r : Bool} {alpha : α} {c : Cache}

theorem lineMv_real {fuel : Nat} {beta : α} {B X : View} {p s n : Nat} (hB : B.foot ⊆ W) (hp : p < B.nl r) :
    RealM W (fun m => mvmultUnsafe ab env fuel m beta (lines r B p 1) alpha (lines r B s n) X {transA := !r}) := by
  refine mvmultUnsafe_real rfl line_isVec ((lines_foot (by omega)).trans hB) ?_
  rw [line_size]; cases r <;> simp [View.opRows, lines, View.wd]

theorem trmmScale_real {A : View} {unit : Bool} {i : Nat} : RealR W (fun m => trmmScale m A alpha unit i) := by
  unfold trmmScale
  exact RealR.ite (fun _ => RealR.pure) (fun _ => RealR.read RealR.rd (fun _ => RealR.pure))

theorem trmmLast_real {A b0 : View} {unit : Bool} {i : Nat} (h : b0.foot ⊆ W) :
    RealM W (fun m => trmmLast m b0 A alpha unit i) := by
  unfold trmmLast
  exact RealM.read trmmScale_real (fun _ => RealM.ite (fun _ => RealM.pure) (fun _ => scaleUnsafe_real h))

theorem trmmUp_real {fuel : Nat} {a0 : Nat → View} {B A : View} {unit : Bool} (hB : B.foot ⊆ W)
    (hn : A.cols = B.nl r) : RealM W (fun m => trmmUp ab env fuel r a0 m B alpha A unit) := by
  unfold trmmUp
  refine RealM.ite (fun _ => RealM.ub) (fun h0 => ?_)
  refine Real.bindM (Real.forUp (fun i _ hi => ?_)) ?_
  · exact RealM.read trmmScale_real (fun _ => lineMv_real hB (by omega))
  · intro i hi
    exact trmmLast_real ((lines_foot (by omega)).trans hB)

theorem trmmDown_real {fuel : Nat} {a0 : Nat → View} {B A : View} {unit : Bool} (hB : B.foot ⊆ W)
    (hn : A.cols = B.nl r) : RealM W (fun m => trmmDown ab env fuel r a0 m B alpha A unit) := by
  unfold trmmDown
  refine RealM.ite (fun _ => RealM.ub) (fun h0 => ?_)
  refine RealM.seq (RealM.forDown (fun i hi => ?_)) (trmmLast_real ((lines_foot (by omega)).trans hB))
  exact RealM.read trmmScale_real (fun _ => lineMv_real hB (by omega))

theorem trmmUnb_real {fuel : Nat} {B A : View} {fl : Flags} (hB : B.foot ⊆ W) (hn : A.cols = B.nl fl.right) :
    RealM W (fun m => trmmUnb ab env fuel m B alpha A fl) := by
  unfold trmmUnb
  cases h : fl.right <;> rw [h] at hn <;> cases fl.upper <;> cases fl.transA <;>
    simp only [Bool.false_eq_true, if_true, if_false] <;>
    first | exact trmmUp_real hB hn | exact trmmDown_real hB hn

theorem offBlock_real {B1 A0 B0 : View} {trans abs : Bool} (h : B1.foot ⊆ W) (hc : c.foot ⊆ W) :
    RealM W (fun m => offBlock ab r m B1 alpha A0 B0 trans abs c) := by
  unfold offBlock
  exact RealM.ite (fun _ => multKernelNc_real h hc) (fun _ => multKernelNc_real h hc)

theorem trmmFwdRec_real {fl : Flags} (hr : fl.right = r) (hc : c.foot ⊆ W) (fuel : Nat) :
    ∀ {B A : View}, B.foot ⊆ W → A.cols = B.nl r →
      RealM W (fun m => trmmFwdRec ab env r alpha fl c fuel m B A) := by
  induction fuel with
  | zero => intro B A _ _; exact RealM.diverge
  | succ fuel ih =>
    intro B A hB hn
    obtain ⟨e1, e2, -, -, f1, f2, -⟩ := partLines_nl (r := r) (B := B) (n := A.cols / 2) (by omega)
    unfold trmmFwdRec
    refine RealM.ite (fun _ => trmmUnb_real hB (by rw [hr, hn])) (fun _ => ?_)
    refine RealM.seq (ih (f1.trans hB) (by rw [e1]; rfl)) (RealM.seq ?_
      (ih (f2.trans hB) (by rw [e2, ← hn]; rfl)))
    exact RealM.ite (fun _ => offBlock_real (f1.trans hB) hc) (fun _ => offBlock_real (f1.trans hB) hc)

theorem trmmBwdRec_real {fl : Flags} (hr : fl.right = r) (hc : c.foot ⊆ W) (fuel : Nat) :
    ∀ {B A : View}, B.foot ⊆ W → A.cols = B.nl r →
      RealM W (fun m => trmmBwdRec ab env r alpha fl c fuel m B A) := by
  induction fuel with
  | zero => intro B A _ _; exact RealM.diverge
  | succ fuel ih =>
    intro B A hB hn
    obtain ⟨-, -, e1, e2, -, -, f1, f2⟩ := partLines_nl (r := r) (B := B) (n := A.cols / 2) (by omega)
    unfold trmmBwdRec
    refine RealM.ite (fun _ => trmmUnb_real hB (by rw [hr, hn])) (fun _ => ?_)
    refine RealM.seq (ih (f2.trans hB) (by rw [e2]; rfl)) (RealM.seq ?_
      (ih (f1.trans hB) (by rw [e1, ← hn]; rfl)))
    exact RealM.ite (fun _ => offBlock_real (f2.trans hB) hc) (fun _ => offBlock_real (f2.trans hB) hc)

theorem trmmRecursive_real {fuel : Nat} {B A : View} {fl : Flags} (hu : fl.lower = !fl.upper) (hB : B.foot ⊆ W)
    (hc : c.foot ⊆ W) (hn : A.cols = B.nl fl.right) :
    RealM W (fun m => trmmRecursive ab env fuel m B alpha A fl c) := by
  unfold trmmRecursive
  rw [hu]
  cases h : fl.right <;> rw [h] at hn <;> cases fl.upper <;> cases fl.transA <;>
    first | exact trmmFwdRec_real h hc fuel hB hn | exact trmmBwdRec_real h hc fuel hB hn

theorem trmmBlkUp_real {fuel : Nat} {A0 : Nat → Nat → View} {trans : Bool} {B A : View} {fl : Flags}
    (hu : fl.lower = !fl.upper) (hr : fl.right = r) (hB : B.foot ⊆ W) (hc : c.foot ⊆ W) (hn : A.cols = B.nl r) :
    RealM W (fun m => trmmBlkUp ab env fuel r A0 trans m B alpha A fl c) := by
  unfold trmmBlkUp
  refine RealM.forUp (fun i _ hi => ?_)
  dsimp only
  have hf : (lines r B i (if A.cols - i < c.NB then A.cols - i else c.NB)).foot ⊆ W :=
    (lines_foot (by split <;> omega)).trans hB
  exact RealM.seq (trmmRecursive_real hu hf hc (by rw [hr]; simp)) (offBlock_real hf hc)

theorem trmmBlkDown_real {fuel : Nat} {A0 : Nat → Nat → View} {trans : Bool} {B A : View} {fl : Flags}
    (hu : fl.lower = !fl.upper) (hr : fl.right = r) (hB : B.foot ⊆ W) (hc : c.foot ⊆ W) (hn : A.cols = B.nl r) :
    RealM W (fun m => trmmBlkDown ab env fuel r A0 trans m B alpha A fl c) := by
  unfold trmmBlkDown
  refine RealM.forUp (fun t _ ht => ?_)
  dsimp only
  obtain ⟨nI, h⟩ : ∃ nI, nI = if A.cols - t < c.NB then A.cols - t else c.NB := ⟨_, rfl⟩
  rw [← h]
  have hf : (lines r B (A.cols - t - nI) nI).foot ⊆ W :=
    (lines_foot (by split at h <;> omega)).trans hB
  exact RealM.seq (trmmRecursive_real hu hf hc (by rw [hr]; simp)) (offBlock_real hf hc)

/-- `armas_trmm_blk` is a thread that writes to `B` and the copy buffers. -/
theorem trmmBlk_real {fuel : Nat} {B A : View} {fl : Flags} (hu : fl.lower = !fl.upper) (hB : B.foot ⊆ W)
    (hc : c.foot ⊆ W) (hn : A.cols = B.nl fl.right) :
    RealM W (fun m => trmmBlk ab env fuel m B alpha A fl c) := by
  unfold trmmBlk
  cases h : fl.right <;> rw [h] at hn <;> cases fl.upper <;> cases fl.transA <;>
    simp only [Bool.false_eq_true, if_true, if_false] <;>
    first | with_reducible exact trmmBlkUp_real hu h hB hc hn | with_reducible exact trmmBlkDown_real hu h hB hc hn

end trmm

section trsm
variable [Field α] [DecidableEq α] {ab : α → α} {env : Env} {r : Bool} {alpha : α} {c : Cache}

theorem trsmFirst_real {A b1 : View} {unit : Bool} {i : Nat} (h : b1.foot ⊆ W) :
    RealM W (fun m => trsmFirst m b1 A alpha unit i) := by
  unfold trsmFirst
  refine RealM.read (RealR.ite (fun _ => RealR.pure) (fun _ => RealR.read RealR.rd (fun _ => RealR.pure))) (fun _ => ?_)
  exact RealM.ite (fun _ => scaleUnsafe_real h) (fun _ => RealM.pure)

theorem trsmDiag_real {A b1 : View} {unit : Bool} {i : Nat} (h : b1.foot ⊆ W) :
    RealM W (fun m : Mem α => trsmDiag m b1 A unit i) := by
  unfold trsmDiag
  exact RealM.ite (fun _ => RealM.pure) (fun _ => RealM.read RealR.rd (fun _ => scaleUnsafe_real h))

theorem trsmUp_real {fuel : Nat} {a1 : Nat → View} {B A : View} {unit : Bool} (hB : B.foot ⊆ W)
    (hn : A.cols = B.nl r) : RealM W (fun m => trsmUp ab env fuel r a1 m B alpha A unit) := by
  unfold trsmUp
  refine RealM.ite (fun _ => RealM.ub) (fun h0 => ?_)
  refine RealM.seq (trsmFirst_real ((lines_foot (by omega)).trans hB)) (RealM.forUp (fun i _ hi => ?_))
  exact RealM.seq (lineMv_real hB (by omega)) (trsmDiag_real ((lines_foot (by omega)).trans hB))

theorem trsmDown_real {fuel : Nat} {a1 : Nat → View} {B A : View} {unit : Bool} (hB : B.foot ⊆ W)
    (hn : A.cols = B.nl r) : RealM W (fun m => trsmDown ab env fuel r a1 m B alpha A unit) := by
  unfold trsmDown
  refine RealM.ite (fun _ => RealM.ub) (fun h0 => ?_)
  refine RealM.seq (trsmFirst_real ((lines_foot (by omega)).trans hB)) (RealM.forDown (fun i hi => ?_))
  exact RealM.seq (lineMv_real hB (by omega)) (trsmDiag_real ((lines_foot (by omega)).trans hB))

theorem trsmUnb_real {fuel : Nat} {B A : View} {fl : Flags} (hB : B.foot ⊆ W) (hn : A.cols = B.nl fl.right) :
    RealM W (fun m => trsmUnb ab env fuel m B alpha A fl) := by
  unfold trsmUnb
  cases h : fl.right <;> rw [h] at hn <;> cases fl.upper <;> cases fl.lower <;> cases fl.transA <;>
    dsimp only <;>
    first | exact trsmUp_real hB hn | exact trsmDown_real hB hn

theorem trsmFwdRec_real {fl : Flags} (hr : fl.right = r) (hc : c.foot ⊆ W) (fuel : Nat) :
    ∀ {B A : View}, B.foot ⊆ W → A.cols = B.nl r →
      RealM W (fun m => trsmFwdRec ab env r alpha fl c fuel m B A) := by
  induction fuel with
  | zero => intro B A _ _; exact RealM.diverge
  | succ fuel ih =>
    intro B A hB hn
    obtain ⟨e1, e2, -, -, f1, f2, -⟩ := partLines_nl (r := r) (B := B) (n := A.cols / 2) (by omega)
    unfold trsmFwdRec
    refine RealM.ite (fun _ => trsmUnb_real hB (by simp [hr, hn])) (fun _ => ?_)
    refine RealM.seq (ih (f1.trans hB) (by rw [e1]; rfl)) (RealM.seq ?_
      (ih (f2.trans hB) (by rw [e2, ← hn]; rfl)))
    exact RealM.ite (fun _ => offBlock_real (f2.trans hB) hc) (fun _ => offBlock_real (f2.trans hB) hc)

theorem trsmBwdRec_real {fl : Flags} (hr : fl.right = r) (hc : c.foot ⊆ W) (fuel : Nat) :
    ∀ {B A : View}, B.foot ⊆ W → A.cols = B.nl r →
      RealM W (fun m => trsmBwdRec ab env r alpha fl c fuel m B A) := by
  induction fuel with
  | zero => intro B A _ _; exact RealM.diverge
  | succ fuel ih =>
    intro B A hB hn
    obtain ⟨-, -, e1, e2, -, -, f1, f2⟩ := partLines_nl (r := r) (B := B) (n := A.cols / 2) (by omega)
    unfold trsmBwdRec
    refine RealM.ite (fun _ => trsmUnb_real hB (by simp [hr, hn])) (fun _ => ?_)
    refine RealM.seq (ih (f2.trans hB) (by rw [e2]; rfl)) (RealM.seq ?_
      (ih (f1.trans hB) (by rw [e1, ← hn]; rfl)))
    exact RealM.ite (fun _ => offBlock_real (f1.trans hB) hc) (fun _ => offBlock_real (f1.trans hB) hc)

theorem trsmRecursive_real {fuel : Nat} {B A : View} {fl : Flags} (hu : fl.lower = !fl.upper) (hB : B.foot ⊆ W)
    (hc : c.foot ⊆ W) (hn : A.cols = B.nl fl.right) :
    RealM W (fun m => trsmRecursive ab env fuel m B alpha A fl c) := by
  unfold trsmRecursive
  rw [hu]
  cases h : fl.right <;> rw [h] at hn <;> cases fl.upper <;> cases fl.transA <;>
    first | exact trsmFwdRec_real h hc fuel hB hn | exact trsmBwdRec_real h hc fuel hB hn

theorem trsmUpdate_real {B1 A0 B0 : View} {transB : Bool} {fl : Flags} (h : B1.foot ⊆ W) (hc : c.foot ⊆ W) :
    RealM W (fun m => trsmUpdate ab r m alpha B1 A0 B0 transB fl c) := by
  unfold trsmUpdate
  exact RealM.ite (fun _ => multKernel_real h hc) (fun _ => multKernel_real h hc)

theorem trsmBlkUp_real {fuel : Nat} {B A : View} {fl : Flags}
    (hu : fl.lower = !fl.upper) (hr : fl.right = r) (hB : B.foot ⊆ W) (hc : c.foot ⊆ W) (hn : A.cols = B.nl r) :
    RealM W (fun m => trsmBlkUp ab env fuel r m B alpha A fl c) := by
  unfold trsmBlkUp
  refine RealM.seq (trsmRecursive_real hu ((lines_foot (by split <;> omega)).trans hB) hc (by simp [hr])) ?_
  refine RealM.forUp (fun i h0 hi => ?_)
  dsimp only
  have hf : (lines r B i (if i < A.cols - c.NB then c.NB else A.cols - i)).foot ⊆ W :=
    (lines_foot (by split <;> omega)).trans hB
  exact RealM.seq (trsmUpdate_real hf hc) (trsmRecursive_real hu hf hc (by simp [hr]))

theorem trsmBlkDown_real {fuel : Nat} {B A : View} {fl : Flags}
    (hu : fl.lower = !fl.upper) (hr : fl.right = r) (hB : B.foot ⊆ W) (hc : c.foot ⊆ W) (hn : A.cols = B.nl r) :
    RealM W (fun m => trsmBlkDown ab env fuel r m B alpha A fl c) := by
  unfold trsmBlkDown
  refine RealM.seq (trsmRecursive_real hu ((lines_foot (by split <;> omega)).trans hB) hc (by simp [hr])) ?_
  refine RealM.forUp (fun t h0 ht => ?_)
  dsimp only
  have hf : (lines r B (if A.cols - t < c.NB then 0 else A.cols - t - c.NB)
      (if A.cols - t < c.NB then A.cols - t else c.NB)).foot ⊆ W :=
    (lines_foot (by split <;> omega)).trans hB
  exact RealM.seq (trsmUpdate_real hf hc) (trsmRecursive_real hu hf hc (by simp [hr]))

/-- `armas_solve_blocked` is a thread that writes to `B` and the copy buffers. -/
theorem trsmBlk_real {fuel : Nat} {B A : View} {fl : Flags} (hu : fl.lower = !fl.upper) (hB : B.foot ⊆ W)
    (hc : c.foot ⊆ W) (hn : A.cols = B.nl fl.right) :
    RealM W (fun m => trsmBlk ab env fuel m B alpha A fl c) := by
  unfold trsmBlk
  rw [hu]
  cases h : fl.right <;> rw [h] at hn <;> cases h2 : fl.upper <;> cases fl.transA <;>
    first | exact trsmBlkUp_real hu h hB hc hn | exact trsmBlkDown_real hu h hB hc hn

end trsm

end Armas
