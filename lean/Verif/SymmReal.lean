import Verif.KernelReal
import Verif.SymmLemmas

/-! Symmetric multiplication as a thread: which cells it writes. -/

namespace Armas

variable {α : Type} {W : Set Nat}

theorem cpElem_real {p q : Nat} (h : q ∈ W) : RealM W (fun m : Mem α => cpElem m p q) := by
  unfold cpElem
  exact RealM.read RealR.rd (fun _ => RealM.wr h)

theorem cpDiag_real [One α] {D S : View} {unit : Bool} {j : Nat} (h : D.at' j j ∈ W) :
    RealM W (fun m : Mem α => cpDiag m D S unit j) := by
  unfold cpDiag
  exact RealM.ite (fun _ => RealM.wr h) (fun _ => cpElem_real h)

theorem fillLow_real [One α] {D S : View} {n : Nat} {unit : Bool} (h : InW W D n n) :
    RealM W (fun m : Mem α => fillLow m D S n unit) := by
  unfold fillLow
  refine RealM.forUp (fun j _ hj => ?_)
  refine Real.bindM (Real.forUp (fun i _ hi => ?_)) (fun _ _ => cpDiag_real (h _ _ hj hj))
  exact RealM.seq (cpElem_real (h _ _ (by omega) hj)) (cpElem_real (h _ _ hj (by omega)))

theorem fillUp_real [One α] {D S : View} {n : Nat} {unit : Bool} (h : InW W D n n) :
    RealM W (fun m : Mem α => fillUp m D S n unit) := by
  unfold fillUp
  refine RealM.forUp (fun j _ hj => ?_)
  refine RealM.seq (cpDiag_real (h _ _ hj hj)) (RealM.forUp (fun i _ hi => ?_))
  exact RealM.seq (cpElem_real (h _ _ (by omega) hj)) (cpElem_real (h _ _ hj (by omega)))

section symm
variable [Mul α] [Add α] [Zero α] [One α] [DecidableEq α] {ab : α → α} {beta alpha : α} {C A B : View} {fl : Flags}
  {c : Cache}

theorem symmDiag_real {n w : Nat} (hC : C.foot ⊆ W) (hc : c.foot ⊆ W) (hr : A.rows = n) (hcl : A.cols = n)
    (h1 : n ≤ c.KB) (h2 : n ≤ c.MB) (h3 : w ≤ c.NB) (hBr : B.rows = if fl.right ^^ fl.transB then w else n)
    (hBc : B.cols = if fl.right ^^ fl.transB then n else w) :
    RealM W (fun m => symmDiag ab m C alpha A B fl c) := by
  unfold symmDiag
  have hA : InW W (c.A A.rows A.cols) A.cols A.cols := by
    rw [hr, hcl]; exact InW.bufA hc h1 h2
  refine RealM.seq (RealM.ite (fun _ => fillUp_real hA) (fun _ => fillLow_real hA)) ?_
  cases e1 : fl.right <;> cases e2 : fl.transB <;>
    simp only [e1, e2, Bool.xor_self, Bool.xor_false, Bool.xor_true, Bool.not_false, Bool.not_true,
      Bool.false_eq_true, if_true, if_false] at hBr hBc ⊢
  · exact RealM.seq (cpBlk_real (InW.bufB hc (by omega) (by omega))) (kernelInner_real (InW.foot hC))
  · exact RealM.seq (cpBlkTrans_real (InW.bufB hc (by omega) (by omega))) (kernelInner_real (InW.foot hC))
  · exact RealM.seq (cpBlkTrans_real (InW.bufB hc (by omega) (by omega))) (kernelInner_real (InW.foot hC))
  · exact RealM.seq (cpBlk_real (InW.bufB hc (by omega) (by omega))) (kernelInner_real (InW.foot hC))

theorem symmBlock_real {i nI j nJ : Nat} (hC : C.foot ⊆ W) (hc : c.foot ⊆ W) (h1 : nI ≤ c.KB) (h2 : nI ≤ c.MB)
    (h3 : nJ ≤ c.NB) (hi : i + nI ≤ if fl.right then C.cols else C.rows)
    (hj : j + nJ ≤ if fl.right then C.rows else C.cols) :
    RealM W (fun m => symmBlock ab fl.right m beta C alpha A B fl c i nI j nJ) := by
  unfold symmBlock
  have h0 : (if fl.right then C.sub j i nJ nI else C.sub i j nI nJ).foot ⊆ W := by
    revert hi hj
    cases fl.right <;> simp only [Bool.false_eq_true, if_true, if_false] <;> intro hi hj
    · exact (View.sub_foot hi hj).trans hC
    · exact (View.sub_foot hj hi).trans hC
  refine RealM.seq (scaleUnsafe_real h0) (RealM.seq ?_ (RealM.seq ?_ ?_))
  · exact RealM.ite (fun _ => multKernelNc_real h0 hc) (fun _ => multKernelNc_real h0 hc)
  · refine symmDiag_real h0 hc rfl rfl h1 h2 h3 ?_ ?_ <;> unfold symmOpB <;>
      cases fl.right <;> cases fl.transB <;> rfl
  · exact RealM.ite (fun _ => multKernelNc_real h0 hc) (fun _ => multKernelNc_real h0 hc)

/-- `armas_mult_symm_left` and `armas_mult_symm_right` are threads that write to `C` and the copy buffers,
provided that the blocks fit to the buffers. -/
theorem symmSide_real {n w : Nat} (hC : C.foot ⊆ W) (hc : c.foot ⊆ W) (hCr : C.rows = if fl.right then w else n)
    (hCc : C.cols = if fl.right then n else w)
    (h1 : min (if fl.right then c.NB else c.MB) n ≤ c.KB)
    (h2 : min (if fl.right then c.NB else c.MB) n ≤ c.MB)
    (h3 : min (if fl.right then c.MB else c.NB) w ≤ c.NB) :
    RealM W (fun m => symmSide ab fl.right m beta C alpha A B fl c) := by
  unfold symmSide
  refine RealM.ite (fun _ => RealM.ite (fun _ => scaleUnsafe_real hC) (fun _ => RealM.pure)) (fun _ => ?_)
  dsimp only
  refine RealM.forUp (fun i _ hi => RealM.forUp (fun j _ hj => symmBlock_real hC hc ?_ ?_ ?_ ?_ ?_)) <;>
    revert hCr hCc h1 h2 h3 hi hj <;> cases fl.right <;>
    simp only [Bool.false_eq_true, if_true, if_false] <;> intros <;> split <;> (try split) <;> omega

end symm

/-- An empty `C`: nothing happens. -/
theorem symmSide_empty [CommRing α] [DecidableEq α] {ab : α → α} {beta alpha : α} {C A B : View} {fl : Flags}
    {c : Cache} {m : Mem α} (hw : C.WF) (h : (if fl.right then C.rows else C.cols) = 0) (hMB : 0 < c.MB)
    (hNB : 0 < c.NB) : Runs (symmSide ab fl.right m beta C alpha A B fl c) (fun _ => True) := by
  unfold symmSide
  by_cases ha : alpha = 0
  · rw [if_pos ha]
    refine (scaleUnsafe_mat (f := fun _ _ => 0) beta hw (fun i j hi hj => ?_)).mono (fun _ _ => trivial)
    split at h <;> omega
  · rw [if_neg ha]
    dsimp only
    rw [h]
    refine Runs.bind (P := fun _ => True) ?_ (fun _ _ => Runs.pure trivial)
    by_cases h0 : (if fl.right then C.cols else C.rows) = 0
    · rw [h0, forUp_eq, if_neg (by omega)]
      exact Runs.ok trivial
    · refine Runs.forUp (fun _ _ => True) ?_ trivial ?_ (fun _ _ _ _ _ => trivial)
      · revert h0; cases fl.right <;> simp only [Bool.false_eq_true, if_true, if_false] <;> intro h0 <;> split <;> omega
      · intro i m' _ _ _
        rw [forUp_eq, if_neg (by omega)]
        exact Runs.ok trivial

end Armas
