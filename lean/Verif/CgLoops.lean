import Verif.CgSolve

/-!
# The loops of the preconditioned solver and of the solvers on the normal equations
-/

namespace Armas

open Matrix Finset

variable {α : Type} [Field α] [LinearOrder α] [IsStrictOrderedRing α]

/-- The call `M->precond(&z, M, &r, cf)` computes `z = B r` and changes nothing else. -/
def PrecBy {n : Nat} (prec : Mem α → View → View → Res (Int × Mem α)) (B : Matrix (Fin n) (Fin n) α) : Prop :=
  ∀ (m : Mem α) (Z R : View) (z r : Fin n → α), Vec m Z z → Vec m R r → Disjoint Z.foot R.foot →
    Runs (prec m Z R) (fun q => Vec q.2 Z (B *ᵥ r) ∧ Frame Z.foot m q.2)

theorem pcgradLoop_spec {n : Nat} {A : Sp α} {N : Nat} {e : Nat → Ent α} {upper lower trans : Bool} (T : Props.Triangular A n N e true)
    {S B : Matrix (Fin n) (Fin n) α} (hSm : fmat n n (symm (upper && !lower) (dense N e)) = S) (hS : Spd S) (hB : Spd B)
    {prec : Mem α → View → View → Res (Int × Mem α)} (hp : PrecBy prec B) (env : Env) {fuel : Nat}
    (hf : n < fuel) {X R Z P Q : View} (hD : Apart [X, R, Z, P, Q]) {b r0 xs : Fin n → α} {rstop : α} (hst : 0 < rstop) (left : Nat) :
    ∀ (k : Nat) (d1 : α) (m : Mem α) (x q : Fin n → α), Vec m X x → Vec m R (cgR S B r0 k) → Vec m Z (B *ᵥ cgR S B r0 k) →
      Vec m P (cgP S B r0 k) → Vec m Q q →
      cgR S B r0 k = b - S *ᵥ x → (∀ i, i ≤ k → cgR S B r0 i ≠ 0) →
      energy S b x ≤ energy S b xs → (left = 0 → d1 = cgR S B r0 k ⬝ᵥ B *ᵥ cgR S B r0 k ∧ rstop ≤ d1 ∧ energy S b x < energy S b xs) →
      Runs (pcgradLoop env fuel prec A upper lower trans X R Z P Q rstop left k d1 m) (fun r => ∃ x' : Fin n → α,
        Vec r.2.2 X x' ∧ CgPost S b (fun r => r ⬝ᵥ B *ᵥ r) rstop (k + left) xs x' r.1 r.2.1 ∧
        Frame (X.foot ∪ R.foot ∪ Z.foot ∪ P.foot ∪ Q.foot) m r.2.2) := by
  simp only [Apart, List.pairwise_cons, List.mem_cons, List.not_mem_nil, or_false, forall_eq_or_imp, forall_eq] at hD
  obtain ⟨⟨dXR, dXZ, dXP, dXQ⟩, ⟨dRZ, dRP, dRQ⟩, ⟨dZP, dZQ⟩, dPQ, -⟩ := hD
  induction left with
  | zero =>
    intro k d1 m x q hX hR hZ hP hQ hr hne hen h0
    obtain ⟨h1, h2, h3⟩ := h0 rfl
    unfold pcgradLoop
    refine Runs.pure ⟨x, hX, ⟨?_, h3, Or.inr ⟨rfl, h2, cg_left hS hB hne⟩⟩, Frame.refl _ _⟩
    rw [h1, hr]
  | succ left ih =>
    intro k d1 m x q hX hR hZ hP hQ hr hne hen _
    have hdir := cg_dir_pos hS hB hne
    have hrr : cgR S B r0 k ⬝ᵥ B *ᵥ cgR S B r0 k ≠ 0 := hB.ne (hne k (le_refl _))
    have ha : cgR S B r0 k ⬝ᵥ B *ᵥ cgR S B r0 k / ((S *ᵥ cgP S B r0 k) ⬝ᵥ cgP S B r0 k) = cgA S B r0 k := by
      unfold cgA; rw [dotProduct_comm (S *ᵥ _)]
    unfold pcgradLoop
    refine Runs.bind (hQ.sym T hP dPQ.symm 0 1) ?_
    rintro ⟨_, m1⟩ ⟨q1, f1⟩
    dsimp only at q1 f1 ⊢
    rw [hSm, zero_smul, one_smul, zero_add] at q1
    have hX1 := hX.frame f1 dXQ
    have hR1 := hR.frame f1 dRQ
    have hZ1 := hZ.frame f1 dZQ
    have hP1 := hP.frame f1 dPQ
    rw [q1.dot hP1 _ _ hf, Res.ok_bind, hR1.dot hZ1 _ _ hf, Res.ok_bind,
      fdiv_ok (by rw [dotProduct_comm]; exact ne_of_gt hdir.2), Res.ok_bind, ha]
    refine Runs.bind (hX1.axpy hP1 dXP.symm _) ?_
    rintro ⟨_, m2⟩ ⟨x2, f2⟩
    dsimp only at x2 f2 ⊢
    have hR2 := hR1.frame f2 dXR.symm
    have hZ2 := hZ1.frame f2 dXZ.symm
    have hP2 := hP1.frame f2 dXP.symm
    have hQ2 := q1.frame f2 dXQ.symm
    refine Runs.bind (hR2.axpy hQ2 dRQ.symm _) ?_
    rintro ⟨_, m3⟩ ⟨r3, f3⟩
    dsimp only at r3 f3 ⊢
    have er : cgR S B r0 k + -cgA S B r0 k • (S *ᵥ cgP S B r0 k) = cgR S B r0 (k + 1) := by rw [cgR_succ, neg_smul, sub_eq_add_neg]
    rw [er] at r3
    have hX3 := x2.frame f3 dXR
    have hZ3 := hZ2.frame f3 dRZ.symm
    have hP3 := hP2.frame f3 dRP.symm
    have hQ3 := hQ2.frame f3 dRQ.symm
    refine Runs.bind (hp m3 Z R _ _ hZ3 r3 dRZ.symm) ?_
    rintro ⟨_, m4⟩ ⟨z4, f4⟩
    dsimp only at z4 f4 ⊢
    have hX4 := hX3.frame f4 dXZ
    have r4 := r3.frame f4 dRZ
    have hP4 := hP3.frame f4 dZP.symm
    have hQ4 := hQ3.frame f4 dZQ.symm
    have hr' : cgR S B r0 (k + 1) = b - S *ᵥ (x + cgA S B r0 k • cgP S B r0 k) := by
      rw [cgR_succ, hr, mulVec_add, mulVec_smul]; abel
    have hen' := lt_of_lt_of_le (cg_energy hS hB hne hr) hen
    have fr : Frame (X.foot ∪ R.foot ∪ Z.foot ∪ P.foot ∪ Q.foot) m m4 :=
      (f1.mono (fun _ h => by simp [h])).trans ((f2.mono (fun _ h => by simp [h])).trans ((f3.mono (fun _ h => by simp [h])).trans
        (f4.mono (fun _ h => by simp [h]))))
    rw [r4.dot z4 _ _ hf, Res.ok_bind]
    by_cases hb : cgR S B r0 (k + 1) ⬝ᵥ B *ᵥ cgR S B r0 (k + 1) < rstop
    · rw [if_pos hb]
      refine Runs.pure ⟨_, hX4, ⟨?_, hen', Or.inl ⟨by show k < k + (left + 1); omega, hb⟩⟩, fr⟩
      rw [← hr']
    · rw [if_neg hb, fdiv_ok hrr, Res.ok_bind]
      refine Runs.bind (hP4.axpby z4 dZP _ 1) ?_
      rintro ⟨_, m5⟩ ⟨p5, f5⟩
      dsimp only at p5 f5 ⊢
      have ep : (cgR S B r0 (k + 1) ⬝ᵥ B *ᵥ cgR S B r0 (k + 1) / cgR S B r0 k ⬝ᵥ B *ᵥ cgR S B r0 k) • cgP S B r0 k +
          (1 : α) • (B *ᵥ cgR S B r0 (k + 1)) = cgP S B r0 (k + 1) := by
        rw [cgP_succ]; unfold cgB; rw [one_smul, add_comm]
      rw [ep] at p5
      have hne' : ∀ i, i ≤ k + 1 → cgR S B r0 i ≠ 0 := by
        intro i hi
        rcases Nat.lt_or_eq_of_le hi with c | c
        · exact hne i (by omega)
        · subst c
          intro h0
          rw [h0, zero_dotProduct] at hb
          exact hb hst
      refine (ih (k + 1) _ m5 _ _ (hX4.frame f5 dXP) (r4.frame f5 dRP) (z4.frame f5 dZP) p5 (hQ4.frame f5 dPQ.symm) hr' hne' (le_of_lt hen')
        (fun _ => ⟨rfl, not_lt.mp hb, hen'⟩)).mono ?_
      rintro r ⟨x', h1, h2, h3⟩
      refine ⟨x', h1, ?_, fr.trans ((f5.mono (fun _ h => by simp [h])).trans h3)⟩
      rw [show k + (left + 1) = k + 1 + left by omega]; exact h2

/-- In the error of the normal equations, `y` runs in the space of the residuals and `x = xs + Aᵀ y`. -/
theorem cgneLoop_spec {A : Sp α} {N : Nat} {e : Nat → Ent α} (M : Mulable A N e) {D : Matrix (Fin A.rows) (Fin A.cols) α}
    (hDm : fmat A.rows A.cols (dense N e) = D) {S : Matrix (Fin A.rows) (Fin A.rows) α} (hSd : S = D * Dᵀ) (hS : Spd S) (env : Env)
    {fuel : Nat} (hf : A.rows < fuel) (hf' : A.cols < fuel) {X R P Q : View} (hD : Apart [X, R, P, Q]) {b r0 : Fin A.rows → α}
    {xs : Fin A.cols → α} (hb : r0 = b - D *ᵥ xs) {rstop : α} (hst : 0 < rstop) (left : Nat) :
    ∀ (k : Nat) (d1 : α) (m : Mem α) (y q : Fin A.rows → α), Vec m X (xs + Dᵀ *ᵥ y) → Vec m R (cgR S 1 r0 k) →
      Vec m P (Dᵀ *ᵥ cgP S 1 r0 k) → Vec m Q q →
      cgR S 1 r0 k = r0 - S *ᵥ y → (∀ i, i ≤ k → cgR S 1 r0 i ≠ 0) →
      energy S r0 y ≤ energy S r0 0 → (left = 0 → d1 = cgR S 1 r0 k ⬝ᵥ cgR S 1 r0 k ∧ rstop ≤ d1 ∧ energy S r0 y < energy S r0 0) →
      Runs (cgneLoop env fuel A X R P Q rstop left k d1 m) (fun r => ∃ y' : Fin A.rows → α,
        Vec r.2.2 X (xs + Dᵀ *ᵥ y') ∧ CgPost S r0 (fun r => r ⬝ᵥ r) rstop (k + left) 0 y' r.1 r.2.1 ∧
        Frame (X.foot ∪ R.foot ∪ P.foot ∪ Q.foot) m r.2.2) := by
  simp only [Apart, List.pairwise_cons, List.mem_cons, List.not_mem_nil, or_false, forall_eq_or_imp, forall_eq] at hD
  obtain ⟨⟨dXR, dXP, dXQ⟩, ⟨dRP, dRQ⟩, dPQ, -⟩ := hD
  induction left with
  | zero =>
    intro k d1 m y q hX hR hP hQ hr hne hen h0
    obtain ⟨h1, h2, h3⟩ := h0 rfl
    unfold cgneLoop
    refine Runs.pure ⟨y, hX, ⟨?_, h3, Or.inr ⟨rfl, h2, cg_left hS spd_one hne⟩⟩, Frame.refl _ _⟩
    rw [h1, hr]
  | succ left ih =>
    intro k d1 m y q hX hR hP hQ hr hne hen _
    have hdir := cg_dir_pos hS spd_one hne
    have hrr : cgR S 1 r0 k ⬝ᵥ cgR S 1 r0 k ≠ 0 := by
      have := (spd_one (α := α) (n := A.rows)).ne (hne k (le_refl _)); rwa [one_mulVec] at this
    have hpp : (Dᵀ *ᵥ cgP S 1 r0 k) ⬝ᵥ (Dᵀ *ᵥ cgP S 1 r0 k) = cgP S 1 r0 k ⬝ᵥ S *ᵥ cgP S 1 r0 k := by
      rw [hSd, ← mulVec_mulVec, dotProduct_mulVec _ D, ← mulVec_transpose]
    have ha : cgR S 1 r0 k ⬝ᵥ cgR S 1 r0 k / ((Dᵀ *ᵥ cgP S 1 r0 k) ⬝ᵥ (Dᵀ *ᵥ cgP S 1 r0 k)) = cgA S 1 r0 k := by
      unfold cgA; rw [one_mulVec, hpp]
    unfold cgneLoop
    refine Runs.bind (hQ.mult M hP dPQ.symm 0 1) ?_
    rintro ⟨_, m1⟩ ⟨q1, f1⟩
    dsimp only at q1 f1 ⊢
    rw [hDm, zero_smul, one_smul, zero_add, mulVec_mulVec, ← hSd] at q1
    have hX1 := hX.frame f1 dXQ
    have hR1 := hR.frame f1 dRQ
    have hP1 := hP.frame f1 dPQ
    rw [hR1.dot hR1 _ _ hf, Res.ok_bind, hP1.dot hP1 _ _ hf', Res.ok_bind,
      fdiv_ok (by rw [hpp]; exact ne_of_gt hdir.2), Res.ok_bind, ha]
    refine Runs.bind (hX1.axpy hP1 dXP.symm _) ?_
    rintro ⟨_, m2⟩ ⟨x2, f2⟩
    dsimp only at x2 f2 ⊢
    rw [add_assoc, ← mulVec_smul, ← mulVec_add] at x2
    have hR2 := hR1.frame f2 dXR.symm
    have hP2 := hP1.frame f2 dXP.symm
    have hQ2 := q1.frame f2 dXQ.symm
    refine Runs.bind (hR2.axpy hQ2 dRQ.symm _) ?_
    rintro ⟨_, m3⟩ ⟨r3, f3⟩
    dsimp only at r3 f3 ⊢
    have er : cgR S 1 r0 k + -cgA S 1 r0 k • (S *ᵥ cgP S 1 r0 k) = cgR S 1 r0 (k + 1) := by rw [cgR_succ, neg_smul, sub_eq_add_neg]
    rw [er] at r3
    have hX3 := x2.frame f3 dXR
    have hP3 := hP2.frame f3 dRP.symm
    have hQ3 := hQ2.frame f3 dRQ.symm
    have hr' : cgR S 1 r0 (k + 1) = r0 - S *ᵥ (y + cgA S 1 r0 k • cgP S 1 r0 k) := by
      rw [cgR_succ, hr, mulVec_add, mulVec_smul]; abel
    have hen' := lt_of_lt_of_le (cg_energy hS spd_one hne hr) hen
    have fr : Frame (X.foot ∪ R.foot ∪ P.foot ∪ Q.foot) m m3 :=
      (f1.mono (fun _ h => by simp [h])).trans ((f2.mono (fun _ h => by simp [h])).trans (f3.mono (fun _ h => by simp [h])))
    rw [r3.dot r3 _ _ hf, Res.ok_bind]
    by_cases hb : cgR S 1 r0 (k + 1) ⬝ᵥ cgR S 1 r0 (k + 1) < rstop
    · rw [if_pos hb]
      refine Runs.pure ⟨_, hX3, ⟨?_, hen', Or.inl ⟨by show k < k + (left + 1); omega, hb⟩⟩, fr⟩
      rw [← hr']
    · rw [if_neg hb, fdiv_ok hrr, Res.ok_bind]
      refine Runs.bind (hP3.multT M r3 dRP.symm _ 1) ?_
      rintro ⟨_, m4⟩ ⟨p4, f4⟩
      dsimp only at p4 f4 ⊢
      have ep : (cgR S 1 r0 (k + 1) ⬝ᵥ cgR S 1 r0 (k + 1) / cgR S 1 r0 k ⬝ᵥ cgR S 1 r0 k) • (Dᵀ *ᵥ cgP S 1 r0 k) +
          (1 : α) • (Dᵀ *ᵥ cgR S 1 r0 (k + 1)) = Dᵀ *ᵥ cgP S 1 r0 (k + 1) := by
        rw [cgP_succ]; unfold cgB; simp only [one_mulVec, one_smul]; rw [add_comm, mulVec_add, mulVec_smul]
      rw [hDm, ep] at p4
      have hne' : ∀ i, i ≤ k + 1 → cgR S 1 r0 i ≠ 0 := by
        intro i hi
        rcases Nat.lt_or_eq_of_le hi with c | c
        · exact hne i (by omega)
        · subst c
          intro h0
          rw [h0, zero_dotProduct] at hb
          exact hb hst
      refine (ih (k + 1) _ m4 _ _ (hX3.frame f4 dXP) (r3.frame f4 dRP) p4 (hQ3.frame f4 dPQ.symm) hr' hne' (le_of_lt hen')
        (fun _ => ⟨rfl, not_lt.mp hb, hen'⟩)).mono ?_
      rintro r ⟨x', h1, h2, h3⟩
      refine ⟨x', h1, ?_, fr.trans ((f4.mono (fun _ h => by simp [h])).trans h3)⟩
      rw [show k + (left + 1) = k + 1 + left by omega]; exact h2

theorem cgnrLoop_spec {A : Sp α} {N : Nat} {e : Nat → Ent α} (M : Mulable A N e) {D : Matrix (Fin A.rows) (Fin A.cols) α}
    (hDm : fmat A.rows A.cols (dense N e) = D) {S : Matrix (Fin A.cols) (Fin A.cols) α} (hSd : S = Dᵀ * D) (hS : Spd S) (env : Env)
    {fuel : Nat} (hf : A.rows < fuel) (hf' : A.cols < fuel) {X R Z P Q : View} (hD : Apart [X, R, Z, P, Q]) {b : Fin A.rows → α}
    {r0 xs : Fin A.cols → α} {rstop : α} (hst : 0 < rstop) (left : Nat) :
    ∀ (k : Nat) (d1 : α) (m : Mem α) (x : Fin A.cols → α) (q : Fin A.rows → α), Vec m X x → Vec m R (b - D *ᵥ x) →
      Vec m Z (cgR S 1 r0 k) → Vec m P (cgP S 1 r0 k) → Vec m Q q →
      cgR S 1 r0 k = Dᵀ *ᵥ b - S *ᵥ x → (∀ i, i ≤ k → cgR S 1 r0 i ≠ 0) →
      energy S (Dᵀ *ᵥ b) x ≤ energy S (Dᵀ *ᵥ b) xs →
      (left = 0 → d1 = cgR S 1 r0 k ⬝ᵥ cgR S 1 r0 k ∧ rstop ≤ d1 ∧ energy S (Dᵀ *ᵥ b) x < energy S (Dᵀ *ᵥ b) xs) →
      Runs (cgnrLoop env fuel A X R Z P Q rstop left k d1 m) (fun r => ∃ x' : Fin A.cols → α,
        Vec r.2.2 X x' ∧ CgPost S (Dᵀ *ᵥ b) (fun r => r ⬝ᵥ r) rstop (k + left) xs x' r.1 r.2.1 ∧
        Frame (X.foot ∪ R.foot ∪ Z.foot ∪ P.foot ∪ Q.foot) m r.2.2) := by
  simp only [Apart, List.pairwise_cons, List.mem_cons, List.not_mem_nil, or_false, forall_eq_or_imp, forall_eq] at hD
  obtain ⟨⟨dXR, dXZ, dXP, dXQ⟩, ⟨dRZ, dRP, dRQ⟩, ⟨dZP, dZQ⟩, dPQ, -⟩ := hD
  induction left with
  | zero =>
    intro k d1 m x q hX hR hZ hP hQ hr hne hen h0
    obtain ⟨h1, h2, h3⟩ := h0 rfl
    unfold cgnrLoop
    refine Runs.pure ⟨x, hX, ⟨?_, h3, Or.inr ⟨rfl, h2, cg_left hS spd_one hne⟩⟩, Frame.refl _ _⟩
    rw [h1, hr]
  | succ left ih =>
    intro k d1 m x q hX hR hZ hP hQ hr hne hen _
    have hdir := cg_dir_pos hS spd_one hne
    have hrr : cgR S 1 r0 k ⬝ᵥ cgR S 1 r0 k ≠ 0 := by
      have := (spd_one (α := α) (n := A.cols)).ne (hne k (le_refl _)); rwa [one_mulVec] at this
    have hpp : (D *ᵥ cgP S 1 r0 k) ⬝ᵥ (D *ᵥ cgP S 1 r0 k) = cgP S 1 r0 k ⬝ᵥ S *ᵥ cgP S 1 r0 k := by
      rw [hSd, ← mulVec_mulVec, dotProduct_mulVec _ Dᵀ, ← mulVec_transpose, transpose_transpose]
    have ha : cgR S 1 r0 k ⬝ᵥ cgR S 1 r0 k / ((D *ᵥ cgP S 1 r0 k) ⬝ᵥ (D *ᵥ cgP S 1 r0 k)) = cgA S 1 r0 k := by
      unfold cgA; rw [one_mulVec, hpp]
    unfold cgnrLoop
    refine Runs.bind (hQ.mult M hP dPQ.symm 0 1) ?_
    rintro ⟨_, m1⟩ ⟨q1, f1⟩
    dsimp only at q1 f1 ⊢
    rw [hDm, zero_smul, one_smul, zero_add] at q1
    have hX1 := hX.frame f1 dXQ
    have hR1 := hR.frame f1 dRQ
    have hZ1 := hZ.frame f1 dZQ
    have hP1 := hP.frame f1 dPQ
    rw [hZ1.dot hZ1 _ _ hf', Res.ok_bind, q1.dot q1 _ _ hf, Res.ok_bind,
      fdiv_ok (by rw [hpp]; exact ne_of_gt hdir.2), Res.ok_bind, ha]
    refine Runs.bind (hX1.axpy hP1 dXP.symm _) ?_
    rintro ⟨_, m2⟩ ⟨x2, f2⟩
    dsimp only at x2 f2 ⊢
    have hR2 := hR1.frame f2 dXR.symm
    have hZ2 := hZ1.frame f2 dXZ.symm
    have hP2 := hP1.frame f2 dXP.symm
    have hQ2 := q1.frame f2 dXQ.symm
    refine Runs.bind (hR2.axpy hQ2 dRQ.symm _) ?_
    rintro ⟨_, m3⟩ ⟨r3, f3⟩
    dsimp only at r3 f3 ⊢
    have er : b - D *ᵥ x + -cgA S 1 r0 k • (D *ᵥ cgP S 1 r0 k) = b - D *ᵥ (x + cgA S 1 r0 k • cgP S 1 r0 k) := by
      rw [mulVec_add, mulVec_smul, neg_smul]; abel
    rw [er] at r3
    have hX3 := x2.frame f3 dXR
    have hZ3 := hZ2.frame f3 dRZ.symm
    have hP3 := hP2.frame f3 dRP.symm
    have hQ3 := hQ2.frame f3 dRQ.symm
    have hr' : cgR S 1 r0 (k + 1) = Dᵀ *ᵥ b - S *ᵥ (x + cgA S 1 r0 k • cgP S 1 r0 k) := by
      rw [cgR_succ, hr, mulVec_add, mulVec_smul]; abel
    refine Runs.bind (hZ3.multT M r3 dRZ.symm 0 1) ?_
    rintro ⟨_, m4⟩ ⟨z4, f4⟩
    dsimp only at z4 f4 ⊢
    rw [hDm, zero_smul, one_smul, zero_add, mulVec_sub, mulVec_mulVec, ← hSd, ← hr'] at z4
    have hX4 := hX3.frame f4 dXZ
    have r4 := r3.frame f4 dRZ
    have hP4 := hP3.frame f4 dZP.symm
    have hQ4 := hQ3.frame f4 dZQ.symm
    have hen' := lt_of_lt_of_le (cg_energy hS spd_one hne hr) hen
    have fr : Frame (X.foot ∪ R.foot ∪ Z.foot ∪ P.foot ∪ Q.foot) m m4 :=
      (f1.mono (fun _ h => by simp [h])).trans ((f2.mono (fun _ h => by simp [h])).trans ((f3.mono (fun _ h => by simp [h])).trans
        (f4.mono (fun _ h => by simp [h]))))
    rw [z4.dot z4 _ _ hf', Res.ok_bind]
    by_cases hb : cgR S 1 r0 (k + 1) ⬝ᵥ cgR S 1 r0 (k + 1) < rstop
    · rw [if_pos hb]
      refine Runs.pure ⟨_, hX4, ⟨?_, hen', Or.inl ⟨by show k < k + (left + 1); omega, hb⟩⟩, fr⟩
      rw [← hr']
    · rw [if_neg hb, fdiv_ok hrr, Res.ok_bind]
      refine Runs.bind (hP4.axpby z4 dZP _ 1) ?_
      rintro ⟨_, m5⟩ ⟨p5, f5⟩
      dsimp only at p5 f5 ⊢
      have ep : (cgR S 1 r0 (k + 1) ⬝ᵥ cgR S 1 r0 (k + 1) / cgR S 1 r0 k ⬝ᵥ cgR S 1 r0 k) • cgP S 1 r0 k +
          (1 : α) • cgR S 1 r0 (k + 1) = cgP S 1 r0 (k + 1) := by
        rw [cgP_succ]; unfold cgB; simp only [one_mulVec, one_smul]; rw [add_comm]
      rw [ep] at p5
      have hne' : ∀ i, i ≤ k + 1 → cgR S 1 r0 i ≠ 0 := by
        intro i hi
        rcases Nat.lt_or_eq_of_le hi with c | c
        · exact hne i (by omega)
        · subst c
          intro h0
          rw [h0, zero_dotProduct] at hb
          exact hb hst
      refine (ih (k + 1) _ m5 _ _ (hX4.frame f5 dXP) (r4.frame f5 dRP) (z4.frame f5 dZP) p5 (hQ4.frame f5 dPQ.symm) hr' hne' (le_of_lt hen')
        (fun _ => ⟨rfl, not_lt.mp hb, hen'⟩)).mono ?_
      rintro r ⟨x', h1, h2, h3⟩
      refine ⟨x', h1, ?_, fr.trans ((f5.mono (fun _ h => by simp [h])).trans h3)⟩
      rw [show k + (left + 1) = k + 1 + left by omega]; exact h2

end Armas
