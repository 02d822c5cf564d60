import Verif.SparseCg
import Verif.CgTheory
import Verif.Props.SparseSym

/-!
# Lemmas on the conjugate gradient solvers
-/

namespace Armas

open Matrix Finset

variable {α : Type} {n k : Nat}

/-- A finite vector as a function of natural numbers. -/
def fv [Zero α] (v : Fin n → α) (i : Nat) : α := if h : i < n then v ⟨i, h⟩ else 0

/-- The column vector `V` holds `v`. -/
structure Vec [Zero α] (m : Mem α) (V : View) (v : Fin n → α) : Prop where
  cols : V.cols = 1
  rows : V.rows = n
  holds : HoldsV m V (fv v)

theorem fv_fin [Zero α] (v : Fin n → α) (i : Fin n) : fv v i = v i := by unfold fv; rw [dif_pos i.2]

theorem fv_lt [Zero α] (v : Fin n → α) {i : Nat} (h : i < n) : fv v i = v ⟨i, h⟩ := by unfold fv; rw [dif_pos h]

theorem Vec.size [Zero α] {m : Mem α} {V : View} {v : Fin n → α} (h : Vec m V v) : V.size = n := by rw [View.colSize h.cols, h.rows]

theorem Vec.isVec [Zero α] {m : Mem α} {V : View} {v : Fin n → α} (h : Vec m V v) : V.isVec := by
  unfold View.isVec; have := h.cols; simp [this]

theorem Vec.wf [Zero α] {m : Mem α} {V : View} {v : Fin n → α} (h : Vec m V v) : V.WF := by
  unfold View.WF; have := h.cols; omega

theorem Vec.frame [Zero α] {m m' : Mem α} {V : View} {v : Fin n → α} {S : Set Nat} (h : Vec m V v) (hf : Frame S m m')
    (hd : Disjoint V.foot S) : Vec m' V v := ⟨h.cols, h.rows, h.holds.frame h.isVec hf hd⟩

theorem Vec.mk' [Zero α] {m m' : Mem α} {V : View} {v w : Fin n → α} {g : Nat → α} (h : Vec m V v) (hg : HoldsV m' V g)
    (e : ∀ i : Fin n, g i = w i) : Vec m' V w :=
  ⟨h.cols, h.rows, hg.congr fun i hi => by rw [h.size] at hi; rw [fv_lt w hi]; exact e ⟨i, hi⟩⟩

theorem sum_fv [CommRing α] (u v : Fin n → α) : ∑ i ∈ range n, fv u i * fv v i = u ⬝ᵥ v := by
  rw [Finset.sum_range]
  exact Finset.sum_congr rfl fun i _ => by rw [fv_fin, fv_fin]

theorem Vec.dot [CommRing α] {m : Mem α} {U V : View} {u v : Fin n → α} (hu : Vec m U u) (hv : Vec m V v) (b : Nat) (nv : Bool) {fuel : Nat}
    (hf : n < fuel) : dot fuel m b nv U V = .ok (u ⬝ᵥ v) := by
  rw [Props.C07_dot b nv hu.isVec hv.isVec (by rw [hu.size, hv.size]) hu.holds hv.holds fuel (by rw [hu.size]; exact hf), hu.size, sum_fv]

theorem Vec.axpby [CommRing α] {m : Mem α} {Y X : View} {y x : Fin n → α} (hy : Vec m Y y) (hx : Vec m X x) (hd : Disjoint X.foot Y.foot)
    (beta alpha : α) : Runs (axpby m beta Y alpha X) (fun r => Vec r.2 Y (beta • y + alpha • x) ∧ Frame Y.foot m r.2) := by
  refine (Props.C06_axpby beta alpha hx.isVec hy.isVec hy.wf (by rw [hx.size, hy.size]) hx.holds hy.holds hd).mono ?_
  rintro r ⟨-, h1, h2⟩
  exact ⟨hy.mk' h1 fun i => by simp [fv_fin], h2⟩

theorem Vec.axpy [CommRing α] {m : Mem α} {Y X : View} {y x : Fin n → α} (hy : Vec m Y y) (hx : Vec m X x) (hd : Disjoint X.foot Y.foot)
    (alpha : α) : Runs (axpy m Y alpha X) (fun r => Vec r.2 Y (y + alpha • x) ∧ Frame Y.foot m r.2) := by
  refine (hy.axpby hx hd 1 alpha).mono ?_
  rintro r ⟨h1, h2⟩
  exact ⟨by rwa [one_smul] at h1, h2⟩

theorem Vec.mcopy [Zero α] {m : Mem α} {Y X : View} {y x : Fin n → α} (hy : Vec m Y y) (hx : Vec m X x) (hd : Disjoint X.foot Y.foot) :
    Runs (mcopy m Y X false) (fun r => Vec r.2 Y x ∧ Frame Y.foot m r.2) := by
  refine (Props.C05_mcopy_vector false hy.wf hy.isVec hx.isVec hy.holds hx.holds hd (by rw [hx.size, hy.size])).mono ?_
  rintro r ⟨-, h1, h2⟩
  exact ⟨hy.mk' h1 fun i => fv_fin x i, h2⟩

/-- The square matrix given by a function. -/
def fmat (r c : Nat) (a : Nat → Nat → α) : Matrix (Fin r) (Fin c) α := Matrix.of fun i j => a i j

theorem mulVec_fmat [CommRing α] {r c : Nat} (a : Nat → Nat → α) (x : Fin c → α) (i : Fin r) :
    (fmat r c a *ᵥ x) i = ∑ j ∈ range c, a i j * fv x j := by
  rw [Finset.sum_range]
  simp only [fv_fin]; rfl

theorem Vec.sym [Field α] [DecidableEq α] {A : Sp α} {N : Nat} {e : Nat → Ent α} {upper lower trans : Bool}
    (T : Props.Triangular A n N e true) {m : Mem α} {Y X : View} {y x : Fin n → α} (hy : Vec m Y y) (hx : Vec m X x)
    (hd : Disjoint Y.foot X.foot) (beta alpha : α) :
    Runs (spMvmultSym beta Y alpha A X upper lower trans m) (fun r =>
      Vec r.2 Y (beta • y + alpha • (fmat n n (symm (upper && !lower) (dense N e)) *ᵥ x)) ∧ Frame Y.foot m r.2) := by
  refine (Props.C71_mvmult_sym_partial T beta alpha hx.cols hy.cols hy.rows hx.rows hy.holds hx.holds hd).mono ?_
  rintro r ⟨-, h1, h2⟩
  exact ⟨hy.mk' h2 fun i => by rw [fv_fin, ← mulVec_fmat]; rfl, h1⟩

/-- A sparse matrix that can be multiplied from both sides: in compressed rows only square matrices. -/
structure Mulable [CommRing α] (A : Sp α) (N : Nat) (e : Nat → Ent α) : Prop where
  is : SpIs A N e
  kind : A.kind ≠ .coo
  sq : A.kind = .csr → A.rows = A.cols

theorem Vec.mult [CommRing α] {A : Sp α} {N : Nat} {e : Nat → Ent α} (M : Mulable A N e) {m : Mem α} {Y X : View} {y : Fin A.rows → α}
    {x : Fin A.cols → α} (hy : Vec m Y y) (hx : Vec m X x) (hd : Disjoint Y.foot X.foot) (beta alpha : α) :
    Runs (spMvmult beta Y alpha A X false false m) (fun r =>
      Vec r.2 Y (beta • y + alpha • (fmat A.rows A.cols (dense N e) *ᵥ x)) ∧ Frame Y.foot m r.2) := by
  refine (Props.C40_mvmult_partial (trans := false) M.is M.kind beta alpha hx.cols hy.cols hy.rows hx.rows (fun h => absurd h (by decide))
    hy.holds hx.holds hd).mono ?_
  rintro r ⟨-, h1, h2⟩
  refine ⟨hy.mk' h2 fun i => ?_, h1⟩
  simp only [Bool.false_eq_true, if_false]
  rw [hx.rows, fv_fin, ← mulVec_fmat]; rfl

theorem Vec.multT [CommRing α] {A : Sp α} {N : Nat} {e : Nat → Ent α} (M : Mulable A N e) {m : Mem α} {Y X : View} {y : Fin A.cols → α}
    {x : Fin A.rows → α} (hy : Vec m Y y) (hx : Vec m X x) (hd : Disjoint Y.foot X.foot) (beta alpha : α) :
    Runs (spMvmult beta Y alpha A X true false m) (fun r =>
      Vec r.2 Y (beta • y + alpha • ((fmat A.rows A.cols (dense N e))ᵀ *ᵥ x)) ∧ Frame Y.foot m r.2) := by
  refine (Props.C40_mvmult_partial (trans := true) M.is M.kind beta alpha hx.cols hy.cols hy.rows hx.rows (fun _ => M.sq)
    hy.holds hx.holds hd).mono ?_
  rintro r ⟨-, h1, h2⟩
  refine ⟨hy.mk' h2 fun i => ?_, h1⟩
  simp only [if_true]
  rw [hx.rows, fv_fin, ← mulVec_fmat (fun i j => dense N e j i)]; rfl

theorem fdiv_ok [Field α] [DecidableEq α] {a b : α} (h : b ≠ 0) : fdiv a b = .ok (a / b) := by unfold fdiv; rw [if_neg h]; rfl

/-! ## Workspace -/

theorem wtake_ok {wb cnt o : Nat} {W : WBuf} (h1 : W.bytes < SIZE_T) (h2 : W.offset = 8 * o) (h3 : 8 * o + 8 * cnt ≤ W.bytes) :
    wtake wb W cnt = .ok (wb + o, ⟨W.bytes, 8 * (o + cnt)⟩) := by
  have hS : (0 : Nat) < SIZE_T := by omega
  unfold wtake wreserve wreserveBytes szSub
  rw [h2, Nat.mod_eq_of_lt (a := cnt * 8) (by omega), Nat.mod_eq_of_lt (a := 8 * o) (by omega)]
  have e : (W.bytes + SIZE_T - 8 * o) % SIZE_T = W.bytes - 8 * o := by
    rw [show W.bytes + SIZE_T - 8 * o = (W.bytes - 8 * o) + SIZE_T by omega, Nat.add_mod_right, Nat.mod_eq_of_lt (by omega)]
  rw [e, if_neg (by omega), Nat.mod_eq_of_lt (a := 8 * o + cnt * 8) (by omega)]
  show Res.ok (wb + 8 * o / 8, _) = _
  rw [Nat.mul_div_cancel_left o (by decide)]
  congr 3
  ring

theorem wbytes_ok {o : Nat} {W : WBuf} (h1 : W.bytes < SIZE_T) (h2 : W.offset = 8 * o) (h3 : 8 * o ≤ W.bytes) : wbytes W = W.bytes - 8 * o := by
  unfold wbytes szSub
  rw [h2, Nat.mod_eq_of_lt (a := 8 * o) (by omega), show W.bytes + SIZE_T - 8 * o = (W.bytes - 8 * o) + SIZE_T by omega, Nat.add_mod_right,
    Nat.mod_eq_of_lt (by omega)]

/-! ## The loops -/

variable [Field α] [LinearOrder α] [IsStrictOrderedRing α]

/-- What a solver of `S x = b` reports: `d` is the measure `q` of the residual of `x`, the energy went down, and either it is below `rstop`
before iteration `L`, or all `L` iterations were made, and these are less than `n`. -/
structure CgPost (S : Matrix (Fin n) (Fin n) α) (b : Fin n → α) (q : (Fin n → α) → α) (rstop : α) (L : Nat) (x0 x : Fin n → α) (it : Nat)
    (d : α) : Prop where
  meas : d = q (b - S *ᵥ x)
  energy : energy S b x < energy S b x0
  fin : (it < L ∧ d < rstop) ∨ (it = L ∧ rstop ≤ d ∧ L < n)

theorem cg_left {S B : Matrix (Fin n) (Fin n) α} {r0 : Fin n → α} (hS : Spd S) (hB : Spd B) (h : ∀ i, i ≤ k → cgR S B r0 i ≠ 0) : k < n := by
  by_contra hc
  obtain ⟨j, hj, e⟩ := cg_term (r0 := r0) hS hB
  exact h j (by omega) e

theorem cg_one (S : Matrix (Fin n) (Fin n) α) (r : Fin n → α) : r ⬝ᵥ (1 : Matrix (Fin n) (Fin n) α) *ᵥ r = r ⬝ᵥ r := by rw [one_mulVec]

/-- The vectors of a solver do not overlap. -/
def Apart : List View → Prop := List.Pairwise (fun U V => Disjoint U.foot V.foot)

theorem cgradLoop_spec {A : Sp α} {N : Nat} {e : Nat → Ent α} {upper lower trans : Bool} (T : Props.Triangular A n N e true)
    {S : Matrix (Fin n) (Fin n) α} (hSm : fmat n n (symm (upper && !lower) (dense N e)) = S) (hS : Spd S) (env : Env) {fuel : Nat}
    (hf : n < fuel) {X R P Q : View} (hD : Apart [X, R, P, Q]) {b r0 xs : Fin n → α} {rstop : α} (hst : 0 < rstop) (left : Nat) :
    ∀ (k : Nat) (d1 : α) (m : Mem α) (x q : Fin n → α), Vec m X x → Vec m R (cgR S 1 r0 k) → Vec m P (cgP S 1 r0 k) → Vec m Q q →
      cgR S 1 r0 k = b - S *ᵥ x → (∀ i, i ≤ k → cgR S 1 r0 i ≠ 0) →
      energy S b x ≤ energy S b xs → (left = 0 → d1 = cgR S 1 r0 k ⬝ᵥ cgR S 1 r0 k ∧ rstop ≤ d1 ∧ energy S b x < energy S b xs) →
      Runs (cgradLoop env fuel A upper lower trans X R P Q rstop left k d1 m) (fun r => ∃ x' : Fin n → α,
        Vec r.2.2 X x' ∧ CgPost S b (fun r => r ⬝ᵥ r) rstop (k + left) xs x' r.1 r.2.1 ∧
        Frame (X.foot ∪ R.foot ∪ P.foot ∪ Q.foot) m r.2.2) := by
  simp only [Apart, List.pairwise_cons, List.mem_cons, List.not_mem_nil, or_false, forall_eq_or_imp, forall_eq] at hD
  obtain ⟨⟨dXR, dXP, dXQ⟩, ⟨dRP, dRQ⟩, dPQ, -⟩ := hD
  induction left with
  | zero =>
    intro k d1 m x q hX hR hP hQ hr hne hen h0
    obtain ⟨h1, h2, h3⟩ := h0 rfl
    unfold cgradLoop
    refine Runs.pure ⟨x, hX, ⟨?_, h3, Or.inr ⟨rfl, h2, cg_left hS spd_one hne⟩⟩, Frame.refl _ _⟩
    rw [h1, hr]
  | succ left ih =>
    intro k d1 m x q hX hR hP hQ hr hne hen _
    have hdir := cg_dir_pos hS spd_one hne
    have hrr : cgR S 1 r0 k ⬝ᵥ cgR S 1 r0 k ≠ 0 := by
      have := (spd_one (α := α) (n := n)).ne (hne k (le_refl _)); rwa [one_mulVec] at this
    have ha : cgR S 1 r0 k ⬝ᵥ cgR S 1 r0 k / ((S *ᵥ cgP S 1 r0 k) ⬝ᵥ cgP S 1 r0 k) = cgA S 1 r0 k := by
      unfold cgA; rw [one_mulVec, dotProduct_comm (S *ᵥ _)]
    unfold cgradLoop
    refine Runs.bind (hQ.sym T hP dPQ.symm 0 1) ?_
    rintro ⟨_, m1⟩ ⟨q1, f1⟩
    dsimp only at q1 f1 ⊢
    rw [hSm, zero_smul, one_smul, zero_add] at q1
    have hX1 := hX.frame f1 dXQ
    have hR1 := hR.frame f1 dRQ
    have hP1 := hP.frame f1 dPQ
    rw [hR1.dot hR1 _ _ hf, Res.ok_bind, q1.dot hP1 _ _ hf, Res.ok_bind,
      fdiv_ok (by rw [dotProduct_comm]; exact ne_of_gt hdir.2), Res.ok_bind, ha]
    refine Runs.bind (hX1.axpy hP1 dXP.symm _) ?_
    rintro ⟨_, m2⟩ ⟨x2, f2⟩
    dsimp only at x2 f2 ⊢
    have hR2 := hR1.frame f2 dXR.symm
    have hP2 := hP1.frame f2 dXP.symm
    have hQ2 := q1.frame f2 dXQ.symm
    refine Runs.bind (hR2.axpy hQ2 dRQ.symm _) ?_
    rintro ⟨_, m3⟩ ⟨r3, f3⟩
    dsimp only at r3 f3 ⊢
    have er : cgR S 1 r0 k + -cgA S 1 r0 k • (S *ᵥ cgP S 1 r0 k) = cgR S 1 r0 (k + 1) := by rw [cgR_succ, neg_smul, sub_eq_add_neg]
    rw [er] at r3
    have hX3 := x2.frame f3 dXR
    have hP3 := hP2.frame f3 dRP.symm
    have hQ3 := hQ2.frame f3 dRQ.symm
    have hr' : cgR S 1 r0 (k + 1) = b - S *ᵥ (x + cgA S 1 r0 k • cgP S 1 r0 k) := by
      rw [cgR_succ, hr, mulVec_add, mulVec_smul]; abel
    have hen' := lt_of_lt_of_le (cg_energy hS spd_one hne hr) hen
    have fr : Frame (X.foot ∪ R.foot ∪ P.foot ∪ Q.foot) m m3 :=
      (f1.mono (fun _ h => by simp [h])).trans ((f2.mono (fun _ h => by simp [h])).trans (f3.mono (fun _ h => by simp [h])))
    rw [r3.dot r3 _ _ hf, Res.ok_bind]
    by_cases hb : cgR S 1 r0 (k + 1) ⬝ᵥ cgR S 1 r0 (k + 1) < rstop
    · rw [if_pos hb]
      refine Runs.pure ⟨_, hX3, ⟨?_, hen', Or.inl ⟨by show k < k + (left + 1); omega, hb⟩⟩, fr⟩
      rw [← hr']
    · rw [if_neg hb, fdiv_ok hrr, Res.ok_bind]
      refine Runs.bind (hP3.axpby r3 dRP _ 1) ?_
      rintro ⟨_, m4⟩ ⟨p4, f4⟩
      dsimp only at p4 f4 ⊢
      have ep : (cgR S 1 r0 (k + 1) ⬝ᵥ cgR S 1 r0 (k + 1) / cgR S 1 r0 k ⬝ᵥ cgR S 1 r0 k) • cgP S 1 r0 k + (1 : α) • cgR S 1 r0 (k + 1) =
          cgP S 1 r0 (k + 1) := by
        rw [cgP_succ]; unfold cgB; simp only [one_mulVec, one_smul]; rw [add_comm]
      rw [ep] at p4
      have hne' : ∀ i, i ≤ k + 1 → cgR S 1 r0 i ≠ 0 := by
        intro i hi
        rcases Nat.lt_or_eq_of_le hi with c | c
        · exact hne i (by omega)
        · subst c
          intro h0
          rw [h0, zero_dotProduct] at hb
          exact hb hst
      refine (ih (k + 1) _ m4 _ _ (hX3.frame f4 dXP) (r3.frame f4 dRP) p4 (hQ3.frame f4 dPQ.symm) hr' hne' (le_of_lt hen')
        (fun _ => ⟨rfl, not_lt.mp hb, hen'⟩)).mono ?_
      rintro r ⟨x', h1, h2, h3⟩
      refine ⟨x', h1, ?_, fr.trans ((f4.mono (fun _ h => by simp [h])).trans h3)⟩
      rw [show k + (left + 1) = k + 1 + left by omega]; exact h2

end Armas
