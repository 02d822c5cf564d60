import Verif.Props.Par
import Verif.Props.Symm
import Verif.Props.Trxm
import Verif.SymmReal
import Verif.TrxmReal

/-!
# C27: threaded symmetric and triangular operations

The target is split by rows for `ARMAS_RIGHT`, by columns otherwise.  See `Verif/Props/Par.lean` for threads and
executions.
-/

namespace Armas.Props

open Armas Finset

variable {α : Type}

/-- The blocks are slabs. -/
theorem sideBlock_tiling {n : Nat} {T : View} {r : Bool} {b : Fin n → Block} (hn : 0 < n)
    (ho : n * max T.rows T.cols ≤ INT_MAX) (hb : ∀ k : Fin n, sideBlock r k n T.rows T.cols = .ok (b k)) :
    Tiling T b ∧ ∀ k, if r then (b k).col = 0 ∧ (b k).ncols = T.cols else (b k).row = 0 ∧ (b k).nrows = T.rows := by
  have h1 : n * T.rows ≤ INT_MAX := (Nat.mul_le_mul_left _ (le_max_left _ _)).trans ho
  have h2 : n * T.cols ≤ INT_MAX := (Nat.mul_le_mul_left _ (le_max_right _ _)).trans ho
  have m1 : ∀ (t : Nat) (k : Fin n), bound k n t ≤ bound (k + 1) n t := fun t k => bound_mono (by omega) (by omega) hn
  have m2 : ∀ (t : Nat) (k : Fin n), bound (k + 1) n t ≤ t := fun t k => by
    have := bound_mono (ntotal := t) (show (k : Nat) + 1 ≤ n by omega) (le_refl _) hn
    rwa [show bound n n t = t by simp [bound]] at this
  cases r
  · have e : ∀ k, b k = ⟨0, bound k n T.cols, T.rows, bound (k + 1) n T.cols - bound k n T.cols⟩ := fun k => by
      have := hb k
      unfold sideBlock at this
      rw [if_neg (by simp), blockIndex_ok (by omega) hn h2, blockIndex_ok (by omega) hn h2] at this
      exact (Res.ok.inj this).symm
    refine ⟨⟨fun k => by rw [e]; simp, fun k => ?_, fun i j hi hj => ?_, fun i j k l => ?_⟩, fun k => by rw [e]; simp⟩
    · rw [e]; have := m1 T.cols k; have := m2 T.cols k; dsimp only; omega
    · obtain ⟨k, ⟨hk, h3, h4⟩, -⟩ := bound_unique hn hj
      refine ⟨⟨k, hk⟩, ?_⟩
      rw [e]; dsimp only; omega
    · rw [e, e]
      dsimp only
      intro _ _ a1 a2 _ _ b1 b2
      have := m1 T.cols k; have := m2 T.cols k; have := m1 T.cols l; have := m2 T.cols l
      obtain ⟨q, -, hq⟩ := bound_unique (x := j) hn (show j < T.cols by omega)
      exact Fin.ext ((hq k ⟨k.2, by omega, by omega⟩).trans (hq l ⟨l.2, by omega, by omega⟩).symm)
  · have e : ∀ k, b k = ⟨bound k n T.rows, 0, bound (k + 1) n T.rows - bound k n T.rows, T.cols⟩ := fun k => by
      have := hb k
      unfold sideBlock at this
      rw [if_pos rfl, blockIndex_ok (by omega) hn h1, blockIndex_ok (by omega) hn h1] at this
      exact (Res.ok.inj this).symm
    refine ⟨⟨fun k => ?_, fun k => by rw [e]; simp, fun i j hi hj => ?_, fun i j k l => ?_⟩, fun k => by rw [e]; simp⟩
    · rw [e]; have := m1 T.rows k; have := m2 T.rows k; dsimp only; omega
    · obtain ⟨k, ⟨hk, h3, h4⟩, -⟩ := bound_unique hn hi
      refine ⟨⟨k, hk⟩, ?_⟩
      rw [e]; dsimp only; omega
    · rw [e, e]
      dsimp only
      intro a1 a2 _ _ b1 b2 _ _
      have := m1 T.rows k; have := m2 T.rows k; have := m1 T.rows l; have := m2 T.rows l
      obtain ⟨q, -, hq⟩ := bound_unique (x := i) hn (show i < T.rows by omega)
      exact Fin.ext ((hq k ⟨k.2, by omega, by omega⟩).trans (hq l ⟨l.2, by omega, by omega⟩).symm)

/-- The first line of a block in the direction in which the target is split. -/
def Block.off (b : Block) (r : Bool) : Nat := if r then b.row else b.col

theorem trSlice_eq {B : View} {fl : Flags} {b : Block} (hs : fl.right = true → fl.left = false)
    (h : if fl.right then b.col = 0 ∧ b.ncols = B.cols else b.row = 0 ∧ b.nrows = B.rows) :
    trSlice B fl b = B.blk b := by
  unfold trSlice View.blk
  cases hr : fl.right <;> rw [hr] at h <;> simp only [Bool.false_eq_true, if_true, if_false] at h
  · rw [if_neg (by simp), h.1, h.2]
  · rw [hs hr, if_pos (by simp), h.1, h.2]

/-- Threads of the triangular operations: `V`, in coordinates of lines, is what the sequential function leaves in `B`,
for each part of the lines. -/
theorem trThreads [CommRing α] {n : Nat} {c : Fin n → Cache} {m : Mem α} {B A : View} {f a V : Nat → Nat → α}
    {fl : Flags} {b : Fin n → Block} {P : Fin n → Prog α Unit} {F : Fin n → View → Mem α → Res (Mem α)} (hn : 0 < n)
    (ho : n * max B.rows B.cols ≤ INT_MAX)
    (hb : ∀ k : Fin n, sideBlock fl.right k n B.rows B.cols = .ok (b k))
    (hP : ∀ k, (P k).Realises (unitM (F k (trSlice B fl (b k)))))
    (hW : ∀ k, (P k).Writes ((B.blk (b k)).foot ∪ (c k).foot))
    (hc : BufsOk c m (B.foot ∪ A.footOn (InTri fl.upper fl.unit))) (hside : fl.right = true → fl.left = false)
    (hw : B.WF) (hrb : ∀ k, (c k).rb ≤ (c k).MB) (hB : Holds m B f) (hA : HoldsOn m A (InTri fl.upper fl.unit) a)
    (hd : Disjoint (A.footOn (InTri fl.upper fl.unit)) B.foot) (hq : A.rows = A.cols)
    (hs : A.cols = if fl.right then B.cols else B.rows) (h0 : 0 < A.cols)
    (hF : ∀ k m' (B' : View) q, TrPre (c k) m' B' A (fun i j => opM fl.right f i (q + j)) a fl →
      q + B'.wd fl.right ≤ B.wd fl.right →
      Runs (F k B' m') (fun m'' => Holds m'' B' (opM fl.right (fun i j => V i (q + j))))) :
    AllSchedules P m (fun m' => Holds m' B (opM fl.right V) ∧ Frame (B.foot ∪ ⋃ k, (c k).foot) m m') := by
  obtain ⟨ht, hsl⟩ := sideBlock_tiling hn ho hb
  refine blocks_threads (T := B) (b := b) (R := A.footOn (InTri fl.upper fl.unit)) (buf := fun k => (c k).foot)
    (f := fun k => F k (trSlice B fl (b k))) (P := P) hw ht hd.symm
    (fun k => (Set.disjoint_union_right.mp (hc.apart k)).1) (fun k => (Set.disjoint_union_right.mp (hc.apart k)).2)
    hc.dis ?_ hP hW
  intro k
  have e := trSlice_eq hside (hsl k)
  have hr := ht.row k
  have hcl := ht.col k
  have sB : (B.blk (b k)).foot ⊆ B.foot := View.sub_foot hr hcl
  have hap := Set.disjoint_union_right.mp (hc.apart k)
  rw [e]
  have hsk := hsl k
  have e1 : ∀ G : Nat → Nat → α, ∀ i j, opM fl.right G ((b k).row + i) ((b k).col + j) =
      opM fl.right (fun i j => G i (Block.off (b k) fl.right + j)) i j := by
    intro G i j
    revert hsk
    unfold Block.off
    cases fl.right <;> simp only [Bool.false_eq_true, if_true, if_false, opM] <;> intro h <;> rw [h.1, Nat.zero_add]
  refine (hF k _ (B.blk (b k)) (Block.off (b k) fl.right) ?_ ?_).mono ?_
  · refine ⟨hw.sub hr hcl, readyOnly (hc.ready k) (fun p hp => Or.inr hp), hrb k, ?_, ?_, hq, h0,
      hA.only (fun p hp => Or.inl (Or.inr hp)), hd.mono_right sB, hap.2.symm, hap.1.symm.mono_left sB⟩
    · refine ((hB.sub hr hcl).only (fun p hp => Or.inl (Or.inl hp))).congr (fun i j _ _ => ?_)
      rw [← e1 (opM fl.right f), opM_opM]
    · rw [hs]
      revert hsk
      unfold View.nl
      cases fl.right <;> simp only [Bool.false_eq_true, if_true, if_false] <;> intro h <;> exact h.2.symm
  · revert hr hcl
    unfold View.wd Block.off View.blk View.sub
    cases fl.right <;> simp only [Bool.false_eq_true, if_true, if_false] <;> intro h1 h2 <;> assumption
  · intro m' h
    exact h.congr (fun i j _ _ => (e1 V i j).symm)

/-- **C27, triangular multiply.** `armas_ac_threaded_mult_trm` with any number of threads, every schedule: the elements
of `B` are those that the sequential `armas_mult_trm` (with any cache `c0`, blocked or recursive) computes. -/
theorem C27_mult_trm [CommRing α] [DecidableEq α] (ab : α → α) {env : Env} (hmin : 2 ≤ env.blas2min)
    {n : Nat} {c : Fin n → Cache} {c0 : Cache} {m : Mem α} {B A : View}
    {f a : Nat → Nat → α} (alpha : α) {fl : Flags} {b : Fin n → Block} {P : Fin n → Prog α Unit} {fuel : Nat}
    (hn : 0 < n) (ho : n * max B.rows B.cols ≤ INT_MAX)
    (hb : ∀ k : Fin n, sideBlock fl.right k n B.rows B.cols = .ok (b k))
    (hP : ∀ k, (P k).Realises (unitM (trmThread ab env fuel B alpha A fl (c k) (b k))))
    (hW : ∀ k, (P k).Writes ((B.blk (b k)).foot ∪ (c k).foot))
    (hc : BufsOk c m (B.foot ∪ A.footOn (InTri fl.upper fl.unit))) (hrb : ∀ k, (c k).rb ≤ (c k).MB)
    (H : TrArgs c0 m B A f a fl) (h0 : ¬ (B.size = 0 ∨ A.size = 0)) (hf : A.cols + B.rows + B.cols < fuel) :
    AllSchedules P m (fun m' => (∃ ms, multTrm ab env fuel m B alpha A fl (some c0) = .ok (0, ms) ∧
      ∀ i j, i < B.rows → j < B.cols → m' (B.at' i j) = ms (B.at' i j)) ∧
      Frame (B.foot ∪ ⋃ k, (c k).foot) m m') := by
  obtain ⟨⟨r, ms⟩, e1, e2, h1, -⟩ := C18_mult_trm_partial ab (Or.inl hmin) alpha H hf
  dsimp only at e2 h1
  subst e2
  have hp : 0 < A.cols := by
    simp only [View.size, mul_eq_zero, not_or] at h0; omega
  have e : opM fl.right (trmmVal fl alpha A.cols a (opM fl.right f)) = fun i j => alpha * triProd fl A.cols a f i j := by
    have : trmmVal fl alpha A.cols a (opM fl.right f) =
        opM fl.right (fun i j => alpha * triProd fl A.cols a f i j) := by
      funext i j
      rw [trmmVal, triProd_lines, opM_opM]
      unfold opM; split <;> rfl
    rw [this, opM_opM]
  have hmain := trThreads (V := trmmVal fl alpha A.cols a (opM fl.right f)) (fl := fl) (A := A) (a := a) (c := c)
    (F := fun k B' => fun m => trmmBlk ab env fuel m B' alpha A fl (c k)) (P := P) hn ho hb hP hW hc H.side H.wf hrb
    H.hB H.hA H.dAB H.square H.size hp ?_
  · refine ⟨fun s hs => ⟨(hmain.1 s hs).1, (hmain.1 s hs).2.1, fun hd => ?_⟩, hmain.2⟩
    obtain ⟨h2, h3⟩ := (hmain.1 s hs).2.2 hd
    rw [e] at h2
    exact ⟨⟨ms, e1, fun i j hi hj => (h2 i j hi hj).trans (h1 i j hi hj).symm⟩, h3⟩
  · intro k m' B' q hpre hq
    refine (trmmBlk_spec ab hmin alpha H.uplo H.absA hpre ?_).mono ?_
    · have : B.wd fl.right ≤ B.rows + B.cols := by unfold View.wd; split <;> omega
      omega
    · intro m'' h
      exact h.hold

/-- **C27, triangular solve.** `armas_ac_threaded_solve_trm` with any number of threads, every schedule: the elements
of `B` are those that the sequential `armas_solve_trm` (with any cache `c0`) computes; with C19, the solution.
Missing as in C19: `alpha` other than 1 when the recursion is entered in a block, where the solution is wrong
(`C19_recursive_alpha_false`). -/
theorem C27_solve_trm_partial [Field α] [DecidableEq α] (ab : α → α) {env : Env} (hmin : 2 ≤ env.blas2min)
    (hnv : env.naive = false) (hrec : env.recursive = false) {n : Nat} {c : Fin n → Cache} {c0 : Cache} {m : Mem α} {B A : View}
    {f a : Nat → Nat → α} (alpha : α) {fl : Flags} {b : Fin n → Block} {P : Fin n → Prog α Unit} {fuel : Nat}
    (hn : 0 < n) (ho : n * max B.rows B.cols ≤ INT_MAX)
    (hb : ∀ k : Fin n, sideBlock fl.right k n B.rows B.cols = .ok (b k))
    (hP : ∀ k, (P k).Realises (unitM (trsThread ab env fuel B alpha A fl (c k) (b k))))
    (hW : ∀ k, (P k).Writes ((B.blk (b k)).foot ∪ (c k).foot))
    (hc : BufsOk c m (B.foot ∪ A.footOn (InTri fl.upper fl.unit))) (hrb : ∀ k, (c k).rb ≤ (c k).MB)
    (H : TrArgs c0 m B A f a fl) (htb : fl.transB = false) (hab : fl.absB = false)
    (hnz : fl.unit = true ∨ ∀ i, i < A.cols → a i i ≠ 0)
    (hal : alpha = 1 ∨ A.cols < env.blas2min ∨ (c0.NB < env.blas2min ∧ ∀ k, (c k).NB < env.blas2min))
    (h0 : ¬ (B.size = 0 ∨ A.size = 0)) (hf : A.cols + B.rows + B.cols < fuel) :
    AllSchedules P m (fun m' => (∃ ms, solveTrm ab env fuel m B alpha A fl (some c0) = .ok (0, ms) ∧
      ∀ i j, i < B.rows → j < B.cols → m' (B.at' i j) = ms (B.at' i j)) ∧
      (∃ X, Holds m' B X ∧ ∀ i j, i < B.rows → j < B.cols → triProd fl A.cols a X i j = alpha * f i j) ∧
      Frame (B.foot ∪ ⋃ k, (c k).foot) m m') := by
  have hp : 0 < A.cols := by
    simp only [View.size, mul_eq_zero, not_or] at h0; omega
  obtain ⟨Pr, hsz, hwd⟩ := H.pre h0
  have hE : ∀ i, i < A.cols → trE fl a i i ≠ 0 := by
    intro i hi
    rw [trE_diag]
    cases hu : fl.unit
    · exact hnz.resolve_left (by simp [hu]) i hi
    · simp
  obtain ⟨g, hg⟩ : ∃ g, TrSol fl alpha A.cols (B.wd fl.right) a (opM fl.right f) g := by
    choose z hz using fun q => tri_solvable fl a (fun i => alpha * opM fl.right f i q) A.cols hE
    exact ⟨fun i q => z q i, fun i q hi _ => hz q i hi⟩
  have fin : ∀ i j, i < B.rows → j < B.cols → triProd fl A.cols a (opM fl.right g) i j = alpha * f i j := by
    intro i j hi hj
    have h1 := Pr.hn
    unfold TrSol at hg
    simp only [triProd_lines] at hg
    revert h1 hg
    cases fl.right <;> simp only [View.nl, View.wd, opM, Bool.false_eq_true, if_true, if_false] <;> intro h1 hg
    · exact hg i j (by omega) hj
    · exact hg j i (by omega) hi
  obtain ⟨ms, e1, h1⟩ : Runs (trsmBlk ab env fuel m B alpha A fl c0) (TrMid c0 m B fl.right g) :=
    trsmBlk_spec ab hmin alpha H.uplo htb H.absA hab Pr (by omega)
      (by rcases hal with h | h | h
          · exact Or.inl h
          · right; omega
          · right; omega) hg hE
  have hmain := trThreads (V := g) (fl := fl) (A := A) (a := a) (c := c)
    (F := fun k B' => fun m => trsmBlk ab env fuel m B' alpha A fl (c k)) (P := P) hn ho hb hP hW hc H.side H.wf hrb
    H.hB H.hA H.dAB H.square H.size hp ?_
  · refine ⟨fun s hs => ⟨(hmain.1 s hs).1, (hmain.1 s hs).2.1, fun hd => ?_⟩, hmain.2⟩
    obtain ⟨h2, h3⟩ := (hmain.1 s hs).2.2 hd
    refine ⟨⟨ms, ?_, fun i j hi hj => (h2 i j hi hj).trans (h1.hold i j hi hj).symm⟩, ⟨_, h2, fin⟩, h3⟩
    unfold solveTrm
    rw [if_neg h0, hsz, if_neg (by simp), hnv, if_neg (by simp)]
    dsimp only
    rw [hrec, if_neg (by simp), e1]
    rfl
  · intro k m' B' q hpre hq
    refine (trsmBlk_spec ab hmin alpha H.uplo htb H.absA hab hpre (by omega) ?_
      (g := fun i j => g i (q + j)) (fun i j hi hj => hg i (q + j) hi (by omega)) hE).mono (fun m'' h => h.hold)
    rcases hal with h | h | h
    · exact Or.inl h
    · right; omega
    · have := h.2 k; right; omega

/-- The model of `compute_block` of the triangular multiply is the behaviour of a thread. -/
theorem C27_mult_trm_thread [Mul α] [Add α] [Zero α] [One α] [DecidableEq α] (ab : α → α) (env : Env) (fuel : Nat)
    (B : View) (alpha : α) (A : View) {fl : Flags} (c : Cache) (b : Block) (hu : fl.lower = !fl.upper)
    (hside : fl.right = true → fl.left = false) (hs : A.cols = if fl.right then B.cols else B.rows)
    (h : if fl.right then b.col = 0 ∧ b.ncols = B.cols else b.row = 0 ∧ b.nrows = B.rows) :
    ∃ P : Prog α Unit, P.Realises (unitM (trmThread ab env fuel B alpha A fl c b)) ∧
      P.Writes ((B.blk b).foot ∪ c.foot) := by
  obtain ⟨P, h1, -, h3⟩ := trmmBlk_real (ab := ab) (env := env) (fuel := fuel) (B := B.blk b) (alpha := alpha) (A := A)
    (fl := fl) (c := c) (W := (B.blk b).foot ∪ c.foot) hu Set.subset_union_left Set.subset_union_right (by
      rw [hs]; revert h; unfold View.nl
      cases fl.right <;> simp only [Bool.false_eq_true, if_true, if_false] <;> intro h <;> exact h.2.symm)
  refine ⟨P, fun m r hr => ?_, h1⟩
  rw [h3]
  unfold unitM trmThread at hr
  rwa [trSlice_eq hside h] at hr

/-- The model of `compute_block` of the triangular solve is the behaviour of a thread. -/
theorem C27_solve_trm_thread [Field α] [DecidableEq α] (ab : α → α) (env : Env) (fuel : Nat)
    (B : View) (alpha : α) (A : View) {fl : Flags} (c : Cache) (b : Block) (hu : fl.lower = !fl.upper)
    (hside : fl.right = true → fl.left = false) (hs : A.cols = if fl.right then B.cols else B.rows)
    (h : if fl.right then b.col = 0 ∧ b.ncols = B.cols else b.row = 0 ∧ b.nrows = B.rows) :
    ∃ P : Prog α Unit, P.Realises (unitM (trsThread ab env fuel B alpha A fl c b)) ∧
      P.Writes ((B.blk b).foot ∪ c.foot) := by
  obtain ⟨P, h1, -, h3⟩ := trsmBlk_real (ab := ab) (env := env) (fuel := fuel) (B := B.blk b) (alpha := alpha) (A := A)
    (fl := fl) (c := c) (W := (B.blk b).foot ∪ c.foot) hu Set.subset_union_left Set.subset_union_right (by
      rw [hs]; revert h; unfold View.nl
      cases fl.right <;> simp only [Bool.false_eq_true, if_true, if_false] <;> intro h <;> exact h.2.symm)
  refine ⟨P, fun m r hr => ?_, h1⟩
  rw [h3]
  unfold unitM trsThread at hr
  rwa [trSlice_eq hside h] at hr

/-- The slice of `B` of a thread of the symmetric multiplication. -/
def symSlice (B : View) (fl : Flags) (b : Block) : View :=
  if fl.right then (if fl.transB then B.sub 0 b.row B.rows b.nrows else B.sub b.row 0 b.nrows B.cols)
  else (if fl.transB then B.sub b.col 0 b.ncols B.cols else B.sub 0 b.col B.rows b.ncols)

theorem symThread_eq [Mul α] [Add α] [Zero α] [One α] [DecidableEq α] {ab : α → α} {beta : α} {C : View} {alpha : α}
    {A B : View} {fl : Flags} {c : Cache} {b : Block} (hs : fl.right = true → fl.left = false) :
    symThread ab beta C alpha A B fl c b =
      fun m => symmSide ab fl.right m beta (C.blk b) alpha A (symSlice B fl b) fl c := by
  funext m
  unfold symThread symSlice
  cases hr : fl.right
  · cases fl.left <;> cases fl.transB <;> rfl
  · rw [hs hr]; cases fl.transB <;> rfl

/-- The model of `compute_block` of the symmetric multiply is the behaviour of a thread. -/
theorem C27_mult_sym_thread [Mul α] [Add α] [Zero α] [One α] [DecidableEq α] (ab : α → α) (beta : α) (C : View)
    (alpha : α) (A B : View) {fl : Flags} (c : Cache) (b : Block) (hside : fl.right = true → fl.left = false)
    (hs : A.rows = if fl.right then C.cols else C.rows)
    (h : if fl.right then b.col = 0 ∧ b.ncols = C.cols else b.row = 0 ∧ b.nrows = C.rows)
    (hr : b.nrows ≤ C.rows) (hcl : b.ncols ≤ C.cols)
    (hfit : BlocksFit c A.rows (if fl.right then C.rows else C.cols) fl) :
    ∃ P : Prog α Unit, P.Realises (unitM (symThread ab beta C alpha A B fl c b)) ∧
      P.Writes ((C.blk b).foot ∪ c.foot) := by
  obtain ⟨P, h1, -, h3⟩ := symmSide_real (ab := ab) (beta := beta) (C := C.blk b) (alpha := alpha) (A := A)
    (B := symSlice B fl b) (fl := fl) (c := c) (W := (C.blk b).foot ∪ c.foot) (n := A.rows)
    (w := if fl.right then b.nrows else b.ncols) Set.subset_union_left Set.subset_union_right
    (by revert hs h; unfold View.blk View.sub
        cases fl.right <;> simp only [Bool.false_eq_true, if_true, if_false] <;> intros <;> first | trivial | omega)
    (by revert hs h; unfold View.blk View.sub
        cases fl.right <;> simp only [Bool.false_eq_true, if_true, if_false] <;> intros <;> first | trivial | omega)
    (by revert hfit; unfold BlocksFit; cases fl.right <;> simp <;> intros <;> omega)
    (by revert hfit; unfold BlocksFit; cases fl.right <;> simp <;> intros <;> omega)
    (by revert hfit; unfold BlocksFit; cases fl.right <;> simp <;> intros <;> omega)
  refine ⟨P, fun m r hr => ?_, h1⟩
  rw [h3]
  rwa [symThread_eq hside] at hr

/-- **C27, symmetric multiply.** `armas_ac_threaded_mult_sym` with any number of threads, every schedule: the elements
of `C` are those that the sequential `armas_mult_sym` (with any cache `c0`) computes.
Missing as in C20: block configurations that do not fit to the buffers. -/
theorem C27_mult_sym_partial [CommRing α] [DecidableEq α] (ab : α → α) {n : Nat} {c : Fin n → Cache} {c0 : Cache}
    {m : Mem α} {C A B : View} {f a d : Nat → Nat → α} (beta alpha : α) {fl : Flags} {b : Fin n → Block}
    {P : Fin n → Prog α Unit} (hn : 0 < n) (ho : n * max C.rows C.cols ≤ INT_MAX)
    (hb : ∀ k : Fin n, sideBlock fl.right k n C.rows C.cols = .ok (b k))
    (hP : ∀ k, (P k).Realises (unitM (symThread ab beta C alpha A B fl (c k) (b k))))
    (hW : ∀ k, (P k).Writes ((C.blk (b k)).foot ∪ (c k).foot))
    (hc : BufsOk c m (C.foot ∪ (A.footOn (InTri fl.upper fl.unit) ∪ B.foot))) (hrb : ∀ k, (c k).rb ≤ (c k).MB)
    (H : SymArgs c0 m C A B f a d fl) (hfit0 : BlocksFit c0 A.rows (if fl.right then C.rows else C.cols) fl)
    (hfit : ∀ k, BlocksFit (c k) A.rows (if fl.right then C.rows else C.cols) fl)
    (h0 : C.rows ≠ 0 ∧ C.cols ≠ 0) :
    AllSchedules P m (fun m' => (∃ ms, multSym ab m beta C alpha A B fl (some c0) = .ok (0, ms) ∧
      ∀ i j, i < C.rows → j < C.cols → m' (C.at' i j) = ms (C.at' i j)) ∧
      Frame (C.foot ∪ ⋃ k, (c k).foot) m m') := by
  obtain ⟨⟨r, ms⟩, e1, e2, h1, -⟩ := C20_mult_sym_partial ab beta alpha H hfit0
  dsimp only at e2 h1
  subst e2
  obtain ⟨ht, hsl⟩ := sideBlock_tiling hn ho hb
  have hmain := blocks_threads (m := m) (T := C) (b := b) (R := A.footOn (InTri fl.upper fl.unit) ∪ B.foot)
    (buf := fun k => (c k).foot) (f := fun k => symThread ab beta C alpha A B fl (c k) (b k))
    (g := fun i j => beta * f i j + alpha * symProd fl A.rows a d i j) (P := P) H.wf ht
    (Set.disjoint_union_right.mpr ⟨H.dAC.symm, H.dBC.symm⟩)
    (fun k => (Set.disjoint_union_right.mp (hc.apart k)).1) (fun k => (Set.disjoint_union_right.mp (hc.apart k)).2)
    hc.dis ?_ hP hW
  · refine ⟨fun s hs => ⟨(hmain.1 s hs).1, (hmain.1 s hs).2.1, fun hd => ?_⟩, hmain.2⟩
    obtain ⟨h2, h3⟩ := (hmain.1 s hs).2.2 hd
    exact ⟨⟨ms, e1, fun i j hi hj => (h2 i j hi hj).trans (h1 i j hi hj).symm⟩, h3⟩
  intro k
  rw [symThread_eq H.side]
  dsimp only
  have hr := ht.row k
  have hcl := ht.col k
  have hap := hc.apart k
  simp only [Set.disjoint_union_right] at hap
  have hsk := hsl k
  have sC : (C.blk (b k)).foot ⊆ C.foot := View.sub_foot hr hcl
  obtain ⟨hCr, hCc, hBk⟩ := (⟨H.Cr, H.Cc, H.Bk⟩ : _ ∧ _ ∧ _)
  have sB : (symSlice B fl (b k)).foot ⊆ B.foot := by
    unfold symSlice
    revert hCr hCc hBk
    cases fl.right <;> cases fl.transB <;> simp only [Bool.false_eq_true, if_true, if_false] <;> intro q1 q2 q3 <;>
      exact View.sub_foot (by omega) (by omega)
  have hfk := hfit k
  set w := if fl.right then (b k).nrows else (b k).ncols with hwdef
  have hwle : w ≤ if fl.right then C.rows else C.cols := by
    rw [hwdef]; cases fl.right <;> simp <;> omega
  by_cases hw0 : w = 0
  · refine (symmSide_empty (H.wf.sub hr hcl) ?_ (hc.ready k).mb (hc.ready k).nb).mono ?_
    · exact hw0
    · intro m' _ i j hi hj
      exfalso
      rw [hwdef] at hw0
      simp only [View.blk, View.sub] at hi hj
      split at hw0 <;> omega
  have hA0 : 0 < A.rows := by
    revert hCr hCc; cases fl.right <;> simp only [Bool.false_eq_true, if_true, if_false] <;> intros <;> omega
  have Pre : SymPre (m.only ((C.blk (b k)).foot ∪ (A.footOn (InTri fl.upper fl.unit) ∪ B.foot) ∪ (c k).foot))
      (C.blk (b k)) A (symSlice B fl (b k)) fl (c k) a
      (fun i j => opM (fl.right ^^ fl.transB) d i (Block.off (b k) fl.right + j)) A.rows w := by
    refine ⟨H.uplo, H.absA, H.absB, H.wf.sub hr hcl, hrb k, rfl, H.sq.symm, ?_, ?_, ?_, ?_,
      H.hA.only (fun p hp => Or.inl (Or.inr (Or.inl hp))), ?_, hap.2.1.symm, hap.2.2.symm.mono_left sB,
      hap.1.symm.mono_left sC, H.dAC.mono_right sC, H.dBC.mono sB sC⟩
    · revert hsk hCr; rw [hwdef]; unfold View.blk View.sub
      cases fl.right <;> simp only [Bool.false_eq_true, if_true, if_false] <;> intros <;> first | trivial | omega
    · revert hsk hCc; rw [hwdef]; unfold View.blk View.sub
      cases fl.right <;> simp only [Bool.false_eq_true, if_true, if_false] <;> intros <;> first | trivial | omega
    · revert hsk hBk; rw [hwdef]; unfold symSlice View.sub
      cases fl.right <;> cases fl.transB <;> simp <;> intros <;> omega
    · revert hsk hBk; rw [hwdef]; unfold symSlice View.sub
      cases fl.right <;> cases fl.transB <;> simp <;> intros <;> omega
    · have h := H.hB.only (F := (C.blk (b k)).foot ∪ (A.footOn (InTri fl.upper fl.unit) ∪ B.foot) ∪ (c k).foot)
        (fun p hp => Or.inl (Or.inr (Or.inr hp)))
      unfold symSlice Block.off
      revert hCr hCc hBk
      cases fl.right <;> cases fl.transB <;> simp only [Bool.false_eq_true, if_true, if_false, Bool.xor_self,
        Bool.xor_false, Bool.xor_true, Bool.not_false, Bool.not_true] <;> intro q1 q2 q3 <;>
        exact (h.sub (by omega) (by omega)).congr (fun i j _ _ => by simp [opM])
  have e1' : ∀ G : Nat → Nat → α, ∀ i j, G ((b k).row + i) ((b k).col + j) =
      opM fl.right (fun i j => opM fl.right G i (Block.off (b k) fl.right + j)) i j := by
    intro G i j
    revert hsk
    unfold Block.off
    cases fl.right <;> simp only [Bool.false_eq_true, if_true, if_false, opM] <;> intro h <;> rw [h.1, Nat.zero_add]
  refine (symmSide_spec ab beta alpha Pre (readyOnly (hc.ready k) (fun p hp => Or.inr hp)) hA0 (by omega) ?_ ?_ ?_
    (f := fun i j => opM fl.right f i (Block.off (b k) fl.right + j)) ?_).mono ?_
  · revert hfk hwle; unfold BlocksFit; cases fl.right <;> simp <;> intros <;> omega
  · revert hfk hwle; unfold BlocksFit; cases fl.right <;> simp <;> intros <;> omega
  · revert hfk hwle; unfold BlocksFit; cases fl.right <;> simp <;> intros <;> omega
  · refine ((H.hC.sub hr hcl).only (fun p hp => Or.inl (Or.inl hp))).congr (fun i j _ _ => ?_)
    exact e1' f i j
  · rintro m' ⟨h2, -⟩
    refine h2.congr (fun i j _ _ => ?_)
    rw [e1' (fun i j => beta * f i j + alpha * symProd fl A.rows a d i j) i j]
    have hcomm : ∀ i j, symOf fl a i j = symOf fl a j i := fun i j => by
      rw [← symU_eq, symU_comm, symU_eq]
    simp only [symU_eq, symProd]
    cases fl.right <;> cases fl.transB <;> simp only [opM, Bool.xor_self, Bool.xor_false, Bool.xor_true,
      Bool.not_true, Bool.not_false, Bool.false_eq_true, if_true, if_false]
    all_goals
      congr 2
      refine Finset.sum_congr rfl (fun x _ => ?_)
      first | rfl | rw [mul_comm, hcomm]

/-! Examples: three threads, which have 0, 4 and 6 columns or rows. -/

theorem exSeq {α : Type} {g : Nat → α} : Cache.Ready ⟨500, 600, 4, 2, 3, 2, 1⟩ (tot g) :=
  ⟨by decide, by decide, by decide, by decide, by decide, ⟨_, holds_tot _ _⟩, ⟨_, holds_tot _ _⟩,
      View.disj_below (by decide)⟩

theorem exSeq_below {V : View} (h : V.base + V.rows + V.cols * V.step ≤ 500) :
    Disjoint V.foot (Cache.foot ⟨500, 600, 4, 2, 3, 2, 1⟩) :=
  Set.disjoint_union_right.mpr ⟨View.disj_below (h.trans (by decide)), View.disj_below (h.trans (by decide))⟩

example : ∃ P : Fin 3 → Prog ℤ Unit, AllSchedules P (tot (fun p => (p : ℤ))) (fun m' =>
    (∃ ms, multTrm id ⟨8, 2, false, false⟩ 100 (tot (fun p => (p : ℤ))) ⟨0, 9, 9, 10⟩ 3 ⟨100, 9, 9, 9⟩
      { lower := true, transA := true } (some ⟨500, 600, 4, 2, 3, 2, 1⟩) = .ok (0, ms) ∧
      ∀ i j, i < 9 → j < 10 → m' (View.at' ⟨0, 9, 9, 10⟩ i j) = ms (View.at' ⟨0, 9, 9, 10⟩ i j)) ∧
    Frame (View.foot ⟨0, 9, 9, 10⟩ ∪ ⋃ k, (exBufs k).foot) (tot (fun p => (p : ℤ))) m') := by
  choose P h1 h2 using fun k => C27_mult_trm_thread (α := ℤ) id ⟨8, 2, false, false⟩ 100 ⟨0, 9, 9, 10⟩ 3 ⟨100, 9, 9, 9⟩
    (fl := { lower := true, transA := true }) (exBufs k) (![⟨0, 0, 9, 0⟩, ⟨0, 0, 9, 4⟩, ⟨0, 4, 9, 6⟩] k) rfl
    (by decide) rfl (by revert k; decide)
  exact ⟨P, C27_mult_trm id (by decide) 3 (by decide) (by decide) (by intro k; fin_cases k <;> rfl) h1 h2
    (exBufs_ok (fun k => Set.disjoint_union_right.mpr ⟨exBufs_above (by decide) k,
      (exBufs_above (by decide) k).mono_right (View.footOn_sub_foot _ _)⟩)) (by decide)
    ⟨fun _ => rfl, rfl, rfl, Or.inl (by decide), rfl, rfl, exSeq, by decide, holds_tot _ _,
      HoldsOn.of_holds (holds_tot _ _), (View.disj_below (by decide)).symm.mono_left (View.footOn_sub_foot _ _),
      (exSeq_below (by decide)).mono_left (View.footOn_sub_foot _ _), exSeq_below (by decide)⟩
    (by decide) (by decide)⟩

example : ∃ P : Fin 3 → Prog ℚ Unit, AllSchedules P (tot (fun p => (p + 1 : ℚ))) (fun m' =>
    (∃ ms, solveTrm id ⟨8, 4, false, false⟩ 100 (tot (fun p => (p + 1 : ℚ))) ⟨0, 10, 10, 9⟩ 5 ⟨100, 9, 9, 9⟩
      { upper := true, right := true } (some ⟨500, 600, 4, 2, 3, 2, 1⟩) = .ok (0, ms) ∧
      ∀ i j, i < 10 → j < 9 → m' (View.at' ⟨0, 10, 10, 9⟩ i j) = ms (View.at' ⟨0, 10, 10, 9⟩ i j)) ∧
    (∃ X, Holds m' ⟨0, 10, 10, 9⟩ X ∧ ∀ i j, i < 10 → j < 9 →
      triProd { upper := true, right := true } 9 (fun i j => ((View.at' ⟨100, 9, 9, 9⟩ i j : Nat) + 1 : ℚ)) X i j =
        5 * ((View.at' ⟨0, 10, 10, 9⟩ i j : Nat) + 1 : ℚ)) ∧
    Frame (View.foot ⟨0, 10, 10, 9⟩ ∪ ⋃ k, (exBufs k).foot) (tot (fun p => (p + 1 : ℚ))) m') := by
  choose P h1 h2 using fun k => C27_solve_trm_thread (α := ℚ) id ⟨8, 4, false, false⟩ 100 ⟨0, 10, 10, 9⟩ 5 ⟨100, 9, 9, 9⟩
    (fl := { upper := true, right := true }) (exBufs k) (![⟨0, 0, 0, 9⟩, ⟨0, 0, 4, 9⟩, ⟨4, 0, 6, 9⟩] k) rfl
    (by decide) rfl (by revert k; decide)
  exact ⟨P, C27_solve_trm_partial id (by decide) rfl rfl 5 (by decide) (by decide) (by intro k; fin_cases k <;> rfl)
    h1 h2 (exBufs_ok (fun k => Set.disjoint_union_right.mpr ⟨exBufs_above (by decide) k,
      (exBufs_above (by decide) k).mono_right (View.footOn_sub_foot _ _)⟩)) (by decide)
    ⟨fun _ => rfl, rfl, rfl, Or.inl (by decide), rfl, rfl, exSeq, by decide, holds_tot _ _,
      HoldsOn.of_holds (holds_tot _ _), (View.disj_below (by decide)).symm.mono_left (View.footOn_sub_foot _ _),
      (exSeq_below (by decide)).mono_left (View.footOn_sub_foot _ _), exSeq_below (by decide)⟩
    rfl rfl (Or.inr (fun i _ => by positivity)) (Or.inr (Or.inr (by decide))) (by decide) (by decide)⟩

example : ∃ P : Fin 3 → Prog ℤ Unit, AllSchedules P (tot (fun p => (p : ℤ))) (fun m' =>
    (∃ ms, multSym id (tot (fun p => (p : ℤ))) 2 ⟨0, 9, 9, 10⟩ 3 ⟨100, 9, 9, 9⟩ ⟨200, 11, 10, 9⟩
      { lower := true, transB := true } (some ⟨500, 600, 4, 2, 3, 2, 1⟩) = .ok (0, ms) ∧
      ∀ i j, i < 9 → j < 10 → m' (View.at' ⟨0, 9, 9, 10⟩ i j) = ms (View.at' ⟨0, 9, 9, 10⟩ i j)) ∧
    Frame (View.foot ⟨0, 9, 9, 10⟩ ∪ ⋃ k, (exBufs k).foot) (tot (fun p => (p : ℤ))) m') := by
  have hfit : ∀ k : Fin 3, BlocksFit (exBufs k) 9 10 { lower := true, transB := true } := fun k => by
    unfold BlocksFit; revert k; decide
  choose P h1 h2 using fun k => C27_mult_sym_thread (α := ℤ) id 2 ⟨0, 9, 9, 10⟩ 3 ⟨100, 9, 9, 9⟩ ⟨200, 11, 10, 9⟩
    (fl := { lower := true, transB := true }) (exBufs k) (![⟨0, 0, 9, 0⟩, ⟨0, 0, 9, 4⟩, ⟨0, 4, 9, 6⟩] k)
    (by decide) rfl (by revert k; decide) (by revert k; decide) (by revert k; decide) (hfit k)
  exact ⟨P, C27_mult_sym_partial id 2 3 (by decide) (by decide) (by intro k; fin_cases k <;> rfl) h1 h2
    (exBufs_ok (fun k => Set.disjoint_union_right.mpr ⟨exBufs_above (by decide) k, Set.disjoint_union_right.mpr
      ⟨(exBufs_above (by decide) k).mono_right (View.footOn_sub_foot _ _), exBufs_above (by decide) k⟩⟩)) (by decide)
    ⟨rfl, by decide, rfl, rfl, Or.inl (by decide), rfl, rfl, rfl, rfl, exSeq, by decide,
      HoldsOn.of_holds (holds_tot _ _), holds_tot _ _, holds_tot _ _,
      (exSeq_below (by decide)).mono_left (View.footOn_sub_foot _ _), exSeq_below (by decide), exSeq_below (by decide),
      (View.disj_below (by decide)).symm.mono_left (View.footOn_sub_foot _ _), (View.disj_below (by decide)).symm⟩
    (by unfold BlocksFit; decide) hfit (by decide)⟩

end Armas.Props
