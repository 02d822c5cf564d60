import Verif.Schur
import Verif.Props.Blas2
import Verif.Props.Mset
import Verif.Props.Trxm
import Verif.Props.Updtrm

/-!
# Tools for the factorizations

`UpdX` is `UpdOn` (`Verif.Tri`) with further memory `F` (packing buffers, work space) that may be
overwritten.
-/

namespace Armas

open Classical Finset

variable {α : Type}

/-- The part `T` of matrix `V` held `f`; in `m` its elements in `S` have the value `g`, and nothing else
differs except for `F`. -/
structure UpdX (m0 : Mem α) (V : View) (T : Nat → Nat → Prop) (F : Set Nat) (f g : Nat → Nat → α)
    (S : Nat → Nat → Prop) (m : Mem α) : Prop where
  hold : HoldsOn m V T (fun i j => if S i j then g i j else f i j)
  frame : Frame (V.footOn T ∪ F) m0 m

namespace UpdX

variable {m0 m m' : Mem α} {V : View} {f g : Nat → Nat → α} {T S : Nat → Nat → Prop} {F : Set Nat}

theorem init (h : HoldsOn m0 V T f) (g : Nat → Nat → α) (F : Set Nat) :
    UpdX m0 V T F f g (fun i _ => i < 0) m0 :=
  ⟨h.congr (by intros; simp), Frame.refl _ _⟩

theorem congr {S' : Nat → Nat → Prop} (h : UpdX m0 V T F f g S m)
    (e : ∀ i j, i < V.rows → j < V.cols → T i j → (S i j ↔ S' i j)) : UpdX m0 V T F f g S' m :=
  ⟨h.hold.congr (fun i j hi hj ht => by simp only [e i j hi hj ht]), h.frame⟩

/-- Everything has the new value. -/
theorem fin (h : UpdX m0 V T F f g S m)
    (e : ∀ i j, i < V.rows → j < V.cols → T i j → ¬ S i j → f i j = g i j) : HoldsOn m V T g :=
  h.hold.congr (fun i j hi hj ht => by
    by_cases hs : S i j
    · rw [if_pos hs]
    · rw [if_neg hs]; exact e i j hi hj ht hs)

theorem part_old (h : UpdX m0 V T F f g S m) {U : Nat → Nat → Prop} {r c nr nc : Nat}
    (hr : r + nr ≤ V.rows) (hc : c + nc ≤ V.cols)
    (hU : ∀ i j, i < nr → j < nc → U i j → T (r + i) (c + j) ∧ ¬ S (r + i) (c + j)) :
    HoldsOn m (V.sub r c nr nc) U (fun i j => f (r + i) (c + j)) :=
  (h.hold.sub hr hc (fun i j hi hj hu => (hU i j hi hj hu).1)).congr (fun i j hi hj hu => by
    rw [if_neg (hU i j hi hj hu).2])

theorem part_new (h : UpdX m0 V T F f g S m) {U : Nat → Nat → Prop} {r c nr nc : Nat}
    (hr : r + nr ≤ V.rows) (hc : c + nc ≤ V.cols)
    (hU : ∀ i j, i < nr → j < nc → U i j → T (r + i) (c + j) ∧ S (r + i) (c + j)) :
    HoldsOn m (V.sub r c nr nc) U (fun i j => g (r + i) (c + j)) :=
  (h.hold.sub hr hc (fun i j hi hj hu => (hU i j hi hj hu).1)).congr (fun i j hi hj hu => by
    rw [if_pos (hU i j hi hj hu).2])

theorem block_old (h : UpdX m0 V T F f g S m) {r c nr nc : Nat}
    (hr : r + nr ≤ V.rows) (hc : c + nc ≤ V.cols)
    (hU : ∀ i j, i < nr → j < nc → T (r + i) (c + j) ∧ ¬ S (r + i) (c + j)) :
    Holds m (V.sub r c nr nc) (fun i j => f (r + i) (c + j)) := fun i j hi hj =>
  h.part_old (U := fun _ _ => True) hr hc (fun i j hi hj _ => hU i j hi hj) i j hi hj trivial

theorem block_new (h : UpdX m0 V T F f g S m) {r c nr nc : Nat}
    (hr : r + nr ≤ V.rows) (hc : c + nc ≤ V.cols)
    (hU : ∀ i j, i < nr → j < nc → T (r + i) (c + j) ∧ S (r + i) (c + j)) :
    Holds m (V.sub r c nr nc) (fun i j => g (r + i) (c + j)) := fun i j hi hj =>
  h.part_new (U := fun _ _ => True) hr hc (fun i j hi hj _ => hU i j hi hj) i j hi hj trivial

/-- A part of a block was updated by a subroutine. -/
theorem sub (h : UpdX m0 V T F f g S m) (hw : V.WF) (dF : Disjoint (V.footOn T) F)
    {U : Nat → Nat → Prop} {r c nr nc : Nat} (hr : r + nr ≤ V.rows) (hc : c + nc ≤ V.cols)
    (hU : ∀ i j, i < nr → j < nc → U i j → T (r + i) (c + j))
    (hb : HoldsOn m' (V.sub r c nr nc) U (fun i j => g (r + i) (c + j)))
    (hf : Frame ((V.sub r c nr nc).footOn U ∪ F) m m') :
    UpdX m0 V T F f g (fun i j => S i j ∨
      (r ≤ i ∧ i < r + nr ∧ c ≤ j ∧ j < c + nc ∧ U (i - r) (j - c))) m' := by
  refine ⟨fun i j hi hj ht => ?_, h.frame.trans (hf.mono
    (Set.union_subset_union_left _ (View.footOn_sub hr hc hU)))⟩
  by_cases hin : r ≤ i ∧ i < r + nr ∧ c ≤ j ∧ j < c + nc ∧ U (i - r) (j - c)
  · have := hb (i - r) (j - c) (by rw [View.sub_rows]; omega) (by rw [View.sub_cols]; omega)
      hin.2.2.2.2
    rw [View.at_sub] at this
    beta_reduce at this
    rw [show r + (i - r) = i by omega, show c + (j - c) = j by omega] at this
    rw [this]; simp only [hin, and_self, or_true, if_true]
  · rw [hf _ ?_]
    · rw [h.hold i j hi hj ht]; simp only [hin, or_false]
    · rintro (⟨i', j', hi', hj', hu, e⟩ | hF)
      · rw [View.at_sub] at e
        rw [View.sub_rows] at hi'
        rw [View.sub_cols] at hj'
        obtain ⟨e1, e2⟩ := View.at_inj hw hi hj (by omega) (by omega) e
        apply hin
        refine ⟨by omega, by omega, by omega, by omega, ?_⟩
        rw [e1, e2, Nat.add_sub_cancel_left, Nat.add_sub_cancel_left]; exact hu
      · exact Set.disjoint_left.mp dF ⟨i, j, hi, hj, ht, rfl⟩ hF

/-- A whole block was updated. -/
theorem block (h : UpdX m0 V T F f g S m) (hw : V.WF) (dF : Disjoint (V.footOn T) F) {r c nr nc : Nat}
    (hr : r + nr ≤ V.rows) (hc : c + nc ≤ V.cols)
    (hU : ∀ i j, i < nr → j < nc → T (r + i) (c + j))
    (hb : Holds m' (V.sub r c nr nc) (fun i j => g (r + i) (c + j)))
    (hf : Frame ((V.sub r c nr nc).foot ∪ F) m m') :
    UpdX m0 V T F f g (fun i j => S i j ∨ (r ≤ i ∧ i < r + nr ∧ c ≤ j ∧ j < c + nc)) m' := by
  refine (h.sub hw dF (U := fun _ _ => True) hr hc (fun i j hi hj _ => hU i j hi hj)
    (HoldsOn.of_holds hb) (hf.mono (Set.union_subset_union_left _ ?_))).congr (by simp)
  rintro p ⟨i, j, hi, hj, e⟩
  exact ⟨i, j, hi, hj, trivial, e⟩

/-- One element was written. -/
theorem cell (h : UpdX m0 V T F f g S m) (hw : V.WF) {r c : Nat} (hr : r < V.rows) (hc : c < V.cols)
    (ht : T r c) {x : α} (hx : x = g r c) :
    UpdX m0 V T F f g (fun i j => S i j ∨ (i = r ∧ j = c)) (m.set (V.at' r c) x) := by
  refine ⟨fun i j hi hj hT => ?_, ?_⟩
  · by_cases e : i = r ∧ j = c
    · obtain ⟨rfl, rfl⟩ := e
      rw [Mem.set_same, hx]; simp
    · rw [Mem.set_ne _ _ (fun h => e (View.at_inj hw hi hj hr hc h)), h.hold i j hi hj hT]
      simp only [e, or_false]
  · intro p hp
    rw [Mem.set_ne _ _ (fun e => hp (Or.inl ⟨r, c, hr, hc, ht, e⟩))]
    exact h.frame p hp

theorem at_old (h : UpdX m0 V T F f g S m) {r c : Nat} (hr : r < V.rows) (hc : c < V.cols) (ht : T r c)
    (hs : ¬ S r c) : m (V.at' r c) = some (f r c) := by
  rw [h.hold r c hr hc ht]; simp only [hs, if_false]

end UpdX

theorem HoldsOn.weaken_frame {m m' : Mem α} {S F : Set Nat} (h : Frame S m m') : Frame (S ∪ F) m m' :=
  h.mono Set.subset_union_left

/-! ## What is known of a call that returns -/

theorem Res.bind_ok {β γ : Type} {r : Res β} {k : β → Res γ} {v : γ} (h : (r >>= k) = .ok v) :
    ∃ u, r = .ok u ∧ k u = .ok v := by
  cases r with
  | ok u => exact ⟨u, rfl, h⟩
  | ub => cases h
  | diverge => cases h

theorem forUp_post {σ : Type} (I : Nat → σ → Prop) {i n s : Nat} {body : Nat → σ → Res σ} {st : σ}
    (hs : 0 < s) (h0 : I i st)
    (hstep : ∀ j st st', i ≤ j → j < n → I j st → body j st = .ok st' → I (j + s) st') {r : Nat × σ}
    (h : forUp i n s body st = .ok r) : I r.1 r.2 ∧ n ≤ r.1 := by
  induction hk : n - i using Nat.strong_induction_on generalizing i st with
  | _ d ih =>
    rw [forUp_eq] at h
    by_cases hi : i < n
    · simp only [hi, hs, if_true] at h
      obtain ⟨st', e, h⟩ := Res.bind_ok h
      exact ih (n - (i + s)) (by omega) (hstep i st st' (le_refl _) hi h0 e)
        (fun j st st' hj => hstep j st st' (by omega)) h rfl
    · simp only [hi, if_false] at h
      cases h
      exact ⟨h0, by omega⟩

theorem Runs.of_ok {β : Type} {r : Res β} {Q : β → Prop} (h : Runs r Q) {v : β} (e : r = .ok v) : Q v := by
  obtain ⟨u, e', hu⟩ := h
  rw [e] at e'; cases e'; exact hu

/-- Disjoint parts of one matrix. -/
theorem View.sub_footOn_disj {V : View} (hw : V.WF) {U U' : Nat → Nat → Prop} {r c nr nc r' c' nr' nc' : Nat}
    (hr : r + nr ≤ V.rows) (hc : c + nc ≤ V.cols) (hr' : r' + nr' ≤ V.rows) (hc' : c' + nc' ≤ V.cols)
    (h : r + nr ≤ r' ∨ r' + nr' ≤ r ∨ c + nc ≤ c' ∨ c' + nc' ≤ c) :
    Disjoint ((V.sub r c nr nc).footOn U) ((V.sub r' c' nr' nc').footOn U') :=
  (View.sub_disj hw hr hc hr' hc' h).mono (View.footOn_sub_foot _ _) (View.footOn_sub_foot _ _)

theorem Holds.toV_col {m : Mem α} {V : View} {r c n : Nat} {a : Nat → Nat → α}
    (h : Holds m (V.sub r c n 1) a) : HoldsV m (V.sub r c n 1) (fun k => a k 0) := by
  rw [holdsV_iff (Or.inr rfl)]
  refine h.congr (fun i j _ hj => ?_)
  have : j = 0 := by rw [View.sub_cols] at hj; omega
  subst this; rfl

theorem Holds.toV_row {m : Mem α} {V : View} {r c n : Nat} {a : Nat → Nat → α}
    (h : Holds m (V.sub r c 1 n) a) : HoldsV m (V.sub r c 1 n) (fun k => a 0 k) := by
  rw [holdsV_iff (Or.inl rfl)]
  refine h.congr (fun i j hi _ => ?_)
  have : i = 0 := by rw [View.sub_rows] at hi; omega
  subst this; simp

/-! ## Triangular systems with known solution -/

section solve
variable [Field α]
open Props

theorem triProd_unique {fl : Flags} {a X Z : Nat → Nat → α} {n R C : Nat}
    (hn : n = if fl.right then C else R) (hnz : fl.unit = true ∨ ∀ i, i < n → a i i ≠ 0)
    (h : ∀ i j, i < R → j < C → triProd fl n a X i j = triProd fl n a Z i j) :
    ∀ i j, i < R → j < C → X i j = Z i j := by
  have hE : ∀ i, i < n → trE fl a i i ≠ 0 := by
    intro i hi
    rw [trE_diag]
    cases hu : fl.unit
    · exact hnz.resolve_left (by simp [hu]) i hi
    · simp
  intro i j hi hj
  have l := triProd_lines fl n a
  cases hr : fl.right
  · simp only [hr, Bool.false_eq_true, if_false] at hn
    subst hn
    refine tri_unique fl a (x := fun k => X k j) (z := fun k => Z k j) hE (fun i' hi' => ?_) i hi
    have e := h i' j hi' hj
    rw [l X i' j, l Z i' j]
    simp only [hr, opM] at *
    exact e
  · simp only [hr, if_true] at hn
    subst hn
    refine tri_unique fl a (x := fun k => X i k) (z := fun k => Z i k) hE (fun j' hj' => ?_) j hj
    have e := h i j' hi hj'
    have l1 := l (opM true X) j' i
    have l2 := l (opM true Z) j' i
    simp only [hr, opM, if_true] at l1 l2
    rw [l1, l2]
    exact e

/-- `armas_solve_trm` (C19) when the solution `Z` is known. -/
theorem solveTrm_eq [DecidableEq α] (ab : α → α) {env : Env}
    (hmin : 2 ≤ env.blas2min ∨ env.naive = true ∧ env.blas2min ≠ 1) {c : Cache} {m : Mem α} {B A : View}
    {f a Z : Nat → Nat → α} {fl : Flags} (H : TrArgs c m B A f a fl)
    (htb : fl.transB = false) (hab : fl.absB = false)
    (hnz : fl.unit = true ∨ ∀ i, i < A.cols → a i i ≠ 0) {fuel : Nat}
    (hf : A.cols + B.rows + B.cols < fuel)
    (hZ : ∀ i j, i < B.rows → j < B.cols → triProd fl A.cols a Z i j = f i j) :
    Runs (solveTrm ab env fuel m B 1 A fl (some c)) (fun r => r.1 = 0 ∧ Holds r.2 B Z ∧
      Frame (B.foot ∪ c.foot) m r.2 ∧ c.Ready r.2) := by
  refine (C19_solve_trm_partial ab hmin 1 H htb hab hnz (Or.inl rfl) hf).mono ?_
  rintro r ⟨h1, ⟨X, h2, h3⟩, h4, h5⟩
  refine ⟨h1, h2.congr (triProd_unique (fl := fl) (a := a) (n := A.cols) H.size hnz (fun i j hi hj => ?_)), h4, h5⟩
  rw [h3 i j hi hj, hZ i j hi hj, one_mul]

/-- `armas_solve_trm` (C19) for any `alpha` where the recursion is not entered with it. -/
theorem solveTrm_eq_alpha [DecidableEq α] (ab : α → α) {env : Env}
    (hmin : 2 ≤ env.blas2min ∨ env.naive = true ∧ env.blas2min ≠ 1) {c : Cache} {m : Mem α} {B A : View}
    {f a Z : Nat → Nat → α} (alpha : α) {fl : Flags} (H : TrArgs c m B A f a fl)
    (htb : fl.transB = false) (hab : fl.absB = false)
    (hnz : fl.unit = true ∨ ∀ i, i < A.cols → a i i ≠ 0)
    (hal : alpha = 1 ∨ env.naive = true ∨ A.cols < env.blas2min ∨
      (env.recursive = false ∧ c.NB < env.blas2min)) {fuel : Nat}
    (hf : A.cols + B.rows + B.cols < fuel)
    (hZ : ∀ i j, i < B.rows → j < B.cols → triProd fl A.cols a Z i j = alpha * f i j) :
    Runs (solveTrm ab env fuel m B alpha A fl (some c)) (fun r => r.1 = 0 ∧ Holds r.2 B Z ∧
      Frame (B.foot ∪ c.foot) m r.2 ∧ c.Ready r.2) := by
  refine (C19_solve_trm_partial ab hmin alpha H htb hab hnz hal hf).mono ?_
  rintro r ⟨h1, ⟨X, h2, h3⟩, h4, h5⟩
  refine ⟨h1, h2.congr (triProd_unique (fl := fl) (a := a) (n := A.cols) H.size hnz (fun i j hi hj => ?_)), h4, h5⟩
  rw [h3 i j hi hj, hZ i j hi hj]

/-- `armas_mult_trm` (C18) leaves the copy buffers usable. -/
theorem multTrm_ready [DecidableEq α] (ab : α → α) {env : Env}
    (hmin : 2 ≤ env.blas2min ∨ env.naive = true ∧ env.blas2min ≠ 1) {c : Cache} {m : Mem α} {B A : View}
    {f a : Nat → Nat → α} (alpha : α) {fl : Flags} (H : TrArgs c m B A f a fl) {fuel : Nat}
    (hf : A.cols + B.rows + B.cols < fuel) :
    Runs (multTrm ab env fuel m B alpha A fl (some c)) (fun r => r.1 = 0 ∧
      Holds r.2 B (fun i j => alpha * triProd fl A.cols a f i j) ∧ Frame (B.foot ∪ c.foot) m r.2 ∧
      c.Ready r.2) := by
  obtain ⟨r, e, h1, h2, h3⟩ := C18_mult_trm_partial ab hmin alpha H hf
  refine ⟨r, e, h1, h2, h3, ?_⟩
  have key : Runs (multTrm ab env fuel m B alpha A fl (some c)) (fun r => c.Ready r.2) := by
    unfold multTrm
    by_cases h : B.size = 0 ∨ A.size = 0
    · rw [if_pos h]
      exact Runs.ok H.ready
    obtain ⟨P, hs, hw⟩ := H.pre h
    rw [if_neg h, hs, if_neg (by simp)]
    cases hn : env.naive
    · have hm2 : 2 ≤ env.blas2min := hmin.resolve_right (by simp [hn])
      rw [if_neg (by simp)]
      dsimp only
      refine Runs.bind (P := TrMid c m B fl.right (trmmVal fl alpha A.cols a (opM fl.right f))) ?_
        (fun m' hm => Runs.pure hm.ready)
      split
      · exact trmmRecursive_spec ab hm2 alpha H.uplo P (by omega)
      · exact trmmBlk_spec ab hm2 alpha H.uplo H.absA P (by omega)
    · rw [if_pos rfl]
      exact Runs.bind (trmmUnb_spec ab (by omega) alpha P.wf P.hB P.hn P.hsq P.h0 (by omega) P.hA P.dAB)
        (fun m' hm => Runs.pure (H.ready.frame hm.2 H.dBc.symm))
  exact key.of_ok e

end solve

/-- The assumptions on the configuration under which the level-3 routines are specified. -/
structure Conf3 (env : Env) (c : Cache) : Prop where
  min2 : 2 ≤ env.blas2min ∨ env.naive = true ∧ env.blas2min ≠ 1
  rb : c.rb ≤ c.MB

theorem Conf3.hrec {env : Env} {c : Cache} (h : Conf3 env c) :
    env.recursive = false ∨ env.naive = true ∨ env.blas2min ≠ 1 := by
  rcases h.min2 with h | h
  · right; right; omega
  · exact Or.inr (Or.inl h.1)

end Armas
