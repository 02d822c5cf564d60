import Verif.InvLemmas
import Verif.LuInv
import Verif.LdlLemmas
import Verif.Props.MatOps
import Verif.Props.Gemm

/-!
# Specification of the inverse from an LU factorization
-/

namespace Armas

open Finset Props

section put
variable {α : Type}

/-- `v` with the `nr x nc` block at `(r, c)` replaced by the elements of `w` selected by `U`. -/
noncomputable def putOn (r c nr nc : Nat) (U : Nat → Nat → Prop) (w v : Nat → Nat → α) (i j : Nat) : α :=
  open Classical in
  if r ≤ i ∧ i < r + nr ∧ c ≤ j ∧ j < c + nc ∧ U (i - r) (j - c) then w (i - r) (j - c) else v i j

/-- `v` with the `nr x nc` block at `(r, c)` replaced by `w`. -/
def put (r c nr nc : Nat) (w v : Nat → Nat → α) (i j : Nat) : α :=
  if r ≤ i ∧ i < r + nr ∧ c ≤ j ∧ j < c + nc then w (i - r) (j - c) else v i j

theorem Holds.putOn {m m' : Mem α} {V : View} {v w : Nat → Nat → α} (h : Holds m V v) (hw : V.WF) {F : Set Nat}
    (dF : Disjoint V.foot F) {U : Nat → Nat → Prop} {r c nr nc : Nat} (hr : r + nr ≤ V.rows) (hc : c + nc ≤ V.cols)
    (hb : HoldsOn m' (V.sub r c nr nc) U w) (hf : Frame ((V.sub r c nr nc).footOn U ∪ F) m m') :
    Holds m' V (putOn r c nr nc U w v) := by
  have u := (UpdX.init (HoldsOn.of_holds (S := fun _ _ => True) h) (fun i j => w (i - r) (j - c)) F).sub hw
    (dF.mono_left (View.footOn_sub_foot _ _)) (U := U) (m' := m') hr hc (fun _ _ _ _ _ => trivial)
    (hb.congr (by intros; simp)) hf
  intro i j hi hj
  have := u.hold i j hi hj trivial
  rw [this]
  unfold Armas.putOn
  beta_reduce
  by_cases c1 : r ≤ i ∧ i < r + nr ∧ c ≤ j ∧ j < c + nc ∧ U (i - r) (j - c)
  · rw [if_pos c1, if_pos (Or.inr c1)]
  · rw [if_neg c1, if_neg (by simpa using c1)]

theorem Holds.put {m m' : Mem α} {V : View} {v w : Nat → Nat → α} (h : Holds m V v) (hw : V.WF) {F : Set Nat}
    (dF : Disjoint V.foot F) {r c nr nc : Nat} (hr : r + nr ≤ V.rows) (hc : c + nc ≤ V.cols)
    (hb : Holds m' (V.sub r c nr nc) w) (hf : Frame ((V.sub r c nr nc).foot ∪ F) m m') :
    Holds m' V (put r c nr nc w v) := by
  have u := h.putOn hw dF hr hc (HoldsOn.of_holds (S := fun _ _ => True) hb)
    (hf.mono (Set.union_subset_union_left _ (by rw [View.footOn_true])))
  refine u.congr (fun i j _ _ => ?_)
  unfold Armas.putOn Armas.put
  simp

theorem Holds.cell {m : Mem α} {V : View} {v : Nat → Nat → α} (h : Holds m V v) (hw : V.WF) {i j : Nat}
    (hi : i < V.rows) (hj : j < V.cols) (x : α) :
    Holds (m.set (V.at' i j) x) V (fun p q => if p = i ∧ q = j then x else v p q) := by
  intro p q hp hq
  by_cases e : p = i ∧ q = j
  · obtain ⟨rfl, rfl⟩ := e
    rw [Mem.set_same]; simp
  · rw [Mem.set_ne]
    · dsimp only; rw [if_neg e]; exact h p q hp hq
    · intro e2
      obtain ⟨e3, e4⟩ := View.at_inj hw hp hq hi hj e2
      exact e ⟨e3, e4⟩

theorem HoldsV.col {m : Mem α} {V : View} {y : Nat → α} (hc : V.cols = 1) (h : HoldsV m V y) :
    Holds m V (fun i _ => y i) := by
  rw [holdsV_iff (Or.inr hc)] at h
  refine h.congr (fun i j _ hj => ?_)
  have : j = 0 := by omega
  subst this; rfl

theorem Holds.colV {m : Mem α} {V : View} {a : Nat → Nat → α} (hc : V.cols = 1) (h : Holds m V a) :
    HoldsV m V (fun k => a k 0) := by
  rw [holdsV_iff (Or.inr hc)]
  refine h.congr (fun i j _ hj => ?_)
  have : j = 0 := by omega
  subst this; rfl

end put

variable {α : Type} [Field α] [DecidableEq α]

/-- `g` is the inverse of the upper factor in `v`, `x` that of the product of the factors. -/
structure LuX (n : Nat) (v g x : Nat → Nat → α) : Prop where
  inv : TriInv true n (trm true false v) g
  eqn : ∀ i k, i < n → k < n → ∑ p ∈ range n, x i p * trm false true v p k = g i k

omit [DecidableEq α] in
/-- A block of columns of the inverse. -/
theorem LuX.cols {n : Nat} {v g x : Nat → Nat → α} (h : LuX n v g x) {k nb s : Nat} (hn : n = k + nb + s) {i j : Nat}
    (hi : i < n) (hj : j < nb) : ∑ p ∈ range nb, x i (k + p) * trm false true v (k + p) (k + j) =
      g i (k + j) - ∑ p ∈ range s, x i (k + nb + p) * v (k + nb + p) (k + j) := by
  have e := h.eqn i (k + j) hi (by omega)
  rw [hn, Finset.sum_range_add, Finset.sum_range_add] at e
  have e1 : ∑ p ∈ range k, x i p * trm false true v p (k + j) = 0 :=
    Finset.sum_eq_zero (fun p hp => by
      rw [Finset.mem_range] at hp
      rw [trm_tri false true v (by simp; omega), mul_zero])
  have e2 : ∑ p ∈ range s, x i (k + nb + p) * trm false true v (k + nb + p) (k + j) =
      ∑ p ∈ range s, x i (k + nb + p) * v (k + nb + p) (k + j) :=
    Finset.sum_congr rfl (fun p hp => by
      unfold trm
      rw [if_neg (by omega)]
      simp; intro; omega)
  rw [e1, e2, zero_add] at e
  exact eq_sub_of_add_eq e

theorem luX_exists {n : Nat} {v : Nat → Nat → α} (hd : ∀ i, i < n → v i i ≠ 0) : ∃ g x, LuX n v g x := by
  obtain ⟨g, hg⟩ := triInv_exists true n (t := trm true false v)
    (fun i j _ _ h => trm_tri true false v h) (fun i hi => by simpa [trm] using hd i hi)
  obtain ⟨l, hl⟩ := triInv_exists false n (t := trm false true v)
    (fun i j _ _ h => trm_tri false true v h) (fun i hi => by simp [trm])
  refine ⟨g, fun i j => ∑ p ∈ range n, g i p * l p j, hg, fun i k hi hk => ?_⟩
  simp only [Finset.sum_mul]
  rw [Finset.sum_comm]
  have : ∀ q ∈ range n, ∑ p ∈ range n, g i q * l q p * trm false true v p k = g i q * (if q = k then 1 else 0) := by
    intro q hq
    rw [Finset.mem_range] at hq
    rw [← hl.left q k hq hk, Finset.mul_sum]
    exact Finset.sum_congr rfl (fun p _ => mul_assoc _ _ _)
  rw [Finset.sum_congr rfl this, Finset.sum_eq_single k]
  · simp
  · intro q _ hq; rw [if_neg hq, mul_zero]
  · intro h; exact absurd (Finset.mem_range.mpr hk) h

omit [DecidableEq α] in
/-- The solution of a triangular system from the inverse. -/
theorem TriInv.solve {up : Bool} {n : Nat} {t g : Nat → Nat → α} (h : TriInv up n t g) {z b : Nat → α}
    (hz : ∀ i, i < n → ∑ j ∈ range n, t i j * z j = b i) {i : Nat} (hi : i < n) :
    z i = ∑ l ∈ range n, g i l * b l := by
  have e : ∑ l ∈ range n, g i l * b l = ∑ l ∈ range n, ∑ j ∈ range n, g i l * (t l j * z j) :=
    Finset.sum_congr rfl (fun l hl => by rw [← hz l (Finset.mem_range.mp hl), Finset.mul_sum])
  rw [e, Finset.sum_comm]
  have : ∀ j ∈ range n, ∑ l ∈ range n, g i l * (t l j * z j) = (if i = j then 1 else 0) * z j := by
    intro j hj
    rw [← h.left i j hi (Finset.mem_range.mp hj), Finset.sum_mul]
    exact Finset.sum_congr rfl (fun p _ => (mul_assoc _ _ _).symm)
  rw [Finset.sum_congr rfl this, Finset.sum_eq_single i]
  · simp
  · intro q _ hq; rw [if_neg (Ne.symm hq), zero_mul]
  · intro h; exact absurd (Finset.mem_range.mpr hi) h

/-- Columns `≥ k` hold the inverse. -/
structure LuInvSt (m : Mem α) (A : View) (F : Set Nat) (w ws : Nat) (v x : Nat → Nat → α) (k : Nat) (m1 : Mem α) :
    Prop where
  hold : Holds m1 A (fun i j => if k ≤ j then x i j else v i j)
  frame : Frame (A.foot ∪ F) m m1
  alloc : Alloc (wkset w ws) m1

theorem unblkLuInvStep_spec (ab : α → α) {env : Env} (hmin : env.blas2min ≠ 1 ∨ env.naive = true) {fuel : Nat}
    {m m1 : Mem α} {A : View} {v g x : Nat → Nat → α} (hw : A.WF) (hsq : A.cols = A.rows)
    (hf : A.rows + 1 < fuel) {w ws : Nat} (hws : A.rows ≤ ws) (dAw : Disjoint A.foot (wkset w ws)) {k : Nat}
    (hk : k < A.rows) (hd : ∀ i, i < A.rows → v i i ≠ 0) (hx : LuX A.rows v g x)
    (h1 : LuInvSt m A (wkset w ws) w ws v x (k + 1) m1) (err : Int) :
    Runs (unblkLuInvStep ab env fuel A w k (err, m1)) (fun r => r.1 = err ∧
      LuInvSt m A (wkset w ws) w ws v x k r.2) := by
  obtain ⟨n, hn⟩ : ∃ n, n = A.rows - k - 1 := ⟨_, rfl⟩
  have dk := hd k hk
  have hgk : g k k = 1 / v k k := hx.inv.diag_trm hk
  unfold unblkLuInvStep
  dsimp only
  rw [← hn]
  have hrd : m1 (A.at' k k) = some (v k k) := by
    have := h1.hold k k hk (by omega)
    dsimp only at this
    rwa [if_neg (by omega)] at this
  refine Runs.rd_bind hrd ?_
  rw [if_neg dk]
  refine Runs.wr_bind hrd ?_
  obtain ⟨m2, hm2⟩ : ∃ m2, m2 = m1.set (A.at' k k) (1 / v k k) := ⟨_, rfl⟩
  rw [← hm2]
  have hkc : k < A.cols := by omega
  have h2 := h1.hold.cell hw hk hkc (1 / v k k)
  rw [← hm2] at h2
  have f2 : Frame A.foot m1 m2 := by rw [hm2]; exact Frame.set (View.at_mem_foot hk hkc) _
  have h2v : ∀ {r c nr nc : Nat}, r + nr ≤ A.rows → c + nc ≤ A.cols → (r + nr ≤ k ∨ k < r ∨ c + nc ≤ k) → c + nc ≤ k + 1 →
      Holds m2 (A.sub r c nr nc) (fun i j => v (r + i) (c + j)) := by
    intro r c nr nc hr hc hd1 hd2
    refine (h2.sub hr hc).congr (fun i j hi hj => ?_)
    rw [View.sub_rows] at hi
    rw [View.sub_cols] at hj
    rw [if_neg (by omega), if_neg (by omega)]
  have sz : (A.sub 0 k k 1).size = k := by simp [View.size]
  have s := C13_mvsolve_trm_partial ab hmin (-(1 / v k k)) (fl := { upper := true }) rfl (fuel := fuel) (m := m2)
    (X := A.sub 0 k k 1) (A := A.sub 0 0 k k) (b := fun i => v i k) (a := v) (Or.inr rfl)
    (hw.sub (by omega) (by omega)) (hw.sub (by omega) (by omega)) (by rw [sz]; rfl) (by rw [sz]; rfl)
    (by rw [sz]; omega)
    ((h2v (r := 0) (c := k) (by omega) (by omega) (by omega) (by omega)).toV_col.congr (fun i _ => by simp))
    (HoldsOn.of_holds ((h2v (r := 0) (c := 0) (by omega) (by omega) (by omega) (by omega)).congr
      (fun i j hi hj => by simp)))
    ((View.sub_disj hw (by omega) (by omega) (by omega) (by omega) (by omega)).mono_left
      (View.footOn_sub_foot _ _)) (fun _ i hi => hd i (by rw [sz] at hi; omega))
  refine s.bind ?_
  rintro ⟨e3, m3⟩ ⟨-, z, h3, hz, f3⟩
  rw [sz] at hz
  have hz' : ∀ i, i < k → z i = g i k := by
    intro i hi
    have b0 := hx.inv.block (fun i j _ _ h => trm_tri true false v h) (k := 0) (nb := k) (by omega)
    simp only [Nat.zero_add] at b0
    rw [b0.solve (z := z) (b := fun i => -(1 / v k k) * v i k) (by simpa using hz) hi,
      ← hx.inv.col_upper hk hi dk, Finset.mul_sum]
    refine Finset.sum_congr rfl (fun l hl => ?_)
    rw [Finset.mem_range] at hl
    rw [hx.inv.trm_eq (by omega) (by omega)]
    ring
  have h3' := h2.put hw (F := ∅) (by simp) (r := 0) (c := k) (nr := k) (nc := 1) (by omega) (by omega)
    (HoldsV.col rfl h3) (f3.mono Set.subset_union_left)
  have W3 : Alloc (wkset w ws) m3 := (h1.alloc.frame f2 dAw).frame f3
    (dAw.mono_left (View.sub_foot (by omega) (by omega)))
  have h3v : ∀ {r c nr nc : Nat}, r + nr ≤ A.rows → c + nc ≤ A.cols → k < r → c + nc ≤ k + 1 →
      Holds m3 (A.sub r c nr nc) (fun i j => v (r + i) (c + j)) := by
    intro r c nr nc hr hc hd1 hd2
    exact (h2v hr hc (by omega) hd2).frame f3 (View.sub_disj hw hr hc (by omega) (by omega) (by omega))
  have lw : (⟨w, n, n, 1⟩ : View).foot ⊆ wkset w ws := wk_foot (by omega)
  obtain ⟨y0, hy0⟩ := W3.holds lw
  have s4 := C05_copy (m := m3) (Y := ⟨w, n, n, 1⟩) (X := A.sub (k + 1) k n 1) (Or.inl (le_refl _)) (Or.inr rfl)
    (Or.inr rfl) (hy0.colV rfl) (h3v (by omega) (by omega) (by omega) (by omega)).toV_col
    ((dAw.mono_right lw).mono_left (View.sub_foot (by omega) (by omega)))
  refine s4.bind ?_
  rintro ⟨e4, m4⟩ ⟨-, h4, f4⟩
  have sz4 : (A.sub (k + 1) k n 1).size = n := by simp [View.size]
  have szw : (⟨w, n, n, 1⟩ : View).size = n := by simp [View.size]
  replace h4 : HoldsV m4 (⟨w, n, n, 1⟩ : View) (fun i => v (k + 1 + i) k) := h4.congr (fun i hi => by
    rw [szw] at hi
    rw [sz4, if_pos hi]; simp)
  dsimp only at f4
  have W4 : Alloc (wkset w ws) m4 := W3.write f4 (HoldsV.col rfl h4)
  have h4A : Holds m4 A _ := h3'.frame f4 (dAw.mono_right lw)
  have s5 := C06_scale (m := m4) (X := A.sub (k + 1) k n 1) (0 : α) (Or.inr rfl) (hw.sub (by omega) (by omega))
    (h4A.sub (by omega) (by omega)).toV_col
  refine s5.bind ?_
  rintro ⟨e5, m5⟩ ⟨-, h5, f5⟩
  dsimp only at h5 f5
  have W5 : Alloc (wkset w ws) m5 := W4.frame f5 (dAw.mono_left (View.sub_foot (by omega) (by omega)))
  have h5A := h4A.put hw (F := ∅) (by simp) (r := k + 1) (c := k) (nr := n) (nc := 1) (by omega) (by omega)
    (HoldsV.col rfl h5) (f5.mono Set.subset_union_left)
  have h5l : HoldsV m5 (⟨w, n, n, 1⟩ : View) (fun i => v (k + 1 + i) k) := h4.frame (Or.inr rfl) f5
    ((dAw.mono_right lw).symm.mono_right (View.sub_foot (by omega) (by omega)))
  have fr5 : Frame (A.foot ∪ wkset w ws) m m5 :=
    (((h1.frame.trans (f2.mono Set.subset_union_left)).trans
      (f3.mono ((View.sub_foot (by omega) (by omega)).trans Set.subset_union_left))).trans
      (f4.mono (lw.trans Set.subset_union_right))).trans
      (f5.mono ((View.sub_foot (by omega) (by omega)).trans Set.subset_union_left))
  -- the column of the inverse of the upper factor
  have hcol : Holds m5 (A.sub 0 k A.rows 1) (fun i _ => g i k) := by
    refine (h5A.sub (by omega) (by omega)).congr (fun i j hi hj => ?_)
    rw [View.sub_rows] at hi
    rw [View.sub_cols] at hj
    obtain rfl : j = 0 := by omega
    rw [Nat.zero_add, Nat.add_zero]
    unfold Armas.put
    beta_reduce
    by_cases c1 : k < i
    · rw [if_pos ⟨by omega, by omega, le_refl _, by omega⟩, zero_mul,
        hx.inv.zero i k hi hk (by simpa using c1)]
    · rw [if_neg (by omega)]
      by_cases c2 : i < k
      · rw [if_pos ⟨by omega, by omega, le_refl _, by omega⟩, Nat.sub_zero, hz' i c2]
      · obtain rfl : i = k := by omega
        rw [if_neg (by omega), if_pos ⟨rfl, by omega⟩, hgk]
  have hright : Holds m5 (A.sub 0 (k + 1) A.rows n) (fun i j => x i (k + 1 + j)) := by
    refine (h5A.sub (by omega) (by omega)).congr (fun i j hi hj => ?_)
    rw [View.sub_rows] at hi
    rw [View.sub_cols] at hj
    unfold Armas.put
    beta_reduce
    rw [if_neg (by omega), if_neg (by omega), if_neg (by omega), if_pos (by omega), Nat.zero_add]
  have fin : ∀ m6, Holds m6 (A.sub 0 k A.rows 1) (fun i _ => x i k) → Frame (A.sub 0 k A.rows 1).foot m5 m6 →
      LuInvSt m A (wkset w ws) w ws v x k m6 := by
    intro m6 h6 f6
    refine ⟨(h5A.put hw (F := ∅) (by simp) (r := 0) (c := k) (nr := A.rows) (nc := 1) (by omega) (by omega) h6
      (f6.mono Set.subset_union_left)).congr (fun i j hi hj => ?_),
      fr5.trans (f6.mono ((View.sub_foot (by omega) (by omega)).trans Set.subset_union_left)),
      W5.frame f6 (dAw.mono_left (View.sub_foot (by omega) (by omega)))⟩
    unfold Armas.put
    beta_reduce
    by_cases c1 : j = k
    · subst c1
      rw [if_pos ⟨by omega, by omega, le_refl _, by omega⟩, if_pos (le_refl _), Nat.sub_zero]
    · rw [if_neg (by omega), if_neg (by omega), if_neg (by omega), if_neg (by omega)]
      by_cases c2 : k < j
      · rw [if_pos (by omega), if_pos (by omega)]
      · rw [if_neg (by omega), if_neg (by omega)]
  have hxk : ∀ i, i < A.rows → x i k = g i k - ∑ p ∈ range n, x i (k + 1 + p) * v (k + 1 + p) k := by
    intro i hi
    have := hx.cols (k := k) (nb := 1) (s := n) (by omega) hi (Nat.one_pos)
    simpa [trm] using this
  by_cases n0 : n = 0
  · subst n0
    unfold mvmult
    rw [if_pos (Or.inl (by simp [View.size]))]
    refine Runs.pure ⟨rfl, fin _ (hcol.congr (fun i j hi _ => ?_)) (Frame.refl _ _)⟩
    rw [hxk i hi]; simp
  · have s6 := C10_mvmult_partial ab hmin (m := m5) (Y := A.sub 0 k A.rows 1) (A := A.sub 0 (k + 1) A.rows n)
      (X := ⟨w, n, n, 1⟩) (1 : α) (-1) (fl := {}) (fuel := fuel) rfl
      (by simp only [View.size, View.sub_rows, View.sub_cols]; exact Nat.mul_ne_zero (by omega) n0)
      (by simp only [View.size, View.sub_rows, View.sub_cols]; omega) (Or.inr rfl)
      (hw.sub (by omega) (by omega)) (Or.inr rfl) (by simp [View.size]) (by simp [View.size]) (hcol.colV rfl) hright
      h5l (View.sub_disj hw (by omega) (by omega) (by omega) (by omega) (by omega))
      ((dAw.mono_right lw).symm.mono_right (View.sub_foot (by omega) (by omega)))
    refine s6.bind ?_
    rintro ⟨e6, m6⟩ ⟨-, h6, f6⟩
    refine Runs.pure ⟨rfl, fin _ ((HoldsV.col rfl h6).congr (fun i j hi _ => ?_)) f6⟩
    rw [View.sub_rows] at hi
    rw [hxk i hi, szw]
    simp only [Bool.false_eq_true, if_false]
    ring

theorem unblkLuInv_spec (ab : α → α) {env : Env} (hmin : env.blas2min ≠ 1 ∨ env.naive = true) {fuel : Nat}
    {m : Mem α} {A : View} {v g x : Nat → Nat → α} (hw : A.WF) (hsq : A.cols = A.rows)
    (hf : A.rows + 1 < fuel) {w ws : Nat} (hws : A.rows ≤ ws) (dAw : Disjoint A.foot (wkset w ws))
    (hd : ∀ i, i < A.rows → v i i ≠ 0) (hx : LuX A.rows v g x) (W : Alloc (wkset w ws) m) (hA : Holds m A v) :
    Runs (unblkLuInv ab env fuel m A w) (fun r => r.1 = 0 ∧ Holds r.2 A x ∧ Frame (A.foot ∪ wkset w ws) m r.2) := by
  unfold unblkLuInv
  refine Runs.forDown (fun k (st : Int × Mem α) => st.1 = 0 ∧ LuInvSt m A (wkset w ws) w ws v x k st.2)
      ⟨rfl, hA.congr (fun i j hi hj => by rw [if_neg (by omega)]), Frame.refl _ _, W⟩ ?_ ?_
  · rintro k ⟨err, m1⟩ hk ⟨he, h1⟩
    refine (unblkLuInvStep_spec ab hmin hw hsq hf hws dAw hk hd hx h1 err).mono ?_
    rintro r ⟨h2, h3⟩
    exact ⟨h2.trans he, h3⟩
  · rintro ⟨err, m1⟩ ⟨he, h1⟩
    exact ⟨he, h1.hold.congr (fun i j _ _ => by simp), h1.frame⟩

/-! ## Blocked -/

omit [DecidableEq α] in
theorem TriInv.cols_upper {n : Nat} {a g : Nat → Nat → α} (h : TriInv true n (trm true false a) g) {k nb i j : Nat}
    (hk : k + nb ≤ n) (hi : i < k) (hj : j < nb) :
    ∑ p ∈ range k, trm true false a i p * g p (k + j) = -∑ q ∈ range nb, a i (k + q) * g (k + q) (k + j) := by
  have e := h.right i (k + j) (by omega) (by omega)
  rw [if_neg (by omega)] at e
  have e2 : ∑ p ∈ range n, trm true false a i p * g p (k + j) =
      ∑ p ∈ range (k + nb), trm true false a i p * g p (k + j) := by
    symm
    refine Finset.sum_subset (fun p hp => ?_) (fun p hp hn => ?_)
    · rw [Finset.mem_range] at *; omega
    · rw [Finset.mem_range] at *
      rw [h.zero p (k + j) hp (by omega) (by simp; omega), mul_zero]
  rw [e2, Finset.sum_range_add] at e
  have e3 : ∑ q ∈ range nb, trm true false a i (k + q) * g (k + q) (k + j) =
      ∑ q ∈ range nb, a i (k + q) * g (k + q) (k + j) := by
    refine Finset.sum_congr rfl (fun p hp => ?_)
    rw [Finset.mem_range] at hp
    unfold trm; rw [if_neg (by omega), if_pos (by simp; omega)]
  rw [e3] at e
  linear_combination e

omit [Field α] [DecidableEq α] in
theorem View.footOn_disj {V : View} (hw : V.WF) {U U' : Nat → Nat → Prop} (h : ∀ i j, U i j → ¬ U' i j) :
    Disjoint (V.footOn U) (V.footOn U') := by
  rw [Set.disjoint_left]
  rintro p ⟨i, j, hi, hj, hu, rfl⟩ ⟨i', j', hi', hj', hu', e⟩
  obtain ⟨rfl, rfl⟩ := View.at_inj hw hi hj hi' hj' e
  exact h _ _ hu hu'

omit [Field α] [DecidableEq α] in
theorem View.sub_foot_col {V : View} {r k nr nb : Nat} (hr : r + nr ≤ V.rows) :
    (V.sub r k nr nb).foot ⊆ (V.sub 0 k V.rows nb).foot := by
  have : V.sub r k nr nb = (V.sub 0 k V.rows nb).sub r 0 nr nb := by rw [View.sub_sub]; simp
  rw [this]
  exact View.sub_foot (by simpa using hr) (by simp)

theorem blkLuInvStep_spec (ab : α → α) {env : Env} {c : Cache} (hc : Conf3 env c) {elb fuel : Nat}
    {m1 : Mem α} {A : View} {v g x : Nat → Nat → α} (hw : A.WF) (hsq : A.cols = A.rows)
    (hf : 3 * A.rows + 1 < fuel) {w ws lb s : Nat} (hle : lb ≤ elb) (hws : A.rows * lb ≤ ws) (hs : s < A.rows)
    (hno : NoRec env c A.rows)
    (dA : Disjoint A.foot (c.foot ∪ wkset w ws)) (dcw : Disjoint c.foot (wkset w ws))
    (hd : ∀ i, i < A.rows → v i i ≠ 0) (hx : LuX A.rows v g x) (R1 : c.Ready m1)
    (h1 : Holds m1 A (fun i j => if A.rows ≤ j + s then x i j else v i j))
    (W1 : Alloc (wkset w ws) m1) (err : Int) :
    Runs (blkLuInvStep ab env elb fuel A w lb (some c) s (err, m1)) (fun r => r.1 = err ∧
      Holds r.2 A (fun i j => if A.rows ≤ j + (s + lb) then x i j else v i j) ∧
      Frame (A.foot ∪ (c.foot ∪ wkset w ws)) m1 r.2 ∧ Alloc (wkset w ws) r.2 ∧ c.Ready r.2) := by
  have hmin : env.blas2min ≠ 1 ∨ env.naive = true := by
    rcases hc.min2 with h | h
    · left; omega
    · exact Or.inr h.1
  obtain ⟨nb, hnb⟩ : ∃ nb, nb = min lb (A.rows - s) := ⟨_, rfl⟩
  obtain ⟨k, hkk⟩ : ∃ k, k = A.rows - s - nb := ⟨_, rfl⟩
  have hn : A.rows = k + nb + s := by omega
  rw [Set.disjoint_union_right] at dA
  obtain ⟨dAc, dAw⟩ := dA
  have dsc : ∀ {r cc nr nc : Nat}, r + nr ≤ A.rows → cc + nc ≤ A.cols →
      Disjoint (A.sub r cc nr nc).foot c.foot := fun hr hc => dAc.mono_left (View.sub_foot hr hc)
  have dsw : ∀ {r cc nr nc : Nat}, r + nr ≤ A.rows → cc + nc ≤ A.cols →
      Disjoint (A.sub r cc nr nc).foot (wkset w ws) := fun hr hc => dAw.mono_left (View.sub_foot hr hc)
  have old : ∀ {r cc nr nc : Nat}, r + nr ≤ A.rows → cc + nc ≤ k + nb →
      Holds m1 (A.sub r cc nr nc) (fun i j => v (r + i) (cc + j)) := fun hr hc =>
    (h1.sub hr (by omega)).congr (fun i j hi hj => by
      rw [View.sub_cols] at hj
      rw [if_neg (by omega)])
  have hx1 : Holds m1 (A.sub 0 (k + nb) A.rows s) (fun i j => x i (k + nb + j)) :=
    (h1.sub (by omega) (by omega)).congr (fun i j hi hj => by
      rw [if_pos (by omega), Nat.zero_add])
  have L1 : (A.sub k k nb nb).foot ⊆ (A.sub 0 k A.rows nb).foot := View.sub_foot_col (by omega)
  have L0 : (A.sub 0 k k nb).foot ⊆ (A.sub 0 k A.rows nb).foot := View.sub_foot_col (by omega)
  have L2 : (A.sub (k + nb) k s nb).foot ⊆ (A.sub 0 k A.rows nb).foot := View.sub_foot_col (by omega)
  unfold blkLuInvStep
  dsimp only
  rw [← hnb, ← hkk]
  -- inverse of the diagonal block
  have hg11 : TriInv true nb (trm true false (fun i j => v (k + i) (k + j))) (fun i j => g (k + i) (k + j)) := by
    have := hx.inv.block (fun i j _ _ h => trm_tri true false v h) (k := k) (nb := nb) (by omega)
    rwa [show trm true false (fun i j => v (k + i) (k + j)) = fun i j => trm true false v (k + i) (k + j) from
      funext fun i => funext fun j => trm_shift _ _ _ _ _ _]
  have s1 : Runs (inverseTrm ab env elb fuel m1 (A.sub k k nb nb) { upper := true } (some c)) (fun r => r.1 = 0 ∧
      HoldsOn r.2 (A.sub k k nb nb) (InTri true false) (fun i j => g (k + i) (k + j)) ∧
      Frame ((A.sub k k nb nb).footOn (InTri true false)) m1 r.2) := by
    unfold inverseTrm
    rw [if_neg (by simp)]
    by_cases h0 : nb = 0
    · subst h0
      rw [if_pos (by simp)]
      exact Runs.ok ⟨rfl, fun i j hi => by simp at hi, Frame.refl _ _⟩
    rw [if_neg (by simpa using h0), if_pos (Or.inr (by rw [View.sub_cols]; omega))]
    exact unblkInvUpper_spec ab hmin (hw.sub (by omega) (by omega)) rfl (by rw [View.sub_rows]; omega)
      (HoldsOn.of_holds (old (by omega) (by omega)))
      (fun i hi => hd _ (by rw [View.sub_rows] at hi; omega)) (fun h => by simp at h) hg11
  refine s1.bind ?_
  rintro ⟨e2, m2⟩ ⟨he2, h2, f2⟩
  dsimp only at he2 h2 f2 ⊢
  subst he2
  rw [if_neg (by omega)]
  have R2 : c.Ready m2 := R1.frame f2 ((dsc (by omega) (by omega)).symm.mono_right (View.footOn_sub_foot _ _))
  have d01 : Disjoint (A.sub 0 k k nb).foot ((A.sub k k nb nb).footOn (InTri true false)) :=
    (View.sub_disj hw (by omega) (by omega) (by omega) (by omega) (by omega)).mono_right (View.footOn_sub_foot _ _)
  -- A01 := A01 * G11
  have s3 := multTrm_ready ab hc.min2 (c := c) (m := m2) (B := A.sub 0 k k nb) (A := A.sub k k nb nb)
    (f := fun i j => v (0 + i) (k + j)) (a := fun i j => g (k + i) (k + j)) (1 : α)
    (fl := { right := true, upper := true }) (fuel := fuel)
    ⟨fun _ => rfl, rfl, rfl, hw.sub (by omega) (by omega), rfl, rfl, R2, hc.rb,
      (old (by omega) (by omega)).frame f2 d01, h2, d01.symm,
      (dsc (by omega) (by omega)).mono_left (View.footOn_sub_foot _ _), dsc (by omega) (by omega)⟩
    (by simp only [View.sub_rows, View.sub_cols]; omega)
  refine s3.bind ?_
  rintro ⟨e3, m3⟩ ⟨-, h3, f3, R3⟩
  dsimp only at h3 f3 R3 ⊢
  have keep3 : ∀ {r cc nr nc : Nat}, r + nr ≤ A.rows → cc + nc ≤ A.cols → (k ≤ r ∨ cc + nc ≤ k ∨ k + nb ≤ cc) →
      Disjoint (A.sub r cc nr nc).foot ((A.sub 0 k k nb).foot ∪ c.foot) := fun hr hc h =>
    Set.disjoint_union_right.mpr ⟨View.sub_disj hw hr hc (by omega) (by omega) (by omega), dsc hr hc⟩
  have old2 : ∀ {r cc nr nc : Nat}, r + nr ≤ A.rows → cc + nc ≤ k + nb → (cc + nc ≤ k ∨ k + nb ≤ r) →
      Holds m2 (A.sub r cc nr nc) (fun i j => v (r + i) (cc + j)) := fun hr hc h =>
    (old hr hc).frame f2 ((View.sub_disj hw hr (by omega) (by omega) (by omega) (by omega)).mono_right
      (View.footOn_sub_foot _ _))
  -- A01 := -inv(U00) * A01
  have s4 := solveTrm_eq_alpha ab hc.min2 (c := c) (m := m3) (B := A.sub 0 k k nb) (A := A.sub 0 0 k k)
    (a := fun i j => v (0 + i) (0 + j)) (Z := fun i j => g (0 + i) (k + j)) (-1)
    (fl := { left := true, upper := true }) (fuel := fuel)
    ⟨fun h => by simp at h, rfl, rfl, hw.sub (by omega) (by omega), rfl, rfl, R3, hc.rb, h3,
      HoldsOn.of_holds ((old2 (by omega) (by omega) (by omega)).frame f3 (keep3 (by omega) (by omega) (by omega))),
      (View.sub_disj hw (by omega) (by omega) (by omega) (by omega) (by omega)).mono_left
        (View.footOn_sub_foot _ _), (dsc (by omega) (by omega)).mono_left (View.footOn_sub_foot _ _),
      dsc (by omega) (by omega)⟩
    rfl rfl (Or.inr (fun i hi => hd _ (by rw [View.sub_cols] at hi; omega)))
    (by
      rw [View.sub_cols]
      rcases hno with h | h | h
      · exact Or.inr (Or.inl h)
      · exact Or.inr (Or.inr (Or.inl (by omega)))
      · exact Or.inr (Or.inr (Or.inr h)))
    (by simp only [View.sub_rows, View.sub_cols]; omega)
    (fun i j hi hj => by
      rw [View.sub_rows] at hi
      rw [View.sub_cols] at hj
      simp only [triProd, View.sub_cols, if_true, Bool.false_eq_true, if_false, one_mul, neg_mul, Nat.zero_add]
      rw [hx.inv.cols_upper (k := k) (nb := nb) (by omega) hi hj]
      congr 1
      refine Finset.sum_congr rfl (fun q hq => ?_)
      rw [Finset.mem_range] at hq
      rw [hg11.trm_eq hq hj])
  refine s4.bind ?_
  rintro ⟨e4, m4⟩ ⟨-, h4, f4, R4⟩
  dsimp only at h4 f4 R4 ⊢
  have f34 := f3.trans f4
  have W4 : Alloc (wkset w ws) m4 := (W1.frame f2 ((dsw (by omega) (by omega)).mono_left
    (View.footOn_sub_foot _ _))).frame f34
    (Set.disjoint_union_left.mpr ⟨dsw (by omega) (by omega), dcw⟩)
  have h4u := h2.frame f34 ((keep3 (r := k) (cc := k) (nr := nb) (nc := nb) (by omega) (by omega)
    (by omega)).mono_left (View.footOn_sub_foot _ _))
  have h4l : HoldsOn m4 (A.sub k k nb nb) (InTri false true) (fun i j => v (k + i) (k + j)) :=
    ((HoldsOn.of_holds (old (r := k) (cc := k) (nr := nb) (nc := nb) (by omega) (by omega))).frame f2
      (View.footOn_disj (hw.sub (by omega) (by omega)) (by intro i j; simp [InTri]))).frame f34
      ((keep3 (r := k) (cc := k) (nr := nb) (nc := nb) (by omega) (by omega)
        (by omega)).mono_left (View.footOn_sub_foot _ _))
  have h4b : Holds m4 (A.sub (k + nb) k s nb) (fun i j => v (k + nb + i) (k + j)) :=
    (old2 (by omega) (by omega) (by omega)).frame f34 (keep3 (by omega) (by omega) (by omega))
  have h4AB : Holds m4 (A.sub k k (nb + s) nb) (fun i j => if i ≤ j then g (k + i) (k + j) else v (k + i) (k + j)) := by
    intro i j hi hj
    rw [View.sub_rows] at hi
    rw [View.sub_cols] at hj
    rw [View.at_sub]
    beta_reduce
    by_cases c1 : i < nb
    · by_cases c2 : i ≤ j
      · have := h4u i j c1 hj (by simp [InTri]; omega)
        rw [View.at_sub] at this
        rw [if_pos c2]; exact this
      · have := h4l i j c1 hj (by simp [InTri]; omega)
        rw [View.at_sub] at this
        rw [if_neg c2]; exact this
    · have := h4b (i - nb) j (by rw [View.sub_rows]; omega) hj
      rw [View.at_sub] at this
      beta_reduce at this
      rw [show k + nb + (i - nb) = k + i by omega] at this
      rw [if_neg (by omega)]; exact this
  -- copy to the work space
  obtain ⟨LB, hLB⟩ : ∃ LB : View, LB = ⟨w, nb + s, nb + s, nb⟩ := ⟨_, rfl⟩
  rw [← hLB]
  have hLr : LB.rows = nb + s := by rw [hLB]
  have hLc : LB.cols = nb := by rw [hLB]
  have hLw : LB.WF := by rw [hLB]; exact Or.inl (le_refl _)
  have lw : LB.foot ⊆ wkset w ws := by
    rw [hLB]
    refine wk_foot (le_trans ?_ hws)
    exact Nat.mul_le_mul (by omega) (by omega)
  obtain ⟨y0, hy0⟩ := W4.holds lw
  have s5 := C05_mcopy (m := m4) (A := LB) (B := A.sub k k (nb + s) nb) hLw hy0 h4AB
    ((dsw (by omega) (by omega)).mono_right lw) hLr hLc
  refine s5.bind ?_
  rintro ⟨e5, m5⟩ ⟨-, h5, f5⟩
  dsimp only at h5 f5 ⊢
  have W5 : Alloc (wkset w ws) m5 := W4.write f5 h5
  have R5 : c.Ready m5 := R4.frame f5 (dcw.mono_right lw)
  have k5 : ∀ {r cc nr nc : Nat}, r + nr ≤ A.rows → cc + nc ≤ A.cols →
      Disjoint (A.sub r cc nr nc).foot LB.foot := fun hr hc => (dsw hr hc).mono_right lw
  -- zero the lower part
  have s6 := C51_mscale_lower_partial (m := m5) (A := A.sub k k nb nb) (alpha := (0 : α)) (unit := true)
    (hw.sub (by omega) (by omega)) (Or.inr (by simp)) (h4l.frame f5
      ((k5 (by omega) (by omega)).mono_left (View.footOn_sub_foot _ _)))
  refine s6.bind ?_
  rintro ⟨e6, m6⟩ ⟨-, h6, f6⟩
  dsimp only at h6 f6 ⊢
  have d2 : Disjoint (A.sub (k + nb) k s nb).foot ((A.sub k k nb nb).footOn (InTri false true)) :=
    (View.sub_disj hw (by omega) (by omega) (by omega) (by omega) (by omega)).mono_right (View.footOn_sub_foot _ _)
  have s7 := (C51_mscale_all (m := m6) (A := A.sub (k + nb) k s nb) (alpha := (0 : α)) (unit := false)
    (hw.sub (by omega) (by omega)) ((h4b.frame f5 (k5 (by omega) (by omega))).frame f6 d2)).1
  refine s7.bind ?_
  rintro ⟨e7, m7⟩ ⟨-, h7, f7⟩
  dsimp only at h7 f7 ⊢
  have f67 : Frame (A.sub 0 k A.rows nb).foot m5 m7 :=
    (f6.mono ((View.footOn_sub_foot _ _).trans L1)).trans (f7.mono L2)
  have R7 : c.Ready m7 := R5.frame f67 (dsc (by omega) (by omega)).symm
  have W7 : Alloc (wkset w ws) m7 := W5.frame f67 (dsw (by omega) (by omega))
  have f17 : Frame ((A.sub 0 k A.rows nb).foot ∪ (c.foot ∪ wkset w ws)) m1 m7 :=
    (((f2.mono (((View.footOn_sub_foot _ _).trans L1).trans Set.subset_union_left)).trans
      (f34.mono (Set.union_subset_union L0 Set.subset_union_left))).trans
      (f5.mono ((lw.trans Set.subset_union_right).trans Set.subset_union_right))).trans
      (f67.mono Set.subset_union_left)
  have dL7 : Disjoint LB.foot (A.sub 0 k A.rows nb).foot := (k5 (by omega) (by omega)).symm
  have hL7 : Holds m7 LB _ := h5.frame f67 dL7
  have hA1 : Holds m7 (A.sub 0 k A.rows nb) (fun i j => g i (k + j)) := by
    intro i j hi hj
    rw [View.sub_rows] at hi
    rw [View.sub_cols] at hj
    rw [View.at_sub, Nat.zero_add]
    beta_reduce
    by_cases c1 : i < k
    · have t := (h4.frame f5 (k5 (by omega) (by omega))).frame f6 ((View.sub_disj hw (r := 0) (c := k) (nr := k)
        (nc := nb) (r' := k) (c' := k) (nr' := nb) (nc' := nb) (by omega) (by omega) (by omega) (by omega)
        (by omega)).mono_right (View.footOn_sub_foot _ _))
      have := (t.frame f7 (View.sub_disj hw (by omega) (by omega) (by omega) (by omega) (by omega))) i j c1 hj
      rw [View.at_sub] at this
      beta_reduce at this
      rw [Nat.zero_add] at this
      exact this
    by_cases c2 : i < k + nb
    · have d11 : Disjoint (A.sub k k nb nb).foot (A.sub (k + nb) k s nb).foot :=
        View.sub_disj hw (by omega) (by omega) (by omega) (by omega) (by omega)
      by_cases c3 : i ≤ k + j
      · have t := ((h4u.frame f5 ((k5 (by omega) (by omega)).mono_left (View.footOn_sub_foot _ _))).frame f6
          (View.footOn_disj (hw.sub (by omega) (by omega)) (by intro i j; simp [InTri]))).frame f7
          (d11.mono_left (View.footOn_sub_foot _ _))
        have := t (i - k) j (by rw [View.sub_rows]; omega) hj (by simp [InTri]; omega)
        rw [View.at_sub] at this
        beta_reduce at this
        rw [show k + (i - k) = i by omega] at this
        exact this
      · have := (h6.frame f7 (d11.mono_left (View.footOn_sub_foot _ _))) (i - k) j (by rw [View.sub_rows]; omega) hj
          (by simp [InTri]; omega)
        rw [View.at_sub] at this
        beta_reduce at this
        rw [show k + (i - k) = i by omega] at this
        rw [this, zero_mul, hx.inv.zero i (k + j) hi (by omega) (by simp; omega)]
    · have := h7 (i - (k + nb)) j (by rw [View.sub_rows]; omega) hj
      rw [View.at_sub] at this
      beta_reduce at this
      rw [show k + nb + (i - (k + nb)) = i by omega] at this
      rw [this, zero_mul, hx.inv.zero i (k + j) hi (by omega) (by simp; omega)]
  have hA2 : Holds m7 (A.sub 0 (k + nb) A.rows s) (fun i j => x i (k + nb + j)) :=
    hx1.frame f17 (Set.disjoint_union_right.mpr ⟨View.sub_disj hw (by omega) (by omega) (by omega) (by omega)
      (by omega), Set.disjoint_union_right.mpr ⟨dsc (by omega) (by omega), dsw (by omega) (by omega)⟩⟩)
  have hL21 : Holds m7 (LB.sub nb 0 s nb) (fun i j => v (k + nb + i) (k + j)) :=
    (hL7.sub (by omega) (by omega)).congr (fun i j hi hj => by
      rw [View.sub_cols] at hj
      rw [if_neg (by omega), Nat.zero_add, ← Nat.add_assoc])
  have hL11 : HoldsOn m7 (LB.sub 0 0 nb nb) (InTri false true) (fun i j => v (k + i) (k + j)) := by
    intro i j hi hj ht
    have := (hL7.sub (r := 0) (c := 0) (nr := nb) (nc := nb) (by omega) (by omega)) i j hi hj
    rw [this]
    beta_reduce
    rw [if_neg (by simp [InTri] at ht; omega), Nat.zero_add, Nat.zero_add]
  -- A1 := A1 - A2 * L21
  have s8 : Runs (mult ab m7 1 (A.sub 0 k A.rows nb) (-1) (A.sub 0 (k + nb) A.rows s) (LB.sub nb 0 s nb) {} (some c))
      (fun r => Holds r.2 (A.sub 0 k A.rows nb)
        (fun i j => g i (k + j) - ∑ p ∈ range s, x i (k + nb + p) * v (k + nb + p) (k + j)) ∧
        Frame ((A.sub 0 k A.rows nb).foot ∪ c.foot) m7 r.2 ∧ c.Ready r.2) := by
    by_cases s0 : s = 0
    · unfold mult
      rw [if_pos (Or.inl (by simp [View.size, s0]))]
      refine Runs.ok ⟨hA1.congr (fun i j _ _ => ?_), Frame.refl _ _, R7⟩
      rw [s0]; simp
    refine (C16_mult_partial ab (c := c) (m := m7) (C := A.sub 0 k A.rows nb) (A := A.sub 0 (k + nb) A.rows s)
      (B := LB.sub nb 0 s nb) (1 : α) (-1) (fl := {}) rfl rfl (hw.sub (by omega) (by omega)) R7 hA2 hL21 hA1
      (dsc (by omega) (by omega))
      (dcw.symm.mono_left ((View.sub_foot (by omega) (by omega)).trans lw)) (dsc (by omega) (by omega))
      (View.sub_disj hw (by omega) (by omega) (by omega) (by omega) (by omega))
      (dL7.mono_left (View.sub_foot (by omega) (by omega))) (by simp) (by simp) (P := s) (by simp) (by simp) s0).mono ?_
    rintro r ⟨-, h8, f8, R8⟩
    refine ⟨h8.congr (fun i j _ _ => ?_), f8, R8⟩
    simp only [Bool.false_eq_true, if_false]
    ring
  refine s8.bind ?_
  rintro ⟨e8, m8⟩ ⟨h8, f8, R8⟩
  dsimp only at h8 f8 R8 ⊢
  have dL8 : Disjoint (LB.sub 0 0 nb nb).foot ((A.sub 0 k A.rows nb).foot ∪ c.foot) :=
    Set.disjoint_union_right.mpr ⟨dL7.mono_left (View.sub_foot (by omega) (by omega)),
      dcw.symm.mono_left ((View.sub_foot (by omega) (by omega)).trans lw)⟩
  have s9 := solveTrm_eq ab hc.min2 (c := c) (m := m8) (B := A.sub 0 k A.rows nb) (A := LB.sub 0 0 nb nb)
    (a := fun i j => v (k + i) (k + j)) (Z := fun i j => x i (k + j))
    (fl := { right := true, lower := true, unit := true }) (fuel := fuel)
    ⟨fun _ => rfl, rfl, rfl, hw.sub (by omega) (by omega), rfl, rfl, R8, hc.rb, h8,
      hL11.frame f8 (dL8.mono_left (View.footOn_sub_foot _ _)),
      (dL8.mono_right Set.subset_union_left).mono_left (View.footOn_sub_foot _ _),
      (dL8.mono_right Set.subset_union_right).mono_left (View.footOn_sub_foot _ _), dsc (by omega) (by omega)⟩
    rfl rfl (Or.inl rfl) (by simp only [View.sub_rows, View.sub_cols]; omega)
    (fun i j hi hj => by
      rw [View.sub_rows] at hi
      rw [View.sub_cols] at hj
      simp only [triProd, View.sub_cols, if_true, Bool.false_eq_true, if_false]
      rw [← hx.cols hn hi hj]
      exact Finset.sum_congr rfl (fun q hq => by rw [trm_shift]))
  refine s9.bind ?_
  rintro ⟨e9, m9⟩ ⟨-, h9, f9, R9⟩
  dsimp only at h9 f9 R9 ⊢
  have f89 : Frame ((A.sub 0 k A.rows nb).foot ∪ c.foot) m7 m9 := f8.trans f9
  have f19 : Frame ((A.sub 0 k A.rows nb).foot ∪ (c.foot ∪ wkset w ws)) m1 m9 :=
    f17.trans (f89.mono (Set.union_subset_union_right _ Set.subset_union_left))
  refine Runs.pure ⟨rfl, ?_, f19.mono (Set.union_subset_union_left _ (View.sub_foot (by omega) (by omega))),
    W7.frame f89 (Set.disjoint_union_left.mpr ⟨dsw (by omega) (by omega), dcw⟩), R9⟩
  refine (h1.put hw (Set.disjoint_union_right.mpr ⟨dAc, dAw⟩) (by omega) (by omega) h9 f19).congr
    (fun i j hi hj => ?_)
  unfold Armas.put
  beta_reduce
  by_cases c1 : k ≤ j ∧ j < k + nb
  · rw [if_pos ⟨by omega, by omega, c1.1, c1.2⟩, if_pos (by omega), Nat.sub_zero, show k + (j - k) = j by omega]
  · rw [if_neg (by omega)]
    by_cases c2 : k + nb ≤ j
    · rw [if_pos (by omega), if_pos (by omega)]
    · rw [if_neg (by omega), if_neg (by omega)]

theorem blkLuInv_spec (ab : α → α) {env : Env} {c : Cache} (hc : Conf3 env c) {elb fuel : Nat}
    {m : Mem α} {A : View} {v g x : Nat → Nat → α} (hw : A.WF) (hsq : A.cols = A.rows)
    (hf : 3 * A.rows + 1 < fuel) {w ws lb : Nat} (h0 : 0 < lb) (hle : lb ≤ elb) (hws : A.rows * lb ≤ ws)
    (hno : NoRec env c A.rows)
    (dA : Disjoint A.foot (c.foot ∪ wkset w ws)) (dcw : Disjoint c.foot (wkset w ws))
    (hd : ∀ i, i < A.rows → v i i ≠ 0) (hx : LuX A.rows v g x) (R : c.Ready m) (W : Alloc (wkset w ws) m)
    (hA : Holds m A v) :
    Runs (blkLuInv ab env elb fuel m A w lb (some c)) (fun r => r.1 = 0 ∧ Holds r.2 A x ∧
      Frame (A.foot ∪ (c.foot ∪ wkset w ws)) m r.2) := by
  unfold blkLuInv
  refine Runs.bind (P := fun y => A.rows ≤ y.1 ∧ y.2.1 = 0 ∧
      Holds y.2.2 A (fun i j => if A.rows ≤ j + y.1 then x i j else v i j) ∧
      Frame (A.foot ∪ (c.foot ∪ wkset w ws)) m y.2.2) (Runs.forUp (fun s (st : Int × Mem α) => st.1 = 0 ∧
      Holds st.2 A (fun i j => if A.rows ≤ j + s then x i j else v i j) ∧
      Frame (A.foot ∪ (c.foot ∪ wkset w ws)) m st.2 ∧ Alloc (wkset w ws) st.2 ∧ c.Ready st.2) h0
      ⟨rfl, hA.congr (fun i j hi hj => by rw [if_neg (by omega)]), Frame.refl _ _, W, R⟩ ?_ ?_) ?_
  · rintro s ⟨err, m1⟩ _ hs ⟨he, h1, f1, W1, R1⟩
    refine (blkLuInvStep_spec ab hc hw hsq hf hle hws hs hno dA dcw hd hx R1 h1 W1 err).mono ?_
    rintro r ⟨h2, h3, f3, W3, R3⟩
    exact ⟨h2.trans he, h3, f1.trans f3, W3, R3⟩
  · rintro s ⟨err, m1⟩ hs _ ⟨he, h1, f1, -, -⟩
    exact ⟨hs, he, h1, f1⟩
  · rintro ⟨s, err, m1⟩ ⟨hs, he, h1, f1⟩
    exact Runs.pure ⟨he, h1.congr (fun i j _ _ => by rw [if_pos (by dsimp only at hs; omega)]), f1⟩

end Armas
