import Verif.LuInvLemmas
import Verif.SpdInv
import Verif.Props.Symm
import Verif.Props.Updtrm

/-!
# Specification of the inverse from a Cholesky factorization
-/

namespace Armas

open Finset Props

variable {α : Type} [Field α]

/-- The lower triangular factor stored in one triangle of `a`: the lower triangle itself or the upper one
transposed. -/
def lowOf (up : Bool) (a : Nat → Nat → α) (i j : Nat) : α := if up then trm true false a j i else trm false false a i j

theorem lowOf_gt (up : Bool) (a : Nat → Nat → α) {i j : Nat} (h : j < i) :
    lowOf up a i j = if up then a j i else a i j := by
  cases up <;> simp [lowOf, trm, h] <;> omega

theorem lowOf_diag (up : Bool) (a : Nat → Nat → α) (i : Nat) : lowOf up a i i = a i i := by
  cases up <;> simp [lowOf, trm]

theorem lowOf_lt (up : Bool) (a : Nat → Nat → α) {i j : Nat} (h : i < j) : lowOf up a i j = 0 := by
  cases up
  · simp only [lowOf, trm, Bool.false_eq_true, if_false]
    rw [if_neg (by omega), if_neg (by omega)]
  · simp only [lowOf, trm, if_true]
    rw [if_neg (by omega), if_neg (by omega)]

theorem lowOf_shift (up : Bool) (a : Nat → Nat → α) (k i j : Nat) :
    lowOf up (fun i j => a (k + i) (k + j)) i j = lowOf up a (k + i) (k + j) := by
  unfold lowOf
  rw [trm_shift, trm_shift]

/-- `g` is the inverse of `l * l^T`, `x` the inverse of the lower triangular `l`. -/
structure SpdX (n : Nat) (l x g : Nat → Nat → α) : Prop where
  tri : TriInv false n l x
  val : ∀ i j, i < n → j < n → g i j = ∑ p ∈ range n, x p i * x p j

theorem spdX_exists {n : Nat} {up : Bool} {a : Nat → Nat → α} (hd : ∀ i, i < n → a i i ≠ 0) :
    ∃ x g, SpdX n (lowOf up a) x g := by
  obtain ⟨x, hx⟩ := triInv_exists false n (t := lowOf up a) (fun i j _ _ h => lowOf_lt up a (by simpa using h))
    (fun i hi => by rw [lowOf_diag]; exact hd i hi)
  exact ⟨x, fun i j => ∑ p ∈ range n, x p i * x p j, hx, fun _ _ _ _ => rfl⟩

namespace SpdX

variable {n : Nat} {l x g : Nat → Nat → α}

theorem sym (h : SpdX n l x g) {i j : Nat} (hi : i < n) (hj : j < n) : g i j = g j i := by
  rw [h.val i j hi hj, h.val j i hj hi]
  exact Finset.sum_congr rfl (fun p _ => mul_comm _ _)

theorem symm_eq (h : SpdX n l x g) (up : Bool) {i j : Nat} (hi : i < n) (hj : j < n) : symm up g i j = g i j := by
  unfold symm
  cases up <;> simp only [Bool.false_eq_true, if_false, if_true] <;> split <;> first | rfl | exact h.sym hj hi

/-- `g l = x^T`. -/
theorem eqn (h : SpdX n l x g) {i j : Nat} (hi : i < n) (hj : j < n) : ∑ p ∈ range n, g i p * l p j = x j i := by
  rw [Finset.sum_congr rfl (fun p hp => by rw [h.val i p hi (Finset.mem_range.mp hp), Finset.sum_mul])]
  rw [Finset.sum_comm]
  rw [Finset.sum_congr rfl (g := fun q => if q = j then x q i else 0) (fun q hq => by
    rw [Finset.sum_congr rfl (fun p _ => mul_assoc _ _ _), ← Finset.mul_sum,
      h.tri.left q j (Finset.mem_range.mp hq) hj]
    split <;> simp)]
  rw [Finset.sum_ite_eq' (range n) j, if_pos (Finset.mem_range.mpr hj)]

theorem eqn_gt (h : SpdX n l x g) {i j : Nat} (hi : i < n) (hj : j < i) : ∑ p ∈ range n, g i p * l p j = 0 := by
  rw [h.eqn hi (by omega)]
  exact h.tri.zero j i (by omega) hi (by simpa using hj)

theorem eqn_diag (h : SpdX n l x g) (hz : ∀ i j, i < j → l i j = 0) {i : Nat} (hi : i < n) :
    ∑ p ∈ range n, g i p * l p i = 1 / l i i := by
  rw [h.eqn hi hi]
  have e := h.tri.diag (fun i j _ _ hc => hz i j (by simpa using hc)) hi
  exact eq_one_div_of_mul_eq_one_left e

/-- Sums against column `k` of `l` start at `k`. -/
theorem tail (hz : ∀ i j, i < j → l i j = 0) {k s : Nat} (hk : n = k + 1 + s) (i : Nat) :
    ∑ p ∈ range n, g i p * l p k = g i k * l k k + ∑ p ∈ range s, g i (k + 1 + p) * l (k + 1 + p) k := by
  rw [hk, Finset.sum_range_add, Finset.sum_range_succ]
  rw [Finset.sum_eq_zero (fun p hp => by rw [hz p k (Finset.mem_range.mp hp), mul_zero]), zero_add]

/-- The elements below the diagonal. -/
theorem off (h : SpdX n l x g) (hz : ∀ i j, i < j → l i j = 0) {k s i : Nat} (hk : n = k + 1 + s) (hi : i < s)
    (hd : l k k ≠ 0) :
    -1 / l k k * ∑ p ∈ range s, g (k + 1 + i) (k + 1 + p) * l (k + 1 + p) k = g (k + 1 + i) k := by
  have e := h.eqn_gt (i := k + 1 + i) (j := k) (by omega) (by omega)
  rw [tail hz hk] at e
  have e2 := eq_neg_of_add_eq_zero_right e
  rw [e2]
  field_simp

/-- The diagonal. -/
theorem dia (h : SpdX n l x g) (hz : ∀ i j, i < j → l i j = 0) {k s : Nat} (hk : n = k + 1 + s) (hd : l k k ≠ 0) :
    (1 / l k k - ∑ p ∈ range s, g (k + 1 + p) k * l (k + 1 + p) k) / l k k = g k k := by
  have e := h.eqn_diag hz (i := k) (by omega)
  rw [tail hz hk] at e
  rw [Finset.sum_congr rfl (fun p hp => by
    rw [h.sym (i := k + 1 + p) (j := k) (by have := Finset.mem_range.mp hp; omega) (by omega)]), ← e]
  field_simp
  ring

/-- The elements below a diagonal block. -/
theorem off_block (h : SpdX n l x g) (hz : ∀ i j, i < j → l i j = 0) {k nb s i j : Nat} (hk : n = k + nb + s)
    (hi : i < s) (hj : j < nb) :
    ∑ p ∈ range nb, g (k + nb + i) (k + p) * l (k + p) (k + j) =
      -∑ p ∈ range s, g (k + nb + i) (k + nb + p) * l (k + nb + p) (k + j) := by
  have e := h.eqn_gt (i := k + nb + i) (j := k + j) (by omega) (by omega)
  rw [hk, Finset.sum_range_add, Finset.sum_range_add] at e
  rw [Finset.sum_eq_zero (fun p hp => by rw [hz p (k + j) (by have := Finset.mem_range.mp hp; omega), mul_zero]),
    zero_add] at e
  exact eq_neg_of_add_eq_zero_left e

/-- `l21 inv(l11)`. -/
def yblk (l x : Nat → Nat → α) (k nb i j : Nat) : α :=
  ∑ q ∈ range nb, l (k + nb + i) (k + q) * x (k + q) (k + j)

theorem yblk_mul (h : SpdX n l x g) (hz : ∀ i j, i < j → l i j = 0) {k nb s i j : Nat} (hk : n = k + nb + s)
    (hj : j < nb) : ∑ p ∈ range nb, yblk l x k nb i p * l (k + p) (k + j) = l (k + nb + i) (k + j) := by
  have hb := h.tri.block (fun i j _ _ hc => hz i j (by simpa using hc)) (k := k) (nb := nb) (by omega)
  unfold yblk
  rw [Finset.sum_congr rfl (fun p _ => Finset.sum_mul _ _ _), Finset.sum_comm]
  rw [Finset.sum_congr rfl (g := fun q => if q = j then l (k + nb + i) (k + q) else 0) (fun q hq => by
    rw [Finset.sum_congr rfl (fun p _ => mul_assoc _ _ _), ← Finset.mul_sum,
      hb.left q j (Finset.mem_range.mp hq) hj]
    split <;> simp)]
  rw [Finset.sum_ite_eq' (range nb) j, if_pos (Finset.mem_range.mpr hj)]

/-- The inverse of a diagonal block of `l l^T`. -/
theorem blk (h : SpdX n l x g) (hz : ∀ i j, i < j → l i j = 0) {k nb : Nat} (hk : k + nb ≤ n) :
    SpdX nb (fun i j => l (k + i) (k + j)) (fun i j => x (k + i) (k + j))
      (fun i j => ∑ p ∈ range nb, x (k + p) (k + i) * x (k + p) (k + j)) :=
  ⟨h.tri.block (fun i j _ _ hc => hz i j (by simpa using hc)) hk, fun _ _ _ _ => rfl⟩

/-- A diagonal block of the inverse. -/
theorem dia_block (h : SpdX n l x g) (hz : ∀ i j, i < j → l i j = 0) {k nb s i j : Nat} (hk : n = k + nb + s)
    (hi : i < nb) (hj : j < nb) :
    ∑ p ∈ range nb, x (k + p) (k + i) * x (k + p) (k + j) -
      ∑ p ∈ range s, g (k + nb + p) (k + i) * yblk l x k nb p j = g (k + i) (k + j) := by
  have hy : ∀ p, p < s → yblk l x k nb p j = -∑ r ∈ range s, l (k + nb + p) (k + nb + r) * x (k + nb + r) (k + j) := by
    intro p hp
    have e := h.tri.right (k + nb + p) (k + j) (by omega) (by omega)
    rw [if_neg (by omega), hk, Finset.sum_range_add, Finset.sum_range_add] at e
    rw [Finset.sum_eq_zero (fun q hq => by
      rw [h.tri.zero q (k + j) (by have := Finset.mem_range.mp hq; omega) (by omega)
        (by have := Finset.mem_range.mp hq; simp; omega), mul_zero]), zero_add] at e
    exact eq_neg_of_add_eq_zero_left e
  have hx : ∀ r, r < s → ∑ p ∈ range s, g (k + i) (k + nb + p) * l (k + nb + p) (k + nb + r) = x (k + nb + r) (k + i) := by
    intro r hr
    have e := h.eqn (i := k + i) (j := k + nb + r) (by omega) (by omega)
    rw [hk, Finset.sum_range_add] at e
    rwa [Finset.sum_eq_zero (fun q hq => by
      rw [hz q (k + nb + r) (by have := Finset.mem_range.mp hq; omega), mul_zero]), zero_add] at e
  rw [h.val (k + i) (k + j) (by omega) (by omega), hk, Finset.sum_range_add, Finset.sum_range_add,
    Finset.sum_eq_zero (s := range k) (fun q hq => by
      rw [h.tri.zero q (k + j) (by have := Finset.mem_range.mp hq; omega) (by omega)
        (by have := Finset.mem_range.mp hq; simp; omega), mul_zero]), zero_add, sub_eq_add_neg]
  congr 1
  rw [← Finset.sum_neg_distrib]
  rw [Finset.sum_congr rfl (g := fun p => ∑ r ∈ range s,
      g (k + i) (k + nb + p) * l (k + nb + p) (k + nb + r) * x (k + nb + r) (k + j)) (fun p hp => by
    rw [Finset.mem_range] at hp
    rw [hy p hp, h.sym (i := k + nb + p) (j := k + i) (by omega) (by omega), mul_neg, neg_neg, Finset.mul_sum]
    exact Finset.sum_congr rfl (fun r _ => (mul_assoc _ _ _).symm))]
  rw [Finset.sum_comm]
  refine Finset.sum_congr rfl (fun r hr => ?_)
  rw [← Finset.sum_mul, hx r (Finset.mem_range.mp hr)]

end SpdX

variable [DecidableEq α]

theorem unblkSpdStep_spec (ab : α → α) {env : Env} (hmin : 2 ≤ env.blas2min) {fuel : Nat} {m m1 : Mem α} {A : View}
    {up : Bool} {a l x g : Nat → Nat → α} (hw : A.WF) (hsq : A.cols = A.rows) (hf : A.rows + 1 < fuel) {w ws : Nat}
    (hws : A.rows ≤ ws + 1) (dW : Disjoint (A.footOn (InTri up false)) (wkset w ws)) {k : Nat} (hk : k < A.rows)
    (hd : a k k ≠ 0) (hg : SpdX A.rows l x g) (hz : ∀ i j, i < j → l i j = 0)
    (hl : ∀ i, k ≤ i → l i k = lowOf up a i k) (W : Alloc (wkset w ws) m1)
    (h1 : UpdX m A (InTri up false) (wkset w ws) a g (fun i j => k + 1 ≤ i ∧ k + 1 ≤ j) m1) :
    Runs (unblkSpdStep ab env fuel A up w ws k (0, m1)) (fun r => r.1 = 0 ∧
      UpdX m A (InTri up false) (wkset w ws) a g (fun i j => k ≤ i ∧ k ≤ j) r.2 ∧ Alloc (wkset w ws) r.2) := by
  have hlk : l k k = a k k := by rw [hl k le_rfl, lowOf_diag]
  unfold unblkSpdStep
  dsimp only
  obtain ⟨n, hn⟩ : ∃ n, n = A.rows - k - 1 := ⟨_, rfl⟩
  rw [if_neg (by simp), ← hn]
  have hT : InTri up false k k := by cases up <;> simp [InTri]
  refine Runs.rd_bind (h1.at_old hk (by omega) hT (by omega)) ?_
  rw [if_neg hd]
  obtain ⟨V, hV⟩ : ∃ V : View, V = if up = true then A.sub k (k + 1) 1 n else A.sub (k + 1) k n 1 := ⟨_, rfl⟩
  rw [← hV]
  have vec : V.isVec := by subst hV; cases up; exacts [Or.inr rfl, Or.inl rfl]
  have wf : V.WF := by subst hV; cases up; exacts [hw.sub (by omega) (by omega), hw.sub (by omega) (by omega)]
  have sz : V.size = n := by subst hV; cases up <;> simp [View.size]
  have hsub : V.foot ⊆ A.footOn (InTri up false) := by
    subst hV
    cases up
    · exact View.foot_sub_footOn (by omega) (by omega) (by simp [InTri]; omega)
    · exact View.foot_sub_footOn (by omega) (by omega) (by simp [InTri]; omega)
  have hx : HoldsV m1 V (fun i => l (k + 1 + i) k) := by
    subst hV
    cases up
    · have := (h1.block_old (r := k + 1) (c := k) (nr := n) (nc := 1) (by omega) (by omega)
        (by simp [InTri]; omega)).toV_col
      exact this.congr (fun i _ => by rw [hl _ (by omega), lowOf_gt _ _ (by omega)]; rfl)
    · have := (h1.block_old (r := k) (c := k + 1) (nr := 1) (nc := n) (by omega) (by omega)
        (by simp [InTri]; omega)).toV_row
      exact this.congr (fun i _ => by rw [hl _ (by omega), lowOf_gt _ _ (by omega)]; rfl)
  have dtr : Disjoint ((A.sub (k + 1) (k + 1) n n).footOn (InTri up false)) V.foot := by
    refine Disjoint.mono_left (View.footOn_sub_foot _ _) ?_
    subst hV
    cases up
    · exact View.sub_disj hw (by omega) (by omega) (by omega) (by omega) (by omega)
    · exact View.sub_disj hw (by omega) (by omega) (by omega) (by omega) (by omega)
  have absorb : ∀ {m2 m3 : Mem α}, UpdX m A (InTri up false) (wkset w ws) a g (fun i j => k + 1 ≤ i ∧ k + 1 ≤ j) m2 →
      HoldsV m3 V (fun i => g (k + 1 + i) k) → Frame V.foot m2 m3 →
      UpdX m A (InTri up false) (wkset w ws) a g (fun i j => (k ≤ i ∧ k ≤ j) ∧ ¬ (i = k ∧ j = k)) m3 := by
    intro m2 m3 h2 h3 f3
    subst hV
    cases up
    · have h3' : Holds m3 (A.sub (k + 1) k n 1) (fun i j => g (k + 1 + i) (k + j)) :=
        (HoldsV.col rfl h3).congr (fun i j _ hj => by
          have hj : j < 1 := hj
          obtain rfl : j = 0 := by omega
          rfl)
      exact (h2.block hw dW (r := k + 1) (c := k) (nr := n) (nc := 1) (by omega) (by omega) (by simp [InTri]; omega) h3'
        (f3.mono Set.subset_union_left)).congr (fun i j hi hj ht => by simp [InTri] at ht; omega)
    · have h3' : Holds m3 (A.sub k (k + 1) 1 n) (fun i j => g (k + i) (k + 1 + j)) := by
        rw [holdsV_iff (Or.inl rfl)] at h3
        refine h3.congr (fun i j hi hj => ?_)
        have hi : i < 1 := hi
        have hj : j < n := hj
        obtain rfl : i = 0 := by omega
        rw [Nat.zero_add, Nat.add_zero, hg.sym (by omega) (by omega)]; rfl
      exact (h2.block hw dW (r := k) (c := k + 1) (nr := 1) (nc := n) (by omega) (by omega) (by simp [InTri]; omega) h3'
        (f3.mono Set.subset_union_left)).congr (fun i j hi hj ht => by simp [InTri] at ht; omega)
  clear hV
  -- the copy
  obtain ⟨L, hL⟩ : ∃ L : View, L = ⟨w, ws, n, 1⟩ := ⟨_, rfl⟩
  rw [← hL]
  have lvec : L.isVec := Or.inr (by rw [hL])
  have lwf : L.WF := Or.inr (by rw [hL])
  have lsz : L.size = n := by rw [hL]; simp [View.size]
  have lw : L.foot ⊆ wkset w ws := by
    rw [hL]
    rintro p ⟨i, j, hi, hj, rfl⟩
    simp only [View.at', wkset, Set.mem_setOf_eq] at *
    obtain rfl : j = 0 := by omega
    omega
  have dVL : Disjoint V.foot L.foot := (dW.mono_left hsub).mono_right lw
  obtain ⟨y0, hy0⟩ := W.holds lw
  refine (C05_copy lwf lvec vec (hy0.colV (by rw [hL])) hx dVL).bind ?_
  rintro ⟨e2, m2⟩ ⟨-, h2, f2⟩
  dsimp only at h2 f2 ⊢
  have h2 : HoldsV m2 L (fun i => l (k + 1 + i) k) := h2.congr (fun i hi => by rw [if_pos (by omega)])
  have u2 : UpdX m A (InTri up false) (wkset w ws) a g (fun i j => k + 1 ≤ i ∧ k + 1 ≤ j) m2 :=
    ⟨h1.hold.frame f2 (dW.mono_right lw), h1.frame.trans (f2.mono (lw.trans Set.subset_union_right))⟩
  have W2 : Alloc (wkset w ws) m2 := W.write f2 (h2.col (by rw [hL]))
  have hx2 : HoldsV m2 V (fun i => l (k + 1 + i) k) := hx.frame vec f2 dVL
  -- the product
  have s3 := C14_mvmult_sym_partial ab hmin 0 (-1 / a k k)
    (fl := if up = true then { upper := true, transA := true } else { lower := true })
    (by cases up <;> rfl) (fuel := fuel) (m := m2) (Y := V) (A := A.sub (k + 1) (k + 1) n n) (X := L)
    (a := fun i j => g (k + 1 + i) (k + 1 + j)) vec wf lvec (by rw [sz]; rfl) (by rw [sz]; rfl) (by rw [sz, lsz])
    (by rw [sz]; omega) hx2 h2
    (u2.part_new (by omega) (by omega) (fun i j _ _ h => ⟨by
      rw [inTri_shift]
      cases up <;> exact h, by omega, by omega⟩)) (by cases up <;> exact dtr) dVL.symm
  have hup : (if up = true then ({ upper := true, transA := true } : Flags) else { lower := true }).upper = up := by
    cases up <;> rfl
  rw [hup] at s3
  refine s3.bind ?_
  rintro ⟨e3, m3⟩ ⟨-, h3, f3⟩
  dsimp only at h3 f3 ⊢
  have h3 : HoldsV m3 V (fun i => g (k + 1 + i) k) := h3.congr (fun i hi => by
    rw [sz] at hi ⊢
    rw [zero_mul, zero_add, ← hg.off hz (k := k) (s := n) (by omega) hi (by rw [hlk]; exact hd), hlk]
    congr 1
    refine Finset.sum_congr rfl (fun p hp => ?_)
    rw [Finset.mem_range] at hp
    congr 1
    rw [← hg.symm_eq up (i := k + 1 + i) (j := k + 1 + p) (by omega) (by omega)]
    unfold symm
    cases up <;> simp)
  have u3 := absorb u2 h3 f3
  have l3 : HoldsV m3 L (fun i => l (k + 1 + i) k) := h2.frame lvec f3 dVL.symm
  have W3 : Alloc (wkset w ws) m3 := W2.frame f3 (dW.mono_left hsub)
  rw [C07_dot env.blas1min env.naive vec lvec (by rw [sz, lsz]) h3 l3 fuel (by rw [sz]; omega)]
  refine Runs.bind (Runs.ok rfl) ?_
  rintro u rfl
  have hkk := u3.at_old hk (by omega) hT (by simp)
  refine Runs.wr_bind hkk (Runs.pure ⟨rfl, ?_, ?_⟩)
  · refine (u3.cell hw hk (by omega) hT ?_).congr (fun i j hi hj ht => by
      constructor
      · rintro (h | h)
        · exact h.1
        · omega
      · intro h
        by_cases c : i = k ∧ j = k
        · exact Or.inr c
        · exact Or.inl ⟨h, c⟩)
    rw [sz, ← hg.dia hz (k := k) (s := n) (by omega) (by rw [hlk]; exact hd), hlk]
  · refine W3.frame (F := A.footOn (InTri up false)) (Frame.set ?_ _) dW
    exact ⟨k, k, hk, by omega, hT, rfl⟩

theorem unblkSpd_spec (ab : α → α) {env : Env} (hmin : 2 ≤ env.blas2min) {fuel : Nat} {m : Mem α} {A : View}
    {up : Bool} {a x g : Nat → Nat → α} (hw : A.WF) (hsq : A.cols = A.rows) (hf : A.rows + 1 < fuel) {w ws : Nat}
    (hws : A.rows ≤ ws + 1) (dW : Disjoint (A.footOn (InTri up false)) (wkset w ws))
    (hd : ∀ i, i < A.rows → a i i ≠ 0) (hg : SpdX A.rows (lowOf up a) x g) (W : Alloc (wkset w ws) m)
    (hA : HoldsOn m A (InTri up false) a) :
    Runs (unblkSpd ab env fuel m A up w ws) (fun r => r.1 = 0 ∧ HoldsOn r.2 A (InTri up false) g ∧
      Frame (A.footOn (InTri up false) ∪ wkset w ws) m r.2 ∧ Alloc (wkset w ws) r.2) := by
  unfold unblkSpd
  refine Runs.forDown (fun k (st : Int × Mem α) => st.1 = 0 ∧
      UpdX m A (InTri up false) (wkset w ws) a g (fun i j => k ≤ i ∧ k ≤ j) st.2 ∧ Alloc (wkset w ws) st.2)
      ⟨rfl, (UpdX.init hA g _).congr (by intros; omega), W⟩ ?_ ?_
  · rintro k ⟨err, m1⟩ hk ⟨he, h1, W1⟩
    dsimp only at he
    subst he
    exact unblkSpdStep_spec ab hmin hw hsq hf hws dW hk (hd k hk) hg (fun i j h => lowOf_lt up a h) (fun _ _ => rfl) W1 h1
  · rintro ⟨err, m1⟩ ⟨he, h1, W1⟩
    exact ⟨he, h1.fin (fun i j hi hj _ hS => by omega), h1.frame, W1⟩

/-- With a zero on the diagonal the unblocked inversion stops there. -/
theorem unblkSpd_singular (ab : α → α) {env : Env} (hmin : 2 ≤ env.blas2min) {fuel : Nat} {m : Mem α} {A : View}
    {up : Bool} {a : Nat → Nat → α} (hw : A.WF) (hsq : A.cols = A.rows) (hf : A.rows + 1 < fuel) {w ws : Nat}
    (hws : A.rows ≤ ws + 1) (dW : Disjoint (A.footOn (InTri up false)) (wkset w ws))
    (h0 : ∃ i, i < A.rows ∧ a i i = 0) (W : Alloc (wkset w ws) m) (hA : HoldsOn m A (InTri up false) a) :
    Runs (unblkSpd ab env fuel m A up w ws) (fun r => r.1 = -ESINGULAR ∧
      Frame (A.footOn (InTri up false) ∪ wkset w ws) m r.2) := by
  classical
  obtain ⟨z, ⟨hz, hz0⟩, hmax⟩ : ∃ z, (z < A.rows ∧ a z z = 0) ∧ ∀ i, i < A.rows → a i i = 0 → i ≤ z := by
    obtain ⟨i0, hi0⟩ := h0
    refine ⟨Nat.findGreatest (fun i => i < A.rows ∧ a i i = 0) A.rows,
      Nat.findGreatest_spec (P := fun i => i < A.rows ∧ a i i = 0) (by omega : i0 ≤ A.rows) hi0, fun i hi h => ?_⟩
    exact Nat.le_findGreatest (P := fun i => i < A.rows ∧ a i i = 0) (by omega) ⟨hi, h⟩
  have hd : ∀ i, i < A.rows → (if i ≤ z then 1 else a i i : α) ≠ 0 := by
    intro i hi
    split
    · exact one_ne_zero
    · rename_i c
      exact fun e => c (hmax i hi e)
  obtain ⟨x, g, hg⟩ := spdX_exists (n := A.rows) (up := up) (a := fun i j => if i = j ∧ i ≤ z then 1 else a i j)
    (fun i hi => by simpa using hd i hi)
  unfold unblkSpd
  refine Runs.forDown (fun k (st : Int × Mem α) => if z < k then st.1 = 0 ∧
      UpdX m A (InTri up false) (wkset w ws) a g (fun i j => k ≤ i ∧ k ≤ j) st.2 ∧ Alloc (wkset w ws) st.2
      else st.1 = -ESINGULAR ∧ Frame (A.footOn (InTri up false) ∪ wkset w ws) m st.2) ?_ ?_ ?_
  · rw [if_pos hz]
    exact ⟨rfl, (UpdX.init hA g _).congr (by intros; omega), W⟩
  · rintro k ⟨err, m1⟩ hk h1
    dsimp only at h1 ⊢
    rcases Nat.lt_trichotomy k z with c | c | c
    · rw [if_neg (by omega)] at h1
      obtain ⟨rfl, f1⟩ := h1
      unfold unblkSpdStep
      dsimp only
      rw [if_pos (by decide)]
      exact Runs.pure (by rw [if_neg (by omega)]; exact ⟨rfl, f1⟩)
    · subst c
      rw [if_pos (by omega)] at h1
      obtain ⟨rfl, u1, W1⟩ := h1
      unfold unblkSpdStep
      dsimp only
      rw [if_neg (by simp)]
      refine Runs.rd_bind (u1.at_old hk (by omega) (by cases up <;> simp [InTri]) (by omega)) ?_
      rw [if_pos hz0]
      exact Runs.pure (by rw [if_neg (by omega)]; exact ⟨rfl, u1.frame⟩)
    · rw [if_pos (by omega)] at h1
      obtain ⟨rfl, u1, W1⟩ := h1
      simp only [c, if_true]
      exact unblkSpdStep_spec ab hmin hw hsq hf hws dW hk (fun e => by have := hmax k hk e; omega) hg
        (fun i j h => lowOf_lt up _ h) (fun i hi => by
          rcases Nat.eq_or_lt_of_le hi with rfl | hi
          · simp only [lowOf_diag]
            rw [if_neg (by omega)]
          · rw [lowOf_gt _ _ hi, lowOf_gt _ _ hi]
            cases up <;> simp <;> omega) W1 u1
  · rintro ⟨err, m1⟩ h1
    rw [if_neg (by omega)] at h1
    exact h1

omit [DecidableEq α] in
theorem SpdX.symOf_eq {n : Nat} {l x g : Nat → Nat → α} (h : SpdX n l x g) {fl : Flags} (hu : fl.unit = false)
    {e i j : Nat} (hi : e + i < n) (hj : e + j < n) :
    symOf fl (fun i j => g (e + i) (e + j)) i j = g (e + i) (e + j) := by
  unfold symOf
  rw [hu]
  by_cases hij : i = j
  · subst hij; simp
  rw [if_neg hij]
  rcases Nat.lt_or_ge i j with c | c
  · rw [min_eq_left c.le, max_eq_right c.le]
    split
    · rfl
    · exact h.sym hj hi
  · rw [min_eq_right c, max_eq_left c]
    split
    · exact h.sym hj hi
    · rfl

/-- What the blocked inversion is called with. -/
structure SpdBlk (env : Env) (c : Cache) (A : View) (up : Bool) (a x g : Nat → Nat → α) (w ws lb fuel : Nat) : Prop where
  conf : Conf3 env c
  min2 : 2 ≤ env.blas2min
  wf : A.WF
  sq : A.cols = A.rows
  fuel : 4 * A.rows + 1 < fuel
  work : A.rows * lb ≤ ws
  fit : ∀ s nb, s < A.rows → nb ≤ lb → BlocksFit c s nb { upper := up, lower := !up, right := up }
  even : ∀ nb, nb ≤ lb → EvenSplits env c nb { upper := up }
  dA : Disjoint (A.footOn (InTri up false)) (c.foot ∪ wkset w ws)
  dcw : Disjoint c.foot (wkset w ws)
  nz : ∀ i, i < A.rows → a i i ≠ 0
  inv : SpdX A.rows (lowOf up a) x g

/-- What holds when the last `s` rows and columns are done. -/
structure SpdSt (c : Cache) (m : Mem α) (A : View) (up : Bool) (a g : Nat → Nat → α) (w ws s : Nat) (m1 : Mem α) : Prop where
  upd : UpdX m A (InTri up false) (c.foot ∪ wkset w ws) a g (fun i j => A.rows ≤ i + s ∧ A.rows ≤ j + s) m1
  alloc : Alloc (wkset w ws) m1
  ready : c.Ready m1

omit [Field α] [DecidableEq α] in
theorem UpdX.keep {m m1 m2 : Mem α} {A : View} {T S : Nat → Nat → Prop} {F G : Set Nat} {a g : Nat → Nat → α}
    (h : UpdX m A T F a g S m1) (d : Disjoint (A.footOn T) F) (hG : G ⊆ F) (f : Frame G m1 m2) :
    UpdX m A T F a g S m2 :=
  ⟨h.hold.frame f (d.mono_right hG), h.frame.trans (f.mono (hG.trans Set.subset_union_right))⟩

theorem blkSpdLowerStep_spec (ab : α → α) {env : Env} {c : Cache} {A : View} {a x g : Nat → Nat → α}
    {w ws lb fuel : Nat} (H : SpdBlk env c A false a x g w ws lb fuel) {m m1 : Mem α} {s : Nat} (hs : s < A.rows)
    (h1 : SpdSt c m A false a g w ws s m1) :
    Runs (blkSpdLowerStep ab env fuel A w lb (some c) s (0, m1)) (fun r => r.1 = 0 ∧
      SpdSt c m A false a g w ws (s + lb) r.2) := by
  obtain ⟨hc, hmin, hw, hsq, hf, hws, hfit, heven, dAF, dcw, hd, hg⟩ := H
  obtain ⟨u1, W1, R1⟩ := h1
  have hz : ∀ i j, i < j → lowOf false a i j = 0 := fun i j h => lowOf_lt false a h
  have hl : ∀ i j, trm false false a i j = lowOf false a i j := fun i j => by simp [lowOf]
  obtain ⟨nb, hnb⟩ : ∃ nb, nb = min lb (A.rows - s) := ⟨_, rfl⟩
  obtain ⟨k, hkk⟩ : ∃ k, k = A.rows - s - nb := ⟨_, rfl⟩
  have hn : A.rows = k + nb + s := by omega
  have hwl : lb + s * nb ≤ ws := by
    have e1 : s * nb ≤ s * lb := Nat.mul_le_mul_left _ (by omega)
    have e2 : (s + 1) * lb ≤ A.rows * lb := Nat.mul_le_mul_right _ (by omega)
    rw [Nat.add_mul, Nat.one_mul] at e2
    omega
  unfold blkSpdLowerStep
  dsimp only
  rw [← hnb, ← hkk]
  obtain ⟨V, hV⟩ : ∃ V : View, V = A.sub (k + nb) k s nb := ⟨_, rfl⟩
  obtain ⟨L, hL⟩ : ∃ L : View, L = ⟨w + lb, s, s, nb⟩ := ⟨_, rfl⟩
  obtain ⟨D, hD⟩ : ∃ D : View, D = A.sub k k nb nb := ⟨_, rfl⟩
  rw [← hV, ← hL, ← hD]
  rw [Set.disjoint_union_right] at dAF
  obtain ⟨dAc, dAw⟩ := dAF
  have dAF : Disjoint (A.footOn (InTri false false)) (c.foot ∪ wkset w ws) := Set.disjoint_union_right.mpr ⟨dAc, dAw⟩
  have lw : L.foot ⊆ wkset w ws := by
    subst hL
    refine (wk_foot (ws := s * nb) le_rfl).trans ?_
    intro p hp
    simp only [wkset, Set.mem_setOf_eq] at hp ⊢
    omega
  have lw0 : Disjoint L.foot (wkset w lb) := by
    subst hL
    refine Disjoint.mono_left (wk_foot (ws := s * nb) le_rfl) (Set.disjoint_left.mpr ?_)
    intro p hp hq
    simp only [wkset, Set.mem_setOf_eq] at hp hq
    omega
  have w0 : wkset w lb ⊆ wkset w ws := by
    intro p hp
    simp only [wkset, Set.mem_setOf_eq] at hp ⊢
    omega
  have lF : L.foot ⊆ c.foot ∪ wkset w ws := lw.trans Set.subset_union_right
  have cF : c.foot ⊆ c.foot ∪ wkset w ws := Set.subset_union_left
  have lwf : L.WF := Or.inl (by rw [hL])
  have vA : V.foot ⊆ A.footOn (InTri false false) := by
    subst hV
    exact View.foot_sub_footOn (by omega) (by omega) (by simp [InTri]; omega)
  have dA : D.footOn (InTri false false) ⊆ A.footOn (InTri false false) := by
    subst hD
    exact View.footOn_sub (by omega) (by omega) (fun i j _ _ h => by rw [inTri_shift]; exact h)
  have eA : (A.sub (k + nb) (k + nb) s s).footOn (InTri false false) ⊆ A.footOn (InTri false false) :=
    View.footOn_sub (by omega) (by omega) (fun i j _ _ h => by rw [inTri_shift]; exact h)
  have vwf : V.WF := by subst hV; exact hw.sub (by omega) (by omega)
  have dwf : D.WF := by subst hD; exact hw.sub (by omega) (by omega)
  have dVD : Disjoint V.foot (D.footOn (InTri false false)) := by
    subst hV hD
    exact (View.sub_disj hw (by omega) (by omega) (by omega) (by omega) (by omega)).mono_right (View.footOn_sub_foot _ _)
  have dEV : Disjoint ((A.sub (k + nb) (k + nb) s s).footOn (InTri false false)) V.foot := by
    subst hV
    exact (View.sub_disj hw (by omega) (by omega) (by omega) (by omega) (by omega)).mono_left (View.footOn_sub_foot _ _)
  have vr : V.rows = s := by rw [hV]; rfl
  have vc : V.cols = nb := by rw [hV]; rfl
  have lr : L.rows = s := by rw [hL]
  have lc : L.cols = nb := by rw [hL]
  have dr : D.rows = nb := by rw [hD]; rfl
  have dc : D.cols = nb := by rw [hD]; rfl
  have dVL : Disjoint V.foot L.foot := dAw.mono vA lw
  have dDL : Disjoint (D.footOn (InTri false false)) L.foot := dAw.mono dA lw
  have dcL : Disjoint c.foot L.foot := dcw.mono_right lw
  -- the copy
  have hV1 : Holds m1 V (fun i j => a (k + nb + i) (k + j)) := by
    subst hV
    exact u1.block_old (by omega) (by omega) (fun i j _ _ => ⟨by simp [InTri]; omega, by omega⟩)
  obtain ⟨y0, hy0⟩ := W1.holds lw
  refine (C05_mcopy lwf hy0 hV1 dVL (by omega) (by omega)).bind ?_
  rintro ⟨e2, m2⟩ ⟨-, h2, f2⟩
  dsimp only at h2 f2 ⊢
  have u2 := u1.keep dAF lF f2
  have W2 := W1.write f2 h2
  have R2 : c.Ready m2 := R1.frame f2 dcL
  -- the product with the part done
  have s3 := multSym_ready ab (c := c) (m := m2) (C := V) (A := A.sub (k + nb) (k + nb) s s) (B := L)
    (a := fun i j => g (k + nb + i) (k + nb + j)) (0 : α) (-1) (fl := { lower := true })
    ⟨rfl, fun h => by simp at h, rfl, rfl, vwf, rfl, vr, by simp; omega, by simp; omega, R2, hc.rb,
      u2.part_new (by omega) (by omega) (fun i j _ _ h => ⟨by rw [inTri_shift]; exact h, by omega, by omega⟩),
      h2, hV1.frame f2 dVL, dAc.mono_left eA, dcL.symm, dAc.mono_left vA, dEV, dVL.symm⟩
    (by
      have := hfit s nb hs (by omega)
      simpa [BlocksFit] using this)
  refine s3.bind ?_
  rintro ⟨e3, m3⟩ ⟨-, h3, f3, R3⟩
  dsimp only at h3 f3 R3 ⊢
  have D2 : HoldsOn m2 D (InTri false false) (fun i j => a (k + i) (k + j)) := by
    subst hD
    exact u2.part_old (by omega) (by omega) (fun i j hi hj h => ⟨by rw [inTri_shift]; exact h, by omega⟩)
  have D3 := D2.frame f3 (Set.disjoint_union_right.mpr ⟨dVD.symm, dAc.mono_left dA⟩)
  have hd' : ∀ i, i < D.cols → a (k + i) (k + i) ≠ 0 := fun i hi => hd _ (by omega)
  -- divided by the diagonal block
  have s4 := solveTrm_eq ab hc.min2 (c := c) (m := m3) (B := V) (A := D)
    (a := fun i j => a (k + i) (k + j)) (Z := fun i j => g (k + nb + i) (k + j))
    (fl := { lower := true, right := true }) (fuel := fuel)
    ⟨fun _ => rfl, rfl, rfl, vwf, by omega, by simp; omega, R3, hc.rb, h3, D3, dVD.symm, dAc.mono_left dA,
      dAc.mono_left vA⟩ rfl rfl (Or.inr hd') (by omega)
    (fun i j hi hj => by
      rw [vr] at hi
      rw [vc] at hj
      simp only [triProd, symProd, if_true, Bool.false_eq_true, if_false, View.sub_rows, dc, zero_mul, zero_add,
        neg_mul, one_mul]
      rw [Finset.sum_congr rfl (fun p _ => by rw [trm_shift, hl]), hg.off_block hz hn hi hj]
      congr 1
      refine Finset.sum_congr rfl (fun p hp => ?_)
      rw [Finset.mem_range] at hp
      rw [hg.symOf_eq rfl (by omega) (by omega), lowOf_gt _ _ (by omega)]
      rfl)
  refine s4.bind ?_
  rintro ⟨e4, m4⟩ ⟨-, h4, f4, R4⟩
  dsimp only at h4 f4 R4 ⊢
  have f24 : Frame (V.foot ∪ c.foot) m2 m4 := f3.trans f4
  have u4 := u2.block hw dAF (r := k + nb) (c := k) (nr := s) (nc := nb) (by omega) (by omega)
    (fun i j _ _ => by simp [InTri]; omega) (hV ▸ h4) (f24.mono (by
      rw [← hV]
      exact Set.union_subset_union_right _ cF))
  have W4 : Alloc (wkset w ws) m4 := W2.frame f24 (Set.disjoint_union_left.mpr ⟨dAw.mono_left vA, dcw⟩)
  have L4 := h2.frame f24 (Set.disjoint_union_right.mpr ⟨dVL.symm, dcL.symm⟩)
  have D4 := D2.frame f24 (Set.disjoint_union_right.mpr ⟨dVD.symm, dAc.mono_left dA⟩)
  -- the copy divided by the diagonal block
  have s5 := solveTrm_eq ab hc.min2 (c := c) (m := m4) (B := L) (A := D)
    (a := fun i j => a (k + i) (k + j)) (Z := fun i j => SpdX.yblk (lowOf false a) x k nb i j)
    (fl := { lower := true, right := true }) (fuel := fuel)
    ⟨fun _ => rfl, rfl, rfl, lwf, by omega, by simp; omega, R4, hc.rb, L4, D4, dDL, dAc.mono_left dA, dcL.symm⟩
    rfl rfl (Or.inr hd') (by omega)
    (fun i j hi hj => by
      rw [lr] at hi
      rw [lc] at hj
      simp only [triProd, if_true, Bool.false_eq_true, if_false, dc]
      rw [Finset.sum_congr rfl (fun p _ => by rw [trm_shift, hl]), hg.yblk_mul hz hn hj, lowOf_gt _ _ (by omega)]
      rfl)
  refine s5.bind ?_
  rintro ⟨e5, m5⟩ ⟨-, h5, f5, R5⟩
  dsimp only at h5 f5 R5 ⊢
  have f5' : L.foot ∪ c.foot ⊆ c.foot ∪ wkset w ws := Set.union_subset lF cF
  have u5 := u4.keep dAF f5' f5
  have W5 : Alloc (wkset w ws) m5 := by
    intro p hp
    by_cases hq : p ∈ L.foot
    · obtain ⟨i, j, hi, hj, rfl⟩ := hq
      exact ⟨_, h5 i j hi hj⟩
    · rw [f5 p (by
        rintro (h | h)
        · exact hq h
        · exact Set.disjoint_left.mp dcw h hp)]
      exact W4 p hp
  have V5 := h4.frame f5 (Set.disjoint_union_right.mpr ⟨dVL, dAc.mono_left vA⟩)
  have D5 := D4.frame f5 (Set.disjoint_union_right.mpr ⟨dDL, dAc.mono_left dA⟩)
  -- the inverse of the diagonal block
  have hx11 : SpdX D.rows (lowOf false (fun i j => a (k + i) (k + j))) (fun i j => x (k + i) (k + j))
      (fun i j => ∑ p ∈ range nb, x (k + p) (k + i) * x (k + p) (k + j)) := by
    have := hg.blk hz (k := k) (nb := nb) (by omega)
    rw [dr]
    rwa [show lowOf false (fun i j => a (k + i) (k + j)) = fun i j => lowOf false a (k + i) (k + j) from
      funext fun i => funext fun j => lowOf_shift _ _ _ _ _]
  refine (unblkSpd_spec ab hmin (fuel := fuel) (w := w) (ws := lb) dwf (by omega) (by omega) (by omega)
    (dAw.mono dA w0) (fun i hi => hd' i (by omega)) hx11 (fun p hp => W5 p (w0 hp)) D5).bind ?_
  rintro ⟨e6, m6⟩ ⟨he6, h6, f6, W6'⟩
  dsimp only at he6 h6 f6 W6' ⊢
  subst he6
  have W6 : Alloc (wkset w ws) m6 := by
    intro p hp
    by_cases hq : p ∈ wkset w lb
    · exact W6' p hq
    · rw [f6 p (by
        rintro (h | h)
        · exact Set.disjoint_left.mp dAw (dA h) hp
        · exact hq h)]
      exact W5 p hp
  have R6 : c.Ready m6 := R5.frame f6 (Set.disjoint_union_right.mpr ⟨(dAc.mono_left dA).symm, dcw.mono_right w0⟩)
  have V6 := V5.frame f6 (Set.disjoint_union_right.mpr ⟨dVD, dAw.mono vA w0⟩)
  have L6 := h5.frame f6 (Set.disjoint_union_right.mpr ⟨dDL.symm, lw0⟩)
  -- the update of the diagonal block
  have s7 : Runs (updateTrm ab env fuel m6 1 D (-1) V L { transA := true, lower := true } (some c)) (fun r =>
      HoldsOn r.2 D (InTri false false) (fun i j => g (k + i) (k + j)) ∧
      Frame (D.footOn (InTri false false) ∪ c.foot) m6 r.2 ∧ c.Ready r.2) := by
    rcases Nat.eq_zero_or_pos s with h0 | h0
    · rw [C21_inner_zero_false _ _ _ _ _ _ _ _ _ _ _ (by simp; omega)]
      refine Runs.ok ⟨h6.congr (fun i j hi hj _ => ?_), Frame.refl _ _, R6⟩
      rw [← hg.dia_block hz hn (by omega) (by omega), h0, Finset.sum_range_zero, sub_zero]
    · refine (C21_update_trm_partial ab hc.min2 (c := c) (m := m6) (C := D) (A := V) (B := L) (K := s) (1 : α) (-1)
        (fl := { transA := true, lower := true }) ⟨rfl, rfl, dwf, h0, by simp; omega, by simp; omega, by simp; omega,
          by simp; omega, R6, V6, L6, h6, dAc.mono_left vA, dcL.symm, dAc.mono_left dA, dVD, dDL.symm⟩ (Or.inl rfl)
        (by omega)).mono ?_
      rintro r ⟨-, g1, g2, g3⟩
      refine ⟨g1.congr (fun i j hi hj _ => ?_), g2, g3⟩
      rw [← hg.dia_block hz hn (by omega) (by omega)]
      simp only [rankSum, if_true, Bool.false_eq_true, if_false]
      ring
  refine s7.bind ?_
  rintro ⟨e7, m7⟩ ⟨h7, f7, R7⟩
  dsimp only at h7 f7 R7 ⊢
  refine Runs.pure ⟨by simp, ?_, ?_, R7⟩
  · refine (u5.sub hw dAF (U := InTri false false) (r := k) (c := k) (nr := nb) (nc := nb) (by omega) (by omega)
      (fun i j _ _ h => by rw [inTri_shift]; exact h) (hD ▸ h7) ?_).congr ?_
    · rw [← hD]
      refine (f6.mono ?_).trans (f7.mono ?_)
      · exact Set.union_subset_union_right _ (w0.trans Set.subset_union_right)
      · exact Set.union_subset_union_right _ cF
    · intro i j hi hj ht
      simp [InTri] at ht ⊢
      omega
  · exact W6.frame f7 (Set.disjoint_union_left.mpr ⟨dAw.mono_left dA, dcw⟩)

theorem blkSpdUpperStep_spec (ab : α → α) {env : Env} {c : Cache} {A : View} {a x g : Nat → Nat → α}
    {w ws lb fuel : Nat} (H : SpdBlk env c A true a x g w ws lb fuel) {m m1 : Mem α} {s : Nat} (hs : s < A.rows)
    (h1 : SpdSt c m A true a g w ws s m1) :
    Runs (blkSpdUpperStep ab env fuel A w lb (some c) s (0, m1)) (fun r => r.1 = 0 ∧
      SpdSt c m A true a g w ws (s + lb) r.2) := by
  obtain ⟨hc, hmin, hw, hsq, hf, hws, hfit, heven, dAF, dcw, hd, hg⟩ := H
  obtain ⟨u1, W1, R1⟩ := h1
  have hz : ∀ i j, i < j → lowOf true a i j = 0 := fun i j h => lowOf_lt true a h
  have hl : ∀ i j, trm true false a i j = lowOf true a j i := fun i j => by simp [lowOf]
  obtain ⟨nb, hnb⟩ : ∃ nb, nb = min lb (A.rows - s) := ⟨_, rfl⟩
  obtain ⟨k, hkk⟩ : ∃ k, k = A.rows - s - nb := ⟨_, rfl⟩
  have hn : A.rows = k + nb + s := by omega
  have hwl : lb + nb * s ≤ ws := by
    have e1 : s * nb ≤ s * lb := Nat.mul_le_mul_left _ (by omega)
    have e2 : (s + 1) * lb ≤ A.rows * lb := Nat.mul_le_mul_right _ (by omega)
    rw [Nat.add_mul, Nat.one_mul] at e2
    rw [Nat.mul_comm] at e1
    omega
  unfold blkSpdUpperStep
  dsimp only
  rw [← hnb, ← hkk]
  obtain ⟨V, hV⟩ : ∃ V : View, V = A.sub k (k + nb) nb s := ⟨_, rfl⟩
  obtain ⟨L, hL⟩ : ∃ L : View, L = ⟨w + lb, nb, nb, s⟩ := ⟨_, rfl⟩
  obtain ⟨D, hD⟩ : ∃ D : View, D = A.sub k k nb nb := ⟨_, rfl⟩
  rw [← hV, ← hL, ← hD]
  rw [Set.disjoint_union_right] at dAF
  obtain ⟨dAc, dAw⟩ := dAF
  have dAF : Disjoint (A.footOn (InTri true false)) (c.foot ∪ wkset w ws) := Set.disjoint_union_right.mpr ⟨dAc, dAw⟩
  have lw : L.foot ⊆ wkset w ws := by
    subst hL
    refine (wk_foot (ws := nb * s) le_rfl).trans ?_
    intro p hp
    simp only [wkset, Set.mem_setOf_eq] at hp ⊢
    omega
  have lw0 : Disjoint L.foot (wkset w lb) := by
    subst hL
    refine Disjoint.mono_left (wk_foot (ws := nb * s) le_rfl) (Set.disjoint_left.mpr ?_)
    intro p hp hq
    simp only [wkset, Set.mem_setOf_eq] at hp hq
    omega
  have w0 : wkset w lb ⊆ wkset w ws := by
    intro p hp
    simp only [wkset, Set.mem_setOf_eq] at hp ⊢
    omega
  have lF : L.foot ⊆ c.foot ∪ wkset w ws := lw.trans Set.subset_union_right
  have cF : c.foot ⊆ c.foot ∪ wkset w ws := Set.subset_union_left
  have lwf : L.WF := Or.inl (by rw [hL])
  have vA : V.foot ⊆ A.footOn (InTri true false) := by
    subst hV
    exact View.foot_sub_footOn (by omega) (by omega) (by simp [InTri]; omega)
  have dA : D.footOn (InTri true false) ⊆ A.footOn (InTri true false) := by
    subst hD
    exact View.footOn_sub (by omega) (by omega) (fun i j _ _ h => by rw [inTri_shift]; exact h)
  have eA : (A.sub (k + nb) (k + nb) s s).footOn (InTri true false) ⊆ A.footOn (InTri true false) :=
    View.footOn_sub (by omega) (by omega) (fun i j _ _ h => by rw [inTri_shift]; exact h)
  have vwf : V.WF := by subst hV; exact hw.sub (by omega) (by omega)
  have dwf : D.WF := by subst hD; exact hw.sub (by omega) (by omega)
  have dVD : Disjoint V.foot (D.footOn (InTri true false)) := by
    subst hV hD
    exact (View.sub_disj hw (by omega) (by omega) (by omega) (by omega) (by omega)).mono_right (View.footOn_sub_foot _ _)
  have dEV : Disjoint ((A.sub (k + nb) (k + nb) s s).footOn (InTri true false)) V.foot := by
    subst hV
    exact (View.sub_disj hw (by omega) (by omega) (by omega) (by omega) (by omega)).mono_left (View.footOn_sub_foot _ _)
  have vr : V.rows = nb := by rw [hV]; rfl
  have vc : V.cols = s := by rw [hV]; rfl
  have lr : L.rows = nb := by rw [hL]
  have lc : L.cols = s := by rw [hL]
  have dr : D.rows = nb := by rw [hD]; rfl
  have dc : D.cols = nb := by rw [hD]; rfl
  have dVL : Disjoint V.foot L.foot := dAw.mono vA lw
  have dDL : Disjoint (D.footOn (InTri true false)) L.foot := dAw.mono dA lw
  have dcL : Disjoint c.foot L.foot := dcw.mono_right lw
  -- the copy
  have hV1 : Holds m1 V (fun i j => a (k + i) (k + nb + j)) := by
    subst hV
    exact u1.block_old (by omega) (by omega) (fun i j _ _ => ⟨by simp [InTri]; omega, by omega⟩)
  obtain ⟨y0, hy0⟩ := W1.holds lw
  refine (C05_mcopy lwf hy0 hV1 dVL (by omega) (by omega)).bind ?_
  rintro ⟨e2, m2⟩ ⟨-, h2, f2⟩
  dsimp only at h2 f2 ⊢
  have u2 := u1.keep dAF lF f2
  have W2 := W1.write f2 h2
  have R2 : c.Ready m2 := R1.frame f2 dcL
  -- the product with the part done
  have s3 := multSym_ready ab (c := c) (m := m2) (C := V) (A := A.sub (k + nb) (k + nb) s s) (B := L)
    (a := fun i j => g (k + nb + i) (k + nb + j)) (0 : α) (-1) (fl := { right := true, upper := true })
    ⟨rfl, fun _ => rfl, rfl, rfl, vwf, rfl, by simp; omega, by simp; omega, by simp; omega, R2, hc.rb,
      u2.part_new (by omega) (by omega) (fun i j _ _ h => ⟨by rw [inTri_shift]; exact h, by omega, by omega⟩),
      h2, hV1.frame f2 dVL, dAc.mono_left eA, dcL.symm, dAc.mono_left vA, dEV, dVL.symm⟩
    (by
      have := hfit s nb hs (by omega)
      simpa [BlocksFit, vr] using this)
  refine s3.bind ?_
  rintro ⟨e3, m3⟩ ⟨-, h3, f3, R3⟩
  dsimp only at h3 f3 R3 ⊢
  have D2 : HoldsOn m2 D (InTri true false) (fun i j => a (k + i) (k + j)) := by
    subst hD
    exact u2.part_old (by omega) (by omega) (fun i j hi hj h => ⟨by rw [inTri_shift]; exact h, by omega⟩)
  have D3 := D2.frame f3 (Set.disjoint_union_right.mpr ⟨dVD.symm, dAc.mono_left dA⟩)
  have hd' : ∀ i, i < D.cols → a (k + i) (k + i) ≠ 0 := fun i hi => hd _ (by omega)
  -- divided by the diagonal block
  have s4 := solveTrm_eq ab hc.min2 (c := c) (m := m3) (B := V) (A := D)
    (a := fun i j => a (k + i) (k + j)) (Z := fun i j => g (k + i) (k + nb + j))
    (fl := { left := true, upper := true }) (fuel := fuel)
    ⟨fun h => by simp at h, rfl, rfl, vwf, by omega, by simp; omega, R3, hc.rb, h3, D3, dVD.symm, dAc.mono_left dA,
      dAc.mono_left vA⟩ rfl rfl (Or.inr hd') (by omega)
    (fun i j hi hj => by
      rw [vr] at hi
      rw [vc] at hj
      simp only [triProd, symProd, if_true, Bool.false_eq_true, if_false, View.sub_rows, dc, zero_mul, zero_add,
        neg_mul, one_mul]
      rw [Finset.sum_congr rfl (fun p hp => by
        rw [trm_shift, hl, hg.sym (i := k + p) (j := k + nb + j) (by have := Finset.mem_range.mp hp; omega) (by omega),
          mul_comm]), hg.off_block hz hn hj hi]
      congr 1
      refine Finset.sum_congr rfl (fun p hp => ?_)
      rw [Finset.mem_range] at hp
      rw [hg.symOf_eq rfl (by omega) (by omega), lowOf_gt _ _ (by omega),
        hg.sym (i := k + nb + p) (j := k + nb + j) (by omega) (by omega), mul_comm]
      rfl)
  refine s4.bind ?_
  rintro ⟨e4, m4⟩ ⟨-, h4, f4, R4⟩
  dsimp only at h4 f4 R4 ⊢
  have f24 : Frame (V.foot ∪ c.foot) m2 m4 := f3.trans f4
  have u4 := u2.block hw dAF (r := k) (c := k + nb) (nr := nb) (nc := s) (by omega) (by omega)
    (fun i j _ _ => by simp [InTri]; omega) (hV ▸ h4) (f24.mono (by
      rw [← hV]
      exact Set.union_subset_union_right _ cF))
  have W4 : Alloc (wkset w ws) m4 := W2.frame f24 (Set.disjoint_union_left.mpr ⟨dAw.mono_left vA, dcw⟩)
  have L4 := h2.frame f24 (Set.disjoint_union_right.mpr ⟨dVL.symm, dcL.symm⟩)
  have D4 := D2.frame f24 (Set.disjoint_union_right.mpr ⟨dVD.symm, dAc.mono_left dA⟩)
  -- the copy divided by the diagonal block
  have s5 := solveTrm_eq ab hc.min2 (c := c) (m := m4) (B := L) (A := D)
    (a := fun i j => a (k + i) (k + j)) (Z := fun i j => SpdX.yblk (lowOf true a) x k nb j i)
    (fl := { left := true, upper := true }) (fuel := fuel)
    ⟨fun h => by simp at h, rfl, rfl, lwf, by omega, by simp; omega, R4, hc.rb, L4, D4, dDL, dAc.mono_left dA, dcL.symm⟩
    rfl rfl (Or.inr hd') (by omega)
    (fun i j hi hj => by
      rw [lr] at hi
      rw [lc] at hj
      simp only [triProd, if_true, Bool.false_eq_true, if_false, dc]
      rw [Finset.sum_congr rfl (fun p _ => by rw [trm_shift, hl, mul_comm]), hg.yblk_mul hz hn hi,
        lowOf_gt _ _ (by omega)]
      rfl)
  refine s5.bind ?_
  rintro ⟨e5, m5⟩ ⟨-, h5, f5, R5⟩
  dsimp only at h5 f5 R5 ⊢
  have f5' : L.foot ∪ c.foot ⊆ c.foot ∪ wkset w ws := Set.union_subset lF cF
  have u5 := u4.keep dAF f5' f5
  have W5 : Alloc (wkset w ws) m5 := by
    intro p hp
    by_cases hq : p ∈ L.foot
    · obtain ⟨i, j, hi, hj, rfl⟩ := hq
      exact ⟨_, h5 i j hi hj⟩
    · rw [f5 p (by
        rintro (h | h)
        · exact hq h
        · exact Set.disjoint_left.mp dcw h hp)]
      exact W4 p hp
  have V5 := h4.frame f5 (Set.disjoint_union_right.mpr ⟨dVL, dAc.mono_left vA⟩)
  have D5 := D4.frame f5 (Set.disjoint_union_right.mpr ⟨dDL, dAc.mono_left dA⟩)
  -- the inverse of the diagonal block
  have hx11 : SpdX D.rows (lowOf true (fun i j => a (k + i) (k + j))) (fun i j => x (k + i) (k + j))
      (fun i j => ∑ p ∈ range nb, x (k + p) (k + i) * x (k + p) (k + j)) := by
    have := hg.blk hz (k := k) (nb := nb) (by omega)
    rw [dr]
    rwa [show lowOf true (fun i j => a (k + i) (k + j)) = fun i j => lowOf true a (k + i) (k + j) from
      funext fun i => funext fun j => lowOf_shift _ _ _ _ _]
  refine (unblkSpd_spec ab hmin (fuel := fuel) (w := w) (ws := lb) dwf (by omega) (by omega) (by omega)
    (dAw.mono dA w0) (fun i hi => hd' i (by omega)) hx11 (fun p hp => W5 p (w0 hp)) D5).bind ?_
  rintro ⟨e6, m6⟩ ⟨he6, h6, f6, W6'⟩
  dsimp only at he6 h6 f6 W6' ⊢
  subst he6
  have W6 : Alloc (wkset w ws) m6 := by
    intro p hp
    by_cases hq : p ∈ wkset w lb
    · exact W6' p hq
    · rw [f6 p (by
        rintro (h | h)
        · exact Set.disjoint_left.mp dAw (dA h) hp
        · exact hq h)]
      exact W5 p hp
  have R6 : c.Ready m6 := R5.frame f6 (Set.disjoint_union_right.mpr ⟨(dAc.mono_left dA).symm, dcw.mono_right w0⟩)
  have V6 := V5.frame f6 (Set.disjoint_union_right.mpr ⟨dVD, dAw.mono vA w0⟩)
  have L6 := h5.frame f6 (Set.disjoint_union_right.mpr ⟨dDL.symm, lw0⟩)
  -- the update of the diagonal block
  have s7 : Runs (updateTrm ab env fuel m6 1 D (-1) L V { upper := true, transB := true } (some c)) (fun r =>
      HoldsOn r.2 D (InTri true false) (fun i j => g (k + i) (k + j)) ∧
      Frame (D.footOn (InTri true false) ∪ c.foot) m6 r.2 ∧ c.Ready r.2) := by
    rcases Nat.eq_zero_or_pos s with h0 | h0
    · rw [C21_inner_zero_false _ _ _ _ _ _ _ _ _ _ _ (by simp; omega)]
      refine Runs.ok ⟨h6.congr (fun i j hi hj _ => ?_), Frame.refl _ _, R6⟩
      rw [← hg.dia_block hz hn (by omega) (by omega), h0, Finset.sum_range_zero, sub_zero]
    · refine (C21_update_trm_partial ab hc.min2 (c := c) (m := m6) (C := D) (A := L) (B := V) (K := s) (1 : α) (-1)
        (fl := { upper := true, transB := true }) ⟨rfl, rfl, dwf, h0, by simp; omega, by simp; omega, by simp; omega,
          by simp; omega, R6, L6, V6, h6, dcL.symm, dAc.mono_left vA, dAc.mono_left dA, dDL.symm, dVD⟩ (by
          rw [dr, dc, Nat.min_self]
          simpa [EvenSplits] using heven nb (by omega))
        (by omega)).mono ?_
      rintro r ⟨-, g1, g2, g3⟩
      refine ⟨g1.congr (fun i j hi hj _ => ?_), g2, g3⟩
      rw [hg.sym (i := k + i) (j := k + j) (by omega) (by omega), ← hg.dia_block hz hn (by omega) (by omega)]
      simp only [rankSum, if_true, Bool.false_eq_true, if_false, one_mul, neg_mul, ← sub_eq_add_neg]
      congr 1
      · exact Finset.sum_congr rfl (fun p _ => mul_comm _ _)
      · refine Finset.sum_congr rfl (fun p hp => ?_)
        rw [Finset.mem_range] at hp
        rw [hg.sym (i := k + j) (j := k + nb + p) (by omega) (by omega), mul_comm]
  refine s7.bind ?_
  rintro ⟨e7, m7⟩ ⟨h7, f7, R7⟩
  dsimp only at h7 f7 R7 ⊢
  refine Runs.pure ⟨by simp, ?_, ?_, R7⟩
  · refine (u5.sub hw dAF (U := InTri true false) (r := k) (c := k) (nr := nb) (nc := nb) (by omega) (by omega)
      (fun i j _ _ h => by rw [inTri_shift]; exact h) (hD ▸ h7) ?_).congr ?_
    · rw [← hD]
      refine (f6.mono ?_).trans (f7.mono ?_)
      · exact Set.union_subset_union_right _ (w0.trans Set.subset_union_right)
      · exact Set.union_subset_union_right _ cF
    · intro i j hi hj ht
      simp [InTri] at ht ⊢
      omega
  · exact W6.frame f7 (Set.disjoint_union_left.mpr ⟨dAw.mono_left dA, dcw⟩)

theorem blkSpdLower_spec (ab : α → α) {env : Env} {c : Cache} {A : View} {a x g : Nat → Nat → α}
    {w ws lb fuel : Nat} (H : SpdBlk env c A false a x g w ws lb fuel) (h0 : 0 < lb) {m : Mem α}
    (hA : HoldsOn m A (InTri false false) a) (W : Alloc (wkset w ws) m) (R : c.Ready m) :
    Runs (blkSpdLower ab env fuel m A w lb (some c)) (fun r => r.1 = 0 ∧ HoldsOn r.2 A (InTri false false) g ∧
      Frame (A.footOn (InTri false false) ∪ (c.foot ∪ wkset w ws)) m r.2) := by
  unfold blkSpdLower
  refine Runs.bind (P := fun y => A.rows ≤ y.1 ∧ y.2.1 = 0 ∧ SpdSt c m A false a g w ws y.1 y.2.2)
    (Runs.forUp (fun s (st : Int × Mem α) => st.1 = 0 ∧ SpdSt c m A false a g w ws s st.2) h0
      ⟨rfl, (UpdX.init hA g _).congr (by intros; omega), W, R⟩ ?_ ?_) ?_
  · rintro s ⟨err, m1⟩ _ hs ⟨he, h1⟩
    dsimp only at he
    subst he
    exact blkSpdLowerStep_spec ab H hs h1
  · rintro s ⟨err, m1⟩ hs _ ⟨he, h1⟩
    exact ⟨hs, he, h1⟩
  · rintro ⟨s, err, m1⟩ ⟨hs, he, h1⟩
    exact Runs.pure ⟨he, h1.upd.fin (fun i j _ _ _ h => by dsimp only at hs h; omega), h1.upd.frame⟩

theorem blkSpdUpper_spec (ab : α → α) {env : Env} {c : Cache} {A : View} {a x g : Nat → Nat → α}
    {w ws lb fuel : Nat} (H : SpdBlk env c A true a x g w ws lb fuel) (h0 : 0 < lb) {m : Mem α}
    (hA : HoldsOn m A (InTri true false) a) (W : Alloc (wkset w ws) m) (R : c.Ready m) :
    Runs (blkSpdUpper ab env fuel m A w lb (some c)) (fun r => r.1 = 0 ∧ HoldsOn r.2 A (InTri true false) g ∧
      Frame (A.footOn (InTri true false) ∪ (c.foot ∪ wkset w ws)) m r.2) := by
  unfold blkSpdUpper
  refine Runs.bind (P := fun y => A.rows ≤ y.1 ∧ y.2.1 = 0 ∧ SpdSt c m A true a g w ws y.1 y.2.2)
    (Runs.forUp (fun s (st : Int × Mem α) => st.1 = 0 ∧ SpdSt c m A true a g w ws s st.2) h0
      ⟨rfl, (UpdX.init hA g _).congr (by intros; omega), W, R⟩ ?_ ?_) ?_
  · rintro s ⟨err, m1⟩ _ hs ⟨he, h1⟩
    dsimp only at he
    subst he
    exact blkSpdUpperStep_spec ab H hs h1
  · rintro s ⟨err, m1⟩ hs _ ⟨he, h1⟩
    exact ⟨hs, he, h1⟩
  · rintro ⟨s, err, m1⟩ ⟨hs, he, h1⟩
    exact Runs.pure ⟨he, h1.upd.fin (fun i j _ _ _ h => by dsimp only at hs h; omega), h1.upd.frame⟩

end Armas
