import Verif.GerLemmas

/-!
# Parts of a matrix

Assertions about a part of a matrix given by a set of index pairs, used for triangles: an operation
that is specified with only its triangle allocated cannot read the other elements (a read of an
unallocated cell is undefined behaviour), and one whose frame is the triangle cannot write them.
-/

namespace Armas

open Classical

variable {α : Type}

/-- Elements of `V` in `S` are allocated and have the values `a`. -/
def HoldsOn (m : Mem α) (V : View) (S : Nat → Nat → Prop) (a : Nat → Nat → α) : Prop :=
  ∀ i j, i < V.rows → j < V.cols → S i j → m (V.at' i j) = some (a i j)

/-- Cells of the elements of `V` in `S`. -/
def View.footOn (V : View) (S : Nat → Nat → Prop) : Set Nat :=
  {p | ∃ i j, i < V.rows ∧ j < V.cols ∧ S i j ∧ p = V.at' i j}

theorem View.footOn_sub_foot (V : View) (S : Nat → Nat → Prop) : V.footOn S ⊆ V.foot := by
  rintro p ⟨i, j, hi, hj, _, rfl⟩; exact ⟨i, j, hi, hj, rfl⟩

theorem View.footOn_mono {V : View} {S T : Nat → Nat → Prop}
    (h : ∀ i j, i < V.rows → j < V.cols → S i j → T i j) : V.footOn S ⊆ V.footOn T := by
  rintro p ⟨i, j, hi, hj, hS, rfl⟩; exact ⟨i, j, hi, hj, h i j hi hj hS, rfl⟩

/-- Selected part of a block as a part of the whole. -/
theorem View.footOn_sub {V : View} {S T : Nat → Nat → Prop} {r c nr nc : Nat}
    (hr : r + nr ≤ V.rows) (hc : c + nc ≤ V.cols)
    (h : ∀ i j, i < nr → j < nc → S i j → T (r + i) (c + j)) :
    (V.sub r c nr nc).footOn S ⊆ V.footOn T := by
  rintro p ⟨i, j, hi, hj, hS, rfl⟩
  rw [View.sub_rows] at hi
  rw [View.sub_cols] at hj
  refine ⟨r + i, c + j, by omega, by omega, h i j hi hj hS, ?_⟩
  rw [View.at_sub]

/-- A whole block as a part. -/
theorem View.foot_sub_footOn {V : View} {T : Nat → Nat → Prop} {r c nr nc : Nat}
    (hr : r + nr ≤ V.rows) (hc : c + nc ≤ V.cols)
    (h : ∀ i j, i < nr → j < nc → T (r + i) (c + j)) :
    (V.sub r c nr nc).foot ⊆ V.footOn T := by
  rintro p ⟨i, j, hi, hj, rfl⟩
  rw [View.sub_rows] at hi
  rw [View.sub_cols] at hj
  refine ⟨r + i, c + j, by omega, by omega, h i j hi hj, ?_⟩
  rw [View.at_sub]

@[simp] theorem View.sub_row_size (V : View) (r c n : Nat) : (V.sub r c 1 n).size = n := by
  simp [View.size]

@[simp] theorem View.sub_col_size (V : View) (r c n : Nat) : (V.sub r c n 1).size = n := by
  simp [View.size]

namespace HoldsOn

variable {m m' : Mem α} {V : View} {S T : Nat → Nat → Prop} {a b : Nat → Nat → α}

theorem mono (h : HoldsOn m V S a) (hT : ∀ i j, i < V.rows → j < V.cols → T i j → S i j) :
    HoldsOn m V T a := fun i j hi hj hs => h i j hi hj (hT i j hi hj hs)

theorem congr (h : HoldsOn m V S a)
    (e : ∀ i j, i < V.rows → j < V.cols → S i j → a i j = b i j) : HoldsOn m V S b :=
  fun i j hi hj hs => by rw [h i j hi hj hs, e i j hi hj hs]

theorem frame (h : HoldsOn m V S a) {F : Set Nat} (hf : Frame F m m')
    (hd : Disjoint (V.footOn S) F) : HoldsOn m' V S a := by
  intro i j hi hj hs
  rw [hf _ (fun hp => Set.disjoint_left.mp hd ⟨i, j, hi, hj, hs, rfl⟩ hp)]
  exact h i j hi hj hs

theorem of_holds (h : Holds m V a) : HoldsOn m V S a := fun i j hi hj _ => h i j hi hj

/-- A part of a block. -/
theorem sub (h : HoldsOn m V S a) {r c nr nc : Nat} (hr : r + nr ≤ V.rows) (hc : c + nc ≤ V.cols)
    (hT : ∀ i j, i < nr → j < nc → T i j → S (r + i) (c + j)) :
    HoldsOn m (V.sub r c nr nc) T (fun i j => a (r + i) (c + j)) := by
  intro i j hi hj hs
  rw [View.sub_rows] at hi
  rw [View.sub_cols] at hj
  rw [View.at_sub]
  exact h _ _ (by omega) (by omega) (hT i j hi hj hs)

/-- A block lying in the selected part. -/
theorem block (h : HoldsOn m V S a) {r c nr nc : Nat} (hr : r + nr ≤ V.rows)
    (hc : c + nc ≤ V.cols) (hT : ∀ i j, i < nr → j < nc → S (r + i) (c + j)) :
    Holds m (V.sub r c nr nc) (fun i j => a (r + i) (c + j)) := by
  intro i j hi hj
  rw [View.sub_rows] at hi
  rw [View.sub_cols] at hj
  rw [View.at_sub]
  exact h _ _ (by omega) (by omega) (hT i j hi hj)

/-- Part of a row. -/
theorem row (h : HoldsOn m V S a) {r c nc : Nat} (hr : r < V.rows)
    (hc : c + nc ≤ V.cols) (hT : ∀ j, j < nc → S r (c + j)) :
    HoldsV m (V.sub r c 1 nc) (fun k => a r (c + k)) := by
  rw [holdsV_iff (Or.inl rfl)]
  refine (h.block (nr := 1) (by omega) hc (fun i j hi hj => ?_)).congr (fun i j hi _ => ?_)
  · have : i = 0 := by omega
    subst this; exact hT j hj
  · have : i = 0 := by rw [View.sub_rows] at hi; omega
    subst this; simp

/-- Part of a column. -/
theorem col (h : HoldsOn m V S a) {r c nr : Nat} (hr : r + nr ≤ V.rows)
    (hc : c < V.cols) (hT : ∀ i, i < nr → S (r + i) c) :
    HoldsV m (V.sub r c nr 1) (fun k => a (r + k) c) := by
  rw [holdsV_iff (Or.inr rfl)]
  refine (h.block (nc := 1) hr (by omega) (fun i j hi hj => ?_)).congr (fun i j _ hj => ?_)
  · have : j = 0 := by omega
    subst this; exact hT i hi
  · have : j = 0 := by rw [View.sub_cols] at hj; omega
    subst this; simp

end HoldsOn

/-- The part `T` of matrix `V` held `f` in `m0`; in `m` its elements in `S` have the new value `g`,
and nothing else differs. -/
structure UpdOn (m0 : Mem α) (V : View) (T : Nat → Nat → Prop) (f g : Nat → Nat → α)
    (S : Nat → Nat → Prop) (m : Mem α) : Prop where
  hold : HoldsOn m V T (fun i j => if S i j then g i j else f i j)
  frame : Frame (V.footOn T) m0 m

namespace UpdOn

variable {m0 m m' : Mem α} {V : View} {f g : Nat → Nat → α} {T S : Nat → Nat → Prop}

theorem init (h : HoldsOn m0 V T f) (g : Nat → Nat → α) : UpdOn m0 V T f g (fun i _ => i < 0) m0 :=
  ⟨h.congr (by intros; simp), Frame.refl _ _⟩

theorem congr {S' : Nat → Nat → Prop} (h : UpdOn m0 V T f g S m)
    (e : ∀ i j, i < V.rows → j < V.cols → T i j → (S i j ↔ S' i j)) : UpdOn m0 V T f g S' m :=
  ⟨h.hold.congr (fun i j hi hj ht => by simp only [e i j hi hj ht]), h.frame⟩

theorem old (h : UpdOn m0 V T f g S m) : HoldsOn m V (fun i j => T i j ∧ ¬ S i j) f :=
  (h.hold.mono (fun _ _ _ _ h => h.1)).congr (fun i j _ _ h => by simp [h.2])

theorem new (h : UpdOn m0 V T f g S m) : HoldsOn m V (fun i j => T i j ∧ S i j) g :=
  (h.hold.mono (fun _ _ _ _ h => h.1)).congr (fun i j _ _ h => by simp [h.2])

theorem all (h : UpdOn m0 V T f g S m) (hS : ∀ i j, i < V.rows → j < V.cols → T i j → S i j) :
    HoldsOn m V T g :=
  h.new.mono (fun i j hi hj ht => ⟨ht, hS i j hi hj ht⟩)

theorem other (h : UpdOn m0 V T f g S m) {X : View} {x : Nat → α} (hX : HoldsV m0 X x)
    (hv : X.isVec) (hd : Disjoint X.foot (V.footOn T)) : HoldsV m X x := hX.frame hv h.frame hd

/-- A part `U` of a block of `V` was updated by a subroutine: absorb it. -/
theorem sub (h : UpdOn m0 V T f g S m) (hw : V.WF) {U : Nat → Nat → Prop} {r c nr nc : Nat}
    (hr : r + nr ≤ V.rows) (hc : c + nc ≤ V.cols)
    (hU : ∀ i j, i < nr → j < nc → U i j → T (r + i) (c + j))
    (hb : HoldsOn m' (V.sub r c nr nc) U (fun i j => g (r + i) (c + j)))
    (hf : Frame ((V.sub r c nr nc).footOn U) m m') :
    UpdOn m0 V T f g (fun i j => S i j ∨
      (r ≤ i ∧ i < r + nr ∧ c ≤ j ∧ j < c + nc ∧ U (i - r) (j - c))) m' := by
  refine ⟨fun i j hi hj ht => ?_, h.frame.trans (hf.mono (View.footOn_sub hr hc hU))⟩
  by_cases hin : r ≤ i ∧ i < r + nr ∧ c ≤ j ∧ j < c + nc ∧ U (i - r) (j - c)
  · have := hb (i - r) (j - c) (by rw [View.sub_rows]; omega) (by rw [View.sub_cols]; omega)
      hin.2.2.2.2
    rw [View.at_sub] at this
    beta_reduce at this
    rw [show r + (i - r) = i by omega, show c + (j - c) = j by omega] at this
    rw [this]; simp only [hin, and_self, or_true, if_true]
  · rw [hf _ ?_]
    · rw [h.hold i j hi hj ht]; simp only [hin, or_false]
    · rintro ⟨i', j', hi', hj', hu, e⟩
      rw [View.at_sub] at e
      rw [View.sub_rows] at hi'
      rw [View.sub_cols] at hj'
      obtain ⟨e1, e2⟩ := View.at_inj hw hi hj (by omega) (by omega) e
      apply hin
      refine ⟨by omega, by omega, by omega, by omega, ?_⟩
      rw [e1, e2, Nat.add_sub_cancel_left, Nat.add_sub_cancel_left]; exact hu

/-- A whole block of the part was updated. -/
theorem block (h : UpdOn m0 V T f g S m) (hw : V.WF) {r c nr nc : Nat}
    (hr : r + nr ≤ V.rows) (hc : c + nc ≤ V.cols)
    (hU : ∀ i j, i < nr → j < nc → T (r + i) (c + j))
    (hb : Holds m' (V.sub r c nr nc) (fun i j => g (r + i) (c + j)))
    (hf : Frame (V.sub r c nr nc).foot m m') :
    UpdOn m0 V T f g (fun i j => S i j ∨ (r ≤ i ∧ i < r + nr ∧ c ≤ j ∧ j < c + nc)) m' := by
  refine (h.sub hw (U := fun _ _ => True) hr hc (fun i j hi hj _ => hU i j hi hj)
    (HoldsOn.of_holds hb) (hf.mono ?_)).congr (by simp)
  rintro p ⟨i, j, hi, hj, e⟩
  exact ⟨i, j, hi, hj, trivial, e⟩

end UpdOn

/-- Index set of the upper / lower triangle (`UNIT`: without the diagonal). -/
def InTri (upper unit : Bool) (i j : Nat) : Prop :=
  if upper then (if unit then i < j else i ≤ j) else (if unit then j < i else j ≤ i)

/-- The triangular matrix selected by the flags: zero outside of the triangle, one on the diagonal
if `unit`. -/
def trm [Zero α] [One α] (upper unit : Bool) (a : Nat → Nat → α) (i j : Nat) : α :=
  if i = j then (if unit then 1 else a i i)
  else if (if upper then i < j else j < i) then a i j else 0

/-- The symmetric matrix whose upper / lower triangle is given. -/
def symm (upper : Bool) (a : Nat → Nat → α) (i j : Nat) : α :=
  if (if upper then i ≤ j else j ≤ i) then a i j else a j i

theorem inTri_shift (u t : Bool) (n i j : Nat) : InTri u t (n + i) (n + j) ↔ InTri u t i j := by
  unfold InTri; cases u <;> cases t <;> simp

theorem trm_shift [Zero α] [One α] (u t : Bool) (a : Nat → Nat → α) (n i j : Nat) :
    trm u t (fun i j => a (n + i) (n + j)) i j = trm u t a (n + i) (n + j) := by
  unfold trm; cases u <;> simp

theorem symm_shift (u : Bool) (a : Nat → Nat → α) (n i j : Nat) :
    symm u (fun i j => a (n + i) (n + j)) i j = symm u a (n + i) (n + j) := by
  unfold symm; cases u <;> simp

end Armas
