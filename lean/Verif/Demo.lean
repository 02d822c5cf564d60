import Verif.Logic

/-!
# Concrete memories for the examples

Used only in the `example`s that show that the hypotheses of the property theorems can be met.
-/

namespace Armas

variable {α : Type}

/-- Fully allocated memory holding `g p` in cell `p`. -/
def tot (g : Nat → α) : Mem α := fun p => some (g p)

theorem holds_tot (g : Nat → α) (V : View) : Holds (tot g) V (fun i j => g (V.at' i j)) :=
  fun _ _ _ _ => rfl

theorem holdsV_tot (g : Nat → α) (X : View) : HoldsV (tot g) X (fun k => g (X.vat k)) :=
  fun _ _ => rfl

/-- A view that ends before another begins is disjoint from it. -/
theorem View.disj_below {V W : View} (h : V.base + V.rows + V.cols * V.step ≤ W.base) :
    Disjoint V.foot W.foot := by
  refine Set.disjoint_left.mpr ?_
  rintro p ⟨i, j, hi, hj, rfl⟩ ⟨i', j', hi', hj', e⟩
  simp only [View.at'] at e
  have : j * V.step ≤ V.cols * V.step := Nat.mul_le_mul_right _ (by omega)
  omega

end Armas
