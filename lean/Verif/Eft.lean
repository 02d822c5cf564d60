import Mathlib.Algebra.Order.Field.Rat
import Mathlib.Data.Int.Log
import Mathlib.Algebra.Order.Round
import Mathlib.Data.Rat.Floor

/-!
# Model of the error-free transformations (`src/include/eft.h`, `src/include/x86_64/eftops.h`)

Floating-point numbers are rational numbers `m * 2^e` with `|m| < 2^p` (`p` = 24 for `float`, 53 for `double`).  The exponent is not bounded: a
result that overflows or falls below the normal range is not covered.  Every operation rounds its exact result by a function `rn` that is
a parameter of the model; all theorems hold for every `rn` that rounds to nearest (`Nearest`), whatever it does with ties.
Infinities and NaN are not represented.
-/

namespace Armas

/-- Numbers with `p` significant bits: values of the types `float` and `double` (not a function of the repository). -/
def Fl (p : Nat) (x : ℚ) : Prop := ∃ m e : ℤ, |m| < 2 ^ p ∧ x = m * 2 ^ e

/-- `rn` rounds to a nearest number with `p` bits: the default rounding of the hardware (not a function of the repository). -/
def Nearest (p : Nat) (rn : ℚ → ℚ) : Prop := ∀ x, Fl p (rn x) ∧ ∀ y, Fl p y → |x - rn x| ≤ |x - y|

/-- Rounding to nearest, ties to even: the default rounding of IEEE 754 (not a function of the repository). -/
def rne (p : Nat) (x : ℚ) : ℚ :=
  let e := Int.log 2 |x| + 1 - (p : ℤ)
  let q := x / 2 ^ e
  let f := ⌊q⌋
  let r := if q - f < 1 / 2 then f else if 1 / 2 < q - f then f + 1 else if f % 2 = 0 then f else f + 1
  r * 2 ^ e

/-- `__FACT32` and `__FACT64` (`src/include/eft.h:36-37`, `src/include/x86_64/eftops.h:17-18`). -/
def fact32 : ℚ := 2 ^ 14 + 1
def fact64 : ℚ := 2 ^ 27 + 1

/-- `__twosum_base` (`src/include/eft.h:77-86`); the instructions of `src/include/x86_64/eftops.h:70-86` compute the same values.  Result: `x`, `y`. -/
def twosum (rn : ℚ → ℚ) (a b : ℚ) : ℚ × ℚ :=
  let x := rn (a + b)
  let z := rn (x - a)
  let w := rn (x - z)
  let w := rn (a - w)
  let z := rn (b - z)
  (x, rn (w + z))

/-- `__fastsum_base` (`src/include/eft.h:88-94`; `src/include/x86_64/eftops.h:95-108`). -/
def fastsum (rn : ℚ → ℚ) (a b : ℚ) : ℚ × ℚ :=
  let x := rn (a + b)
  let z := rn (a - x)
  (x, rn (z + b))

/-- `__split_base` (`src/include/eft.h:124-131`; `src/include/x86_64/eftops.h:117-130`). -/
def splitf (rn : ℚ → ℚ) (fct a : ℚ) : ℚ × ℚ :=
  let z := rn (fct * a)
  let x := rn (z - a)
  let x := rn (z - x)
  (x, rn (a - x))

/-- `__twoprod_base` without fused multiply-add (`src/include/eft.h:96-112`; `src/include/x86_64/eftops.h:215-241`).  Its first statements are those
of `__split_base`.  The compiler is assumed not to contract the expressions of the C version into fused operations. -/
def twoprod (rn : ℚ → ℚ) (fct a b : ℚ) : ℚ × ℚ :=
  let (a1, a2) := splitf rn fct a
  let (b1, b2) := splitf rn fct b
  let x := rn (a * b)
  let y := rn (rn (rn (x - rn (a1 * b1)) - rn (a2 * b1)) - rn (a1 * b2))
  (x, rn (rn (a2 * b2) - y))

/-- `__twoprod_base` with fused multiply-add (`src/include/x86_64/eftops.h:157-170`). -/
def twoprodFma (rn : ℚ → ℚ) (a b : ℚ) : ℚ × ℚ :=
  let x := rn (a * b)
  (x, rn (a * b - x))

/-- `__extract_scalar_base` of the generic header (`src/include/eft.h:134-140`). -/
def extractBase (rn : ℚ → ℚ) (p r : ℚ) : ℚ × ℚ :=
  let q := rn (p - r)
  let x := rn (q - r)
  (x, rn (p - x))

/-- `__extract_scalar_base` of the x86_64 header (`src/include/x86_64/eftops.h:136-146`). -/
def extractAvx (rn : ℚ → ℚ) (p r : ℚ) : ℚ × ℚ :=
  let q := rn (p + r)
  let x := rn (q - r)
  (x, rn (p - x))

/-- `__approx_twodiv_base` with fused multiply-add (`src/include/x86_64/eftops.h:183-201`): quotient and correction. -/
def twodivFma (rn : ℚ → ℚ) (a b : ℚ) : ℚ × ℚ :=
  let x := rn (a / b)
  let (v, w) := twoprodFma rn x b
  (x, rn (rn (rn (a - v) - w) / b))

/-- `__approx_twodiv_base` of the generic header (`src/include/eft.h:114-122`). -/
def twodivBase (rn : ℚ → ℚ) (fct a b : ℚ) : ℚ × ℚ :=
  let x := rn (a / b)
  let (v, w) := twoprod rn fct x b
  (x, rn (rn (rn (a - v) - w) / b))

/-- `__approx_twodiv_base` without fused multiply-add (`src/include/x86_64/eftops.h:257-288`): the tenth instruction multiplies `a` and `b` where the
comment has `x*b`. -/
def twodivAvx (rn : ℚ → ℚ) (fct a b : ℚ) : ℚ × ℚ :=
  let x := rn (a / b)
  let (a1, a2) := splitf rn fct x
  let (b1, b2) := splitf rn fct b
  let v := rn (a * b)
  let w := rn (rn (rn (v - rn (a1 * b1)) - rn (a2 * b1)) - rn (a1 * b2))
  let w := rn (rn (a2 * b2) - w)
  (x, rn (rn (rn (a - v) - w) / b))

end Armas
