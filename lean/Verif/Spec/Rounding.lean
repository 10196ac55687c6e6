import Mathlib.Data.Real.Basic
import Mathlib.Order.Monotone.Defs
import Mathlib.Algebra.Group.Even

/-!
Floating point numbers and rounding. `IsFloat 53 (-1074)` are the finite values of `double` without an upper bound on the exponent: overflow is not modelled.
A rounding is any of the rounding modes of IEEE 754: it returns a floating point number, is monotone and leaves floating point numbers as they are.
-/

namespace Verif.Spec.Rounding

/-- The numbers `m * 2 ^ e` with `p` bits and exponent at least `emin`. -/
def IsFloat (p : ℕ) (emin : ℤ) (x : ℝ) : Prop := ∃ m e : ℤ, |m| < 2 ^ p ∧ emin ≤ e ∧ x = m * (2 : ℝ) ^ e

/-- A rounding mode: the result of each operation is `rnd` of the exact result. -/
structure Rounding (p : ℕ) (emin : ℤ) (rnd : ℝ → ℝ) : Prop where
  float : ∀ x, IsFloat p emin (rnd x)
  mono : Monotone rnd
  exact : ∀ x, IsFloat p emin x → rnd x = x

/-! ### The rounding modes of IEEE 754 -/

/-- Toward minus infinity: the largest number that is not above. -/
structure Downward (p : ℕ) (emin : ℤ) (rnd : ℝ → ℝ) : Prop where
  float : ∀ x, IsFloat p emin (rnd x)
  below : ∀ x, rnd x ≤ x
  largest : ∀ x f, IsFloat p emin f → f ≤ x → f ≤ rnd x

/-- Toward plus infinity: the smallest number that is not below. -/
structure Upward (p : ℕ) (emin : ℤ) (rnd : ℝ → ℝ) : Prop where
  float : ∀ x, IsFloat p emin (rnd x)
  above : ∀ x, x ≤ rnd x
  smallest : ∀ x f, IsFloat p emin f → x ≤ f → rnd x ≤ f

/-- Toward zero: of the numbers that are not larger in magnitude, the nearest. -/
structure TowardZero (p : ℕ) (emin : ℤ) (rnd : ℝ → ℝ) : Prop where
  float : ∀ x, IsFloat p emin (rnd x)
  smaller : ∀ x, |rnd x| ≤ |x|
  nearest : ∀ x f, IsFloat p emin f → |f| ≤ |x| → |rnd x - x| ≤ |f - x|

/-- To the nearest, with any rule for ties. -/
structure Nearest (p : ℕ) (emin : ℤ) (rnd : ℝ → ℝ) : Prop where
  float : ∀ x, IsFloat p emin (rnd x)
  nearest : ∀ x f, IsFloat p emin f → |rnd x - x| ≤ |f - x|

/-- The last of the `p` digits is even; subnormal numbers have the smallest exponent. -/
def LastDigitEven (p : ℕ) (emin : ℤ) (x : ℝ) : Prop := ∃ m e : ℤ, |m| < 2 ^ p ∧ emin ≤ e ∧ (2 ^ (p - 1) ≤ |m| ∨ e = emin) ∧ Even m ∧ x = m * (2 : ℝ) ^ e

/-- To the nearest, ties to even: the default mode. -/
structure NearestEven (p : ℕ) (emin : ℤ) (rnd : ℝ → ℝ) : Prop extends Nearest p emin rnd where
  even : ∀ x f, IsFloat p emin f → f ≠ rnd x → |f - x| = |rnd x - x| → LastDigitEven p emin (rnd x)

end Verif.Spec.Rounding
