import Mathlib.Algebra.Order.Field.Basic

/-! The reference elements of Nektar++ in the local coordinates `ξ`. -/

namespace Verif.Spec

inductive Shape3 where
  | tet | pyr | prism | hex
deriving DecidableEq, Repr

inductive Shape2 where
  | tri | quad
deriving DecidableEq, Repr

variable {K : Type*} [Field K] [LinearOrder K]

/-- The closed reference element enlarged by `s` in each of its bounding planes (`s = 0`: the element). -/
def InRef3 (s : K) : Shape3 → K → K → K → Prop
  | .tet, a, b, c => -1 - s ≤ a ∧ -1 - s ≤ b ∧ -1 - s ≤ c ∧ a + b + c ≤ -1 + s
  | .pyr, a, b, c => -1 - s ≤ a ∧ -1 - s ≤ b ∧ -1 - s ≤ c ∧ a + c ≤ s ∧ b + c ≤ s
  | .prism, a, b, c => -1 - s ≤ a ∧ (-1 - s ≤ b ∧ b ≤ 1 + s) ∧ -1 - s ≤ c ∧ a + c ≤ s
  | .hex, a, b, c => (-1 - s ≤ a ∧ a ≤ 1 + s) ∧ (-1 - s ≤ b ∧ b ≤ 1 + s) ∧ (-1 - s ≤ c ∧ c ≤ 1 + s)

/-- As `InRef3` in two dimensions. -/
def InRef2 (s : K) : Shape2 → K → K → Prop
  | .tri, a, b => -1 - s ≤ a ∧ -1 - s ≤ b ∧ a + b ≤ s
  | .quad, a, b => (-1 - s ≤ a ∧ a ≤ 1 + s) ∧ (-1 - s ≤ b ∧ b ≤ 1 + s)

/-- The interval `[-1, 1]`. -/
def InUnit (x : K) : Prop := -1 ≤ x ∧ x ≤ 1

end Verif.Spec
