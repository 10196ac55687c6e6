import Mathlib.Algebra.Order.Field.Basic

/-! What it means for axis aligned boxes to meet; nothing here refers to the model. -/

namespace Verif.Spec.BoundingBox

variable {K : Type*} [LinearOrder K]

/-- The closed box with lower corner `lo` and upper corner `hi` in the first `n` dimensions. -/
def ClosedBox (n : ℕ) (lo hi : ℕ → K) : Set (Fin n → K) :=
  {x | ∀ d : Fin n, lo d ≤ x d ∧ x d ≤ hi d}

/-- The interior of that box. -/
def OpenBox (n : ℕ) (lo hi : ℕ → K) : Set (Fin n → K) :=
  {x | ∀ d : Fin n, lo d < x d ∧ x d < hi d}

/-- Lower corner not above the upper corner. -/
def WellFormed (n : ℕ) (lo hi : ℕ → K) : Prop := ∀ d < n, lo d ≤ hi d

end Verif.Spec.BoundingBox
