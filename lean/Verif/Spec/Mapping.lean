import Mathlib.Data.Set.Basic
import Mathlib.Algebra.Field.Basic
import Mathlib.Order.Basic

/-!
Specification for C84: meshes and positions.
-/

namespace Verif.Spec.Mapping

variable {K : Type*} [Field K] [LinearOrder K]

/-- The regions cover the domain with the bounds `lo` and `hi`. -/
def Covers {ι : Type*} (ndim : ℕ) (lo hi : ℕ → K) (region : ι → Set (ℕ → K)) : Prop :=
  ∀ p : ℕ → K, (∀ d < ndim, lo d ≤ p d ∧ p d ≤ hi d) → ∃ i, p ∈ region i

/-- A region is closed: if it has points arbitrarily near to `p` on a ray from `p` then it contains `p`. -/
def RayClosed (E : Set (ℕ → K)) : Prop :=
  ∀ p v : ℕ → K, (∀ ε : K, 0 < ε → ∃ δ, 0 < δ ∧ δ < ε ∧ (fun d => p d + δ * v d) ∈ E) → p ∈ E

end Verif.Spec.Mapping
