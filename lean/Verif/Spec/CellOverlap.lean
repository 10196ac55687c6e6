import Verif.Model.Claims
import Verif.Spec.Cells
import Mathlib.Algebra.BigOperators.Group.Finset.Basic

/-! Overlaps of boxes and cells of a mesh hierarchy. -/

namespace Verif.Spec
open Verif.Model.MeshHierarchy Verif.Model.Claims

variable {K : Type*} [Field K] [LinearOrder K]

/-- A mesh hierarchy with cells of positive width. -/
def GridGeom (m : MHGeom K) : Prop := Grid m.toMH ∧ m.ndim ≤ 3 ∧ 0 < m.width ∧ m.invWidth * m.width = 1

/-- The interiors of a box and of a cell have a point in common. -/
def BoxMeetsCell (m : MHGeom K) (lo hi : ℕ → K) (c : ℕ → ℤ) : Prop :=
  ∃ x : ℕ → K, ∀ d < m.ndim, (lo d < x d ∧ x d < hi d) ∧
    (m.origin d + (c d : K) * m.width < x d ∧ x d < m.origin d + ((c d : K) + 1) * m.width)

/-- The volume of the intersection of a box and a cell that meet. -/
def overlapVolume (m : MHGeom K) (lo hi : ℕ → K) (c : ℕ → ℤ) : K :=
  ∏ d ∈ Finset.range m.ndim, (min (hi d) (m.origin d + ((c d : K) + 1) * m.width) - max (lo d) (m.origin d + (c d : K) * m.width))

/-- The cell with linear index `id` meets the box. -/
def BoxMeets (m : MHGeom K) (lo hi : ℕ → K) (id : ℤ) : Prop :=
  ∃ c, InGrid m.toMH c ∧ HasLinearIndex m.toMH c id ∧ BoxMeetsCell m lo hi c

end Verif.Spec
