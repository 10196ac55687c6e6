import Verif.Model.MeshHierarchy

/-! Cells of a mesh hierarchy. -/

namespace Verif.Spec
open Verif.Model.MeshHierarchy

/-- The index of a cell per dimension is in the grid. -/
def InGrid (m : MH) (c : ℕ → ℤ) : Prop := ∀ d < m.ndim, 0 ≤ c d ∧ c d < m.dims d * m.ncf

/-- A mesh hierarchy: at least one dimension and at least one cell in each. -/
def Grid (m : MH) : Prop := 0 < m.ndim ∧ (∀ d < m.ndim, 0 < m.dims d) ∧ 0 < m.ncf

/-- `id` is the linear index of the cell `c`: the cell `fine` of the coarse cell `coarse` in each dimension. -/
def HasLinearIndex (m : MH) (c : ℕ → ℤ) (id : ℤ) : Prop :=
  ∃ t : ℕ → ℤ, (∀ d < m.ndim, c d = t d * m.ncf + t (d + m.ndim) ∧ 0 ≤ t (d + m.ndim) ∧ t (d + m.ndim) < m.ncf) ∧
    tupleToLinearGlobal m t = id

end Verif.Spec

namespace Verif.Spec
open Verif.Model.MeshHierarchy

/-- The indices of `c` and `b` differ by at most `w` in each dimension; with periodic boundaries up to whole domain widths. -/
def Within (m : MH) (w : ℤ) (pbc : Bool) (b c : ℕ → ℤ) : Prop :=
  ∀ d < m.ndim, if pbc then ∃ k : ℤ, |c d + k * (m.dims d * m.ncf) - b d| ≤ w else |c d - b d| ≤ w

end Verif.Spec
