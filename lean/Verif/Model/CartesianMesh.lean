import Verif.Model.Trunc

/-! Model of `/repo/include/nektar_interface/utility_mesh_cartesian.hpp` (`DeviceCartesianMesh`). -/

namespace Verif.Model.CartesianMesh
open Verif.Model

variable {K : Type*} [Field K] [LinearOrder K]

/-- Member data of `DeviceCartesianMesh`, lines 25-37. -/
structure Mesh (K : Type*) where
  ndim : ℕ
  origin : ℕ → K
  extents : ℕ → K
  cellCounts : ℕ → ℤ
  cellWidths : ℕ → K
  inverseCellWidths : ℕ → K

/-- Constructor, lines 48-89: `none` when an assertion on extents or counts fails. The vector length
assertions (lines 54-58) are implicit in the use of functions for the vectors. -/
def mk? (ndim : ℕ) (origin extents : ℕ → K) (cellCounts : ℕ → ℤ) : Option (Mesh K) :=
  if (List.range ndim).all (fun d => decide (extents d > 0) && decide (cellCounts d > 0)) then
    some { ndim := ndim, origin := origin, extents := extents, cellCounts := cellCounts,
           cellWidths := fun d => extents d / (cellCounts d : K),
           inverseCellWidths := fun d => 1 / (extents d / (cellCounts d : K)) }
  else none

/-- The clamps of lines 111-114. -/
def clampCell (count cell : ℤ) : ℤ :=
  let cell := if cell < 0 then 0 else cell
  if cell ≥ count then count - 1 else cell

/-- `get_cell_in_dimension`, lines 98-116; `none` is a failed assertion. -/
def getCellInDimension [FloorRing K] (m : Mesh K) (dim : ℕ) (point : K) : Option ℤ :=
  if point ≥ m.origin dim - 1 / 10 ^ 8 ∧ point ≤ m.origin dim + m.extents dim + 1 / 10 ^ 8 ∧
      dim < m.ndim then
    some (clampCell (m.cellCounts dim) (truncZ ((point - m.origin dim) * m.inverseCellWidths dim)))
  else none

/-- `get_linear_cell_index`, lines 125-135: the loop `dimx = ndim-2 .. 0` with
`idx *= cell_counts[dimx]; idx += cell_tuple[dimx]`. -/
def linearIndex (ndim : ℕ) (counts t : ℕ → ℤ) : ℤ :=
  ((List.range (ndim - 1)).reverse).foldl (fun idx d => idx * counts d + t d) (t (ndim - 1))

/-- `get_cell_count`, lines 165-171. -/
def cellCount (ndim : ℕ) (counts : ℕ → ℤ) : ℤ :=
  (List.range ndim).foldl (fun c d => c * counts d) 1

/-- `get_bounding_box`, lines 143-160, in dimension `d`: `(lower, upper)`; `none` is a failed
assertion on the cell index. -/
def cellBounds (m : Mesh K) (d : ℕ) (cell : ℤ) : Option (K × K) :=
  if cell ≥ 0 ∧ cell < m.cellCounts d then
    some (m.origin d + (cell : K) * m.cellWidths d, m.origin d + ((cell + 1 : ℤ) : K) * m.cellWidths d)
  else none

end Verif.Model.CartesianMesh
