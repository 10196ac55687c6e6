import Verif.Spec.RefElement

/-!
Model of `/repo/include/nektar_interface/coordinate_mapping.hpp` over an arbitrary ordered field; `tol` is
`NekConstants::kNekZeroTol`. Rounding is not modelled.
-/

namespace Verif.Model.CoordMap
open Verif.Spec

variable {K : Type*} [Field K] [LinearOrder K]

/-- The guard against division by zero, e.g. lines 176-189: `if (fabs(d) < tol) d = (d >= 0) ? tol : -tol`. -/
def zeroGuard (tol d : K) : K := if |d| < tol then (if d ≥ 0 then tol else -tol) else d

/-- `Tetrahedron::loc_coord_to_loc_collapsed_v`, lines 170-193. -/
def tetToCollapsed (tol x0 x1 x2 : K) : K × K × K :=
  let d2 := zeroGuard tol (1 - x2)
  let d12 := zeroGuard tol (-x1 - x2)
  (2 * (1 + x0) / d12 - 1, 2 * (1 + x1) / d2 - 1, x2)

/-- `Tetrahedron::loc_collapsed_to_loc_coord_v`, lines 209-216. -/
def tetFromCollapsed (e0 e1 e2 : K) : K × K × K :=
  let x1 := (1 + e1) * (1 - e2) * (1 / 2) - 1
  let x0 := (1 + e0) * (-x1 - e2) * (1 / 2) - 1
  (x0, x1, e2)

/-- `Pyramid::loc_coord_to_loc_collapsed_v`, lines 234-249. -/
def pyrToCollapsed (tol x0 x1 x2 : K) : K × K × K :=
  let d2 := zeroGuard tol (1 - x2)
  (2 * (1 + x0) / d2 - 1, 2 * (1 + x1) / d2 - 1, x2)

/-- `Pyramid::loc_collapsed_to_loc_coord_v`, lines 265-272. -/
def pyrFromCollapsed (e0 e1 e2 : K) : K × K × K :=
  ((1 + e0) * (1 - e2) * (1 / 2) - 1, (1 + e1) * (1 - e2) * (1 / 2) - 1, e2)

/-- `Prism::loc_coord_to_loc_collapsed_v`, lines 290-305. -/
def prismToCollapsed (tol x0 x1 x2 : K) : K × K × K :=
  let d2 := zeroGuard tol (1 - x2)
  (2 * (1 + x0) / d2 - 1, x1, x2)

/-- `Prism::loc_collapsed_to_loc_coord_v`, lines 321-328. -/
def prismFromCollapsed (e0 e1 e2 : K) : K × K × K :=
  ((1 + e0) * (1 - e2) * (1 / 2) - 1, e1, e2)

/-- `Hexahedron`, lines 331-380: both maps are the identity. -/
def hexToCollapsed (x0 x1 x2 : K) : K × K × K := (x0, x1, x2)
/-- `Hexahedron::loc_collapsed_to_loc_coord_v`, lines 372-379. -/
def hexFromCollapsed (e0 e1 e2 : K) : K × K × K := (e0, e1, e2)

/-- `Quadrilateral`, lines 382-416. -/
def quadToCollapsed (x0 x1 : K) : K × K := (x0, x1)
/-- `Quadrilateral::loc_collapsed_to_loc_coord_v`, lines 410-415. -/
def quadFromCollapsed (e0 e1 : K) : K × K := (e0, e1)

/-- `Triangle::loc_coord_to_loc_collapsed_v`, lines 422-435: written with a mask and conditional
expressions. -/
def triToCollapsed (tol x0 x1 : K) : K × K :=
  let d1o := 1 - x1
  let mask := |d1o| < tol
  let d1 := if mask ∧ d1o ≥ 0 then tol else if mask ∧ d1o < 0 then -tol else d1o
  (2 * (1 + x0) / d1 - 1, x1)

/-- `Triangle::loc_collapsed_to_loc_coord_v`, lines 448-453. -/
def triFromCollapsed (e0 e1 : K) : K × K := ((1 + e0) * (1 - e1) * (1 / 2) - 1, e1)

/-- The map of the class for a shape. coordinate_mapping.hpp:520-697. -/
def toCollapsed3 (tol : K) : Shape3 → K → K → K → K × K × K
  | .tet => tetToCollapsed tol
  | .pyr => pyrToCollapsed tol
  | .prism => prismToCollapsed tol
  | .hex => hexToCollapsed

/-- The inverse map of the class for a shape. coordinate_mapping.hpp:520-697. -/
def fromCollapsed3 : Shape3 → K → K → K → K × K × K
  | .tet => tetFromCollapsed
  | .pyr => pyrFromCollapsed
  | .prism => prismFromCollapsed
  | .hex => hexFromCollapsed

/-- The map of the class for a shape in two dimensions. coordinate_mapping.hpp:402-451. -/
def toCollapsed2 (tol : K) : Shape2 → K → K → K × K
  | .tri => triToCollapsed tol
  | .quad => quadToCollapsed

/-- The inverse map of the class for a shape in two dimensions. coordinate_mapping.hpp:402-451. -/
def fromCollapsed2 : Shape2 → K → K → K × K
  | .tri => triFromCollapsed
  | .quad => quadFromCollapsed

/-- `loc_collapsed_to_loc_coord(shape_type, ...)`, lines 468-534. `code` is `shape_type_to_int`. -/
def dispatchFrom3 (code : Shape3 → ℤ) (shape : ℤ) (e0 e1 e2 : K) : K × K × K :=
  let a := 1 + e0
  let b := 1 - e2
  let c := (1 + e1) * b * (1 / 2) - 1
  let d := a * b * (1 / 2) - 1
  let x1 := if shape = code .tet then c else
    if shape = code .pyr then (1 + e1) * b * (1 / 2) - 1 else e1
  let tetX := (1 + e0) * (-x1 - e2) * (1 / 2) - 1
  let x0 := if shape = code .tet then tetX else if shape = code .hex then e0 else d
  (x0, x1, e2)

/-- `loc_coord_to_loc_collapsed_3d(shape_type, ...)`, lines 566-606. -/
def dispatchTo3 (code : Shape3 → ℤ) (tol : K) (shape : ℤ) (x0 x1 x2 : K) : K × K × K :=
  let d2 := zeroGuard tol (1 - x2)
  let d12 := zeroGuard tol (-x1 - x2)
  let id2x2 := 2 / d2
  let a := 1 + x0
  let b := (1 + x1) * id2x2 - 1
  let c := a * id2x2 - 1
  let d := 2 * a / d12 - 1
  let e0 := if shape = code .tet then d else if shape = code .hex then x0 else c
  let e1 := if shape = code .tet ∨ shape = code .pyr then b else x1
  (e0, e1, x2)

/-- `loc_coord_to_loc_collapsed_2d(shape_type, ...)`, lines 636-651. -/
def dispatchTo2 (code : Shape2 → ℤ) (tol : K) (shape : ℤ) (x0 x1 : K) : K × K :=
  let d1o := 1 - x1
  let mask := |d1o| < tol
  let d1 := if mask ∧ d1o ≥ 0 then tol else if mask ∧ d1o < 0 then -tol else d1o
  (if code .tri = shape then 2 * (1 + x0) / d1 - 1 else x0, x1)

/-- `loc_collapsed_to_loc_coord_2d(shape_type, ...)`, lines 663-672. -/
def dispatchFrom2 (code : Shape2 → ℤ) (shape : ℤ) (e0 e1 : K) : K × K :=
  (if shape = code .tri then (1 + e0) * (1 - e1) * (1 / 2) - 1 else e0, e1)

/-- `clamp_loc_coord`, lines 683-701. `none` is a value that is not finite. Returns the new value and the flag. -/
def clampLocCoord (tol : K) (coord : Option K) : Option K × Bool :=
  match coord with
  | none => (some 0, true)
  | some c =>
    if c < -(1 + tol) then (some (-(1 + tol)), true)
    else if c > 1 + tol then (some (1 + tol), true)
    else (some c, false)

/-- `clamp_loc_coords(coord0, coord1, tol)`, lines 713-717: the operator `||` does not evaluate its right
operand when the left one is true. -/
def clampLocCoords2 (tol : K) (c0 c1 : Option K) : (Option K × Option K) × Bool :=
  let r0 := clampLocCoord tol c0
  if r0.2 then ((r0.1, c1), true)
  else
    let r1 := clampLocCoord tol c1
    ((r0.1, r1.1), r1.2)

/-- `clamp_loc_coords(coord0, coord1, coord2, tol)`, lines 730-734. -/
def clampLocCoords3 (tol : K) (c0 c1 c2 : Option K) : (Option K × Option K × Option K) × Bool :=
  let r0 := clampLocCoord tol c0
  if r0.2 then ((r0.1, c1, c2), true)
  else
    let r1 := clampLocCoords2 tol c1 c2
    ((r0.1, r1.1.1, r1.1.2), r1.2)

end Verif.Model.CoordMap
