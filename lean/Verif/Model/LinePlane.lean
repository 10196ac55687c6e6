import Mathlib.Algebra.Order.Field.Basic
import Mathlib.Data.Real.Sqrt

/-!
Model of include/nektar_interface/composite_interaction/line_plane_intersection.hpp, of the constructor in line_line_intersection.hpp and of
src/nektar_interface/composite_interaction/composite_utility.cpp, in exact arithmetic.
`Particles::line_segment_intersection_2d` belongs to NESO-Particles and is not modelled.
-/

namespace Verif.Model.LinePlane

/-- Three coordinates. No code: three `REAL` arguments, line_plane_intersection.hpp:15-40. -/
@[ext] structure V3 (K : Type*) where
  x : K
  y : K
  z : K
  deriving DecidableEq

variable {K : Type*}

/-- `MAPPING_DOT_PRODUCT_3D` / `KERNEL_DOT_PRODUCT_3D`. particle_cell_mapping_common.hpp:31-33. -/
def dot [Field K] (a b : V3 K) : K := a.x * b.x + a.y * b.y + a.z * b.z

/-- `KERNEL_CROSS_PRODUCT_3D`. particle_cell_mapping_common.hpp:24-29. -/
def cross [Field K] (a b : V3 K) : V3 K := ⟨a.y * b.z - a.z * b.y, a.z * b.x - a.x * b.z, a.x * b.y - a.y * b.x⟩

/-- The differences of line_plane_intersection.hpp:15-60. -/
def sub [Field K] (a b : V3 K) : V3 K := ⟨a.x - b.x, a.y - b.y, a.z - b.z⟩

/-- The members of `LinePlaneIntersection`, line_plane_intersection.hpp:29-43. -/
structure Plane (K : Type*) where
  point : V3 K
  normal : V3 K
  radiusSquared : K

/-- `distance_from_centre_squared`, line_plane_intersection.hpp:20-27. -/
def distanceFromCentreSquared [Field K] (point r : V3 K) : K :=
  let d0 := point.x - r.x
  let d1 := point.y - r.y
  let d2 := point.z - r.z
  d0 * d0 + d1 * d1 + d2 * d2

/-- `point_near_to_geom`, line_plane_intersection.hpp:90-94. -/
def pointNearToGeom [Field K] [LinearOrder K] (p : Plane K) (r : V3 K) : Bool :=
  decide (distanceFromCentreSquared p.point r ≤ p.radiusSquared)

/-- `line_segment_intersection`, line_plane_intersection.hpp:112-146: the returned value and the point written to `i0`, `i1`, `i2`. -/
def lineSegmentIntersection [Field K] [LinearOrder K] (p : Plane K) (p0 p1 : V3 K) : Bool × V3 K :=
  let l := sub p1 p0
  let l_dot_n := dot l p.normal
  let ppmpl_dot_n := dot (sub p.point p0) p.normal
  let d := if l_dot_n = 0 then 0 else ppmpl_dot_n / l_dot_n
  let i : V3 K := ⟨p0.x + d * l.x, p0.y + d * l.y, p0.z + d * l.z⟩
  (if (l_dot_n = 0 ∧ ppmpl_dot_n ≠ 0) ∨ d < 0 ∨ d > 1 then false else true, i)

/-- `get_vertex_average`, composite_utility.cpp:85-106, for a geometry with three coordinates. -/
def vertexAverage [Field K] (vs : List (V3 K)) : V3 K :=
  let s := vs.foldl (fun (a : V3 K) v => ⟨a.x + v.x, a.y + v.y, a.z + v.z⟩) ⟨0, 0, 0⟩
  ⟨s.x / vs.length, s.y / vs.length, s.z / vs.length⟩

/-- The loop for the radius, line_plane_intersection.hpp:68-77. -/
def radiusSquared [Field K] [LinearOrder K] (point : V3 K) (vs : List (V3 K)) : K :=
  vs.foldl (fun r v => max r (distanceFromCentreSquared point v)) 0

/-- `get_normal_vector` for a 2D geometry, composite_utility.cpp:38-83, from its vertices. `none` is an assertion: no vertices, or a normal that is not
finite because its length is zero. The geometry has no curve (composite_utility.cpp:41). -/
noncomputable def normal2D (vs : List (V3 ℝ)) : Option (V3 ℝ) :=
  match vs[0]?, vs[1]?, vs[vs.length - 1]? with
  | some v0, some v1, some v2 =>
    let nt := cross (sub v1 v0) (sub v2 v0)
    let len := Real.sqrt (dot nt nt)
    if len = 0 then none
    else
      let n_inorm := 1 / len
      some ⟨nt.x * n_inorm, nt.y * n_inorm, nt.z * n_inorm⟩
  | _, _, _ => none

/-- The constructor, line_plane_intersection.hpp:52-78, for a geometry with three coordinates. -/
noncomputable def construct (vs : List (V3 ℝ)) : Option (Plane ℝ) :=
  match normal2D vs with
  | none => none
  | some n =>
    let point := vertexAverage vs
    some ⟨point, n, radiusSquared point vs⟩

/-- `get_normal_vector` for a segment, composite_utility.cpp:5-36, and the normal in the constructor of `LineLineIntersection`,
line_line_intersection.hpp:59-65: from the coordinates of the two vertices. -/
noncomputable def normal1D (ax ay bx «by» : ℝ) : ℝ × ℝ :=
  let dx := bx - ax
  let dy := «by» - ay
  let n0t := -dy
  let n1t := dx
  let l := 1 / Real.sqrt (n0t * n0t + n1t * n1t)
  (n0t * l, n1t * l)

end Verif.Model.LinePlane
