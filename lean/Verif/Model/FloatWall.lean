import Verif.Model.FloatRegular
import Mathlib.Analysis.SpecialFunctions.Sqrt

/-!
Model of include/nektar_interface/composite_interaction/line_plane_intersection.hpp and of the two functions of src/nektar_interface/composite_interaction/composite_utility.cpp it calls, in floating point
arithmetic: each operation, division and square root is followed by a rounding `rnd`, except for products which the compiler fuses with the sum they are part of. Comparisons are exact. Overflow is not
modelled. The same functions in exact arithmetic are in Model/LinePlane.lean.
-/

namespace Verif.Model.FloatWall
open Verif.Spec Verif.Model.FloatBoris Verif.Model.FloatRegular

/-- Differences of points: `d00`, ..., composite_utility.cpp:59-64; `l0`, ... and `point_plane_m_point_line0`, ..., line_plane_intersection.hpp:117-119, 125-127. -/
noncomputable def subF (rnd : ℝ → ℝ) (a b : V3 ℝ) : V3 ℝ := ⟨rnd (a.x - b.x), rnd (a.y - b.y), rnd (a.z - b.z)⟩

/-- The members `point0`, ..., `normal2`, line_plane_intersection.hpp:33-43. The radius is not modelled here. -/
structure Wall where
  point : V3 ℝ
  normal : V3 ℝ

/-- `get_normal_vector` for a 2D geometry, composite_utility.cpp:38-83, from its vertices. `none` is an assertion: no vertices, or a length that is zero. `KERNEL_CROSS_PRODUCT_3D` and
`KERNEL_DOT_PRODUCT_3D` have the operations of the macros of particle_cell_mapping_common.hpp:23-33. -/
noncomputable def normalF (rnd : ℝ → ℝ) (c : ℕ → Bool) (vs : List (V3 ℝ)) : Option (V3 ℝ) :=
  match vs[0]?, vs[1]?, vs[vs.length - 1]? with
  | some v0, some v1, some v2 =>
    let nt := crossF rnd c 0 (subF rnd v1 v0) (subF rnd v2 v0)
    let len := rnd (Real.sqrt (dotF rnd c 6 nt nt))
    if len = 0 then none
    else
      let n_inorm := rnd (1 / len)
      some ⟨rnd (nt.x * n_inorm), rnd (nt.y * n_inorm), rnd (nt.z * n_inorm)⟩
  | _, _, _ => none

/-- `get_vertex_average`, composite_utility.cpp:85-106, for a geometry with three coordinates. -/
noncomputable def averageF (rnd : ℝ → ℝ) (vs : List (V3 ℝ)) : V3 ℝ :=
  let s := vs.foldl (fun (a : V3 ℝ) v => ⟨rnd (a.x + v.x), rnd (a.y + v.y), rnd (a.z + v.z)⟩) ⟨0, 0, 0⟩
  ⟨rnd (s.x / vs.length), rnd (s.y / vs.length), rnd (s.z / vs.length)⟩

/-- The constructor, line_plane_intersection.hpp:52-66. -/
noncomputable def wallF (rnd : ℝ → ℝ) (c : ℕ → Bool) (vs : List (V3 ℝ)) : Option Wall :=
  match normalF rnd c vs with
  | none => none
  | some n => some ⟨averageF rnd vs, n⟩

/-- `line_segment_intersection`, line_plane_intersection.hpp:112-146: the returned value and the point written to `i0`, `i1`, `i2`. `c` tells which products are fused. -/
noncomputable def intersectF (rnd : ℝ → ℝ) (c : ℕ → Bool) (w : Wall) (p0 p1 : V3 ℝ) : Bool × V3 ℝ :=
  let l := subF rnd p1 p0
  let l_dot_n := dotF rnd c 0 l w.normal
  let ppmpl_dot_n := dotF rnd c 3 (subF rnd w.point p0) w.normal
  let d := if l_dot_n = 0 then 0 else rnd (ppmpl_dot_n / l_dot_n)
  let i : V3 ℝ := ⟨rnd (p0.x + prodF rnd (c 6) d l.x), rnd (p0.y + prodF rnd (c 7) d l.y), rnd (p0.z + prodF rnd (c 8) d l.z)⟩
  open Classical in
  (if (l_dot_n = 0 ∧ ppmpl_dot_n ≠ 0) ∨ d < 0 ∨ d > 1 then false else true, i)

end Verif.Model.FloatWall
