import Verif.Model.LinearElements
import Verif.Model.CoordinateMapping

/-!
The specialisations of `MappingNewtonIterationBase` for straight-sided elements: newton_quad.hpp, newton_hex.hpp, newton_prism.hpp, newton_pyr.hpp,
newton_tet.hpp, newton_triangle_embed_3d.hpp, newton_quad_embed_3d.hpp in include/nektar_interface/particle_cell_mapping. The vertices `c` are those
written by `write_data_v`; `sc` are the values `residual_scaling.scaling_dir`. `tol` is `kNekZeroTol`.
-/

namespace Verif.Model.NewtonElements
open Verif.Model.NewtonKernel Verif.Model.CoordMap Verif.Model.LinearElements

variable {K : Type*} [Field K] [LinearOrder K]

/-- A triple as a vector. No code: three `REAL` variables. -/
def ofTriple (t : K × K × K) : V3 K := ⟨t.1, t.2.1, t.2.2⟩

/-- `MappingQuadLinear2D`, newton_quad.hpp:60-128. -/
def quadImpl (c : ℕ → V3 K) (sc : V3 K) : Impl K where
  initial _ := ⟨0, 0, 0⟩
  residual xi p := let f := Quad.newtonF c xi p; (relativeError2d sc f.x f.y, ⟨f.x, f.y, 0⟩)
  step xi p f := let s := Quad.newtonStep c xi p f; ⟨s.x, s.y, 0⟩
  toCollapsed xi := ⟨xi.x, xi.y, 0⟩
  fromCollapsed e := ⟨e.x, e.y, 0⟩

/-- `MappingHexLinear3D`, newton_hex.hpp:54-130; `js` is `jacobian_scaling`. -/
def hexImpl (c : ℕ → V3 K) (js : K) : Impl K where
  initial _ := ⟨0, 0, 0⟩
  residual xi p := let f := Hex.newtonF c xi p; (max (max |f.x| |f.y|) |f.z| * js, f)
  step xi p f := Hex.newtonStep c xi p f
  toCollapsed xi := ⟨xi.x, xi.y, xi.z⟩
  fromCollapsed e := ⟨e.x, e.y, e.z⟩

/-- `jacobian_scaling`, newton_hex.hpp:44-51. -/
def hexScaling (jac : List K) : K := |1 / (jac.sum / (jac.length : K))|

/-- `MappingPrismLinear3D`, newton_prism.hpp:47-116. -/
def prismImpl (tol : K) (c : ℕ → V3 K) (sc : V3 K) : Impl K where
  initial _ := ⟨0, 0, 0⟩
  residual xi p := let f := Prism.newtonF c xi p; (relativeError3d sc f.x f.y f.z, f)
  step xi p f := Prism.newtonStep c xi p f
  toCollapsed xi := ofTriple (prismToCollapsed tol xi.x xi.y xi.z)
  fromCollapsed e := ofTriple (prismFromCollapsed e.x e.y e.z)

/-- `MappingTetLinear3D`, newton_tet.hpp:47-113. -/
def tetImpl (tol : K) (c : ℕ → V3 K) (sc : V3 K) : Impl K where
  initial _ := ⟨0, 0, 0⟩
  residual xi p := let f := Tet.newtonF c xi p; (relativeError3d sc f.x f.y f.z, f)
  step xi p f := Tet.newtonStep c xi p f
  toCollapsed xi := ofTriple (tetToCollapsed tol xi.x xi.y xi.z)
  fromCollapsed e := ofTriple (tetFromCollapsed e.x e.y e.z)

/-- The tests for the apex, newton_pyr.hpp:54-60, 87-93, 118-124: `vt`. -/
def pyrVt (tol : K) (c : ℕ → V3 K) (p : V3 K) : Bool :=
  decide (|(c 4).x - p.x| ≤ tol) && decide (|(c 4).y - p.y| ≤ tol) && decide (|(c 4).z - p.z| ≤ tol)

/-- `xt`, newton_pyr.hpp:94-97. -/
def pyrXt (tol : K) (xi : V3 K) : Bool :=
  decide (|xi.x - (-1)| ≤ tol) && decide (|xi.y - (-1)| ≤ tol) && decide (|xi.z - 1| ≤ tol)

/-- `MappingPyrLinear3D`, newton_pyr.hpp:47-156. If the point is the apex the vector is not written; here it is zero. It is not used since the measure
is zero. -/
def pyrImpl (tol : K) (c : ℕ → V3 K) (sc : V3 K) : Impl K where
  initial p := if pyrVt tol c p then ⟨-1, -1, 1⟩ else ⟨0, 0, 0⟩
  residual xi p :=
    if pyrVt tol c p && pyrXt tol xi then (0, ⟨0, 0, 0⟩)
    else let f := Pyr.newtonF c xi p; (relativeError3d sc f.x f.y f.z, f)
  step xi p f := if pyrVt tol c p then ⟨-1, -1, 1⟩ else Pyr.newtonStep c xi p f
  toCollapsed xi := ofTriple (pyrToCollapsed tol xi.x xi.y xi.z)
  fromCollapsed e := ofTriple (pyrFromCollapsed e.x e.y e.z)

/-- `MAPPING_CROSS_PRODUCT_3D`. particle_cell_mapping_common.hpp:24-29. -/
def cross (a b : V3 K) : V3 K := ⟨a.y * b.z - a.z * b.y, a.z * b.x - a.x * b.z, a.x * b.y - a.y * b.x⟩

/-- `MAPPING_DOT_PRODUCT_3D`. particle_cell_mapping_common.hpp:31-33. -/
def dot (a b : V3 K) : K := a.x * b.x + a.y * b.y + a.z * b.z

/-- The difference of two vectors, used for edges. newton_quad_embed_3d.hpp:54-158. -/
def sub (a b : V3 K) : V3 K := ⟨a.x - b.x, a.y - b.y, a.z - b.z⟩

/-- `set_initial_iteration_v`, newton_triangle_embed_3d.hpp:125-164, with the edges of `write_data_v`, lines 61-77. -/
def triInitial (c : ℕ → V3 K) (p : V3 K) : V3 K :=
  let e10 := sub (c 1) (c 0)
  let e20 := sub (c 2) (c 0)
  let er := sub p (c 0)
  let norm := cross e10 e20
  let orth1 := cross norm e10
  let orth2 := cross norm e20
  let scale0 := dot er orth2 / dot e10 orth2
  let scale1 := dot er orth1 / dot e20 orth1
  ⟨2 * scale0 - 1, 2 * scale1 - 1, 0⟩

/-- `newton_residual_v`, newton_triangle_embed_3d.hpp:93-121: the vector. -/
def triResidual (c : ℕ → V3 K) (xi p : V3 K) : V3 K :=
  let e10 := sub (c 1) (c 0)
  let e20 := sub (c 2) (c 0)
  let x0 := (xi.x + 1) * (1 / 2)
  let x1 := (xi.y + 1) * (1 / 2)
  ⟨(c 0).x + x0 * e10.x + x1 * e20.x - p.x, (c 0).y + x0 * e10.y + x1 * e20.y - p.y, (c 0).z + x0 * e10.z + x1 * e20.z - p.z⟩

/-- `MappingTriangleLinear2DEmbed3D`, newton_triangle_embed_3d.hpp:82-183. -/
def triEmbedImpl (tol : K) (c : ℕ → V3 K) (sc : V3 K) : Impl K where
  initial p := triInitial c p
  residual xi p := let f := triResidual c xi p; (relativeError3d sc f.x f.y f.z, f)
  step _ p _ := triInitial c p
  toCollapsed xi := let e := triToCollapsed tol xi.x xi.y; ⟨e.1, e.2, 0⟩
  fromCollapsed e := let x := triFromCollapsed e.x e.y; ⟨x.1, x.2, 0⟩

/-- `plane_normal`, newton_quad_embed_3d.hpp:53-70: `p0.Sub(v1, v0)`, `p1.Sub(v3, v0)`, `cx.Mult(p0, p1)`. `none`: the assertion fails. -/
def planeNormal (c : ℕ → V3 K) : Option (V3 K) :=
  let n := cross (sub (c 1) (c 0)) (sub (c 3) (c 0))
  if |n.x| + |n.y| + |n.z| > 0 then some n else none

/-- The vertices with the plane normal as fifth argument, newton_quad_embed_3d.hpp:82-100. -/
def withNormal (c : ℕ → V3 K) (n : V3 K) : ℕ → V3 K := fun k => if k = 4 then n else c k

/-- `MappingQuadLinear2DEmbed3D`, newton_quad_embed_3d.hpp:76-159. -/
def quadEmbedImpl (c : ℕ → V3 K) (n : V3 K) (sc : V3 K) : Impl K where
  initial _ := ⟨0, 0, 0⟩
  residual xi p := let f := QuadEmbed.newtonF (withNormal c n) xi p; (relativeError3d sc f.x f.y f.z, f)
  step xi p f := QuadEmbed.newtonStep (withNormal c n) xi p f
  toCollapsed xi := ⟨xi.x, xi.y, 0⟩
  fromCollapsed e := ⟨e.x, e.y, 0⟩

end Verif.Model.NewtonElements
