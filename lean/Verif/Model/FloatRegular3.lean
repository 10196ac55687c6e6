import Verif.Model.FloatExpr
import Verif.Model.RegularMap

/-!
Model of the test of regular (affine) elements in three dimensions in floating point arithmetic: the body of the loop over candidates in
src/nektar_interface/particle_cell_mapping/map_particles_3d_regular.cpp. The values a compiled program may compute are those of Verif/Model/FloatExpr.lean: each operation is rounded, products may be
contracted with the sums they are part of. `sycl::cross` and `sycl::dot` are functions of the SYCL implementation; they are taken to be the textbook formulas, with the sum of three products from the left.
Comparisons, absolute values and signs are exact. Overflow is not modelled.
-/

namespace Verif.Model.FloatRegular3
open Verif.Spec Verif.Model.NewtonKernel Verif.Model.FloatExpr

/-- `er0`, `e10`, `e20`, `e30`, map_particles_3d_regular.cpp:251-254. -/
def edge (a b : V3 ℝ) : V3 Expr := ⟨lit a.x - lit b.x, lit a.y - lit b.y, lit a.z - lit b.z⟩

/-- `sycl::cross`, map_particles_3d_regular.cpp:255-257. -/
def cross (a b : V3 Expr) : V3 Expr := ⟨a.y * b.z - a.z * b.y, a.z * b.x - a.x * b.z, a.x * b.y - a.y * b.x⟩

/-- `sycl::dot`, map_particles_3d_regular.cpp:258-263. -/
def dotp (a b : V3 Expr) : Expr := a.x * b.x + a.y * b.y + a.z * b.z

/-- The denominator of `iV`, map_particles_3d_regular.cpp:258. -/
def vol (v0 v1 v2 v3 : V3 ℝ) : Expr := dotp (edge v3 v0) (cross (edge v1 v0) (edge v2 v0))

/-- One of the `Lcoords`, map_particles_3d_regular.cpp:258-263, from the product `n` of `er0` with a cross product: `n * iV - 1.0`. -/
def local1 (n V : Expr) : Expr := n * (lit 2 / V) - lit 1

/-- `Lcoords`, map_particles_3d_regular.cpp:251-263. -/
def xi (v0 v1 v2 v3 p : V3 ℝ) : V3 Expr :=
  let er0 := edge p v0
  let e10 := edge v1 v0
  let e20 := edge v2 v0
  let e30 := edge v3 v0
  let V := vol v0 v1 v2 v3
  ⟨local1 (dotp er0 (cross e20 e30)) V, local1 (dotp er0 (cross e30 e10)) V, local1 (dotp er0 (cross e10 e20)) V⟩

/-- `b` and `c` of `loc_coord_to_loc_collapsed_3d`, coordinate_mapping.hpp:593-596: `(1.0 + x) * (2.0 / d2) - 1.0`. -/
def collapse (x d2 : ℝ) : Expr := (lit 1 + lit x) * (lit 2 / lit d2) - lit 1

/-- `d` of `loc_coord_to_loc_collapsed_3d`, coordinate_mapping.hpp:594-597: `2.0 * (1.0 + x) / d12 - 1.0`. -/
def collapse2 (x d12 : ℝ) : Expr := lit 2 * (lit 1 + lit x) / lit d12 - lit 1

/-- `loc_coord_to_loc_collapsed_3d(shape_type, ...)`, coordinate_mapping.hpp:566-607, from the local coordinates that were computed; `rnd (1 - x.z)` and `rnd (-x.y - x.z)` are not products, so their values are known. -/
noncomputable def eta (rnd : ℝ → ℝ) (tol0 : ℝ) (code : Shape3 → ℤ) (geomType : ℤ) (x : V3 ℝ) : V3 Expr :=
  let d2 := CoordMap.zeroGuard tol0 (rnd (1 - x.z))
  let d12 := CoordMap.zeroGuard tol0 (rnd (-x.y - x.z))
  ⟨if geomType = code .tet then collapse2 x.x d12 else if geomType = code .hex then lit x.x else collapse x.x d2,
    if geomType = code .tet ∨ geomType = code .pyr then collapse x.y d2 else lit x.y, lit x.z⟩

/-- `dist`, map_particles_3d_regular.cpp:281-297. -/
noncomputable def excess (rnd : ℝ → ℝ) (l : List ℝ) : ℝ :=
  if ∀ e ∈ l, e ≤ 1 ∧ e ≥ -1 then 0
  else l.foldl (fun d e => max (max d (if e < -1 then rnd (-1 - e) else 0)) (if e > 1 then rnd (e - 1) else 0)) 0

/-- A possible run: the local coordinates `x` and the collapsed coordinates `e` that are computed, map_particles_3d_regular.cpp:251-278. -/
def Run (rnd : ℝ → ℝ) (tol0 : ℝ) (code : Shape3 → ℤ) (geomType : ℤ) (v0 v1 v2 v3 p x e : V3 ℝ) : Prop :=
  (Res rnd (xi v0 v1 v2 v3 p).x false x.x ∧ Res rnd (xi v0 v1 v2 v3 p).y false x.y ∧ Res rnd (xi v0 v1 v2 v3 p).z false x.z) ∧
  Res rnd (eta rnd tol0 code geomType x).x false e.x ∧ Res rnd (eta rnd tol0 code geomType x).y false e.y ∧ Res rnd (eta rnd tol0 code geomType x).z false e.z

/-- The test, map_particles_3d_regular.cpp:281-305: the reference position that is stored. -/
noncomputable def accept (rnd : ℝ → ℝ) (ktol : ℝ) (x e : V3 ℝ) : Option (V3 ℝ) := if excess rnd [e.x, e.y, e.z] ≤ ktol then some x else none

end Verif.Model.FloatRegular3
