import Verif.Model.RegularMap
import Mathlib.Data.Real.Basic

/-!
The tests of regular elements for positions that may be NaN: src/nektar_interface/particle_cell_mapping/map_particles_2d_regular.cpp, map_particles_3d_regular.cpp and
`get_local_coords_2d`, `contains_point_2d` of particle_cell_mapping_common.hpp. The result of an operation with a NaN is NaN, a comparison with a NaN is false. Each operation is followed by a rounding `rnd`;
fused products are not modelled (they do not change what is NaN). A division by zero gives `none` here; the infinities of C++ are not modelled.
-/

namespace Verif.Model.NanRegular
open Verif.Spec Verif.Model.NewtonKernel

/-- A number or NaN. No code: the type `double`, map_particles_3d_regular.cpp:239-263. -/
abbrev Num := Option ℝ

variable (rnd : ℝ → ℝ)

/-- `a + b` of doubles, map_particles_3d_regular.cpp:251-263. -/
noncomputable def add (a b : Num) : Num := a.bind fun x => b.map fun y => rnd (x + y)
/-- `a - b` of doubles, map_particles_3d_regular.cpp:251-263. -/
noncomputable def sub (a b : Num) : Num := a.bind fun x => b.map fun y => rnd (x - y)
/-- `a * b` of doubles, map_particles_3d_regular.cpp:251-263. -/
noncomputable def mul (a b : Num) : Num := a.bind fun x => b.map fun y => rnd (x * y)
/-- `a / b` of doubles, map_particles_3d_regular.cpp:258; `none` for a division by zero. -/
noncomputable def div (a b : Num) : Num := a.bind fun x => b.bind fun y => if y = 0 then none else some (rnd (x / y))
/-- `a < b` of doubles, map_particles_3d_regular.cpp:287-296: false with a NaN. -/
def lt : Num → Num → Prop
  | some a, some b => a < b
  | _, _ => False
/-- `a <= b` of doubles, map_particles_3d_regular.cpp:281-283: false with a NaN. -/
def le : Num → Num → Prop
  | some a, some b => a ≤ b
  | _, _ => False

/-- Three numbers. No code: the vertices read, map_particles_3d_regular.cpp:239-248. -/
def some3 (v : V3 ℝ) : V3 Num := ⟨some v.x, some v.y, some v.z⟩

/-- The difference of vectors, map_particles_3d_regular.cpp:251-254. -/
noncomputable def sub3 (a b : V3 Num) : V3 Num := ⟨sub rnd a.x b.x, sub rnd a.y b.y, sub rnd a.z b.z⟩

/-- `sycl::cross`, map_particles_3d_regular.cpp:255-257, and the macro `MAPPING_CROSS_PRODUCT_3D`, particle_cell_mapping_common.hpp:23-28. -/
noncomputable def cross3 (a b : V3 Num) : V3 Num :=
  ⟨sub rnd (mul rnd a.y b.z) (mul rnd a.z b.y), sub rnd (mul rnd a.z b.x) (mul rnd a.x b.z), sub rnd (mul rnd a.x b.y) (mul rnd a.y b.x)⟩

/-- `sycl::dot`, map_particles_3d_regular.cpp:258-263, and the macro `MAPPING_DOT_PRODUCT_3D`, particle_cell_mapping_common.hpp:30-33. -/
noncomputable def dot3 (a b : V3 Num) : Num := add rnd (add rnd (mul rnd a.x b.x) (mul rnd a.y b.y)) (mul rnd a.z b.z)

/-- `Lcoords`, map_particles_3d_regular.cpp:250-263. -/
noncomputable def xi3 (v0 v1 v2 v3 p : V3 Num) : V3 Num :=
  let er0 := sub3 rnd p v0
  let e10 := sub3 rnd v1 v0
  let e20 := sub3 rnd v2 v0
  let e30 := sub3 rnd v3 v0
  let cp1020 := cross3 rnd e10 e20
  let cp2030 := cross3 rnd e20 e30
  let cp3010 := cross3 rnd e30 e10
  let iV := div rnd (some 2) (dot3 rnd e30 cp1020)
  ⟨sub rnd (mul rnd (dot3 rnd er0 cp2030) iV) (some 1), sub rnd (mul rnd (dot3 rnd er0 cp3010) iV) (some 1), sub rnd (mul rnd (dot3 rnd er0 cp1020) iV) (some 1)⟩

/-- The guard against a small divisor, coordinate_mapping.hpp:574-589 and map_particles_2d_regular.cpp:236-243. -/
noncomputable def zeroGuard (tol : ℝ) (d : Num) : Num := d.map (CoordMap.zeroGuard tol)

/-- `loc_coord_to_loc_collapsed_3d(shape_type, ...)`, coordinate_mapping.hpp:566-606. -/
noncomputable def dispatchTo3 (code : Shape3 → ℤ) (tol : ℝ) (shape : ℤ) (x0 x1 x2 : Num) : Num × Num × Num :=
  let d2 := zeroGuard tol (sub rnd (some 1) x2)
  let d12 := zeroGuard tol (sub rnd (x1.map fun x => -x) x2)
  let id2x2 := div rnd (some 2) d2
  let a := add rnd (some 1) x0
  let b := sub rnd (mul rnd (add rnd (some 1) x1) id2x2) (some 1)
  let c := sub rnd (mul rnd a id2x2) (some 1)
  let d := sub rnd (div rnd (mul rnd (some 2) a) d12) (some 1)
  (if shape = code .tet then d else if shape = code .hex then x0 else c, if shape = code .tet ∨ shape = code .pyr then b else x1, x2)

open Classical in
/-- An excess over the interval, map_particles_3d_regular.cpp:287-296: `(eta0 < -1.0) ? (-1.0 - eta0) : 0.0` and `(eta0 > 1.0) ? (eta0 - 1.0) : 0.0`. -/
noncomputable def below (e : Num) : ℝ := if lt e (some (-1)) then rnd (-1 - e.getD 0) else 0
open Classical in
/-- As `below` for the upper end, map_particles_3d_regular.cpp:288-296. -/
noncomputable def above (e : Num) : ℝ := if lt (some 1) e then rnd (e.getD 0 - 1) else 0

open Classical in
/-- `dist`, map_particles_3d_regular.cpp:279-297 and particle_cell_mapping_common.hpp:124-132. -/
noncomputable def excess (eta : List Num) : ℝ :=
  if ∀ e ∈ eta, le e (some 1) ∧ le (some (-1)) e then 0
  else eta.foldl (fun d e => max (max d (below rnd e)) (above rnd e)) 0

open Classical in
/-- The test in three dimensions, map_particles_3d_regular.cpp:250-305: the reference position that is stored if the particle is taken to be in the element. -/
noncomputable def accept3 (tol0 ktol : ℝ) (code : Shape3 → ℤ) (geomType : ℤ) (v0 v1 v2 v3 : V3 ℝ) (p : V3 Num) : Option (V3 Num) :=
  let xi := xi3 rnd (some3 v0) (some3 v1) (some3 v2) (some3 v3) p
  let eta := dispatchTo3 rnd code tol0 geomType xi.x xi.y xi.z
  if excess rnd [eta.1, eta.2.1, eta.2.2] ≤ ktol then some xi else none

/-- The local coordinates in two dimensions, map_particles_2d_regular.cpp:199-232 and particle_cell_mapping_common.hpp:60-105. -/
noncomputable def xi2 (v0 v1 v2 : V3 ℝ) (p0 p1 : Num) : Num × Num :=
  let er : V3 Num := ⟨sub rnd p0 (some v0.x), sub rnd p1 (some v0.y), some 0⟩
  let e10 : V3 Num := ⟨sub rnd (some v1.x) (some v0.x), sub rnd (some v1.y) (some v0.y), some 0⟩
  let e20 : V3 Num := ⟨sub rnd (some v2.x) (some v0.x), sub rnd (some v2.y) (some v0.y), some 0⟩
  let norm := cross3 rnd e10 e20
  let orth1 := cross3 rnd norm e10
  let orth2 := cross3 rnd norm e20
  (sub rnd (mul rnd (some 2) (div rnd (dot3 rnd er orth2) (dot3 rnd e10 orth2))) (some 1), sub rnd (mul rnd (some 2) (div rnd (dot3 rnd er orth1) (dot3 rnd e20 orth1))) (some 1))

/-- The collapsed coordinate, map_particles_2d_regular.cpp:234-250 and particle_cell_mapping_common.hpp:107-122. -/
noncomputable def eta0 (tol0 : ℝ) (s : Shape2) (x0 x1 : Num) : Num :=
  match s with
  | .tri => sub rnd (div rnd (mul rnd (some 2) (add rnd (some 1) x0)) (zeroGuard tol0 (sub rnd (some 1) x1))) (some 1)
  | .quad => x0

open Classical in
/-- The test in two dimensions, map_particles_2d_regular.cpp:199-264. -/
noncomputable def accept2 (tol0 ktol : ℝ) (s : Shape2) (v0 v1 v2 : V3 ℝ) (p0 p1 : Num) : Option (Num × Num) :=
  let xi := xi2 rnd v0 v1 v2 p0 p1
  let eta := eta0 rnd tol0 s xi.1 xi.2
  if le (some (rnd (-1 - ktol))) eta ∧ le eta (some (rnd (1 + ktol))) ∧ le (some (rnd (-1 - ktol))) xi.2 ∧ le xi.2 (some (rnd (1 + ktol))) then some xi else none

open Classical in
/-- `contains_point_2d` for a regular geometry with `get_local_coords_2d`, particle_cell_mapping_common.hpp:44-161, as used by map_particles_host.cpp:116. -/
noncomputable def containsPoint2 (tol0 tol : ℝ) (s : Shape2) (c : ℕ → V3 ℝ) (p0 p1 : Num) : Option (Num × Num) :=
  let xi := xi2 rnd (c 0) (c 1) (c (RegularMap.lastPoint s)) p0 p1
  if excess rnd [eta0 rnd tol0 s xi.1 xi.2, xi.2] ≤ tol then some xi else none

end Verif.Model.NanRegular
