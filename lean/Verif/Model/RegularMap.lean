import Verif.Model.NewtonElements
import Verif.Model.Mem

/-!
Model of the tests of regular (affine) elements: src/nektar_interface/particle_cell_mapping/map_particles_2d_regular.cpp and
map_particles_3d_regular.cpp with their headers, and `get_local_coords_2d`, `contains_point_2d` of particle_cell_mapping_common.hpp.
Exact arithmetic; the search for candidates is in Verif/Model/CoarseLookup.lean. `tol0` is `kNekZeroTol`. Vertices in two dimensions have third
coordinate zero, which is the value the code uses (lines 194-205).
-/

namespace Verif.Model.RegularMap
open Verif.Spec Verif.Model.NewtonKernel Verif.Model.CoordMap Verif.Model.NewtonElements Verif.Model

variable {K : Type*} [Field K] [LinearOrder K]

/-- `last_point_index`, map_particles_2d_regular.hpp:54-61 and particle_cell_mapping_common.hpp:49-56. -/
def lastPoint : Shape2 → ℕ
  | .tri => 2
  | .quad => 3

/-- `write_vertices_2d`, map_particles_2d_regular.hpp:53-76. -/
def writeVertices2 (s : Shape2) (c : ℕ → V3 K) (index : ℕ) (output : List K) : Option (List K) :=
  let v0 := c 0
  let v1 := c 1
  let v2 := c (lastPoint s)
  (Mem.write output (index * 6 + 0) v0.x).bind fun o =>
  (Mem.write o (index * 6 + 1) v0.y).bind fun o =>
  (Mem.write o (index * 6 + 2) v1.x).bind fun o =>
  (Mem.write o (index * 6 + 3) v1.y).bind fun o =>
  (Mem.write o (index * 6 + 4) v2.x).bind fun o =>
  Mem.write o (index * 6 + 5) v2.y

/-- The local coordinates, map_particles_2d_regular.cpp:181-227: `v0`, `v1`, `v2` are the vertices read. -/
def xi2 (v0 v1 v2 : V3 K) (p0 p1 : K) : K × K :=
  let er : V3 K := ⟨p0 - v0.x, p1 - v0.y, 0⟩
  let e10 : V3 K := ⟨v1.x - v0.x, v1.y - v0.y, 0⟩
  let e20 : V3 K := ⟨v2.x - v0.x, v2.y - v0.y, 0⟩
  let norm := cross e10 e20
  let orth1 := cross norm e10
  let orth2 := cross norm e20
  let scale0 := dot er orth2 / dot e10 orth2
  let scale1 := dot er orth1 / dot e20 orth1
  (2 * scale0 - 1, 2 * scale1 - 1)

/-- The collapsed coordinates, map_particles_2d_regular.cpp:231-247. -/
def eta2 (tol0 : K) (s : Shape2) (xi0 xi1 : K) : K × K :=
  match s with
  | .tri =>
    let d1 := 1 - xi1
    let d1 := if |d1| < tol0 then (if d1 ≥ 0 then tol0 else -tol0) else d1
    (2 * (1 + xi0) / d1 - 1, xi1)
  | .quad => (xi0, xi1)

/-- The vertices of geometry `geom_map_index`, map_particles_2d_regular.cpp:184-189. -/
def readVertices2 (buf : List K) (g : ℕ) : Option (V3 K × V3 K × V3 K) :=
  (Mem.read buf (g * 6 + 0)).bind fun v00 => (Mem.read buf (g * 6 + 1)).bind fun v01 =>
  (Mem.read buf (g * 6 + 2)).bind fun v10 => (Mem.read buf (g * 6 + 3)).bind fun v11 =>
  (Mem.read buf (g * 6 + 4)).bind fun v20 => (Mem.read buf (g * 6 + 5)).bind fun v21 =>
  some (⟨v00, v01, 0⟩, ⟨v10, v11, 0⟩, ⟨v20, v21, 0⟩)

/-- The test, map_particles_2d_regular.cpp:249-259: the reference position that is written if the particle is in the element. -/
def accept2 (tol0 ktol : K) (s : Shape2) (v : V3 K × V3 K × V3 K) (p0 p1 : K) : Option (K × K) :=
  let xi := xi2 v.1 v.2.1 v.2.2 p0 p1
  let eta := eta2 tol0 s xi.1 xi.2
  if -1 - ktol ≤ eta.1 ∧ eta.1 ≤ 1 + ktol ∧ -1 - ktol ≤ eta.2 ∧ eta.2 ≤ 1 + ktol then some xi else none

/-- `dist`, particle_cell_mapping_common.hpp:127-134: the largest excess over `[-1, 1]`. -/
def excess (eta : List K) : K :=
  if ∀ e ∈ eta, e ≤ 1 ∧ e ≥ -1 then 0
  else eta.foldl (fun d e => max (max d (if e < -1 then -1 - e else 0)) (if e > 1 then e - 1 else 0)) 0

/-- `get_local_coords_2d`, particle_cell_mapping_common.hpp:44-138: the local coordinates and the distance. -/
def getLocalCoords2 (tol0 : K) (s : Shape2) (c : ℕ → V3 K) (p0 p1 : K) : (K × K) × K :=
  let xi := xi2 (c 0) (c 1) (c (lastPoint s)) p0 p1
  let eta := eta2 tol0 s xi.1 xi.2
  (xi, excess [eta.1, eta.2])

/-- `contains_point_2d` for a regular geometry, particle_cell_mapping_common.hpp:150-161. -/
def containsPoint2 (tol0 tol : K) (s : Shape2) (c : ℕ → V3 K) (p0 p1 : K) : Option (K × K) :=
  let r := getLocalCoords2 tol0 s c p0 p1
  if r.2 ≤ tol then some r.1 else none

/-! ### Three dimensions -/

/-- `index_v`, map_particles_3d_regular.hpp:52-67. -/
def indexV : Shape3 → List ℕ
  | .tet => [0, 1, 2, 3]
  | _ => [0, 1, 3, 4]

/-- `write_vertices_3d`, map_particles_3d_regular.hpp:69-78. -/
def writeVertices3 (s : Shape3) (c : ℕ → V3 K) (index : ℕ) (output : List K) : Option (List K) :=
  forLoop 4 (fun vx o =>
    let v := c ((indexV s).getD vx 0)
    (Mem.write o (index * 12 + vx * 3 + 0) v.x).bind fun o =>
    (Mem.write o (index * 12 + vx * 3 + 1) v.y).bind fun o =>
    Mem.write o (index * 12 + vx * 3 + 2) v.z) output

/-- `vk.load(k, p_map_vertices)`, map_particles_3d_regular.cpp:239-248. -/
def readVertex3 (buf : List K) (g k : ℕ) : Option (V3 K) :=
  (Mem.read buf (g * 12 + k * 3)).bind fun x => (Mem.read buf (g * 12 + k * 3 + 1)).bind fun y => (Mem.read buf (g * 12 + k * 3 + 2)).map fun z => ⟨x, y, z⟩

/-- `Lcoords`, map_particles_3d_regular.cpp:251-263. -/
def xi3 (v0 v1 v2 v3 p : V3 K) : V3 K :=
  let er0 := sub p v0
  let e10 := sub v1 v0
  let e20 := sub v2 v0
  let e30 := sub v3 v0
  let cp1020 := cross e10 e20
  let cp2030 := cross e20 e30
  let cp3010 := cross e30 e10
  let iV := 2 / dot e30 cp1020
  ⟨dot er0 cp2030 * iV - 1, dot er0 cp3010 * iV - 1, dot er0 cp1020 * iV - 1⟩

/-- The test, map_particles_3d_regular.cpp:265-305. `code` is `shape_type_to_int`. -/
def accept3 (tol0 ktol : K) (code : Shape3 → ℤ) (geomType : ℤ) (v0 v1 v2 v3 p : V3 K) : Option (V3 K) :=
  let xi := xi3 v0 v1 v2 v3 p
  let eta := dispatchTo3 code tol0 geomType xi.x xi.y xi.z
  if excess [eta.1, eta.2.1, eta.2.2] ≤ ktol then some xi else none

end Verif.Model.RegularMap
