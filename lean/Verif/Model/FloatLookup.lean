import Verif.Model.FloatKernels
import Verif.Model.CoarseLookup

/-!
The coarse lookup map (Model/CoarseLookup.lean) in floating point arithmetic: each operation is followed by a rounding `rnd`, a product followed by a sum may be fused.
Overflow, infinities and NaN are not modelled. Integers of up to 32 bits are converted to `double` exactly. The integers of the host code have no bound except where a
`double` is converted to `int`.
-/

namespace Verif.Model.FloatLookup
open Verif.Model Verif.Model.CartesianMesh Verif.Model.BoundingBox Verif.Model.HaloCells Verif.Model.Claims Verif.Model.CoarseLookup Verif.Model.FloatKernels

/-- Constructor of `DeviceCartesianMesh`, include/nektar_interface/utility_mesh_cartesian.hpp:48-89. -/
noncomputable def mkF? (rnd : ℝ → ℝ) (ndim : ℕ) (origin extents : ℕ → ℝ) (cellCounts : ℕ → ℤ) : Option (Mesh ℝ) :=
  if (List.range ndim).all (fun d => decide (extents d > 0) && decide (cellCounts d > 0)) then
    some { ndim := ndim, origin := origin, extents := extents, cellCounts := cellCounts,
           cellWidths := fun d => rnd (extents d / (cellCounts d : ℝ)),
           inverseCellWidths := fun d => rnd (1 / rnd (extents d / (cellCounts d : ℝ))) }
  else none

/-- `cell_float`, utility_mesh_cartesian.hpp:106-108, and the same expression in the kernels. -/
noncomputable def cellFloat (rnd : ℝ → ℝ) (m : Mesh ℝ) (dim : ℕ) (point : ℝ) : ℝ := rnd (rnd (point - m.origin dim) * m.inverseCellWidths dim)

/-- `get_cell_in_dimension`, utility_mesh_cartesian.hpp:98-116; `none` is a failed assertion or a conversion that does not fit. -/
noncomputable def getCellF (rnd : ℝ → ℝ) (m : Mesh ℝ) (dim : ℕ) (point : ℝ) : Option ℤ :=
  if point ≥ rnd (m.origin dim - rnd (1 / 10 ^ 8)) ∧ point ≤ rnd (rnd (m.origin dim + m.extents dim) + rnd (1 / 10 ^ 8)) ∧ dim < m.ndim then
    (toInt (cellFloat rnd m dim point)).map (clampCell (m.cellCounts dim))
  else none

/-- `get_bounding_box`, utility_mesh_cartesian.hpp:143-160, in dimension `d`. -/
noncomputable def cellBoundsF (rnd : ℝ → ℝ) (contract : Bool) (m : Mesh ℝ) (d : ℕ) (cell : ℤ) : Option (ℝ × ℝ) :=
  if cell ≥ 0 ∧ cell < m.cellCounts d then
    some (mulAdd rnd contract (cell : ℝ) (m.cellWidths d) (m.origin d), mulAdd rnd contract ((cell + 1 : ℤ) : ℝ) (m.cellWidths d) (m.origin d))
  else none

/-- `get_bounding_box` for all dimensions. utility_mesh_cartesian.hpp:144-158. -/
noncomputable def cellBoxF (rnd : ℝ → ℝ) (contract : Bool) (m : Mesh ℝ) (t : ℕ → ℤ) : Option (ℕ → ℝ) :=
  ((List.range m.ndim).mapM fun d => cellBoundsF rnd contract m d (t d)).map fun l i => if i < 3 then (l.getD i (0, 0)).1 else (l.getD (i - 3) (0, 0)).2

/-- `lambda_interval_overlap`, include/nektar_interface/bounding_box_intersection.hpp:35-47. -/
noncomputable def intervalOverlapF (rnd : ℝ → ℝ) (la ua lb ub : ℝ) : ℝ :=
  if ua ≤ lb then 0 else if la ≥ ub then 0 else rnd (min ub ua - max lb la)

/-- `bounding_box_intersection`, bounding_box_intersection.hpp:32-54. -/
noncomputable def overlapF (rnd : ℝ → ℝ) (ndim : ℕ) (a b : ℕ → ℝ) : ℝ :=
  (List.range ndim).foldl (fun area d => rnd (area * intervalOverlapF rnd (a d) (a (d + 3)) (b d) (b (d + 3)))) 1

/-- The tuples of the loops, coarse_lookup_map.hpp:60-66. -/
def cellTuples (s e : ℕ → ℤ) : List (ℕ → ℤ) :=
  (intRange (s 2) (e 2 + 1)).flatMap fun cz => (intRange (s 1) (e 1 + 1)).flatMap fun cy => (intRange (s 0) (e 0 + 1)).map fun cx => tuple3 cx cy cz

/-- `add_geom_to_map`, include/nektar_interface/particle_cell_mapping/coarse_lookup_map.hpp:40-80. -/
noncomputable def addGeomF (rnd : ℝ → ℝ) (contract : Bool) (m : Mesh ℝ) (box : ℕ → ℝ) (gid : ℤ) (map : GeomMap ℝ) : Option (GeomMap ℝ) :=
  ((List.range m.ndim).mapM fun d => (getCellF rnd m d (box d)).bind fun s => (getCellF rnd m d (box (d + 3))).map fun e => (s, e)).bind fun se =>
  (cellTuples (fun d => (se.getD d (0, 0)).1) (fun d => (se.getD d (0, 0)).2)).foldlM (fun map cell_tuple =>
      (cellBoxF rnd contract m cell_tuple).map fun cell_bounding_box =>
        if overlapF rnd m.ndim box cell_bounding_box > 0 then
          map.push (linearIndex m.ndim m.cellCounts cell_tuple) (overlapF rnd m.ndim box cell_bounding_box, gid) else map) map

/-- The loops over the local, then the remote geometries, coarse_lookup_map.hpp:177-190. -/
noncomputable def addGeomsF (rnd : ℝ → ℝ) (contract : Bool) (m : Mesh ℝ) : List (ℤ × (ℕ → ℝ)) → ℕ → GeomMap ℝ × (ℤ → Option ℕ) → Option (GeomMap ℝ × (ℤ → Option ℕ))
  | [], _, s => some s
  | g :: l, cell_index, s => (addGeomF rnd contract m g.2 cell_index s.1).bind fun map =>
      addGeomsF rnd contract m l (cell_index + 1) (map, Function.update s.2 g.1 (some cell_index))

/-- `grid_cell_counts`, coarse_lookup_map.hpp:133-161. `scaling f` is `ceil(exp(log(f) / ndim))` as computed. -/
noncomputable def gridCountsF (rnd : ℝ → ℝ) (ndim cellCnt : ℕ) (big : ℝ) (ext : ℕ → ℝ) (scaling : ℝ → ℤ) : Option (ℕ → ℤ) :=
  let target : ℤ := 4 ^ ndim * cellCnt
  let base_extent := rnd (minExtent ndim big ext / 4)
  let counts : ℕ → ℤ := fun d => truncZ (rnd (ext d / base_extent))
  let linear := cellCount ndim counts
  if linear < target then
    let diff_scaling := scaling (rnd ((target : ℝ) / (linear : ℝ)))
    let counts' : ℕ → ℤ := fun d => counts d * diff_scaling
    if cellCount ndim counts' ≥ target then some counts' else none
  else some counts

/-- The bounding box of all geometries, lines 115-123: comparisons, which are exact. -/
noncomputable def hullF (big : ℝ) (geoms : List (ℤ × (ℕ → ℝ))) : ℕ → ℝ := geoms.foldl (fun acc g => expandBox 3 g.2 acc) (resetBox 3 big)

/-- `extents_tmp`, lines 127-131. -/
noncomputable def extentsF (rnd : ℝ → ℝ) (big : ℝ) (geoms : List (ℤ × (ℕ → ℝ))) (d : ℕ) : ℝ := rnd (hullF big geoms (d + 3) - hullF big geoms d)

/-- The constructor, coarse_lookup_map.hpp:104-229. -/
noncomputable def buildF (rnd : ℝ → ℝ) (contract : Bool) (ndim : ℕ) (big : ℝ) (scaling : ℝ → ℤ) (geoms : List (ℤ × (ℕ → ℝ))) : Option (Lookup ℝ) :=
  (gridCountsF rnd ndim geoms.length big (extentsF rnd big geoms) scaling).bind fun counts =>
  (mkF? rnd ndim (hullF big geoms) (extentsF rnd big geoms) counts).bind fun mesh =>
  (addGeomsF rnd contract mesh geoms 0 (⟨[], fun _ => []⟩, fun _ => none)).bind fun s =>
  let sorted := fun c => sortReverse (s.1.lists c)
  let map_stride := s.1.keys.foldl (fun m c => max m (sorted c).length) 0
  (fill map_stride (cellCount ndim counts).toNat s.1.keys sorted).map fun t => ⟨mesh, map_stride, t.1, t.2, s.2⟩

/-- `c0`, `c1`, `c2`, map_particles_newton.hpp:287-309 and 442-464, map_particles_2d_regular.cpp:166-175, map_particles_3d_regular.cpp:184-216. -/
noncomputable def kernelCellF (rnd : ℝ → ℝ) (m : Mesh ℝ) (d : ℕ) (p : ℝ) : Option ℤ :=
  (toInt (rnd (m.inverseCellWidths d * rnd (p - m.origin d)))).map fun c =>
    let c := if c < 0 then 0 else c
    if c ≥ m.cellCounts d then m.cellCounts d - 1 else c

/-- `linear_mesh_cell`, map_particles_newton.hpp:311-313 and 466-468, map_particles_2d_regular.cpp:176, map_particles_3d_regular.cpp:218-225. -/
noncomputable def kernelLinearF (rnd : ℝ → ℝ) (m : Mesh ℝ) (p : ℕ → ℝ) : Option ℤ :=
  (kernelCellF rnd m 0 (p 0)).bind fun c0 =>
  (if m.ndim > 1 then kernelCellF rnd m 1 (p 1) else some 0).bind fun c1 =>
  (if m.ndim > 2 then kernelCellF rnd m 2 (p 2) else some 0).map fun c2 =>
    let mcc0 := m.cellCounts 0
    let mcc1 := if m.ndim > 1 then m.cellCounts 1 else 0
    c0 + c1 * mcc0 + c2 * mcc0 * mcc1

end Verif.Model.FloatLookup
