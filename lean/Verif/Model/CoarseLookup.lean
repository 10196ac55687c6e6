import Verif.Model.CartesianMesh
import Verif.Model.BoundingBox
import Verif.Model.HaloCells
import Verif.Model.Claims
import Verif.Model.Mem
import Verif.Model.Loop

/-!
Model of include/nektar_interface/particle_cell_mapping/coarse_lookup_map.hpp, and of the lookup of a particle in the kernels that use it
(map_particles_newton.hpp, src/nektar_interface/particle_cell_mapping/map_particles_2d_regular.cpp, map_particles_3d_regular.cpp).
Exact arithmetic; the integers of the host code have no bound, the conversion of a position in a kernel is checked.
-/

namespace Verif.Model.CoarseLookup
open Verif.Model Verif.Model.CartesianMesh Verif.Model.BoundingBox Verif.Model.HaloCells Verif.Model.Claims

variable {K : Type*} [Field K] [LinearOrder K]

/-! ### The grid -/

/-- `min_extent`, lines 125-132; `big` is `numeric_limits<double>::max()`. -/
def minExtent (ndim : ℕ) (big : K) (ext : ℕ → K) : K := (List.range ndim).foldl (fun m d => min m (ext d)) big

/-- `grid_cell_counts`, lines 133-161. `scaling f` is `ceil(exp(log(f) / ndim))`. `none` is the failed assertion. The products of the counts are
those of `get_cell_count`. -/
def gridCounts [FloorRing K] (ndim cellCnt : ℕ) (big : K) (ext : ℕ → K) (scaling : K → ℤ) : Option (ℕ → ℤ) :=
  let target : ℤ := 4 ^ ndim * cellCnt
  let base_extent := minExtent ndim big ext / 4
  let counts : ℕ → ℤ := fun d => truncZ (ext d / base_extent)
  let linear := cellCount ndim counts
  if linear < target then
    let diff_scaling := scaling ((target : K) / (linear : K))
    let counts' : ℕ → ℤ := fun d => counts d * diff_scaling
    if cellCount ndim counts' ≥ target then some counts' else none
  else some counts

/-! ### The map -/

/-- `std::map<int, std::list<std::pair<double, int>>>`: the keys and the lists. coarse_lookup_map.hpp:42, 177. -/
structure GeomMap (K : Type*) where
  keys : List ℤ
  lists : ℤ → List (K × ℤ)

/-- `geom_map[key].push_back(x)`. coarse_lookup_map.hpp:73. -/
def GeomMap.push (m : GeomMap K) (key : ℤ) (x : K × ℤ) : GeomMap K :=
  ⟨setInsert m.keys key, Function.update m.lists key (m.lists key ++ [x])⟩

/-- `get_bounding_box`, utility_mesh_cartesian.hpp:143-160, for all dimensions. -/
def cellBox (m : Mesh K) (t : ℕ → ℤ) : Option (ℕ → K) :=
  ((List.range m.ndim).mapM fun d => cellBounds m d (t d)).map fun l i => if i < 3 then (l.getD i (0, 0)).1 else (l.getD (i - 3) (0, 0)).2

/-- `add_geom_to_map`, lines 40-80. -/
def addGeom [FloorRing K] (m : Mesh K) (box : ℕ → K) (gid : ℤ) (map : GeomMap K) : Option (GeomMap K) :=
  ((List.range m.ndim).mapM fun d =>
    (getCellInDimension m d (box d)).bind fun s => (getCellInDimension m d (box (d + 3))).map fun e => (s, e)).bind fun se =>
  let cell_starts := fun d => (se.getD d (0, 0)).1
  let cell_ends := fun d => (se.getD d (0, 0)).2
  ((intRange (cell_starts 2) (cell_ends 2 + 1)).flatMap fun cz =>
   (intRange (cell_starts 1) (cell_ends 1 + 1)).flatMap fun cy =>
   (intRange (cell_starts 0) (cell_ends 0 + 1)).map fun cx => tuple3 cx cy cz).foldlM (fun map cell_tuple =>
      let cell_index := linearIndex m.ndim m.cellCounts cell_tuple
      (cellBox m cell_tuple).map fun cell_bounding_box =>
        let overlap_estimate := boundingBoxIntersection m.ndim box cell_bounding_box
        if overlap_estimate > 0 then map.push cell_index (overlap_estimate, gid) else map) map

/-- `operator<` of pairs, negated and swapped: the order of `std::list::sort`. coarse_lookup_map.hpp:195. -/
def pairLe (a b : K × ℤ) : Bool := decide (a.1 < b.1 ∨ (a.1 = b.1 ∧ a.2 ≤ b.2))

/-- `sort` and `reverse`, lines 195-196. -/
def sortReverse (l : List (K × ℤ)) : List (K × ℤ) := (l.mergeSort pairLe).reverse

/-- The members of `CoarseLookupMap`. An entry of `dh_map` that was not written is `none`. coarse_lookup_map.hpp:82-91. -/
structure Lookup (K : Type*) where
  mesh : Mesh K
  mapStride : ℕ
  map : List (Option ℤ)
  mapSizes : List ℤ
  gidToLookupId : ℤ → Option ℕ

/-- The loop that writes the map, lines 212-224; `lists` are the sorted lists. The order of the keys is any. -/
def fill (stride count : ℕ) (keys : List ℤ) (lists : ℤ → List (K × ℤ)) : Option (List (Option ℤ) × List ℤ) :=
  keys.foldlM (fun s (mesh_cell_id : ℤ) =>
    if mesh_cell_id ≥ 0 ∧ mesh_cell_id < count then
      ((lists mesh_cell_id).foldlM (fun (t : ℕ × List (Option ℤ)) gid =>
        (Mem.write t.2 (mesh_cell_id * stride + t.1) (some gid.2)).map fun b => (t.1 + 1, b)) (0, s.1)).bind fun t =>
      (Mem.write s.2 mesh_cell_id t.1).bind fun sizes => if t.1 ≤ stride then some (t.2, sizes) else none
    else none) (List.replicate (stride * count) none, List.replicate count 0)

/-- The loops over the local, then the remote geometries, lines 177-190: geometry `i` of the list is given the index `i`. -/
def addGeoms [FloorRing K] (m : Mesh K) : List (ℤ × (ℕ → K)) → ℕ → GeomMap K × (ℤ → Option ℕ) → Option (GeomMap K × (ℤ → Option ℕ))
  | [], _, s => some s
  | g :: l, cell_index, s => (addGeom m g.2 cell_index s.1).bind fun map =>
      addGeoms m l (cell_index + 1) (map, Function.update s.2 g.1 (some cell_index))

/-- The constructor, lines 104-229. `geoms` are the global ids and bounding boxes of the local, then of the remote geometries. `none` is a failed
assertion or an access outside of an array. -/
def build [FloorRing K] (ndim : ℕ) (big : K) (scaling : K → ℤ) (geoms : List (ℤ × (ℕ → K))) : Option (Lookup K) :=
  let bounding_box := geoms.foldl (fun acc g => expandBox 3 g.2 acc) (resetBox 3 big)
  let extents := fun d => bounding_box (d + 3) - bounding_box d
  (gridCounts ndim geoms.length big extents scaling).bind fun counts =>
  (mk? ndim bounding_box extents counts).bind fun mesh =>
  (addGeoms mesh geoms 0 (⟨[], fun _ => []⟩, fun _ => none)).bind fun s =>
  let sorted := fun c => sortReverse (s.1.lists c)
  let map_stride := s.1.keys.foldl (fun m c => max m (sorted c).length) 0
  (fill map_stride (cellCount ndim counts).toNat s.1.keys sorted).map fun t => ⟨mesh, map_stride, t.1, t.2, s.2⟩

/-! ### The kernels -/

/-- The conversion of a `double` to `int` in a kernel: `none` if the value does not fit (undefined behaviour). map_particles_newton.hpp:287-309, map_particles_2d_regular.cpp:166-175. -/
def toInt [FloorRing K] (x : K) : Option ℤ :=
  if -2147483648 ≤ truncZ x ∧ truncZ x ≤ 2147483647 then some (truncZ x) else none

/-- `c0`, `c1`, `c2`, map_particles_newton.hpp:287-309 and 442-464, map_particles_2d_regular.cpp:166-175, map_particles_3d_regular.cpp:184-216. -/
def kernelCell [FloorRing K] (m : Mesh K) (d : ℕ) (p : K) : Option ℤ :=
  (toInt (m.inverseCellWidths d * (p - m.origin d))).map fun c =>
    let c := if c < 0 then 0 else c
    if c ≥ m.cellCounts d then m.cellCounts d - 1 else c

/-- `linear_mesh_cell`, map_particles_newton.hpp:311-313 and 466-468, map_particles_2d_regular.cpp:176, map_particles_3d_regular.cpp:218-225. In 1D
and 2D the missing indices are zero. -/
def kernelLinear [FloorRing K] (m : Mesh K) (p : ℕ → K) : Option ℤ :=
  (kernelCell m 0 (p 0)).bind fun c0 =>
  (if m.ndim > 1 then kernelCell m 1 (p 1) else some 0).bind fun c1 =>
  (if m.ndim > 2 then kernelCell m 2 (p 2) else some 0).map fun c2 =>
    let mcc0 := m.cellCounts 0
    let mcc1 := if m.ndim > 1 then m.cellCounts 1 else 0
    c0 + c1 * mcc0 + c2 * mcc0 * mcc1

/-- A particle: its position, entry 1 of the MPI ranks, cell id and reference position. The dats read in map_particles_newton.hpp:242-372, map_particles_2d_regular.cpp:109-262. -/
structure Particle (K : Type*) where
  pos : ℕ → K
  rank : ℤ
  cell : ℤ
  ref : List K

/-- The loop over the candidates, map_particles_newton.hpp:315-376 and 470-543, map_particles_2d_regular.cpp:178-264, map_particles_3d_regular.cpp:227-305:
`accept i` is the reference position if the particle is found in geometry `i`. `none` is an access outside of an array or of an entry
not written. -/
def candidates (L : Lookup K) (cellIds ranks : List (Option ℤ)) (accept : ℕ → Option (List K)) (linear : ℤ) (q : Particle K) : Option (Particle K) :=
  (Mem.read L.mapSizes linear).bind fun size =>
    if 0 ≤ linear ∧ linear < cellCount L.mesh.ndim L.mesh.cellCounts then
      (forLoop size.toNat (fun candidate_cell (s : Bool × Particle K) =>
        if s.1 then some s else
          ((Mem.read L.map (linear * L.mapStride + candidate_cell)).bind id).bind fun geom_map_index =>
            match accept geom_map_index.toNat with
            | none => some s
            | some ref => ((Mem.read cellIds geom_map_index).bind id).bind fun geom_id => ((Mem.read ranks geom_map_index).bind id).map fun mpi_rank =>
                (true, { s.2 with cell := geom_id, rank := mpi_rank, ref := ref })) (false, q)).map Prod.snd
    else some q

/-- The kernel for a particle. map_particles_newton.hpp:270-372, map_particles_2d_regular.cpp:150-262. -/
def kernel [FloorRing K] (L : Lookup K) (cellIds ranks : List (Option ℤ)) (accept : (ℕ → K) → ℕ → Option (List K)) (q : Particle K) : Option (Particle K) :=
  if q.rank < 0 then (kernelLinear L.mesh q.pos).bind fun linear => candidates L cellIds ranks (accept q.pos) linear q else some q

/-- The loops over the geometries in the constructors of the mappers, map_particles_newton.hpp:190-225, map_particles_2d_regular.cpp:77-108,
map_particles_3d_regular.cpp:69-101: `dh_cell_ids` and `dh_mpi_ranks`. `geoms` are the global ids and ranks of the local, then of the remote
geometries. -/
def mapperArrays (L : Lookup K) (geoms : List (ℤ × ℤ)) : Option (List (Option ℤ) × List (Option ℤ)) :=
  geoms.foldlM (fun s g =>
    (L.gidToLookupId g.1).bind fun cell_index =>
      if cell_index < geoms.length then
        (Mem.write s.1 (cell_index : ℕ) (some g.1)).bind fun ids => (Mem.write s.2 (cell_index : ℕ) (some g.2)).map fun ranks => (ids, ranks)
      else none) (List.replicate geoms.length none, List.replicate geoms.length none)

end Verif.Model.CoarseLookup
