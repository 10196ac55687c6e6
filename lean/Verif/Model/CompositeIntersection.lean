import Verif.Model.CompositeCollections
import Verif.Model.LinePlane
import Verif.Model.Mem
import Verif.Model.Loop

/-!
Model of src/nektar_interface/composite_interaction/composite_intersection.cpp, in exact arithmetic and with unbounded integers.

External contracts (NESO-Particles):
* `map_to_cart_tuple_no_trunc` is a function `cart` of the position, dimension by dimension; what is assumed of it is said in `Spec/Intersections.lean`.
  `cart_tuple_to_tuple` is `mesh_tuple_to_mh_tuple` and `tuple_to_linear_global` is as in `Model/MeshHierarchy.lean`.
* a particle loop runs its kernel on each particle of the iteration set, in any order.
* `get_local_linear_index` gives each local particle another index below `npart_local`.
* `line_segment_intersection_2d` and Newton's method (`x_inverse`, residual) are functions of their arguments, given by `Tests`.
-/

namespace Verif.Model.CompositeIntersection
open Verif.Model Verif.Model.MeshHierarchy Verif.Model.HaloCells Verif.Model.Claims Verif.Model.CompositeCollections Verif.Model.LinePlane

variable {K : Type}

/-- A particle: `get_local_linear_index`, its cell (mesh element), position and previous position. The dats read in composite_intersection.cpp:60-100, 255-300. -/
structure Particle (K : Type) where
  index : ℕ
  cell : ℕ
  p : ℕ → K
  pp : ℕ → K

/-! ### `find_cells` -/

/-- `indexing_cell_min`, lines 7-10. -/
def indexingCellMin (cell numCells dim _ndim : ℕ) : ℕ := cell + dim * numCells
/-- `indexing_cell_max`, lines 12-15. -/
def indexingCellMax (cell numCells dim ndim : ℕ) : ℕ := cell + dim * numCells + ndim * numCells

/-- composite_intersection.cpp:44. -/
def INT_MAX : ℤ := 2147483647
/-- composite_intersection.cpp:45. -/
def INT_MIN : ℤ := -2147483648

/-- Reset of the bounding boxes, lines 49-61. -/
def resetMinMaxes (ndim numCells : ℕ) (buf : List ℤ) : Option (List ℤ) :=
  forLoop numCells (fun idx buf => forLoop ndim (fun dimx buf =>
    (Mem.write buf (indexingCellMin idx numCells dimx ndim) INT_MAX).bind fun buf =>
      Mem.write buf (indexingCellMax idx numCells dimx ndim) INT_MIN) buf) buf

/-- One `atomic_fetch_min` (`isMin`) or `atomic_fetch_max`. composite_intersection.cpp:78, 89. -/
structure AtomicOp where
  ix : ℕ
  isMin : Bool
  value : ℤ

/-- One `atomic_fetch_min` or `atomic_fetch_max` on the buffer, composite_intersection.cpp:78, 89. -/
def applyOp (buf : List ℤ) (o : AtomicOp) : Option (List ℤ) :=
  (Mem.read buf o.ix).bind fun old => Mem.write buf o.ix (if o.isMin then min old o.value else max old o.value)

/-- `lambda_set_min_max`, lines 70-99. -/
def setMinMax (m : MH) (numCells cell : ℕ) (cellCart : ℕ → ℤ) : List AtomicOp :=
  (List.range m.ndim).flatMap fun dimx =>
    [⟨indexingCellMin cell numCells dimx m.ndim, true, max 0 (cellCart dimx)⟩,
     ⟨indexingCellMax cell numCells dimx m.ndim, false, min (m.dims dimx * m.ncf - 1) (cellCart dimx)⟩]

/-- The atomic operations of the kernel for a particle, lines 66-121. -/
def particleOps (m : MH) (cart : ℕ → K → ℤ) (numCells : ℕ) (q : Particle K) : List AtomicOp :=
  setMinMax m numCells q.cell (fun d => cart d (q.p d)) ++ setMinMax m numCells q.cell (fun d => cart d (q.pp d))

/-- The bounds of an element, lines 137-144 and 180-187. -/
def bounds (ndim numCells : ℕ) (buf : List ℤ) (idx dimx : ℕ) : Option (ℤ × ℤ) :=
  (Mem.read buf (indexingCellMin idx numCells dimx ndim)).bind fun lo =>
    (Mem.read buf (indexingCellMax idx numCells dimx ndim)).map fun hi => (lo, hi)

/-- `valid` and `volume` of an element, lines 133-150. -/
def volume (ndim numCells : ℕ) (buf : List ℤ) (idx : ℕ) : Option (Bool × ℤ) :=
  forLoop ndim (fun dimx s => (bounds ndim numCells buf idx dimx).map fun b =>
    (if b.2 < b.1 then false else s.1, s.2 * (b.2 - b.1 + 1))) (true, 1)

/-- `max_bounding_box_size`, lines 128-163; the elements in any order. -/
def maxVolume (ndim numCells : ℕ) (buf : List ℤ) (order : List ℕ) : Option ℤ :=
  order.foldlM (fun mx idx => (volume ndim numCells buf idx).map fun v => if v.1 then max mx v.2 else mx) 0

/-- The cells an element writes, lines 176-216. -/
def elementCells (m : MH) (numCells : ℕ) (buf : List ℤ) (idx : ℕ) : Option (List ℤ) :=
  (forLoop m.ndim (fun dimx (s : Bool × (ℕ → ℤ) × (ℕ → ℤ)) => (bounds m.ndim numCells buf idx dimx).map fun b =>
    (if b.2 < b.1 then false else s.1, Function.update s.2.1 dimx b.1, Function.update s.2.2 dimx (b.2 + 1)))
      (true, (fun _ => 0), fun _ => 1)).map fun s =>
    if s.1 then
      (intRange (s.2.1 2) (s.2.2 2)).flatMap fun c2 =>
      (intRange (s.2.1 1) (s.2.2 1)).flatMap fun c1 =>
      (intRange (s.2.1 0) (s.2.2 0)).map fun c0 => tupleToLinearGlobal m (meshTupleToMhTuple m (tuple3 c0 c1 c2))
    else []

/-- The writes with `fetch_add`, lines 208-213; `writes` are the cells of all elements in the order of the atomic operations. The state is the counter
and the buffer. -/
def writeCells (size : ℕ) (writes : List ℤ) : Option (ℕ × List (Option ℤ)) :=
  writes.foldlM (fun (s : ℕ × List (Option ℤ)) c => (Mem.write s.2 s.1 (some c)).map fun b => (s.1 + 1, b)) (0, List.replicate size none)

/-- Lines 222-231: the set of the cells written; `none` if an entry that was not written is read. -/
def readCells (s : ℕ × List (Option ℤ)) : Option (List ℤ) :=
  (List.range s.1).foldlM (fun cells cx => ((Mem.read s.2 (cx : ℕ)).bind id).map fun c => setInsert cells c) []

/-- `find_cells`, lines 29-231: the relation between the particles and the cells found, for any order of the atomic operations. `oldSize` is the size of
`dh_mh_cells` before. -/
def FindCells (m : MH) (cart : ℕ → K → ℤ) (numCells oldSize : ℕ) (particles : List (Particle K)) (result : Option (List ℤ)) : Prop :=
  ∃ (ops : List AtomicOp) (order : List ℕ) (writes : List ℤ),
    ops.Perm (particles.flatMap (particleOps m cart numCells)) ∧ order.Perm (List.range numCells) ∧
    match (resetMinMaxes m.ndim numCells (List.replicate (2 * m.ndim * numCells) 0)).bind fun buf => ops.foldlM applyOp buf with
    | none => result = none
    | some buf =>
      match maxVolume m.ndim numCells buf order, (List.range numCells).mapM (elementCells m numCells buf) with
      | some mx, some lists =>
        writes.Perm lists.flatten ∧
          result = (writeCells (if (oldSize : ℤ) < mx * numCells then (mx * numCells).toNat else oldSize) writes).bind readCells
      | _, _ => result = none

/-! ### `find_intersections_2d`, `find_intersections_3d` -/

/-- `cell_starts`, lines 273-297 (2D), 424-448 and 613-637 (3D). -/
def cellStarts (m : MH) (prev cell : ℕ → ℤ) (d : ℕ) : ℤ :=
  if d < m.ndim then
    let bound_min := min (prev d) (cell d)
    if bound_min ≥ 0 ∧ bound_min < m.dims d * m.ncf then bound_min else 0
  else 0

/-- `cell_ends`, the same lines. composite_intersection.cpp:170-181. -/
def cellEnds (m : MH) (prev cell : ℕ → ℤ) (d : ℕ) : ℤ :=
  if d < m.ndim then
    let bound_max := max (prev d) (cell d)
    if bound_max ≥ 0 ∧ bound_max < m.dims d * m.ncf then bound_max + 1 else m.dims d * m.ncf
  else 1

/-- The linear indices of the cells looked at for a particle, lines 311-327 (2D), 466-487 and 655-676 (3D). In 2D the loop over the third index is not
there; here it has one iteration. -/
def examined (m : MH) (cart : ℕ → K → ℤ) (q : Particle K) : List ℤ :=
  let prev := fun d => cart d (q.pp d)
  let cell := fun d => cart d (q.p d)
  (intRange (cellStarts m prev cell 2) (cellEnds m prev cell 2)).flatMap fun c2 =>
  (intRange (cellStarts m prev cell 1) (cellEnds m prev cell 1)).flatMap fun c1 =>
  (intRange (cellStarts m prev cell 0) (cellEnds m prev cell 0)).map fun c0 => tupleToLinearGlobal m (meshTupleToMhTuple m (tuple3 c0 c1 c2))

/-- What the kernels use of a geometry, and the size of the grid of initial guesses. `quadFound g i g0 g1` is `contained && converged` for the initial
guess (`g0`, `g1`), lines 524-566; `triFound` is `contained && converged` of lines 707-729; `lli` is `line_line_intersection`. -/
structure Tests (K : Type) where
  plane : Geo K → Plane K
  quadFound : Geo K → V3 K → ℕ → ℕ → Bool
  triFound : Geo K → V3 K → Bool
  lli : Geo K → V3 K → V3 K → Bool × V3 K
  gridX : ℕ
  gridY : ℕ
  realMax : K

/-- The variables `intersection_found`, `intersection_distance`, `r*_write`, `group_id`, `geom_id`. composite_intersection.cpp:301-309, 456-465. -/
structure Best (K : Type) where
  found : Bool
  dist : K
  point : V3 K
  group : ℤ
  geom : ℤ

section
variable [Field K] [LinearOrder K]

/-- `d2` of lines 340-342, 569-572 and 732-735. -/
def dist2 (p0 i : V3 K) : K :=
  let r0 := p0.x - i.x
  let r1 := p0.y - i.y
  let r2 := p0.z - i.z
  r0 * r0 + r1 * r1 + r2 * r2

/-- Lines 343-350, 573-581 and 736-744. -/
def Best.update (b : Best K) (p0 i : V3 K) (group geom : ℤ) : Best K :=
  if dist2 p0 i < b.dist then ⟨true, dist2 p0 i, i, group, geom⟩ else b

/-- The loops over the initial guesses for a quad, lines 517-585, with the state `cell_found` and the best intersection. -/
def guesses (T : Tests K) (p0 i : V3 K) (data : Geo K) (group geom : ℤ) (b : Best K) : Best K :=
  (loop (T.gridY + 1) (fun g1 (s : Bool × Best K) =>
    if s.1 then s else loop (T.gridX + 1) (fun g0 (s : Bool × Best K) =>
      if s.1 then s else
        let cell_found := T.quadFound data i g0 g1
        (cell_found, if cell_found then s.2.update p0 i group geom else s.2)) s) (false, b)).2

/-- The loop over the quads of a cell, lines 496-589. `none` is an access outside of an array. -/
def quadsOfCell (T : Tests K) (p0 p1 : V3 K) (cc : CC K) (b : Best K) : Option (Best K) :=
  forLoop cc.numQuads (fun gx b =>
    (Mem.read cc.lpi gx).bind fun lpi =>
      let r := lineSegmentIntersection (T.plane lpi) p0 p1
      if r.1 ∧ pointNearToGeom (T.plane lpi) r.2 then
        (Mem.read cc.bufQuads gx).bind fun data => (Mem.read cc.groupQuads gx).bind fun group => (Mem.read cc.geomIds gx).bind fun geom =>
          some (guesses T p0 r.2 data group geom b)
      else some b) b

/-- The loop over the triangles of a cell, lines 684-749; the pointers for the triangles start at `num_quads`. -/
def trisOfCell (T : Tests K) (p0 p1 : V3 K) (cc : CC K) (b : Best K) : Option (Best K) :=
  forLoop cc.numTris (fun gx b =>
    (Mem.read cc.lpi (cc.numQuads + gx : ℕ)).bind fun lpi =>
      let r := lineSegmentIntersection (T.plane lpi) p0 p1
      if r.1 ∧ pointNearToGeom (T.plane lpi) r.2 then
        (Mem.read cc.bufTris gx).bind fun data => (Mem.read cc.groupTris gx).bind fun group =>
          (Mem.read cc.geomIds (cc.numQuads + gx : ℕ)).bind fun geom =>
          some (if T.triFound data r.2 then b.update p0 r.2 group geom else b)
      else some b) b

/-- The loop over the segments of a cell, lines 331-353. -/
def segsOfCell (T : Tests K) (p0 p1 : V3 K) (cc : CC K) (b : Best K) : Option (Best K) :=
  forLoop cc.numSegments (fun sx b =>
    (Mem.read cc.lliSegments sx).bind fun lli =>
      let r := T.lli lli p0 p1
      if r.1 then
        (Mem.read cc.groupSegments sx).bind fun group => (Mem.read cc.geomIdsSegments sx).bind fun geom => some (b.update p0 r.2 group geom)
      else some b) b

/-- The loop over the cells: `k_MAP_ROOT->get` and the loop over the geometries. composite_intersection.cpp:310-352, 466-540. -/
def overCells (tree : ℤ → Option (CC K)) (ofCell : CC K → Best K → Option (Best K)) (cells : List ℤ) (b : Best K) : Option (Best K) :=
  cells.foldlM (fun b c => match tree c with | none => some b | some cc => ofCell cc b) b

/-- The positions as points: `p00`, `p01`, (`p02`). -/
def point (ndim : ℕ) (x : ℕ → K) : V3 K := ⟨x 0, x 1, if ndim = 3 then x 2 else 0⟩

/-- `d_int` and `d_real`. composite_intersection.cpp:355-362, 545-556. -/
structure Out (K : Type) where
  int : List ℤ
  real : List K

/-- Lines 357-363, 594-601 and 757-764: the writes of a kernel that has found an intersection. -/
def writeHit (ndim npart : ℕ) (o : Out K) (i : ℕ) (b : Best K) : Option (Out K) :=
  (Mem.write o.int (npart + i : ℕ) b.group).bind fun int =>
  (Mem.write int (npart * 2 + i : ℕ) b.geom).bind fun int =>
  (Mem.write o.real i b.point.x).bind fun real =>
  (Mem.write real (npart + i : ℕ) b.point.y).bind fun real =>
  if ndim = 3 then (Mem.write real (npart * 2 + i : ℕ) b.point.z).map fun real => ⟨int, real⟩ else some ⟨int, real⟩

/-- The kernel of `find_intersections_2d`, lines 253-364. -/
def kernel2d (m : MH) (cart : ℕ → K → ℤ) (T : Tests K) (tree : ℤ → Option (CC K)) (npart : ℕ) (o : Out K) (q : Particle K) : Option (Out K) :=
  (overCells tree (segsOfCell T (point 2 q.pp) (point 2 q.p)) (examined m cart q) ⟨false, T.realMax, ⟨0, 0, 0⟩, 0, 0⟩).bind fun b =>
  (Mem.write o.int q.index (if b.found then 1 else 0)).bind fun int =>
  if b.found then writeHit 2 npart ⟨int, o.real⟩ q.index b else some ⟨int, o.real⟩

/-- The first kernel of `find_intersections_3d`, lines 403-602. -/
def kernelQuads (m : MH) (cart : ℕ → K → ℤ) (T : Tests K) (tree : ℤ → Option (CC K)) (npart : ℕ) (o : Out K) (q : Particle K) : Option (Out K) :=
  (overCells tree (quadsOfCell T (point 3 q.pp) (point 3 q.p)) (examined m cart q) ⟨false, T.realMax, ⟨0, 0, 0⟩, 0, 0⟩).bind fun b =>
  if b.found then (Mem.write o.int q.index 1).bind fun int => writeHit 3 npart ⟨int, o.real⟩ q.index b else some o

/-- The second kernel, lines 614-765: it starts from the distance of the intersection found by the first. -/
def kernelTris (m : MH) (cart : ℕ → K → ℤ) (T : Tests K) (tree : ℤ → Option (CC K)) (npart : ℕ) (o : Out K) (q : Particle K) : Option (Out K) :=
  (Mem.read o.int q.index).bind fun flag =>
  (Mem.read o.real q.index).bind fun r0 =>
  (Mem.read o.real (npart + q.index : ℕ)).bind fun r1 =>
  (Mem.read o.real (npart * 2 + q.index : ℕ)).bind fun r2 =>
  let d0 := r0 - q.pp 0
  let d1 := r1 - q.pp 1
  let d2 := r2 - q.pp 2
  let dist := if flag ≠ 0 then d0 * d0 + d1 * d1 + d2 * d2 else T.realMax
  (overCells tree (trisOfCell T (point 3 q.pp) (point 3 q.p)) (examined m cart q) ⟨false, dist, ⟨0, 0, 0⟩, 0, 0⟩).bind fun b =>
  if b.found then (Mem.write o.int q.index 1).bind fun int => writeHit 3 npart ⟨int, o.real⟩ q.index b else some o

/-- `find_intersections_2d` and `find_intersections_3d` when `k_MAP_ROOT` is not null; otherwise the buffers are left as they are, which is the same when
the map is empty, apart from the flags that are already zero. composite_intersection.cpp:228-362, 369-559. -/
def findIntersections (m : MH) (cart : ℕ → K → ℤ) (T : Tests K) (tree : ℤ → Option (CC K)) (npart : ℕ) (particles : List (Particle K)) (o : Out K) :
    Option (Out K) :=
  if m.ndim = 3 then
    (particles.foldlM (kernelQuads m cart T tree npart) o).bind fun o => particles.foldlM (kernelTris m cart T tree npart) o
  else particles.foldlM (kernel2d m cart T tree npart) o

/-! ### `get_intersections` -/

/-- An entry of a returned `ParticleSubGroup`: the particle, intersection point, metadata (group, geometry) and normal. composite_intersection.cpp:886-983. -/
structure Entry (K : Type) where
  particle : Particle K
  point : List K
  metadata : ℤ × ℤ
  normal : List K

/-- The `EphemeralDat`s of a particle, lines 905-941; reads the normal through the pointer. -/
def entry (ndim npart : ℕ) (normals : ℤ → Option (NormalPtr K)) (o : Out K) (q : Particle K) : Option (Entry K) :=
  ((List.range ndim).mapM fun dx => Mem.read o.real (dx * npart + q.index : ℕ)).bind fun pt =>
  (Mem.read o.int (npart + q.index : ℕ)).bind fun group =>
  (Mem.read o.int (npart * 2 + q.index : ℕ)).bind fun geom =>
  (normals geom).bind fun ptr =>
  ((List.range ndim).mapM fun dx => Mem.read ptr.data (ptr.offset + dx : ℕ)).map fun normal => ⟨q, pt, (group, geom), normal⟩

/-- `static_particle_sub_group` (contract): the particles for which the kernel returns true. Called in composite_intersection.cpp:879-895. -/
def subGroup (f : Particle K → Option Bool) : List (Particle K) → Option (List (Particle K))
  | [] => some []
  | q :: l => (f q).bind fun b => (subGroup f l).map fun r => if b then q :: r else r

/-- Lines 877-902 and 905-941: for each boundary group the particles of the iteration set with flag 1 and this group. `int` is the content of the buffer
`d_int`, of which the first `npart` entries are zero (line 866), before the kernels run. -/
def getIntersections (m : MH) (cart : ℕ → K → ℤ) (T : Tests K) (coll : Coll K) (labels : List ℤ) (npart : ℕ) (particles : List (Particle K))
    (o : Out K) : Option (List (ℤ × List (Entry K))) :=
  (findIntersections m cart T coll.tree npart particles o).bind fun o =>
  (particles |> subGroup fun q => (Mem.read o.int q.index).map fun f => decide (f = 1)).bind fun hitting =>
  labels.mapM fun label =>
    (hitting |> subGroup fun q => (Mem.read o.int (npart + q.index : ℕ)).map fun g => decide (g = label)).bind fun qs =>
    (qs.mapM (entry m.ndim npart coll.normals o)).map fun es => (label, es)

/-- `pre_integration`, lines 821-834. -/
def preIntegration (q : Particle K) : Particle K := { q with pp := q.p }

end

end Verif.Model.CompositeIntersection
