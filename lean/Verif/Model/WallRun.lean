import Verif.Model.CompositeIntersection

/-!
Model of `CompositeIntersection` on all ranks, from its construction: composite_transport.cpp:107-183, composite_collections.cpp:260-302 and
`get_intersections`, composite_intersection.cpp:836-983, in exact arithmetic.

External contracts (NESO-Particles and MPI):
* `get_owner` of a cell is the least `int` exactly if no rank claimed the cell.
* `MeshHierarchyContainer`: see `Model/CompositeCollections.lean`; the geometries of a cell are those all ranks gave for it, in any order.
* `collect_geometry` is collective: all ranks call `get_intersections` together.
-/

namespace Verif.Model.WallRun
open Verif.Model Verif.Model.MeshHierarchy Verif.Model.HaloCells Verif.Model.Claims Verif.Model.CompositeCollections Verif.Model.CompositeIntersection

/-- The part of the mesh a rank has: its elements and the composites in its `MeshGraph`. Read in particle_mesh_interface.hpp:615-623 and
composite_transport.cpp:117-134. -/
structure RankMesh (K : Type) where
  elems : List (Elem K)
  graph : ℤ → Option (List (Geo K))

variable {K : Type} [Field K] [LinearOrder K]

/-- The cells a rank claims, `ParticleMeshInterface::claim_cells`, particle_mesh_interface.hpp:615-623. -/
def claimedBy [FloorRing K] (m : MHGeom K) (mesh : RankMesh K) : List ℤ := (claimCells m (LocalClaim.empty, fun _ => []) mesh.elems).1.cells

/-- What a rank gives to the container for each cell, composite_transport.cpp:107-169; `none` is a failed assertion. -/
def givenBy [FloorRing K] (m : MHGeom K) (owner : ℤ → ℤ) (composites : List ℤ) (mesh : RankMesh K) : Option (ℤ → List (RG K)) :=
  (geometryComposites m.ndim mesh.graph composites).map (cellGeomMap m owner (1 / 50))

/-- The construction on all ranks, composite_collections.cpp:268-291 and composite_transport.cpp:107-183: the boundary group of each composite and what each
rank gives to the container. -/
def setup [FloorRing K] (m : MHGeom K) (owner : ℤ → ℤ) (groups : List (ℤ × List ℤ)) (meshes : List (RankMesh K)) :
    Option ((ℤ → Option ℤ) × List (ℤ → List (RG K))) :=
  (groupMap groups).bind fun g => (meshes.mapM (givenBy m owner g.1)).map fun given => (g.2, given)

/-- What a rank brings to a call: the particles of the iteration set, `npart_local`, the result of `find_cells` and the content of the buffers.
composite_intersection.cpp:847-867. -/
structure RankIn (K : Type) where
  particles : List (Particle K)
  npart : ℕ
  cells : Option (List ℤ)
  out : Out K

/-- `find_cells` with any order of the atomic operations, buffers with enough room and zero flags, composite_intersection.cpp:847-867. -/
def RankInOk (m : MH) (cart : ℕ → K → ℤ) (mesh : RankMesh K) (x : RankIn K) : Prop :=
  (∃ oldSize, FindCells m cart mesh.elems.length oldSize x.particles x.cells) ∧
  x.npart * 3 ≤ x.out.int.length ∧ x.npart * m.ndim ≤ x.out.real.length ∧ ∀ i < x.npart, x.out.int[i]? = some 0

/-- `get_intersections` on all ranks, composite_intersection.cpp:836-983: the new state and what each rank gets. `none` is a failure on a rank. -/
def getAll (m : MH) (cart : ℕ → K → ℤ) (T : Tests K) (data junk : ℤ → List (RG K)) (group : ℤ → Option ℤ) (labels : List ℤ) (ranks : List (Rank K))
    (call : List (RankIn K)) : Option (List (Rank K) × List (List (ℤ × List (Entry K)))) :=
  (call.mapM RankIn.cells).bind fun cells =>
  (collectAll m.ndim data junk group (ranks.zip cells)).bind fun ranks =>
  ((ranks.zip call).mapM fun x => getIntersections m cart T x.1.coll labels x.2.npart x.2.particles x.2.out).map fun res => (ranks, res)

/-- Any number of calls one after the other, composite_intersection.cpp:836-983: what each call returns on each rank. -/
def run (m : MH) (cart : ℕ → K → ℤ) (T : Tests K) (data junk : ℤ → List (RG K)) (group : ℤ → Option ℤ) (labels : List ℤ) :
    List (Rank K) → List (List (RankIn K)) → Option (List (List (List (ℤ × List (Entry K)))))
  | _, [] => some []
  | ranks, call :: l => (getAll m cart T data junk group labels ranks call).bind fun x => (run m cart T data junk group labels x.1 l).map fun rs => x.2 :: rs

end Verif.Model.WallRun
