import Verif.Model.Claims

/-!
Model of src/nektar_interface/composite_interaction/composite_transport.cpp and composite_collections.cpp.

External contracts (NESO-Particles):
* `MeshHierarchyContainer`: made collectively from a map from cells to geometries on each rank; after `gather` with a list of cells, `get` of one of
  these cells returns the geometries all ranks gave for the cell. `get` of a cell that was not gathered may return anything.
* `BlockedBinaryTree`: a map.
* `BufferDevice`: an array of the values it was made from.

The matrix of a normal vector and the intersection data of a geometry (C30, C31) are part of the object `Geo`.
-/

namespace Verif.Model.CompositeCollections
open Verif.Model Verif.Model.MeshHierarchy Verif.Model.HaloCells Verif.Model.Claims

/-- The shapes of composite_collections.cpp:75-121, 180-199. -/
inductive Shape where
  | seg
  | tri
  | quad
  | other
  deriving DecidableEq

/-- A geometry of a composite: its global id, shape, bounding box, the number of modes of its map and the normal vector `get_normal_vector` computes. Read in composite_collections.cpp:30-43, 75-121, 180-199. -/
structure Geo (K : Type) where
  id : ℤ
  shape : Shape
  lo : ℕ → K
  hi : ℕ → K
  numModes : ℕ
  normal : List K

/-- `RemoteGeom<Geometry>`: the rank is used for the composite, composite_transport.cpp:136-137 and 155-156. -/
structure RG (K : Type) where
  composite : ℤ
  id : ℤ
  geom : Geo K

variable {K : Type}

/-! ### `CompositeTransport` -/

/-- The assertion on the shape, composite_transport.cpp:126-130. -/
def shapeOk (ndim : ℕ) (s : Shape) : Bool :=
  (decide (ndim = 3) && (decide (s = .tri) || decide (s = .quad))) || (decide (ndim = 2) && decide (s = .seg))

/-- The loop over the composites, composite_transport.cpp:117-134: the pairs of a geometry and its composite. `graph` are the composites in the
`MeshGraph` of this rank. `none` is a failed assertion. -/
def geometryComposites (ndim : ℕ) (graph : ℤ → Option (List (Geo K))) (indices : List ℤ) : Option (List (Geo K × ℤ)) :=
  indices.foldlM (fun out ix =>
    match graph ix with
    | none => some out
    | some geoms => geoms.foldlM (fun out g => if shapeOk ndim g.shape then some (out ++ [(g, ix)]) else none) out) []

/-- `mask`, composite_transport.cpp:144: the least `int`. -/
def mask : ℤ := -2147483648

/-- The loop over the geometries, composite_transport.cpp:146-169: `cell_geom_map`. `owner` is `get_owner`, `pad` is 0.02. -/
def cellGeomMap [Field K] [LinearOrder K] [FloorRing K] (m : MHGeom K) (owner : ℤ → ℤ) (pad : K) (gcs : List (Geo K × ℤ)) : ℤ → List (RG K) :=
  gcs.foldl (fun map gc =>
    let rgeom : RG K := ⟨gc.2, gc.1.id, gc.1⟩
    (boundingBoxMap m gc.1.lo gc.1.hi pad).foldl (fun map cell_overlap =>
      if owner cell_overlap.1 ≠ mask then Function.update map cell_overlap.1 (map cell_overlap.1 ++ [rgeom]) else map) map) (fun _ => [])

/-- The state of a rank: `held_cells`, the cells gathered by the container. composite_transport.cpp:64-93. -/
structure Transport where
  held : List ℤ := []
  gathered : List ℤ := []

/-- The cells a rank does not hold yet, composite_transport.cpp:66-72. -/
def newCells (t : Transport) (cellsIn : List ℤ) : List ℤ :=
  cellsIn.foldl (fun cells cx => if cx ∈ t.held then cells else setInsert cells cx) []

/-- The rest of `CompositeTransport::collect_geometry`, composite_transport.cpp:82-95; `globalMax` is the result of the `MPI_Allreduce`. -/
def gatherCells (globalMax : ℕ) (t : Transport) (cells : List ℤ) : Transport where
  gathered := if globalMax ≠ 0 then t.gathered ++ cells else t.gathered
  held := cells.foldl setInsert t.held

/-- `CompositeTransport::get_geometry`, composite_transport.cpp:14-62: quads, triangles, segments; `none` is a failed assertion. -/
def getGeometry (ndim : ℕ) (geoms : List (RG K)) : Option (List (RG K) × List (RG K) × List (RG K)) :=
  if geoms.length > 0 then
    if ndim = 3 then
      geoms.foldlM (fun s gx =>
        if gx.geom.shape = .tri then some (s.1, s.2.1 ++ [gx], s.2.2)
        else if gx.geom.shape = .quad then some (s.1 ++ [gx], s.2.1, s.2.2) else none) ([], [], [])
    else if ndim = 2 then
      geoms.foldlM (fun s gx => if gx.geom.shape = .seg then some (s.1, s.2.1, s.2.2 ++ [gx]) else none) ([], [], [])
    else none
  else some ([], [], [])

/-! ### `CompositeCollections` -/

/-- `CompositeCollection`, composite_collection.hpp:14-35: the device arrays; the pointers for triangles point into the arrays shared with the quads, at
`num_quads`. `lpi` are the `LinePlaneIntersection` objects, made from the geometry. -/
structure CC (K : Type) where
  numQuads : ℕ := 0
  numTris : ℕ := 0
  numSegments : ℕ := 0
  lpi : List (Geo K) := []
  bufQuads : List (Geo K) := []
  bufTris : List (Geo K) := []
  compositeIds : List ℤ := []
  geomIds : List ℤ := []
  groupQuads : List ℤ := []
  groupTris : List ℤ := []
  lliSegments : List (Geo K) := []
  compositeIdsSegments : List ℤ := []
  geomIdsSegments : List ℤ := []
  groupSegments : List ℤ := []

/-- A pointer to a normal: the buffer and the offset. composite_collections.cpp:30-60. -/
structure NormalPtr (K : Type) where
  data : List K
  offset : ℕ

/-- The members of `CompositeCollections`, composite_collections.hpp:76-135. `stackCollections` is `stack_collection_data`. -/
structure Coll (K : Type) where
  collected : List ℤ := []
  stackCollections : List (CC K) := []
  tree : ℤ → Option (CC K) := fun _ => none
  normals : ℤ → Option (NormalPtr K) := fun _ => none
  compositesToGeoms : ℤ → ℤ → Option (Geo K) := fun _ _ => none
  geomIdToGeoms : ℤ → Option (Geo K) := fun _ => none
  geomIdToComposite : ℤ → Option ℤ := fun _ => none
  maxNumModes : ℕ := 0

/-- What the loops of `collect_cell` over one list of geometries write, composite_collections.cpp:82-102, 104-123 and 187-201. -/
structure Acc (K : Type) where
  coll : Coll K
  composite : List ℤ := []
  ids : List ℤ := []
  groups : List ℤ := []
  normalData : List K := []
  normalIds : List ℤ := []

/-- The body of these loops; `none` is the exception of `map_composite_to_group.at`. composite_collections.cpp:82-121, 183-199. -/
def pushGeom (group : ℤ → Option ℤ) (a : Acc K) (r : RG K) : Option (Acc K) :=
  match group r.composite with
  | none => none
  | some gr => some
    { coll := { a.coll with
        compositesToGeoms := Function.update a.coll.compositesToGeoms r.composite (Function.update (a.coll.compositesToGeoms r.composite) r.id (some r.geom))
        geomIdToGeoms := Function.update a.coll.geomIdToGeoms r.id (some r.geom)
        geomIdToComposite := Function.update a.coll.geomIdToComposite r.id (some r.composite)
        maxNumModes := max a.coll.maxNumModes r.geom.numModes }
      composite := a.composite ++ [r.composite]
      ids := a.ids ++ [r.id]
      groups := a.groups ++ [gr]
      normalData := a.normalData ++ r.geom.normal
      normalIds := a.normalIds ++ [r.id] }

/-- The loop over `h_normal_ids`, composite_collections.cpp:244-248. -/
def addNormals (stride : ℕ) (data : List K) : List ℤ → ℕ → (ℤ → Option (NormalPtr K)) → (ℤ → Option (NormalPtr K))
  | [], _, m => m
  | id :: l, ix, m => addNormals stride data l (ix + 1) (Function.update m id (some ⟨data, stride * ix⟩))

/-- `collect_cell`, composite_collections.cpp:5-250. `get` is `mh_container->get`. `none` is a failed assertion or an exception. -/
def collectCell (ndim : ℕ) (get : ℤ → List (RG K)) (group : ℤ → Option ℤ) (c : Coll K) (cell : ℤ) : Option (Coll K) :=
  if cell ∈ c.collected then some c
  else
    let c := { c with collected := setInsert c.collected cell }
    match getGeometry ndim (get cell) with
    | none => none
    | some (quads, tris, segs) =>
      -- lines 55-172
      match (if quads.length > 0 ∨ tris.length > 0 then
          match quads.foldlM (pushGeom group) { coll := c } with
          | none => none
          | some aq =>
            match tris.foldlM (pushGeom group) { aq with groups := [] } with
            | none => none
            | some at' => some (at', ({
                numQuads := quads.length
                numTris := tris.length
                lpi := quads.map RG.geom ++ tris.map RG.geom
                bufQuads := quads.map RG.geom
                bufTris := tris.map RG.geom
                compositeIds := at'.composite
                geomIds := at'.ids
                groupQuads := aq.groups
                groupTris := at'.groups } : CC K), 3)
        else some ({ coll := c }, {}, 0)) with
      | none => none
      | some (a, cc, stride) =>
        -- lines 174-223
        match (if segs.length > 0 then
            match segs.foldlM (pushGeom group) { a with composite := [], ids := [], groups := [] } with
            | none => none
            | some as => some (as, ({ cc with
                numSegments := segs.length
                lliSegments := segs.map RG.geom
                compositeIdsSegments := as.composite
                geomIdsSegments := as.ids
                groupSegments := as.groups } : CC K), 2)
          else some (a, cc, stride)) with
        | none => none
        | some (a, cc, stride) =>
          -- lines 228-249
          if quads.length > 0 ∨ tris.length > 0 ∨ segs.length > 0 then
            some { a.coll with
              stackCollections := a.coll.stackCollections ++ [cc]
              tree := Function.update a.coll.tree cell (some cc)
              normals := addNormals stride a.normalData a.normalIds 0 a.coll.normals }
          else some a.coll

/-- The loop over the boundary groups in the constructor, composite_collections.cpp:268-280: the composites and `map_composite_to_group`. -/
def groupMap (groups : List (ℤ × List ℤ)) : Option (List ℤ × (ℤ → Option ℤ)) :=
  groups.foldlM (fun s pairx => pairx.2.foldlM (fun s cx =>
    if cx ∈ s.1 then none else some (s.1 ++ [cx], Function.update s.2 cx (some pairx.1))) s) ([], fun _ => none)

/-- One rank: the transport and the collections. composite_collections.cpp:282-307. -/
structure Rank (K : Type) where
  transport : Transport := {}
  coll : Coll K := {}

/-- What `mh_container->get` returns on a rank: `data` are the geometries all ranks gave, `junk` is what it returns for a cell not gathered. Called in composite_transport.cpp:28. -/
def containerGet (data junk : ℤ → List (RG K)) (t : Transport) (cell : ℤ) : List (RG K) := if cell ∈ t.gathered then data cell else junk cell

/-- `CompositeCollections::collect_geometry` on one rank, composite_collections.cpp:297-302, with the result of the `MPI_Allreduce`. -/
def collectGeometry (ndim : ℕ) (data junk : ℤ → List (RG K)) (group : ℤ → Option ℤ) (globalMax : ℕ) (r : Rank K) (cells : List ℤ) : Option (Rank K) :=
  let t := gatherCells globalMax r.transport (newCells r.transport cells)
  (cells.foldlM (collectCell ndim (containerGet data junk t) group) r.coll).map fun c => ⟨t, c⟩

/-- The collective call on all ranks: each rank with the cells it asks for. composite_collections.cpp:282-293 on each rank; the gather of composite_transport.cpp:90 is collective. -/
def collectAll (ndim : ℕ) (data junk : ℤ → List (RG K)) (group : ℤ → Option ℤ) (calls : List (Rank K × List ℤ)) : Option (List (Rank K)) :=
  let globalMax := (calls.map fun rc => (newCells rc.1.transport rc.2).length).foldl max 0
  calls.mapM fun rc => collectGeometry ndim data junk group globalMax rc.1 rc.2

/-- Any history of collective calls from the construction: `requests` gives for each call the cells each rank asks for. The constructor's loop over
`held_cells` (composite_collections.cpp:292-294) has nothing to do, since `held_cells` is empty. -/
def history (ndim : ℕ) (data junk : ℤ → List (RG K)) (group : ℤ → Option ℤ) : List (Rank K) → List (List (List ℤ)) → Option (List (Rank K))
  | ranks, [] => some ranks
  | ranks, req :: l => (collectAll ndim data junk group (ranks.zip req)).bind fun ranks => history ndim data junk group ranks l

end Verif.Model.CompositeCollections
