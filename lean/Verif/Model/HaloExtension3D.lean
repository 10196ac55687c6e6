import Verif.Model.HaloExtension
import Verif.Model.HaloExchange3D

/-!
Model of `extend_halos_fixed_offset`, /repo/src/nektar_interface/geometry_transport/halo_extension.cpp, for a 3D mesh, as a program of
`Verif.Model.Mpi`. The parts which are shared with 2D meshes are in `Verif.Model.HaloExtension`. A bounding box is a function of the geometry
(`GetBoundingBox` of Nektar++).
-/

namespace Verif.Model.HaloExtension3D
open Verif.Model.Bytes Verif.Model.PackedGeom2D Verif.Model.RemoteGeom Verif.Model.GeomTransport3D Verif.Model.Mpi Verif.Model.Claims
  Verif.Model.HaloCells Verif.Model.HaloExchange Verif.Model.HaloExchange3D Verif.Model.HaloExtension

/-- What a rank holds of a 3D mesh: the 2D and 3D geometries of its part of the mesh, `owned_mh_cells`, `unowned_mh_cells`, and the halos. Read and written in halo_extension.cpp:420-631. -/
structure Pmi3d where
  faces : List (ℤ × Geom2 Geom)
  elements : List (ℤ × Geom3 Geom)
  owned : List ℤ
  unowned : List ℤ
  halos : Halos3d

/-- The faces of a shape, as the maps `GetAllTriGeoms` and `GetAllQuadGeoms` of the mesh. halo_extension.cpp:481-524. -/
def facesWith (sh : FaceShape) (faces : List (ℤ × Geom2 Geom)) : List (ℤ × Geom) :=
  (faces.filter fun x => decide (x.2.shape = sh)).map fun x => (x.1, x.2.data)

/-- What `halo_get_rank_to_geoms_2d`, halo_extension.cpp:338-363, reads on a 3D mesh. -/
def flat (p : Pmi3d) : Pmi2d :=
  ⟨facesWith .tri p.faces, facesWith .quad p.faces, p.owned, p.unowned, p.halos.tris, p.halos.quads⟩

/-- The key of a remote element. halo_extension.cpp:374-391. -/
def key3 (x : Remote3 Geom) : Key := toLex (x.rank, x.id)

/-- `rank_geoms_3d_map_local`. halo_extension.cpp:374-391. -/
abbrev RankGeoms3 := List (Key × Geom3 Geom)

/-- `halo_get_rank_to_geoms_3d`, halo_extension.cpp:375-395. -/
def rankToGeoms3d (rank : ℤ) (p : Pmi3d) : RankGeoms3 :=
  p.halos.geoms.foldl (fun l x => mapSet (key3 x) x.geom l) (p.elements.foldl (fun l e => mapSet (toLex (rank, e.1)) e.2 l) [])

/-- The body of the loop over the geometries of a cell, halo_extension.cpp:514-526: `rank_geoms_3d_set[remote_rank]` and
`rank_geoms_2d_set[remote_rank]`; `none` is an exception of `at`. -/
def addGeom (known : RankGeoms3) (st : List Key × List Key) (key : Key) : Option (List Key × List Key) :=
  (mapGet known key).map fun geom =>
    (setAdd key st.1, geom.faces.foldl (fun s f => setAdd (toLex ((ofLex key).1, f.gid)) s) st.2)

/-- The loops over the cells of a remote rank, halo_extension.cpp:507-529. -/
def sendSets (known : RankGeoms3) (toGeoms : ℤ → List Key) (cells : List ℤ) : Option (List Key × List Key) :=
  cells.foldlM (fun st c => (toGeoms c).foldlM (addGeom known) st) ([], [])

/-- The loop which makes `rank_geoms_3d_map[remote_rank]`, halo_extension.cpp:558-567; `none` is an exception of `at`. -/
def toSend3 (known : RankGeoms3) (keys : List Key) : Option (List (Remote3 Geom)) :=
  keys.mapM fun key => (mapGet known key).map fun g => ⟨(ofLex key).1, (ofLex key).2, g⟩

/-- `GetShapeType` of a face. halo_extension.cpp:505-524. -/
def faceShape : Shape2 → FaceShape
  | .tri => .tri
  | .quad => .quad

/-- The map from ranks and ids to faces which `reconstruct_geoms_3d` gets, halo_extension.cpp:617. -/
def toElementMap (known : RankGeoms) : ElementMap Geom := fun rank id =>
  (mapGet known (toLex (rank, id))).map fun v => ⟨faceShape v.1, v.2.id.toInt, v.2⟩

variable {n : ℕ} {O : Type}

/-- The 3D part of the exchange, halo_extension.cpp:590-618, with `halo_exchange_send_sizes`, lines 303-328. -/
def exchange3d (sendRanks : List (Fin n)) (geoms : List (List (Remote3 Geom))) (recvRanks : List (Fin n)) (elements : ElementMap Geom)
    (k : List (Remote3 Geom) → Prog n Msg O) : Prog n Msg O :=
  let packed := geoms.map fun l => l.flatMap fun g => deconstruct g.rank g.id g.geom
  let sendSizes := packed.map fun l => toInt32 l.length
  postFrom 452 recvRanks <| sendAll 452 (sendRanks.zip (sendSizes.map Msg.int)) <| .waitall fun res =>
    match intsOf res with
    | none => .fail
    | some recvSizes => sendrecvGeoms3d sendRanks packed sendSizes recvRanks recvSizes fun ints =>
      match reconstructGeoms elements ints [] with
      | .ok out => k out
      | _ => .fail

/-- The loop over the rebuilt geometries, halo_extension.cpp:620-633: the map and `remote_geoms_3d`. The assertion compares the id with the one of the
geometry; `none` is its failure. -/
def unpack3d (st : RankGeoms3 × List (Remote3 Geom)) (tmp : List (Remote3 Geom)) : Option (RankGeoms3 × List (Remote3 Geom)) :=
  tmp.foldlM (fun st x =>
    if x.geom.gid ≠ x.id then none
    else if (mapGet st.1 (toLex (x.rank, x.geom.gid))).isSome then some st
    else some (mapSet (toLex (x.rank, x.geom.gid)) x.geom st.1, st.2 ++ [x])) st

variable {K : Type} [Field K] [LinearOrder K] [FloorRing K]

/-- `GetGlobalID` and `GetBoundingBox` of a 3D geometry. Read in halo_extension.hpp:122-127, 234-241. -/
def info3d (box : Geom3 Geom → (ℕ → K) × (ℕ → K)) (g : Geom3 Geom) : ℤ × (ℕ → K) × (ℕ → K) := (g.gid, box g)

/-- `extend_halos_fixed_offset`, halo_extension.cpp:420-635, for a 3D mesh: the new halos. -/
def extendHalos3d (m : MHGeom K) (owner : ℤ → ℤ) (box : Geom3 Geom → (ℕ → K) × (ℕ → K)) (offset : ℤ) (pbc : Bool) (rank : Fin n) (p : Pmi3d)
    (k : Halos3d → Prog n Msg O) : Prog n Msg O :=
  match requestedCells m.toMH offset pbc p.owned p.unowned with
  | none => .fail
  | some none => k p.halos
  | some (some remoteCells) =>
    let rc := rankToCells rank owner (remoteCells.foldl (fun s c => setAdd c s) [])
    countRanks rc.1 fun numSendRanks =>
    getSendCells rank numSendRanks rc.1 rc.2 fun sendCells =>
    let known2 := rankToGeoms2d rank.val (flat p)
    let known3 := rankToGeoms3d rank.val p
    let toGeoms := cellsToGeoms m (info3d box) known3 (sendCellsSet sendCells)
    match sendCells.mapM fun x => sendSets known3 toGeoms x.2 with
    | none => .fail
    | some sets =>
      match sets.mapM (fun x => toSend .tri known2 x.2), sets.mapM (fun x => toSend .quad known2 x.2), sets.mapM (fun x => toSend3 known3 x.1) with
      | some tris, some quads, some geoms =>
        exchangeGeoms2d 3 3 (sendCells.map Prod.fst) tris rc.1 fun tmpTris =>
        exchangeGeoms2d 4 4 (sendCells.map Prod.fst) quads rc.1 fun tmpQuads =>
        let s1 := unpack2d .tri (known2, p.halos.tris) tmpTris
        let s2 := unpack2d .quad (s1.1, p.halos.quads) tmpQuads
        exchange3d (sendCells.map Prod.fst) geoms rc.1 (toElementMap s2.1) fun tmpGeoms =>
        match unpack3d (known3, p.halos.geoms) tmpGeoms with
        | none => .fail
        | some s3 => k ⟨s1.2, s2.2, s3.2⟩
      | _, _, _ => .fail

/-- Calls of `extend_halos_fixed_offset`, each with an offset and `pbc`, one after the other. No code: calls of the function of halo_extension.cpp:420-631. -/
def extendMany3 (m : MHGeom K) (owner : ℤ → ℤ) (box : Geom3 Geom → (ℕ → K) × (ℕ → K)) (rank : Fin n) (k : Halos3d → Prog n Msg O) :
    List (ℤ × Bool) → Pmi3d → Prog n Msg O
  | [], p => k p.halos
  | c :: calls, p => extendHalos3d m owner box c.1 c.2 rank p fun out => extendMany3 m owner box rank k calls { p with halos := out }

/-- A mesh with the bounding boxes of its elements. No code: the geometries of Nektar++ have their boxes. -/
def withBoxes3 (box : Geom3 Geom → (ℕ → K) × (ℕ → K)) (faces : List (ℤ × Geom2 Geom)) (elements : List (ℤ × Geom3 Geom)) : Mesh3d K :=
  ⟨faces, elements.map fun e => (e.1, ⟨e.2, (box e.2).1, (box e.2).2⟩)⟩

/-- The construction of a `ParticleMeshInterface` on a 3D mesh followed by calls of `extend_halos_fixed_offset`, as in
/repo/src/nektar_interface/solver_base/partsys_base.cpp:26-29: the halos at the end. -/
def meshInterface3 (m : MHGeom K) (owner : ℤ → ℤ) (box : Geom3 Geom → (ℕ → K) × (ℕ → K)) (faces : List (ℤ × Geom2 Geom))
    (elements : List (ℤ × Geom3 Geom)) (calls : List (ℤ × Bool)) (rank : Fin n) : Prog n Msg Halos3d :=
  let claims := (localClaims3d m (withBoxes3 box faces elements)).1
  createHalos3d m owner (withBoxes3 box faces elements) rank fun out =>
    extendMany3 m owner box rank .done calls ⟨faces, elements, ownedCells owner rank claims, unownedCells owner rank claims, out⟩

end Verif.Model.HaloExtension3D
