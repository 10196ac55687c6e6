import Verif.Model.HaloExchange
import Verif.Model.GeomTransport3D

/-!
Model of the construction of the halos of a 3D mesh: `create_halos_3d`, /repo/include/nektar_interface/particle_mesh_interface.hpp:692-780, with the
exchange of the integers, `sendrecv_geoms_3d` of /repo/src/nektar_interface/geometry_transport/geometry_transport_3d.cpp, and the branch for 3D
meshes of the constructor, as a program of `Verif.Model.Mpi`.
-/

namespace Verif.Model.HaloExchange3D
open Verif.Model.Bytes Verif.Model.PackedGeom2D Verif.Model.RemoteGeom Verif.Model.GeomTransport3D Verif.Model.Mpi Verif.Model.Claims
  Verif.Model.HaloExchange

variable {n : ℕ} {O : Type}

/-- An element of a 3D mesh with its bounding box. particle_mesh_interface.hpp:693-708. -/
structure LGeom3 (K : Type) where
  geom : Geom3 Geom
  lo : ℕ → K
  hi : ℕ → K

/-- The mesh of one rank: all of its triangles and quadrilaterals (`geoms_2d`) and its 3D elements (`geoms_3d`) by id. particle_mesh_interface.hpp:693-708. -/
structure Mesh3d (K : Type) where
  faces : List (ℤ × Geom2 Geom)
  elements : List (ℤ × LGeom3 K)

/-- A `std::map` filled with these pairs. particle_mesh_interface.hpp:714-720. -/
def sortMap {α : Type} (l : List (ℤ × α)) : List (ℤ × α) := l.foldl (fun s x => mapSet x.1 x.2 s) []

/-- `deconstuct_per_rank_geoms_3d`, geometry_transport_3d.cpp:280-331, for the destination with the elements `geoms`: `none` is an exception of
`at`. -/
def part (rank : Fin n) (faces : List (ℤ × Geom2 Geom)) (geoms : List (ℤ × Geom3 Geom)) : Option (PerRank Geom) :=
  perRank rank.val (mapGet faces) geoms

/-- `deconstructed_geoms[d]`. particle_mesh_interface.hpp:714. -/
def partInts (rank : Fin n) (faces : List (ℤ × Geom2 Geom)) (geoms : List (ℤ × Geom3 Geom)) : List ℤ :=
  ((part rank faces geoms).map PerRank.ints).getD []
/-- `rank_triangle_map[d]`. particle_mesh_interface.hpp:716-718. -/
def partTris (rank : Fin n) (faces : List (ℤ × Geom2 Geom)) (geoms : List (ℤ × Geom3 Geom)) : List (ℤ × Geom) :=
  sortMap ((((part rank faces geoms).map PerRank.tris).getD []).map fun x => (x.1, x.2.data))
/-- `rank_quad_map[d]`. particle_mesh_interface.hpp:719-721. -/
def partQuads (rank : Fin n) (faces : List (ℤ × Geom2 Geom)) (geoms : List (ℤ × Geom3 Geom)) : List (ℤ × Geom) :=
  sortMap ((((part rank faces geoms).map PerRank.quads).getD []).map fun x => (x.1, x.2.data))

/-- The keys of `rank_triangle_map` or `rank_quad_map`, `exchange_2d_send_wrapper`, lines 676-688: the ranks with at least one face. -/
def sendRanks2d (sendRanks : List (Fin n)) (rem : Fin n → List (ℤ × Geom)) : List (Fin n) := sendRanks.filter fun d => !(rem d).isEmpty

/-- The entries of `rank_element_map_2d`, lines 741-757, in the order in which they are written. `GetGlobalID` of the face is the id inside of its
geometry. -/
def faceEntries (tris quads : List Remote) : List ((ℤ × ℤ) × Geom2 Geom) :=
  (tris.map fun g => ((g.rank.toInt, g.id.toInt), ⟨.tri, g.geom.id.toInt, g.geom⟩)) ++
    quads.map fun g => ((g.rank.toInt, g.id.toInt), ⟨.quad, g.geom.id.toInt, g.geom⟩)

/-- `rank_element_map_2d`, lines 734-757. -/
def elementMap2d (tris quads : List Remote) : ElementMap Geom :=
  (faceEntries tris quads).foldl (fun m x rank id => if rank = x.1.1 ∧ id = x.1.2 then some x.2 else m rank id) (fun _ _ => none)

/-- The integers of received messages. geometry_transport_3d.cpp:370-389. -/
def listsOf (res : List (Fin n × Msg)) : Option (List (List ℤ)) := res.mapM fun x => match x.2 with
  | .ints l => some l
  | _ => none

/-- `sendrecv_geoms_3d`, geometry_transport_3d.cpp:350-389. The sum of the sizes is an `int`: an overflow is undefined behaviour. The place of a
message does not depend on the order of arrival, which is therefore taken to be the one of the list of ranks here (see `GeomTransport3D.sendrecv` for
the other orders). -/
def sendrecvGeoms3d (sendRanks : List (Fin n)) (geoms : List (List ℤ)) (sendSizes : List ℤ) (recvRanks : List (Fin n)) (recvSizes : List ℤ)
    (k : List ℤ → Prog n Msg O) : Prog n Msg O :=
  if ¬ ((∀ x ∈ recvSizes, 0 ≤ x) ∧ recvSizes.sum < 2 ^ 31) then .fail else
  if sendSizes ≠ geoms.map (fun l => (l.length : ℤ)) then .fail else
  postFrom 135 recvRanks <| sendAll 135 (sendRanks.zip (geoms.map Msg.ints)) <| .waitall fun res =>
    match listsOf res with
    | none => .fail
    | some msgs =>
      match sendrecv (recvSizes.map Int.toNat) msgs (List.range msgs.length) with
      | none => .fail
      | some packed => k packed

/-- The exchange and reconstruction of the 3D geometries, lines 759-779. -/
def exchangeGeoms3d (sendRanks : List (Fin n)) (geoms : List (List ℤ)) (elements : ElementMap Geom) (k : List (Remote3 Geom) → Prog n Msg O) :
    Prog n Msg O :=
  let sendSizes := geoms.map fun l => toInt32 l.length
  countRanks sendRanks fun numRecvRanks =>
  exchangeGetRecvRanks sendRanks sendSizes numRecvRanks fun recvRanks recvSizes =>
  sendrecvGeoms3d sendRanks geoms sendSizes recvRanks recvSizes fun packed =>
    match reconstructGeoms elements packed [] with
    | .ok out => k out
    | _ => .fail

/-- The halos of a rank of a 3D mesh: `remote_triangles`, `remote_quads` and `remote_geoms_3d`. particle_mesh_interface.hpp:731-754. -/
structure Halos3d where
  tris : List Remote
  quads : List Remote
  geoms : List (Remote3 Geom)

variable {K : Type} [Field K] [LinearOrder K] [FloorRing K]

/-- The claims of a rank: the constructor, lines 902-903. -/
def localClaims3d (m : MHGeom K) (mesh : Mesh3d K) : LocalClaim K × GeomMap :=
  claimCells m (LocalClaim.empty, fun _ => []) (mesh.elements.map fun x => ⟨x.1, x.2.lo, x.2.hi⟩)

/-- The constructor for a 3D mesh from line 902 on, with `create_halos_3d`, lines 692-780. -/
def createHalos3d (m : MHGeom K) (owner : ℤ → ℤ) (mesh : Mesh3d K) (rank : Fin n) (k : Halos3d → Prog n Msg O) : Prog n Msg O :=
  let c := localClaims3d m mesh
  let unowned := unownedCells owner rank c.1
  match exchangeGetSendRanks rank owner (mesh.elements.map fun x => (x.1, x.2.geom)) c.2 unowned with
  | none => .fail
  | some (sendRanks, rem) =>
    if sendRanks.any fun d => (part rank mesh.faces (rem d)).isNone then .fail else
    let tris := fun d => partTris rank mesh.faces (rem d)
    let quads := fun d => partQuads rank mesh.faces (rem d)
    exchangePacked2d 3 3 rank (sendRanks2d sendRanks tris) tris [] fun remoteTris =>
    exchangePacked2d 4 4 rank (sendRanks2d sendRanks quads) quads [] fun remoteQuads =>
    exchangeGeoms3d sendRanks (sendRanks.map fun d => partInts rank mesh.faces (rem d)) (elementMap2d remoteTris remoteQuads) fun geoms =>
    k ⟨remoteTris, remoteQuads, geoms⟩

/-- The program which ends after the constructor. particle_mesh_interface.hpp:693-767. -/
def halos3d (m : MHGeom K) (owner : ℤ → ℤ) (mesh : Mesh3d K) (rank : Fin n) : Prog n Msg Halos3d := createHalos3d m owner mesh rank .done

/-- `collect_neighbour_ranks` for a 3D mesh, lines 786-788, 798-809. -/
def neighbourRanks3d (geoms : List (Remote3 Geom)) : List ℤ := geoms.foldl (fun s g => setAdd g.rank s) []

end Verif.Model.HaloExchange3D
