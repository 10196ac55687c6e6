import Verif.Model.HaloExchange
import Mathlib.Data.Prod.Lex
import Mathlib.Order.Interval.Set.Basic

/-!
Model of `extend_halos_fixed_offset`, /repo/src/nektar_interface/geometry_transport/halo_extension.cpp (with the templates of
/repo/include/nektar_interface/geometry_transport/halo_extension.hpp), for a 2D mesh, as a program of `Verif.Model.Mpi`.

A `std::map<int, std::map<int, T>>` is a list sorted by the pair of keys (the order in which the code iterates over it). A bounding box is a
function of the geometry (`GetBoundingBox` of Nektar++).
-/

namespace Verif.Model.HaloExtension
open Verif.Model.Bytes Verif.Model.PackedGeom2D Verif.Model.Mpi Verif.Model.Claims Verif.Model.HaloCells Verif.Model.HaloExchange

/-- A pair of a rank and a geometry id. halo_extension.cpp:339-361. -/
abbrev Key := ℤ ×ₗ ℤ

/-- `Geometry2D::GetShapeType`: `eTriangle` or `eQuadrilateral`. Read in halo_extension.cpp:532-580. -/
inductive Shape2 where
  | tri
  | quad
  deriving DecidableEq

/-- What a rank holds of a 2D mesh: the elements of its part of the mesh, `owned_mh_cells`, `unowned_mh_cells`, `remote_triangles` and
`remote_quads`. Read and written in halo_extension.cpp:420-631. -/
structure Pmi2d where
  tris : List (ℤ × Geom)
  quads : List (ℤ × Geom)
  owned : List ℤ
  unowned : List ℤ
  remoteTris : List Remote
  remoteQuads : List Remote

/-- The key of a remote geometry. halo_extension.cpp:339-361. -/
def keyOf (x : Remote) : Key := toLex (x.rank.toInt, x.id.toInt)

/-- A map from ranks to maps from ids to geometries. halo_extension.cpp:338-361. -/
abbrev RankGeoms := List (Key × Shape2 × Geom)

/-- `get_all_elements_2d`, geometry_transport_2d.cpp:11-24, put in the map of the rank: halo_extension.cpp:344-350. -/
def localGeoms (rank : ℤ) (tris quads : List (ℤ × Geom)) : RankGeoms :=
  quads.foldl (fun l e => mapSet (toLex (rank, e.1)) (Shape2.quad, e.2) l)
    (tris.foldl (fun l e => mapSet (toLex (rank, e.1)) (Shape2.tri, e.2) l) [])

/-- The loops over the halo, halo_extension.cpp:351-362. -/
def addRemotes (shape : Shape2) (l : RankGeoms) (geoms : List Remote) : RankGeoms :=
  geoms.foldl (fun l x => mapSet (keyOf x) (shape, x.geom) l) l

/-- `halo_get_rank_to_geoms_2d`, halo_extension.cpp:338-363. -/
def rankToGeoms2d (rank : ℤ) (p : Pmi2d) : RankGeoms :=
  addRemotes .quad (addRemotes .tri (localGeoms rank p.tris p.quads) p.remoteTris) p.remoteQuads

variable {n : ℕ}

/-- The body of the loop of `halo_get_map_rank_to_cells`, halo_extension.cpp:131-138. -/
def rankToCellsStep (rank : Fin n) (owner : ℤ → ℤ) (st : List (Fin n) × (Fin n → List ℤ)) (cell : ℤ) : List (Fin n) × (Fin n → List ℤ) :=
  let remoteRank := owner cell
  if h : 0 ≤ remoteRank ∧ remoteRank < n then
    let remote : Fin n := ⟨remoteRank.toNat, by omega⟩
    if remote ≠ rank then (setAdd remote st.1, Function.update st.2 remote (st.2 remote ++ [cell])) else st
  else st

/-- `halo_get_map_rank_to_cells`, halo_extension.cpp:123-146: `recv_ranks` and `rank_cells_map`. `cells` is the set as a sorted list. -/
def rankToCells (rank : Fin n) (owner : ℤ → ℤ) (cells : List ℤ) : List (Fin n) × (Fin n → List ℤ) :=
  cells.foldl (rankToCellsStep rank owner) ([], fun _ => [])

/-- The `int64_t` vectors of received messages. -/
def intListsOf (res : List (Fin n × Msg)) : Option (List (List ℤ)) := res.mapM fun x => match x.2 with
  | .ints l => some l
  | _ => none

/-- The arrival of a message in a vector of `size` zeros; a longer message is an error of MPI. halo_extension.cpp:250-265. -/
def recvInts (size : ℤ) (msg : List ℤ) : Option (List ℤ) :=
  if size < (msg.length : ℤ) then none else some (msg ++ List.replicate (size.toNat - msg.length) 0)

variable {O : Type}

/-- `halo_get_send_cells`, halo_extension.cpp:207-268. The continuation gets `send_ranks` and, in the same order, the requested cells. A failed
assertion, or a vector of a negative size, is `fail`. -/
def getSendCells (rank : Fin n) (numSendRanks : ℤ) (recvRanks : List (Fin n)) (rankCells : Fin n → List ℤ)
    (k : List (Fin n × List ℤ) → Prog n Msg O) : Prog n Msg O :=
  if numSendRanks < 0 then .fail else
  postAny 145 numSendRanks.toNat <| sendAll 145 (recvRanks.map fun d => (d, Msg.int (toInt32 (rankCells d).length))) <| .waitall fun res =>
    match intsOf res with
    | none => .fail
    | some sizes =>
      let sendRanks := res.map Prod.fst
      if rank ∈ sendRanks ∨ ∃ s ∈ sizes, s < 0 then .fail else
      postFrom 146 sendRanks <| sendAll 146 (recvRanks.map fun d => (d, Msg.ints (rankCells d))) <| .waitall fun res2 =>
        match intListsOf res2 with
        | none => .fail
        | some msgs =>
          match (sizes.zip msgs).mapM fun x => recvInts x.1 x.2 with
          | none => .fail
          | some cells => k (sendRanks.zip cells)

variable {K : Type} [Field K] [LinearOrder K] [FloorRing K]

/-- `halo_get_send_cells_set`, halo_extension.cpp:280-290. -/
def sendCellsSet (sendCells : List (Fin n × List ℤ)) : List ℤ :=
  (sendCells.flatMap Prod.snd).foldl (fun s c => setAdd c s) []

/-- `halo_get_cells_to_geoms_map`, halo_extension.hpp:287-313: the geometries (2D or 3D) of a cell. The pushed id is `GetGlobalID` of the geometry, not
the key of the map. `info` gives the id and the bounding box of a geometry. -/
def cellsToGeoms {V : Type} (m : MHGeom K) (info : V → ℤ × (ℕ → K) × (ℕ → K)) (geoms : List (Key × V)) (cells : List ℤ) : ℤ → List Key :=
  geoms.foldl (fun f g =>
    (boundingBoxMap m (info g.2).2.1 (info g.2).2.2 0).foldl (fun f c =>
      if c.1 ∈ cells then Function.update f c.1 (f c.1 ++ [toLex ((ofLex g.1).1, (info g.2).1)]) else f) f) (fun _ => [])

/-- `GetGlobalID` and `GetBoundingBox` of a 2D geometry. Read in halo_extension.hpp:122-127, 234-241. -/
def info2d (box : Geom → (ℕ → K) × (ℕ → K)) (v : Shape2 × Geom) : ℤ × (ℕ → K) × (ℕ → K) := (v.2.id.toInt, box v.2)

/-- `rank_geoms_2d_set[remote_rank]`, halo_extension.cpp:507-512. -/
def geomsSet (toGeoms : ℤ → List Key) (cells : List ℤ) : List Key :=
  cells.foldl (fun s c => (toGeoms c).foldl (fun s g => setAdd g s) s) []

/-- The loop which makes `rank_triangle_map[remote_rank]` (`rank_quad_map`), halo_extension.cpp:540-556; `none` is an exception of `at`. -/
def toSend (shape : Shape2) (geoms : RankGeoms) (keys : List Key) : Option (List Remote) :=
  (keys.mapM fun key => (mapGet geoms key).map fun g =>
    if g.1 = shape then [(⟨BitVec.ofInt 32 (ofLex key).1, BitVec.ofInt 32 (ofLex key).2, g.2⟩ : Remote)] else []).map List.flatten

/-- `halo_exchange_geoms_2d`, halo_extension.hpp:142-227. -/
def exchangeGeoms2d (shape : I32) (kEdges : ℕ) (sendRanks : List (Fin n)) (geoms : List (List Remote)) (recvRanks : List (Fin n))
    (k : List Remote → Prog n Msg O) : Prog n Msg O :=
  let packed := geoms.map (packRemotes shape)
  let sendSizes := packed.map fun b => toInt32 b.length
  postFrom 451 recvRanks <| sendAll 451 (sendRanks.zip (sendSizes.map Msg.int)) <| .waitall fun res =>
    match intsOf res with
    | none => .fail
    | some recvSizes => exchangeBuffers 461 kEdges sendRanks packed sendSizes recvRanks recvSizes [] k

/-- `halo_unpack_2D_geoms`, halo_extension.hpp:327-347: the map and the container. -/
def unpack2d (shape : Shape2) (st : RankGeoms × List Remote) (tmp : List Remote) : RankGeoms × List Remote :=
  tmp.foldl (fun st x => if (mapGet st.1 (keyOf x)).isSome then st else (mapSet (keyOf x) (shape, x.geom) st.1, st.2 ++ [x])) st

/-- `extend_halos_fixed_offset`, halo_extension.cpp:420-588, for a 2D mesh: the new `remote_triangles` and `remote_quads`. -/
def extendHalos2d (m : MHGeom K) (owner : ℤ → ℤ) (box : Geom → (ℕ → K) × (ℕ → K)) (offset : ℤ) (pbc : Bool) (rank : Fin n) (p : Pmi2d)
    (k : List Remote × List Remote → Prog n Msg O) : Prog n Msg O :=
  match requestedCells m.toMH offset pbc p.owned p.unowned with
  | none => .fail
  | some none => k (p.remoteTris, p.remoteQuads)
  | some (some remoteCells) =>
    let rc := rankToCells rank owner (remoteCells.foldl (fun s c => setAdd c s) [])
    countRanks rc.1 fun numSendRanks =>
    getSendCells rank numSendRanks rc.1 rc.2 fun sendCells =>
    let known := rankToGeoms2d rank.val p
    let toGeoms := cellsToGeoms m (info2d box) known (sendCellsSet sendCells)
    let sets := sendCells.map fun x => geomsSet toGeoms x.2
    match sets.mapM (toSend .tri known), sets.mapM (toSend .quad known) with
    | some tris, some quads =>
      exchangeGeoms2d 3 3 (sendCells.map Prod.fst) tris rc.1 fun tmpTris =>
      exchangeGeoms2d 4 4 (sendCells.map Prod.fst) quads rc.1 fun tmpQuads =>
      let s1 := unpack2d .tri (known, p.remoteTris) tmpTris
      let s2 := unpack2d .quad (s1.1, p.remoteQuads) tmpQuads
      k (s1.2, s2.2)
    | _, _ => .fail

/-- Calls of `extend_halos_fixed_offset`, each with an offset and `pbc`, one after the other. No code: calls of the function of halo_extension.cpp:420-631. -/
def extendMany (m : MHGeom K) (owner : ℤ → ℤ) (box : Geom → (ℕ → K) × (ℕ → K)) (rank : Fin n) (k : List Remote × List Remote → Prog n Msg O) :
    List (ℤ × Bool) → Pmi2d → Prog n Msg O
  | [], p => k (p.remoteTris, p.remoteQuads)
  | c :: calls, p => extendHalos2d m owner box c.1 c.2 rank p fun out =>
      extendMany m owner box rank k calls { p with remoteTris := out.1, remoteQuads := out.2 }

/-- A mesh with the bounding boxes of its elements. No code: the geometries of Nektar++ have their boxes. -/
def withBoxes (box : Geom → (ℕ → K) × (ℕ → K)) (tris quads : List (ℤ × Geom)) : Mesh2d K :=
  ⟨tris.map fun e => (e.1, ⟨e.2, (box e.2).1, (box e.2).2⟩), quads.map fun e => (e.1, ⟨e.2, (box e.2).1, (box e.2).2⟩)⟩

/-- The construction of a `ParticleMeshInterface` followed by calls of `extend_halos_fixed_offset`, as in
/repo/src/nektar_interface/solver_base/partsys_base.cpp:26-29: the halos at the end. -/
def meshInterface (m : MHGeom K) (owner : ℤ → ℤ) (box : Geom → (ℕ → K) × (ℕ → K)) (tris quads : List (ℤ × Geom)) (calls : List (ℤ × Bool))
    (rank : Fin n) : Prog n Msg (List Remote × List Remote) :=
  let claims := (localClaims m (withBoxes box tris quads)).1
  createHalos2d m owner (withBoxes box tris quads) rank fun out =>
    extendMany m owner box rank .done calls
      ⟨tris, quads, ownedCells owner rank claims, unownedCells owner rank claims, out.1, out.2⟩

end Verif.Model.HaloExtension
