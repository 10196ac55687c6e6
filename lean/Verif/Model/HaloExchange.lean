import Verif.Model.MpiFragments
import Verif.Model.PackedGeom2D
import Verif.Model.Claims

/-!
Model of the construction of the halos of a 2D mesh, /repo/include/nektar_interface/particle_mesh_interface.hpp: `exchange_get_send_ranks`,
`exchange_get_recv_ranks`, `exchange_packed_2d`, `exchange_geometry_2d`, `get_unowned_cells`, `create_halos_2d` and the part of the constructor
which calls them, as programs of `Verif.Model.Mpi`.

The owner of a cell, `MeshHierarchy::get_owner`, belongs to NESO-Particles: it is a function of the cell which all of the ranks agree on.
`n` is the size of the communicator. A `std::map` is a list of pairs sorted by key, a `std::set` a sorted list.
-/

namespace Verif.Model.HaloExchange
open Verif.Model.Bytes Verif.Model.PackedGeom2D Verif.Model.Mpi Verif.Model.Claims

/-- What is sent: an `int`, bytes, or `int` or `INT` values. particle_mesh_interface.hpp:337-469. -/
inductive Msg where
  | int (i : ℤ)
  | bytes (b : List Byte)
  | ints (l : List ℤ)
  deriving DecidableEq

/-- `static_cast<int>(k)` and the conversion of a `size_t` to `int`. particle_mesh_interface.hpp:413. -/
def toInt32 (k : ℕ) : ℤ := (BitVec.ofNat 32 k).toInt

/-- `map[key] = value` of a `std::map`. particle_mesh_interface.hpp:295-319. -/
def mapSet {κ α : Type} [LinearOrder κ] (key : κ) (value : α) : List (κ × α) → List (κ × α)
  | [] => [(key, value)]
  | x :: l => if key < x.1 then (key, value) :: x :: l else if key = x.1 then (key, value) :: l else x :: mapSet key value l

/-- `set.insert(key)` of a `std::set`. particle_mesh_interface.hpp:307. -/
def setAdd {κ : Type} [LinearOrder κ] (key : κ) : List κ → List κ
  | [] => [key]
  | x :: l => if key < x then key :: x :: l else if key = x then x :: l else x :: setAdd key l

/-- The value of a key of a `std::map`. particle_mesh_interface.hpp:395-423. -/
def mapGet {κ α : Type} [DecidableEq κ] (l : List (κ × α)) (key : κ) : Option α := (l.find? fun x => decide (x.1 = key)).map Prod.snd

variable {n : ℕ}

/-- The body of the loop over the elements of a cell, lines 308-310. A missing element gives a null pointer, which is dereferenced when it is
packed (`none`). -/
def addElement {α : Type} (elementMap : List (ℤ × α)) (remote : Fin n) (rem : Fin n → List (ℤ × α)) (gid : ℤ) : Option (Fin n → List (ℤ × α)) :=
  (mapGet elementMap gid).map fun g => Function.update rem remote (mapSet gid g (rem remote))

/-- The body of the loop over the cells, lines 301-311; `none` is a failed assertion. -/
def sendRanksStep {α : Type} (rank : Fin n) (owner : ℤ → ℤ) (elementMap : List (ℤ × α)) (geomMap : ℤ → List ℤ)
    (st : List (Fin n) × (Fin n → List (ℤ × α))) (cell : ℤ) : Option (List (Fin n) × (Fin n → List (ℤ × α))) :=
  let remoteRank := owner cell
  if h : 0 ≤ remoteRank ∧ remoteRank < n then
    let remote : Fin n := ⟨remoteRank.toNat, by omega⟩
    if remote ≠ rank then
      ((geomMap cell).foldlM (addElement elementMap remote) st.2).map fun rem => (setAdd remote st.1, rem)
    else none
  else none

/-- `exchange_get_send_ranks`, lines 294-320: `send_ranks` and `rank_element_map`. -/
def exchangeGetSendRanks {α : Type} (rank : Fin n) (owner : ℤ → ℤ) (elementMap : List (ℤ × α)) (geomMap : ℤ → List ℤ) (unowned : List ℤ) :
    Option (List (Fin n) × (Fin n → List (ℤ × α))) :=
  unowned.foldlM (sendRanksStep rank owner elementMap geomMap) ([], fun _ => [])

variable {O : Type}

/-- The `int`s of received messages. particle_mesh_interface.hpp:361-388. -/
def intsOf (res : List (Fin n × Msg)) : Option (List ℤ) := res.mapM fun x => match x.2 with
  | .int i => some i
  | _ => none

/-- The bytes of received messages. particle_mesh_interface.hpp:430-469. -/
def bytesOf (res : List (Fin n × Msg)) : Option (List (List Byte)) := res.mapM fun x => match x.2 with
  | .bytes b => some b
  | _ => none

/-- `exchange_get_recv_ranks`, lines 360-390; the continuation gets `recv_ranks` and `recv_sizes`. A vector of a negative size throws. -/
def exchangeGetRecvRanks (sendRanks : List (Fin n)) (sendSizes : List ℤ) (numRecvRanks : ℤ) (k : List (Fin n) → List ℤ → Prog n Msg O) :
    Prog n Msg O :=
  if numRecvRanks < 0 then .fail else
  postAny 45 numRecvRanks.toNat <| sendAll 45 (sendRanks.zip (sendSizes.map Msg.int)) <| .waitall fun res =>
    match intsOf res with
    | some sizes => k (res.map Prod.fst) sizes
    | none => .fail

/-- The bytes `data` arrive at the offset `off` of a buffer. particle_mesh_interface.hpp:440. -/
def writeAt (buf : List Byte) (off : ℕ) (data : List Byte) : List Byte := buf.take off ++ (data ++ buf.drop (off + data.length))

/-- The arrival of the messages in the receive buffer, lines 437-443 and 456-457: block `i` starts at `i * maxSize`. `none` is the error of MPI
for a message longer than announced, or a write outside of the buffer. -/
def recvBlocks (maxSize : ℕ) : ℕ → List (ℤ × List Byte) → List Byte → Option (List Byte)
  | _, [], buf => some buf
  | i, (size, msg) :: l, buf =>
    if size < (msg.length : ℤ) then none
    else if buf.length < i * maxSize + msg.length then none
    else recvBlocks maxSize (i + 1) l (writeAt buf (i * maxSize) msg)

/-- The loop over the blocks, lines 460-464. -/
def unpackBlocks (kEdges maxSize : ℕ) (buf : List Byte) : ℕ → List ℤ → List Remote → Res (List Remote)
  | _, [], out => .ok out
  | i, size :: l, out =>
    match unpackGeoms kEdges (buf.drop (i * maxSize)) size out with
    | .ok out => unpackBlocks kEdges maxSize buf (i + 1) l out
    | .assertFail => .assertFail
    | .outOfBounds => .outOfBounds

/-- `max_recv_size`, lines 426-429. -/
def maxRecvSize (numRecvRanks : ℤ) (sizes : List ℤ) : ℤ := if numRecvRanks > 0 then sizes.tail.foldl max (sizes.headD 0) else 0

/-- The exchange of the packed geometries, lines 425-464 (also halo_extension.hpp:184-219 with the tag 461). The size of the buffer is a product of two `int`s:
an overflow is undefined behaviour. -/
def exchangeBuffers (tag kEdges : ℕ) (sendRanks : List (Fin n)) (packed : List (List Byte)) (sendSizes : List ℤ) (recvRanks : List (Fin n))
    (recvSizes : List ℤ) (out : List Remote) (k : List Remote → Prog n Msg O) : Prog n Msg O :=
  let numRecvRanks : ℤ := recvRanks.length
  let maxSize := maxRecvSize numRecvRanks recvSizes
  if ¬ (0 ≤ maxSize * numRecvRanks ∧ maxSize * numRecvRanks < 2 ^ 31) then .fail else
  if sendSizes ≠ packed.map (fun b => (b.length : ℤ)) then .fail else
  postFrom tag recvRanks <| sendAll tag (sendRanks.zip (packed.map Msg.bytes)) <| .waitall fun res =>
    match bytesOf res with
    | none => .fail
    | some msgs =>
      match recvBlocks maxSize.toNat 0 (recvSizes.zip msgs) (List.replicate (maxSize * numRecvRanks).toNat 0) with
      | none => .fail
      | some buf =>
        match unpackBlocks kEdges maxSize.toNat buf 0 recvSizes out with
        | .ok out => k out
        | _ => .fail

/-- `exchange_packed_2d`, lines 395-470. -/
def exchangePacked2d (shape : I32) (kEdges : ℕ) (rank : Fin n) (sendRanks : List (Fin n)) (rankElementMap : Fin n → List (ℤ × Geom))
    (out : List Remote) (k : List Remote → Prog n Msg O) : Prog n Msg O :=
  let packed := sendRanks.map fun d =>
    packGeoms shape (BitVec.ofNat 32 rank.val) ((rankElementMap d).map fun g => (BitVec.ofInt 32 g.1, g.2))
  let sendSizes := packed.map fun b => toInt32 b.length
  countRanks sendRanks fun numRecvRanks =>
  exchangeGetRecvRanks sendRanks sendSizes numRecvRanks fun recvRanks recvSizes =>
  exchangeBuffers 46 kEdges sendRanks packed sendSizes recvRanks recvSizes out k

/-- `exchange_geometry_2d`, lines 476-491. -/
def exchangeGeometry2d (shape : I32) (kEdges : ℕ) (rank : Fin n) (owner : ℤ → ℤ) (elementMap : List (ℤ × Geom)) (geomMap : ℤ → List ℤ)
    (unowned : List ℤ) (out : List Remote) (k : List Remote → Prog n Msg O) : Prog n Msg O :=
  match exchangeGetSendRanks rank owner elementMap geomMap unowned with
  | none => .fail
  | some (sendRanks, rem) => exchangePacked2d shape kEdges rank sendRanks rem out k

variable {K : Type} [Field K] [LinearOrder K] [FloorRing K]

/-- An element of a 2D mesh: the data which is sent and its bounding box. particle_mesh_interface.hpp:295-319, 616-648. -/
structure LGeom (K : Type) where
  geom : Geom
  lo : ℕ → K
  hi : ℕ → K

/-- The mesh of one rank: triangles and quadrilaterals by id. particle_mesh_interface.hpp:629-668. -/
structure Mesh2d (K : Type) where
  tris : List (ℤ × LGeom K)
  quads : List (ℤ × LGeom K)

/-- The elements of a map as `claim_cells` sees them. particle_mesh_interface.hpp:616-648. -/
def elems (l : List (ℤ × LGeom K)) : List (Elem K) := l.map fun x => ⟨x.1, x.2.lo, x.2.hi⟩

/-- The claims of a rank: the constructor, lines 895-901. -/
def localClaims (m : MHGeom K) (mesh : Mesh2d K) : LocalClaim K × GeomMap × GeomMap :=
  let c1 := claimCells m (LocalClaim.empty, fun _ => []) (elems mesh.tris)
  let c2 := claimCells m (c1.1, fun _ => []) (elems mesh.quads)
  (c2.1, c1.2, c2.2)

/-- `get_unowned_cells`, lines 629-650: `owned_mh_cells`. -/
def ownedCells (owner : ℤ → ℤ) (rank : Fin n) (c : LocalClaim K) : List ℤ := (c.cells.filter fun x => decide (owner x = rank.val)).reverse
/-- `get_unowned_cells`, lines 629-650: `unowned_mh_cells`. -/
def unownedCells (owner : ℤ → ℤ) (rank : Fin n) (c : LocalClaim K) : List ℤ := (c.cells.filter fun x => decide (¬ owner x = rank.val)).reverse

/-- The constructor for a 2D mesh from line 895 on, with `create_halos_2d`, lines 655-670: `remote_triangles` and `remote_quads`. The shapes are the
values of Nektar++'s enum. -/
def createHalos2d (m : MHGeom K) (owner : ℤ → ℤ) (mesh : Mesh2d K) (rank : Fin n) (k : List Remote × List Remote → Prog n Msg O) : Prog n Msg O :=
  let c := localClaims m mesh
  let unowned := unownedCells owner rank c.1
  exchangeGeometry2d 3 3 rank owner (mesh.tris.map fun x => (x.1, x.2.geom)) c.2.1 unowned [] fun tris =>
  exchangeGeometry2d 4 4 rank owner (mesh.quads.map fun x => (x.1, x.2.geom)) c.2.2 unowned [] fun quads => k (tris, quads)

/-- The program which ends after the constructor. particle_mesh_interface.hpp:629-668. -/
def halos2d (m : MHGeom K) (owner : ℤ → ℤ) (mesh : Mesh2d K) (rank : Fin n) : Prog n Msg (List Remote × List Remote) :=
  createHalos2d m owner mesh rank .done

/-- `collect_neighbour_ranks` for a 2D mesh, lines 786-797, 805-809. -/
def neighbourRanks (tris quads : List Remote) : List ℤ :=
  (tris ++ quads).foldl (fun s g => setAdd g.rank.toInt s) []

end Verif.Model.HaloExchange
