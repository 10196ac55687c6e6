import Verif.Model.RemoteGeom

/-!
Model of src/nektar_interface/geometry_transport/geometry_transport_3d.cpp.

A 2D geometry is known by its shape and global id; `V` stands for the rest of it. `int` values are integers. A message is the list of its
integers and a pointer into it is the list of the integers from there on: reading from the empty list is an access outside of the array.
Element maps (`std::map` of shared pointers) are functions to `Option`; `operator[]` of a missing key gives a null pointer.
-/

namespace Verif.Model.GeomTransport3D
open Verif.Model.Bytes Verif.Model.RemoteGeom

variable {V : Type}

/-- A `Geometry2D` object. geometry_transport_3d.cpp:97-181. -/
structure Geom2 (V : Type) where
  shape : FaceShape
  gid : ℤ
  data : V
  deriving DecidableEq

/-- A `Geometry3D` object. geometry_transport_3d.cpp:97-181. -/
structure Geom3 (V : Type) where
  shape : PolyShape
  gid : ℤ
  faces : List (Geom2 V)
  deriving DecidableEq

/-- `RemoteGeom3D`, remote_geom_3d.hpp:10-38. -/
structure Remote3 (V : Type) where
  rank : ℤ
  id : ℤ
  geom : Geom3 V
  deriving DecidableEq

/-- `rank_element_map_2d`. geometry_transport_3d.cpp:97-110. -/
abbrev ElementMap (V : Type) := ℤ → ℤ → Option (Geom2 V)

/-- `shape_type_to_int`, shape_mapping.hpp:13-16, with the values of Nektar++'s enum. -/
def shapeInt : PolyShape → ℤ
  | .tet => 5
  | .pyr => 6
  | .prism => 7
  | .hex => 8

/-- `*ptr++`. geometry_transport_3d.cpp:103-106. -/
def next : List ℤ → Res (ℤ × List ℤ)
  | [] => .outOfBounds
  | i :: l => .ok (i, l)

/-- The check on the shape of a face: lines 120-121 and 167-168; there is none for prisms and pyramids. -/
def faceShapeOk : PolyShape → FaceShape → Bool
  | .hex, .quad => true
  | .hex, .tri => false
  | .tet, .tri => true
  | .tet, .quad => false
  | _, _ => true

/-- The loops over the faces, lines 115-123, 132-138, 147-153, 162-170. -/
def readFaces (shape : PolyShape) (elements : ℤ → Option (Geom2 V)) : ℕ → List ℤ → Res (List (Geom2 V) × List ℤ)
  | 0, ptr => .ok ([], ptr)
  | n + 1, ptr => Res.bind (next ptr) fun (faceId, ptr) =>
    match elements faceId with
    | none => .assertFail
    | some face =>
      if face.gid ≠ faceId then .assertFail
      else if ¬ faceShapeOk shape face.shape then .assertFail
      else Res.bind (readFaces shape elements n ptr) fun (faces, ptr) => .ok (face :: faces, ptr)

/-- `int_to_shape_type` and the cases of the switch, lines 107-180. -/
def shapeOfInt (i : ℤ) : Option PolyShape :=
  if i = 8 then some .hex else if i = 7 then some .prism else if i = 6 then some .pyr else if i = 5 then some .tet else none

/-- `reconstruct_geom_3d`, lines 97-181, and the assertion of its caller on the result, lines 205-206. -/
def reconstructGeom (elements : ElementMap V) (ptr : List ℤ) : Res (Remote3 V × List ℤ) :=
  Res.bind (next ptr) fun (rank, ptr) =>
  Res.bind (next ptr) fun (geomId, ptr) =>
  Res.bind (next ptr) fun (shapeI, ptr) =>
  match shapeOfInt shapeI with
  | none => .assertFail
  | some shape => Res.bind (readFaces shape (elements rank) shape.numFaces ptr) fun (faces, ptr) =>
    .ok (⟨rank, geomId, ⟨shape, geomId, faces⟩⟩, ptr)

/-- The loop of `reconstruct_geoms_3d`, lines 201-208. Each iteration reads at least three integers: their number bounds the iterations. -/
def reconstructLoop (elements : ElementMap V) : ℕ → List ℤ → List (Remote3 V) → Res (List (Remote3 V))
  | _, [], out => .ok out
  | 0, _ :: _, _ => .outOfBounds
  | n + 1, i :: l, out => Res.bind (reconstructGeom elements (i :: l)) fun (g, ptr) => reconstructLoop elements n ptr (out ++ [g])

/-- `reconstruct_geoms_3d`, lines 193-209. -/
def reconstructGeoms (elements : ElementMap V) (packed : List ℤ) (out : List (Remote3 V)) : Res (List (Remote3 V)) :=
  reconstructLoop elements packed.length packed out

/-- `deconstruct_geoms_base_3d`, lines 220-234: the integers pushed. -/
def deconstruct (rank geometryId : ℤ) (geom : Geom3 V) : List ℤ :=
  rank :: geometryId :: shapeInt geom.shape :: geom.faces.map Geom2.gid

/-- `std::set<int>::insert`. geometry_transport_3d.cpp:246-256. -/
def setInsert (l : List ℤ) (a : ℤ) : List ℤ := if a ∈ l then l else l ++ [a]

/-- The loop of `deconstruct_geoms_3d`, lines 251-256. -/
def insertFaces (geom : Geom3 V) (faceIds : List ℤ) : List ℤ := geom.faces.foldl (fun s f => setInsert s f.gid) faceIds

/-- The outputs of `deconstuct_per_rank_geoms_3d` for one rank: the message, the triangles and the quads to send. geometry_transport_3d.cpp:280-331. -/
structure PerRank (V : Type) where
  ints : List ℤ
  tris : List (ℤ × Geom2 V)
  quads : List (ℤ × Geom2 V)

/-- The loop over the geometries of a rank, lines 302-305: message and face ids. -/
def deconstructRank (origRank : ℤ) (geoms : List (ℤ × Geom3 V)) : List ℤ × List ℤ :=
  geoms.foldl (fun s g => (s.1 ++ deconstruct origRank g.1 g.2, insertFaces g.2 s.2)) ([], [])

/-- The loop over the face ids of a rank, lines 317-329; `at` throws for a missing id (`none`). The order of the ids (a `std::set`) is the
order of insertion here; both outputs are maps, so that it has no effect. -/
def splitFaces (geoms2 : ℤ → Option (Geom2 V)) (faceIds : List ℤ) (tris quads : List (ℤ × Geom2 V)) :
    Option (List (ℤ × Geom2 V) × List (ℤ × Geom2 V)) :=
  match faceIds with
  | [] => some (tris, quads)
  | i :: l =>
    match geoms2 i with
    | none => none
    | some g =>
      match g.shape with
      | .quad => splitFaces geoms2 l tris (quads ++ [(i, g)])
      | .tri => splitFaces geoms2 l (tris ++ [(i, g)]) quads

/-- `deconstuct_per_rank_geoms_3d`, lines 280-331, for one rank. -/
def perRank (origRank : ℤ) (geoms2 : ℤ → Option (Geom2 V)) (geoms : List (ℤ × Geom3 V)) : Option (PerRank V) :=
  let d := deconstructRank origRank geoms
  (splitFaces geoms2 d.2 [] []).map fun s => ⟨d.1, s.1, s.2⟩

/-! ### `sendrecv_geoms_3d` -/

/-- `recv_offsets` and `recv_total_size`, lines 359-368. -/
def recvOffsets : List ℕ → ℕ → List ℕ × ℕ
  | [], total => ([], total)
  | s :: l, total => let r := recvOffsets l (total + s); (total :: r.1, r.2)

/-- The arrival of a message in the buffer `packed_geoms` at an offset: `none` if it does not fit. geometry_transport_3d.cpp:370-385. -/
def deliver (buf : List ℤ) (offset : ℕ) (msg : List ℤ) : Option (List ℤ) :=
  if offset + msg.length ≤ buf.length then some (buf.take offset ++ msg ++ buf.drop (offset + msg.length)) else none

/-- Lines 359-389 on the receiver: the messages of the ranks in `recv_ranks` arrive in the order `order` (indices into `recv_ranks`). A
message longer than the announced size is an error of MPI (`none`). The fresh buffer is filled with zeros. -/
def sendrecv (sizes : List ℕ) (msgs : List (List ℤ)) (order : List ℕ) : Option (List ℤ) :=
  let offs := recvOffsets sizes 0
  order.foldlM (fun buf i =>
    match offs.1[i]?, sizes[i]?, msgs[i]? with
    | some o, some s, some m => if m.length ≤ s then deliver buf o m else none
    | _, _, _ => none) (List.replicate offs.2 0)

end Verif.Model.GeomTransport3D
