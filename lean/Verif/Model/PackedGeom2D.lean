import Verif.Model.Bytes

/-!
Model of include/nektar_interface/geometry_transport/packed_geom_2d.hpp and packed_geoms_2d.hpp.

Nektar++ geometry objects are records of the data the code reads from them and constructs them with. Offsets are natural numbers
(the code uses `int`: buffers are below 2 GiB).
-/

namespace Verif.Model.PackedGeom2D
open Verif.Model.Bytes

/-- `PointGeom`; `PointStruct`, geometry_packing_utility.hpp:16-22, has the same members. -/
structure Point where
  coordim : I32
  vid : I32
  x : F64
  y : F64
  z : F64
  deriving DecidableEq

/-- `Curve`. packed_geom_2d.hpp:70-95. -/
structure Curve where
  curveID : I32
  ptype : I32
  points : List Point
  deriving DecidableEq

/-- `SegGeom`: id, coordinate dimension, vertices and an optional curve. packed_geom_2d.hpp:38-100. -/
structure Seg where
  id : I32
  coordim : I32
  verts : List Point
  curve : Option Curve
  deriving DecidableEq

/-- `TriGeom` or `QuadGeom`: id, edges and an optional curve. packed_geom_2d.hpp:197-222. -/
structure Geom where
  id : I32
  edges : List Seg
  curve : Option Curve
  deriving DecidableEq

/-- `RemoteGeom2D`, remote_geom_2d.hpp:14-41. -/
structure Remote where
  rank : I32
  id : I32
  geom : Geom
  deriving DecidableEq

/-- `GeomPackSpec`, geometry_packing_utility.hpp:28-32. -/
structure GeomPackSpec where
  a : I32
  b : I32
  nPoints : I32

/-- `push(&ps)` for a `PointStruct` (no padding: two `int`s and three `double`s). packed_geom_2d.hpp:21-28, 46-100. -/
def encPoint (p : Point) : List Byte := enc32 p.coordim ++ (enc32 p.vid ++ (enc64 p.x ++ (enc64 p.y ++ enc64 p.z)))
/-- `push(&gs)` for a `GeomPackSpec`. packed_geom_2d.hpp:21-28, 46-100. -/
def encSpec (g : GeomPackSpec) : List Byte := enc32 g.a ++ (enc32 g.b ++ enc32 g.nPoints)

/-- `lambda_pack_curve`, packed_geom_2d.hpp:59-82. -/
def packCurve : Option Curve → List Byte
  | none => encSpec ⟨0, 0, -1⟩
  | some c => encSpec ⟨c.curveID, c.ptype, BitVec.ofNat 32 c.points.length⟩ ++ c.points.flatMap encPoint

/-- The body of the loop over the edges, packed_geom_2d.hpp:89-108. -/
def packEdge (e : Seg) : List Byte :=
  encSpec ⟨e.id, e.coordim, BitVec.ofNat 32 e.verts.length⟩ ++ (e.verts.flatMap encPoint ++ packCurve e.curve)

/-- `PackedGeom2D(rank, local_id, geom).buf`, packed_geom_2d.hpp:46-114, 224-230. -/
def packGeom (shape rank localId : I32) (g : Geom) : List Byte :=
  enc32 shape ++ (enc32 rank ++ (enc32 localId ++ (enc32 g.id ++ (enc32 (BitVec.ofNat 32 g.edges.length) ++
    (g.edges.flatMap packEdge ++ packCurve g.curve)))))

/-- `pop(&i)` for an `int`. packed_geom_2d.hpp:30-36. -/
def popI32 : Reader I32 := (popBytes 4).bind fun l => Reader.pure (dec32 l)

/-- `pop(&ps)`: the 32 bytes of a `PointStruct`. -/
def popPoint : Reader Point := (popBytes 32).bind fun l =>
  Reader.pure ⟨dec32 (l.take 4), dec32 ((l.drop 4).take 4), dec64 ((l.drop 8).take 8), dec64 ((l.drop 16).take 8),
    dec64 ((l.drop 24).take 8)⟩

/-- `pop(&gs)`: the 12 bytes of a `GeomPackSpec`. -/
def popSpec : Reader GeomPackSpec := (popBytes 12).bind fun l =>
  Reader.pure ⟨dec32 (l.take 4), dec32 ((l.drop 4).take 4), dec32 ((l.drop 8).take 4)⟩

/-- `pop(&gs)` then `lambda_unpack_curve(gs)`, packed_geom_2d.hpp:133-155. -/
def unpackCurve : Reader (Option Curve) := popSpec.bind fun gs =>
  if gs.nPoints.toInt < 0 then Reader.pure none
  else (Reader.repeat popPoint gs.nPoints.toInt.toNat).bind fun pts => Reader.pure (some ⟨gs.a, gs.b, pts⟩)

/-- The body of the loop over the edges, packed_geom_2d.hpp:165-186. The constructor of `SegGeom` copies the first two vertices it is
given. -/
def unpackEdge : Reader Seg := popSpec.bind fun gs =>
  (Reader.check (decide (2 ≤ gs.nPoints.toInt))).bind fun _ =>
  (Reader.repeat popPoint gs.nPoints.toInt.toNat).bind fun verts =>
  unpackCurve.bind fun curve => Reader.pure ⟨gs.a, gs.b, verts.take 2, curve⟩

/-- `unpack<T>()`, packed_geom_2d.hpp:117-192, 249-258. `kEdges` is the number of edges of `T` (3 or 4): the constructor copies that many
edges. The outcome with fewer unpacked edges than that is an access outside of the vector of the edges. -/
def unpackGeom (kEdges : ℕ) : Reader Remote :=
  popI32.bind fun _shape => popI32.bind fun rank => popI32.bind fun localId => popI32.bind fun id =>
  popI32.bind fun numEdges =>
  (Reader.check (decide (0 ≤ rank.toInt))).bind fun _ =>
  (Reader.check (decide (numEdges.toInt = 4 ∨ numEdges.toInt = 3))).bind fun _ =>
  (Reader.repeat unpackEdge numEdges.toInt.toNat).bind fun edges =>
  unpackCurve.bind fun curve =>
  if edges.length < kEdges then Reader.fault
  else Reader.pure ⟨rank, localId, ⟨id, edges.take kEdges, curve⟩⟩

/-- `PackedGeoms2D(rank, geom_map).buf`, packed_geoms_2d.hpp:40-53: the map's pairs of id and geometry in order. -/
def packGeoms (shape rank : I32) (geoms : List (I32 × Geom)) : List Byte :=
  enc32 (BitVec.ofNat 32 geoms.length) ++ geoms.flatMap fun g => packGeom shape rank g.1 g.2

/-- `PackedGeoms2D(geoms).buf` for remote geometries, packed_geoms_2d.hpp:59-74. -/
def packRemotes (shape : I32) (geoms : List Remote) : List Byte :=
  enc32 (BitVec.ofNat 32 geoms.length) ++ geoms.flatMap fun g => packGeom shape g.rank g.id g.geom

/-- The loop of `unpack`, packed_geoms_2d.hpp:93-99. Each `PackedGeom2D` gets the pointer to its first byte, the length
`input_length` of the whole buffer and starts at offset 0. -/
def unpackLoop (kEdges : ℕ) (buf : List Byte) (inputLength : ℤ) : ℕ → ℕ → List Remote → Res (List Remote × ℕ)
  | 0, offset, geoms => .ok (geoms, offset)
  | n + 1, offset, geoms =>
    match unpackGeom kEdges (buf.drop (4 + offset)) inputLength 0 with
    | .ok (g, used) => unpackLoop kEdges buf inputLength n (offset + used) (geoms ++ [g])
    | .assertFail => .assertFail
    | .outOfBounds => .outOfBounds

/-- `PackedGeoms2D(buf_in, input_length).unpack(geoms)`, packed_geoms_2d.hpp:22-29, 89-101. -/
def unpackGeoms (kEdges : ℕ) (buf : List Byte) (inputLength : ℤ) (geoms : List Remote) : Res (List Remote) :=
  if ¬ 4 ≤ inputLength then .assertFail else
  if buf.length < 4 then .outOfBounds else
  let count := (dec32 (buf.take 4)).toInt
  if ¬ (0 ≤ count ∧ count ≤ inputLength) then .assertFail else
  match unpackLoop kEdges buf inputLength count.toNat 0 geoms with
  | .ok (gs, offset) => if (offset : ℤ) ≤ inputLength then .ok gs else .assertFail
  | .assertFail => .assertFail
  | .outOfBounds => .outOfBounds

end Verif.Model.PackedGeom2D
