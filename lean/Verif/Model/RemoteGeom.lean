import Verif.Model.PackedGeom2D

/-!
Model of include/nektar_interface/geometry_transport/remote_geom.hpp.

`T` is the base class of all geometries (`composite_transport.hpp:33`): the final `dynamic_pointer_cast<T>` always succeeds.
-/

namespace Verif.Model.RemoteGeom
open Verif.Model.Bytes Verif.Model.PackedGeom2D

/-- `TriGeom` or `QuadGeom`. remote_geom.hpp:318-324. -/
inductive FaceShape where
  | tri
  | quad
  deriving DecidableEq

/-- `TetGeom`, `PyrGeom`, `PrismGeom` or `HexGeom`. remote_geom.hpp:345-368. -/
inductive PolyShape where
  | tet
  | pyr
  | prism
  | hex
  deriving DecidableEq

/-- A `Geometry2D` object. remote_geom.hpp:100-140. -/
structure Face where
  shape : FaceShape
  id : I32
  edges : List Seg
  curve : Option Curve
  deriving DecidableEq

/-- A `Geometry3D` object. remote_geom.hpp:140-165. -/
structure Poly where
  shape : PolyShape
  id : I32
  faces : List Face
  deriving DecidableEq

/-- The geometry types handled by remote_geom.hpp:78-165. -/
inductive Geo where
  | seg (e : Seg)
  | face (f : Face)
  | poly (p : Poly)
  deriving DecidableEq

/-- `RemoteGeom<Geometry>`: the members, remote_geom.hpp:45-51. -/
structure RGeom where
  rank : I32
  id : I32
  geom : Geo
  deriving DecidableEq

/-- `shape_type_to_int`, shape_mapping.hpp:13-16, with the values of Nektar++'s enum (`eTriangle = 3`, `eQuadrilateral = 4`). -/
def FaceShape.toI32 : FaceShape → I32
  | .tri => 3
  | .quad => 4

/-- `shape_type_to_int` (`eTetrahedron = 5`, `ePyramid = 6`, `ePrism = 7`, `eHexahedron = 8`). shape_mapping.hpp:13-17. -/
def PolyShape.toI32 : PolyShape → I32
  | .tet => 5
  | .pyr => 6
  | .prism => 7
  | .hex => 8

/-- `shape_type_to_int(geom->GetShapeType())` (`eSegment = 2`). remote_geom.hpp:78-84, shape_mapping.hpp:13-17. -/
def Geo.shapeI32 : Geo → I32
  | .seg _ => 2
  | .face f => f.shape.toI32
  | .poly p => p.shape.toI32

/-- No code: one step after the other; an assertion that fails stops. -/
def Res.bind {α β : Type} (x : Res α) (f : α → Res β) : Res β :=
  match x with
  | .ok a => f a
  | .assertFail => .assertFail
  | .outOfBounds => .outOfBounds

/-- `for (x : l) body`. remote_geom.hpp:100-165. -/
def forEach {α σ : Type} (l : List α) (body : α → σ → Res σ) (s : σ) : Res σ :=
  match l with
  | [] => .ok s
  | a :: l => Res.bind (body a s) (forEach l body)

/-- `ASSERTL0(curve == nullptr, …)`. remote_geom.hpp:108, 129, 202, 225. -/
def assertNoCurve {σ : Type} (c : Option Curve) (s : σ) : Res σ := if c.isNone then .ok s else .assertFail

/-! ### get_num_bytes: the offset after each `push_offset` -/

/-- `lambda_push_edge`, remote_geom.hpp:95-114. -/
def sizeEdge (e : Seg) (off : ℕ) : Res ℕ :=
  let off := off + 4
  let off := off + 4
  let off := off + 4
  Res.bind (forEach e.verts (fun _ off => .ok (off + 32)) off) fun off =>
  Res.bind (assertNoCurve e.curve off) fun off =>
  .ok (off + 12)

/-- `lambda_push_face`, remote_geom.hpp:116-135. -/
def sizeFace (f : Face) (off : ℕ) : Res ℕ :=
  let off := off + 4
  let off := off + 4
  Res.bind (forEach f.edges sizeEdge off) fun off =>
  Res.bind (assertNoCurve f.curve off) fun off =>
  .ok (off + 12)

/-- `lambda_push_polyhedron`, remote_geom.hpp:137-148. -/
def sizePoly (p : Poly) (off : ℕ) : Res ℕ :=
  let off := off + 4
  let off := off + 4
  forEach p.faces (fun f off => sizeFace f (off + 4)) off

/-- `get_num_bytes`, remote_geom.hpp:78-160. -/
def getNumBytes (g : RGeom) : Res ℕ :=
  let off := 0 + 4
  let off := off + 4
  let off := off + 4
  match g.geom with
  | .seg e => sizeEdge e off
  | .face f => sizeFace f off
  | .poly p => sizePoly p off

/-! ### serialise: the bytes written so far, in a buffer of `cap` bytes -/

/-- `push`, remote_geom.hpp:31-36. -/
def push (cap : ℕ) (bs : List Byte) (w : List Byte) : Res (List Byte) :=
  if w.length + bs.length ≤ cap then .ok (w ++ bs) else .outOfBounds

/-- `lambda_push_edge`, remote_geom.hpp:189-208. -/
def pushEdge (cap : ℕ) (e : Seg) (w : List Byte) : Res (List Byte) :=
  Res.bind (push cap (enc32 e.id) w) fun w =>
  Res.bind (push cap (enc32 e.coordim) w) fun w =>
  Res.bind (push cap (enc32 (BitVec.ofNat 32 e.verts.length)) w) fun w =>
  Res.bind (forEach e.verts (fun p w => push cap (encPoint p) w) w) fun w =>
  Res.bind (assertNoCurve e.curve w) fun w =>
  push cap (encSpec ⟨0, 0, -1⟩) w

/-- `lambda_push_face`, remote_geom.hpp:210-231. -/
def pushFace (cap : ℕ) (f : Face) (w : List Byte) : Res (List Byte) :=
  Res.bind (push cap (enc32 f.id) w) fun w =>
  Res.bind (push cap (enc32 (BitVec.ofNat 32 f.edges.length)) w) fun w =>
  Res.bind (forEach f.edges (pushEdge cap) w) fun w =>
  Res.bind (assertNoCurve f.curve w) fun w =>
  push cap (encSpec ⟨0, 0, -1⟩) w

/-- `lambda_push_polyhedron`, remote_geom.hpp:233-244. -/
def pushPoly (cap : ℕ) (p : Poly) (w : List Byte) : Res (List Byte) :=
  Res.bind (push cap (enc32 p.id) w) fun w =>
  Res.bind (push cap (enc32 (BitVec.ofNat 32 p.faces.length)) w) fun w =>
  forEach p.faces (fun f w => Res.bind (push cap (enc32 f.shape.toI32) w) fun w => pushFace cap f w) w

/-- `serialise(buffer, num_bytes)`, remote_geom.hpp:169-257, with a buffer of `num_bytes` bytes. -/
def serialise (g : RGeom) (numBytes : ℕ) : Res (List Byte) :=
  Res.bind (push numBytes (enc32 g.rank) []) fun w =>
  Res.bind (push numBytes (enc32 g.id) w) fun w =>
  Res.bind (push numBytes (enc32 g.geom.shapeI32) w) fun w =>
  Res.bind (match g.geom with
    | .seg e => pushEdge numBytes e w
    | .face f => pushFace numBytes f w
    | .poly p => pushPoly numBytes p w) fun w =>
  if w.length = numBytes then .ok w else .assertFail

/-! ### deserialise -/

/-- `lambda_pop_edge`, remote_geom.hpp:280-301. `SegGeom`'s constructor copies two vertices. -/
def popEdge : Reader Seg :=
  popI32.bind fun gid => popI32.bind fun coordim => popI32.bind fun numVerts =>
  (Reader.repeat popPoint numVerts.toInt.toNat).bind fun verts =>
  popSpec.bind fun gs =>
  (Reader.check (decide (gs.nPoints.toInt = -1))).bind fun _ =>
  if verts.length < 2 then Reader.fault else Reader.pure ⟨gid, coordim, verts.take 2, none⟩

/-- The number of edges the constructors of `TriGeom` and `QuadGeom` copy. Called in remote_geom.hpp:318-324. -/
def FaceShape.numEdges : FaceShape → ℕ
  | .tri => 3
  | .quad => 4

/-- `lambda_pop_face`, remote_geom.hpp:303-328. `reserve` throws for a negative number. -/
def popFace (shapeType : I32) : Reader Face :=
  popI32.bind fun gid => popI32.bind fun numEdges =>
  (Reader.check (decide (0 ≤ numEdges.toInt))).bind fun _ =>
  (Reader.repeat popEdge numEdges.toInt.toNat).bind fun edges =>
  popSpec.bind fun gs =>
  (Reader.check (decide (gs.nPoints.toInt = -1))).bind fun _ =>
  let shape := if shapeType = 3 then FaceShape.tri else FaceShape.quad
  if edges.length < shape.numEdges then Reader.fault else Reader.pure ⟨shape, gid, edges.take shape.numEdges, none⟩

/-- The number of faces the constructors of the polyhedra copy. Called in remote_geom.hpp:345-368. -/
def PolyShape.numFaces : PolyShape → ℕ
  | .tet => 4
  | .pyr => 5
  | .prism => 5
  | .hex => 6

/-- The outcome of the constructor of a polyhedron: it needs its number of faces; a tetrahedron gets null pointers for faces that are no
triangles, a hexahedron for faces that are no quadrilaterals, and dereferences them. remote_geom.hpp:345-368. -/
def makePoly (shape : PolyShape) (gid : I32) (faces : List Face) : Reader Poly :=
  if faces.length < shape.numFaces then Reader.fault else
  let fs := faces.take shape.numFaces
  match shape with
  | .tet => if fs.all fun f => f.shape = .tri then Reader.pure ⟨.tet, gid, fs⟩ else Reader.fault
  | .hex => if fs.all fun f => f.shape = .quad then Reader.pure ⟨.hex, gid, fs⟩ else Reader.fault
  | s => Reader.pure ⟨s, gid, fs⟩

/-- `lambda_pop_polyhedron`, remote_geom.hpp:330-371. -/
def popPoly (shapeType : I32) : Reader Poly :=
  popI32.bind fun gid => popI32.bind fun numFaces =>
  (Reader.check (decide (0 ≤ numFaces.toInt))).bind fun _ =>
  (Reader.repeat (popI32.bind popFace) numFaces.toInt.toNat).bind fun faces =>
  let shape := if shapeType = 5 then PolyShape.tet else if shapeType = 6 then PolyShape.pyr else
    if shapeType = 7 then PolyShape.prism else PolyShape.hex
  makePoly shape gid faces

/-- The pops of `deserialise`, remote_geom.hpp:267-383. -/
def popGeom : Reader RGeom :=
  popI32.bind fun rank => popI32.bind fun id => popI32.bind fun shapeType =>
  (if shapeType = 2 then popEdge.bind fun e => Reader.pure (Geo.seg e)
   else if shapeType = 3 ∨ shapeType = 4 then (popFace shapeType).bind fun f => Reader.pure (Geo.face f)
   else (popPoly shapeType).bind fun p => Reader.pure (Geo.poly p)).bind fun geom =>
  Reader.pure ⟨rank, id, geom⟩

/-- `deserialise(buffer, num_bytes)`, remote_geom.hpp:267-387. -/
def deserialise (buffer : List Byte) (numBytes : ℕ) : Res RGeom :=
  Res.bind (popGeom buffer (-1) 0) fun r => if r.2 = numBytes then .ok r.1 else .assertFail

end Verif.Model.RemoteGeom
