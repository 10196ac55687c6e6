import Verif.Model.RemoteGeom

/-!
Model of geometry_transport/geometry_container_3d.hpp, geometry_types_3d.hpp, geometry_local_remote_3d.hpp, utility_geometry.hpp and of
`assemble_geometry_container_3d` in src/nektar_interface/geometry_transport/geometry_transport_3d.cpp.

Simplification: the entries of a `std::map` are a list without an order (a list with one entry for each key).
-/

namespace Verif.Model.GeomContainer
open Verif.Model.RemoteGeom

/-- Nektar++'s `ShapeType`: a 3D shape or something else. Read in geometry_types_3d.hpp:25-56. -/
inductive Shape where
  | poly (s : PolyShape)
  | other (i : ℤ)
  deriving DecidableEq

/-- Nektar++'s `GeomType` as returned by `GetMetricInfo()->GetGtype()`. Read in geometry_container_3d.hpp:30-55. -/
inductive GType where
  | eNoGeomType
  | eRegular
  | eDeformed
  | eMovingRegular
  deriving DecidableEq

/-- What the containers read of a `Geometry3D`: its type, the number of modes of the bases of its map and its shape. `tag` is the object itself. Read in geometry_container_3d.hpp:30-55, geometry_types_3d.hpp:25-56. -/
structure Geom where
  gtype : GType
  numModes : List ℕ
  shape : Shape
  tag : ℕ
  deriving DecidableEq

/-- `RemoteGeom3D`, remote_geom_3d.hpp:16-33. -/
structure Remote where
  rank : ℤ
  id : ℤ
  geom : Geom
  deriving DecidableEq

/-- `geometry_is_linear`, utility_geometry.hpp:14-23. -/
def isLinear : List ℕ → Bool
  | [] => true
  | m :: l => if m ≠ 2 then false else isLinear l

/-- `local[id] = g` on a `std::map`. As in geometry_local_remote_3d.hpp:20-45. -/
def mapAssign {G : Type} (m : List (ℤ × G)) (id : ℤ) (g : G) : List (ℤ × G) :=
  if m.any (fun p => p.1 == id) then m.map (fun p => if p.1 = id then (id, g) else p) else m ++ [(id, g)]

/-- `GeometryLocalRemote3D`, geometry_local_remote_3d.hpp:16-21. -/
structure LocalRemote where
  loc : List (ℤ × Geom) := []
  rem : List Remote := []

/-- An argument of `push_back`. geometry_container_3d.hpp:56-68. -/
inductive Push where
  | loc (id : ℤ) (g : Geom)
  | rem (r : Remote)

/-- The geometry that is classified, geometry_container_3d.hpp:57, 66. -/
def Push.geom : Push → Geom
  | .loc _ g => g
  | .rem r => r.geom

/-- `GeometryLocalRemote3D::push_back` (both), geometry_local_remote_3d.hpp:29-41. -/
def LocalRemote.pushBack (c : LocalRemote) : Push → LocalRemote
  | .loc id g => { c with loc := mapAssign c.loc id g }
  | .rem r => { c with rem := c.rem ++ [r] }

/-- `GeometryLocalRemote3D::size`, geometry_local_remote_3d.hpp:46. -/
def LocalRemote.size (c : LocalRemote) : ℕ := c.loc.length + c.rem.length

/-- `GeometryTypes3D`, geometry_types_3d.hpp:42-49. -/
structure Types where
  tet : LocalRemote := {}
  pyr : LocalRemote := {}
  prism : LocalRemote := {}
  hex : LocalRemote := {}

/-- `GeometryTypes3D::push_back` and `classify`, geometry_types_3d.hpp:25-40 and 57-69; `none` is the assertion. -/
def Types.pushBack (c : Types) (p : Push) : Option Types :=
  if p.geom.shape = .poly .tet then some { c with tet := c.tet.pushBack p }
  else if p.geom.shape = .poly .pyr then some { c with pyr := c.pyr.pushBack p }
  else if p.geom.shape = .poly .prism then some { c with prism := c.prism.pushBack p }
  else if p.geom.shape = .poly .hex then some { c with hex := c.hex.pushBack p }
  else none

/-- `GeometryTypes3D::size`, geometry_types_3d.hpp:74-77. -/
def Types.size (c : Types) : ℕ := c.tet.size + c.pyr.size + c.prism.size + c.hex.size

/-- `GeometryContainer3D`, geometry_container_3d.hpp:44-49. -/
structure Container where
  regular : Types := {}
  deformedLinear : Types := {}
  deformedNonLinear : Types := {}

/-- `GeometryContainer3D::push_back` and `classify`, geometry_container_3d.hpp:30-41 and 56-68. -/
def Container.pushBack (c : Container) (p : Push) : Option Container :=
  if p.geom.gtype = .eRegular then (c.regular.pushBack p).map fun t => { c with regular := t }
  else if isLinear p.geom.numModes then (c.deformedLinear.pushBack p).map fun t => { c with deformedLinear := t }
  else (c.deformedNonLinear.pushBack p).map fun t => { c with deformedNonLinear := t }

/-- Calls of `push_back` one after the other, as in geometry_transport_3d.cpp:72-85. -/
def pushAll : List Push → Container → Option Container
  | [], c => some c
  | p :: l, c => (c.pushBack p).bind (pushAll l)

/-- The 3D geometry maps of a `MeshGraph`. Read in geometry_transport_3d.cpp:11-32. -/
structure Graph where
  tet : List (ℤ × Geom)
  pyr : List (ℤ × Geom)
  prism : List (ℤ × Geom)
  hex : List (ℤ × Geom)

/-- `get_all_elements_3d`, geometry_transport_3d.cpp:11-32. -/
def getAllElements3d (g : Graph) : List (ℤ × Geom) :=
  let m := g.tet.foldl (fun m e => mapAssign m e.1 e.2) []
  let m := g.pyr.foldl (fun m e => mapAssign m e.1 e.2) m
  let m := g.prism.foldl (fun m e => mapAssign m e.1 e.2) m
  g.hex.foldl (fun m e => mapAssign m e.1 e.2) m

/-- `get_element_3d`, geometry_transport_3d.cpp:40-63: the first element of the first non-empty map; `none` is the assertion. -/
def getElement3d (g : Graph) : Option Geom :=
  if g.tet.length > 0 then g.tet.head?.map Prod.snd
  else if g.pyr.length > 0 then g.pyr.head?.map Prod.snd
  else if g.prism.length > 0 then g.prism.head?.map Prod.snd
  else if g.hex.length > 0 then g.hex.head?.map Prod.snd
  else none

/-- `assemble_geometry_container_3d`, geometry_transport_3d.cpp:72-85. -/
def assemble (g : Graph) (remote : List Remote) (c : Container) : Option Container :=
  (pushAll ((getAllElements3d g).map fun e => .loc e.1 e.2) c).bind (pushAll (remote.map .rem))

end Verif.Model.GeomContainer
