import Verif.Model.HaloExchange

/-!
Model of `/repo/include/nektar_interface/utility_mesh_plotting.hpp`: `VTKGeometryWriter` and the functions that write the owned and the halo elements.

A geometry object is its content and its address. Printing of numbers is not modelled: a file is the list of the values that are printed in each section.
`VTKMeshHierarchyCellsWriter` is part of NESO-Particles.
-/

namespace Verif.Model.VtkWriter
open Verif.Model.HaloExchange

variable {K : Type}

/-- `PointGeom`. utility_mesh_plotting.hpp:85-95. -/
structure Vertex (K : Type) where
  gid : ℤ
  coordim : ℕ
  x : K
  y : K
  z : K

/-- `Geometry1D`. utility_mesh_plotting.hpp:79-95. -/
structure Edge (K : Type) where
  gid : ℤ
  verts : List (Vertex K)

/-- `LibUtilities::ShapeType`. utility_mesh_plotting.hpp:120-140, 163. -/
inductive Shape
  | point | segment | triangle | quadrilateral | tetrahedron | hexahedron | prism | pyramid
  deriving DecidableEq

/-- `Geometry`, with its address. utility_mesh_plotting.hpp:52-60. -/
structure Geom (K : Type) where
  ptr : ℕ
  shape : Shape
  coordim : ℕ
  verts : List (Vertex K)
  edges : List (Edge K)

/-- The members `geoms`, `geom_props` (lines 27-28) and `rank` (line 39). -/
structure Writer (K : Type) where
  geoms : List (Geom K)
  props : List (ℕ × K)
  rank : ℤ

/-- `VTKGeometryWriter(rank)`, line 42. -/
def Writer.new (rank : ℤ) : Writer K := ⟨[], [], rank⟩

/-- `push_back(geom, prop)`, lines 51-56. -/
def Writer.pushBack (w : Writer K) (g : Geom K) (prop : K) : Writer K :=
  { w with geoms := w.geoms ++ [g], props := mapSet g.ptr prop w.props }

/-- `get_property`, lines 30-36. -/
def Writer.getProperty [Zero K] (w : Writer K) (g : Geom K) : K := (mapGet w.props g.ptr).getD 0

/-- The values in the sections of the file: POINTS (count, values), CELLS (number, size, integers), CELL_TYPES (number, integers), CELL_DATA (number, ranks, properties). utility_mesh_plotting.hpp:98-200. -/
structure File (K : Type) where
  numPoints : ℕ
  points : List (K × K × K)
  numCells : ℕ
  sizeCells : ℕ
  cellInts : List ℕ
  numTypes : ℕ
  types : List ℕ
  numData : ℕ
  ranks : List ℤ
  props : List K

/-- The loop over the edges of a geometry object, lines 80-92: the maps `vertices` and `edges`; the assertion that an edge has two vertices. -/
def collectEdge (s : List (ℤ × Vertex K) × List (ℤ × Edge K)) (e : Edge K) : Option (List (ℤ × Vertex K) × List (ℤ × Edge K)) :=
  if e.verts.length = 2 then
    some (e.verts.foldl (fun m v => mapSet v.gid v m) s.1, mapSet e.gid e s.2)
  else none

/-- The loop over the geometry objects, lines 79-93. -/
def collect (geoms : List (Geom K)) : Option (List (ℤ × Vertex K) × List (ℤ × Edge K)) :=
  geoms.foldlM (fun s g => g.edges.foldlM collectEdge s) ([], [])

/-- The coordinates that are printed for a vertex, lines 112-120. -/
def printedPoint [Zero K] (v : Vertex K) : K × K × K :=
  if v.coordim = 1 then (v.x, 0, 0) else if v.coordim = 2 then (v.x, v.y, 0) else (v.x, v.y, v.z)

/-- `gid_to_vid` and `next_vid`, lines 105-109 and 122. -/
def gidToVid (vertices : List (ℤ × Vertex K)) : List (ℤ × ℕ) :=
  (vertices.foldl (fun (s : List (ℤ × ℕ) × ℕ) v => (mapSet v.1 s.2 s.1, s.2 + 1)) ([], 0)).1

/-- `map_shape_to_vtk`, lines 126-134. -/
def shapeToVtk : Shape → ℕ
  | .point => 1
  | .segment => 3
  | .triangle => 5
  | .quadrilateral => 9
  | .tetrahedron => 10
  | .hexahedron => 12
  | .prism => 13
  | .pyramid => 14

/-- The vectors `cell_ints`, `cell_type_ints`, `properties`. utility_mesh_plotting.hpp:141-166. -/
structure Cells (K : Type) where
  ints : List ℕ
  types : List ℕ
  props : List K

/-- The body of the loop over the edges, lines 141-149; `gid_to_vid.at` throws if the id is missing, `GetVertex(1)` needs a second vertex. -/
def addEdge [Zero K] (vid : List (ℤ × ℕ)) (c : Cells K) (e : Edge K) : Option (Cells K) :=
  e.verts[0]?.bind fun v0 => e.verts[1]?.bind fun v1 =>
  (mapGet vid v0.gid).bind fun i0 => (mapGet vid v1.gid).map fun i1 =>
  ⟨c.ints ++ [2, i0, i1], c.types ++ [3], c.props ++ [0]⟩

/-- The body of the loop over the geometry objects, lines 151-166; `gid_to_vid[vertex_gid]` of a missing id is zero. -/
def addGeom [Zero K] (w : Writer K) (vid : List (ℤ × ℕ)) (c : Cells K) (g : Geom K) : Cells K :=
  let c := if g.coordim = 2 then
      { c with ints := c.ints ++ g.verts.length :: g.verts.map (fun v => (mapGet vid v.gid).getD 0), types := c.types ++ [shapeToVtk g.shape] }
    else c
  { c with props := c.props ++ [w.getProperty g] }

/-- `write`, lines 73-196. `none`: a failed assertion or an exception. -/
def Writer.write [Zero K] (w : Writer K) : Option (File K) :=
  (collect w.geoms).bind fun s =>
  let vid := gidToVid s.1
  ((s.2.map Prod.snd).foldlM (addEdge vid) ⟨[], [], []⟩).bind fun c =>
  let c := w.geoms.foldl (addGeom w vid) c
  let n := c.types.length
  if n ≤ c.props.length then
    some ⟨s.1.length, s.1.map fun v => printedPoint v.2, n, c.ints.length, c.ints, n, c.types, n, List.replicate n w.rank, c.props.take n⟩
  else none

/-- `write_vtk_cells_owned`, lines 208-233: the elements of the graph without a property. -/
def writeOwned [Zero K] (rank : ℤ) (elements : List (Geom K)) : Option (File K) :=
  (elements.foldl (fun w g => w.pushBack g 0) (Writer.new rank)).write

/-- `write_vtk_cells_halo`, lines 244-268: the remote elements with their rank as property. -/
def writeHalo [Ring K] (rank : ℤ) (remote : List (Geom K × ℤ)) : Option (File K) :=
  (remote.foldl (fun w g => w.pushBack g.1 (g.2 : K)) (Writer.new rank)).write

end Verif.Model.VtkWriter
