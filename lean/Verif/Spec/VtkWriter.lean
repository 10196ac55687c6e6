import Verif.Model.VtkWriter

/-!
How a reader of the legacy VTK format understands the file, and what the file of a collection of geometry objects should contain.
-/

namespace Verif.Spec.VtkWriter
open Verif.Model.VtkWriter

variable {K : Type}

/-- A cell as a reader sees it. -/
structure Cell (K : Type) where
  type : ℕ
  pts : List (K × K × K)
  rank : ℤ
  prop : K

/-- The section CELLS with the given number of cells: each one is its number of points and their indices; nothing may be left over. -/
def parseCells : ℕ → List ℕ → Option (List (List ℕ))
  | 0, [] => some []
  | 0, _ :: _ => none
  | _ + 1, [] => none
  | n + 1, c :: l => if c ≤ l.length then (parseCells n (l.drop c)).map fun r => l.take c :: r else none

/-- Reads a file: all the announced sizes must be right and all indices must be those of points. -/
def readBack (f : File K) : Option (List (Cell K)) :=
  if f.numPoints = f.points.length ∧ f.sizeCells = f.cellInts.length ∧ f.numTypes = f.numCells ∧ f.types.length = f.numCells ∧
      f.numData = f.numCells ∧ f.ranks.length = f.numCells ∧ f.props.length = f.numCells then
    (parseCells f.numCells f.cellInts).bind fun cells =>
    (cells.mapM fun (c : List ℕ) => c.mapM fun (i : ℕ) => f.points[i]?).map fun pts =>
    ((f.types.zip pts).zip (f.ranks.zip f.props)).map fun x => ⟨x.1.1, x.1.2, x.2.1, x.2.2⟩
  else none

/-- All edges and all vertices of edges. -/
def allEdges (geoms : List (Geom K)) : List (Edge K) := geoms.flatMap (·.edges)
def allVerts (geoms : List (Geom K)) : List (Vertex K) := (allEdges geoms).flatMap (·.verts)

/-- A collection of a mesh: edges have two vertices, the vertices of an object are those of its edges, and objects with the same id are equal. -/
structure MeshLike (geoms : List (Geom K)) : Prop where
  two : ∀ e ∈ allEdges geoms, e.verts.length = 2
  verts : ∀ g ∈ geoms, ∀ v ∈ g.verts, ∃ e ∈ g.edges, v ∈ e.verts
  vertex : ∀ v ∈ allVerts geoms, ∀ w ∈ allVerts geoms, v.gid = w.gid → v = w
  edge : ∀ e ∈ allEdges geoms, ∀ f ∈ allEdges geoms, e.gid = f.gid → e = f

/-- The position of a vertex: coordinates that it does not have are zero. -/
def position [Zero K] (v : Vertex K) : K × K × K := (v.x, if v.coordim = 1 then 0 else v.y, if v.coordim = 1 ∨ v.coordim = 2 then 0 else v.z)

/-- The distinct edges in the order of their ids. -/
def IsEdgeList (geoms : List (Geom K)) (l : List (Edge K)) : Prop :=
  (l.Pairwise fun a b => a.gid < b.gid) ∧ ∀ e, e ∈ l ↔ e ∈ allEdges geoms

/-- Cell types of VTK: line, triangle, quadrilateral. -/
def VTK_VERTEX : ℕ := 1
def VTK_TETRA : ℕ := 10
def VTK_HEXAHEDRON : ℕ := 12
def VTK_WEDGE : ℕ := 13
def VTK_PYRAMID : ℕ := 14
def VTK_LINE : ℕ := 3
def VTK_TRIANGLE : ℕ := 5
def VTK_QUAD : ℕ := 9

end Verif.Spec.VtkWriter
