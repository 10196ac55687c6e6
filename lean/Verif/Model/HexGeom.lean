import Mathlib.Algebra.Field.Basic
import Mathlib.Data.List.FinRange

/-!
Model of `make_hex_geom`, include/nektar_interface/utility_mesh.hpp:30-248: the points, edges and faces from which a curved hexahedron is made. The objects of Nektar++ are
represented by the arguments of their constructors; ids of points are those of the counter `vx_index`.
-/

namespace Verif.Model.HexGeom

variable {K : Type*} [Field K]

/-- Coordinates in the reference space or in space. utility_mesh.hpp:125-130. -/
abbrev P3 (K : Type*) := K × K × K

/-- `coords_vertices`, lines 82-86. -/
def coordsVertices : List (P3 K) :=
  [(-1, -1, -1), (1, -1, -1), (1, 1, -1), (-1, 1, -1), (-1, -1, 1), (1, -1, 1), (1, 1, 1), (-1, 1, 1)]

/-- `map_edge_to_vertices`, lines 88-94. -/
def mapEdgeToVertices : List (ℕ × ℕ) :=
  [(0, 1), (1, 2), (2, 3), (3, 0), (0, 4), (1, 5), (2, 6), (3, 7), (4, 5), (5, 6), (6, 7), (7, 4)]

/-- `map_face_to_edges`, lines 96-99. -/
def mapFaceToEdges : List (List ℕ) :=
  [[0, 1, 2, 3], [0, 5, 8, 4], [1, 6, 9, 5], [2, 7, 10, 6], [3, 4, 11, 7], [8, 9, 10, 11]]

/-- `map_face_to_vertices`, lines 101-103. -/
def mapFaceToVertices : List (List ℕ) :=
  [[0, 1, 2, 3], [0, 1, 4, 5], [1, 2, 6, 5], [2, 3, 7, 6], [1, 3, 7, 4], [4, 5, 6, 7]]

/-- A `PointGeom` with its id. utility_mesh.hpp:130, 165-166. -/
structure Point (K : Type*) where
  id : ℕ
  pos : P3 K

/-- A `SegGeom`: its id, the two vertices and the points of its curve. utility_mesh.hpp:168-172. -/
structure Edge (K : Type*) where
  id : ℕ
  verts : List (Point K)
  curve : List (Point K)

/-- A `QuadGeom`: its id, the ids of its edges and the points of its curve. utility_mesh.hpp:212-248. -/
structure Face (K : Type*) where
  id : ℕ
  edges : List ℕ
  curve : List (Point K)

/-- Access to the vertex arrays; the tables only contain indices below eight. utility_mesh.hpp:85-130. -/
def vertex (k : ℕ) : P3 K := (coordsVertices (K := K)).getD k (0, 0, 0)

/-- `lambda_get_1D_qpoint`, lines 131-149. -/
def qpoint1 (zn : ℕ → K) (i : ℕ) (a b : P3 K) : P3 K :=
  let dx := b.1 - a.1
  let dy := b.2.1 - a.2.1
  let dz := b.2.2 - a.2.2
  (a.1 + zn i * dx, a.2.1 + zn i * dy, a.2.2 + zn i * dz)

/-- `lambda_get_2D_qpoint`, lines 177-208. -/
def qpoint2 (zn : ℕ → K) (i j : ℕ) (a b c : P3 K) : P3 K :=
  let d0x := b.1 - a.1
  let d0y := b.2.1 - a.2.1
  let d0z := b.2.2 - a.2.2
  let d1x := c.1 - a.1
  let d1y := c.2.1 - a.2.1
  let d1z := c.2.2 - a.2.2
  (a.1 + zn i * d0x + zn j * d1x, a.2.1 + zn i * d0y + zn j * d1y, a.2.2 + zn i * d0z + zn j * d1z)

/-- `Znormalised`, lines 110-113. -/
def normalised (Z : ℕ → K) (i : ℕ) : K := (Z i + 1) / 2

/-- Points created one after the other; `first` is the value of `vx_index`. utility_mesh.hpp:123, 165-166, 227-228. -/
def points (xmap : P3 K → P3 K) (first : ℕ) (refs : List (P3 K)) : List (Point K) :=
  refs.zipIdx.map fun r => ⟨first + r.2, xmap r.1⟩

/-- The vertices, lines 121-130. -/
def vertices (xmap : P3 K → P3 K) : List (Point K) := points xmap 0 coordsVertices

/-- The reference points of the curve of edge `ex`, lines 155-158. -/
def edgeRefs (n : ℕ) (Z : ℕ → K) (ex : ℕ) : List (P3 K) :=
  let ev := mapEdgeToVertices.getD ex (0, 0)
  (List.range n).map fun mx => qpoint1 (normalised Z) mx (vertex ev.1) (vertex ev.2)

/-- The edges, lines 151-173. -/
def edges (n : ℕ) (Z : ℕ → K) (xmap : P3 K → P3 K) : List (Edge K) :=
  (List.range 12).map fun ex =>
    let ev := mapEdgeToVertices.getD ex (0, 0)
    ⟨ex, [⟨ev.1, xmap (vertex ev.1)⟩, ⟨ev.2, xmap (vertex ev.2)⟩], points xmap (8 + ex * n) (edgeRefs n Z ex)⟩

/-- The reference points of the curve of face `fx` in the order of the loops, lines 217-223. -/
def faceRefs (n : ℕ) (Z : ℕ → K) (fx : ℕ) : List (P3 K) :=
  let fv := mapFaceToVertices.getD fx []
  (List.range n).flatMap fun mx => (List.range n).map fun my =>
    qpoint2 (normalised Z) mx my (vertex (fv.getD 0 0)) (vertex (fv.getD 1 0)) (vertex (fv.getD 3 0))

/-- The faces, lines 210-237. -/
def faces (n : ℕ) (Z : ℕ → K) (xmap : P3 K → P3 K) : List (Face K) :=
  (List.range 6).map fun fx => ⟨fx, mapFaceToEdges.getD fx [], points xmap (8 + 12 * n + fx * (n * n)) (faceRefs n Z fx)⟩

end Verif.Model.HexGeom
