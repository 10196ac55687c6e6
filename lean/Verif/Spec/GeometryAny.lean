import Verif.Model.RemoteGeom

/-! What Nektar++ geometry objects without curves satisfy. -/

namespace Verif.Spec
open Verif.Model.Bytes Verif.Model.PackedGeom2D Verif.Model.RemoteGeom

/-- A straight segment with its two vertices. -/
def StraightSeg (e : Seg) : Prop := e.verts.length = 2 ∧ e.curve = none

/-- A triangle or quadrilateral with its three or four edges. -/
def StraightFace (f : Face) : Prop :=
  f.edges.length = (match f.shape with | .tri => 3 | .quad => 4) ∧ (∀ e ∈ f.edges, StraightSeg e) ∧ f.curve = none

/-- A polyhedron with its faces; those of a tetrahedron are triangles and those of a hexahedron quadrilaterals. -/
def StraightPoly (p : Poly) : Prop :=
  p.faces.length = (match p.shape with | .tet => 4 | .pyr => 5 | .prism => 5 | .hex => 6) ∧ (∀ f ∈ p.faces, StraightFace f) ∧
  (p.shape = .tet → ∀ f ∈ p.faces, f.shape = .tri) ∧ (p.shape = .hex → ∀ f ∈ p.faces, f.shape = .quad)

def StraightGeo : Geo → Prop
  | .seg e => StraightSeg e
  | .face f => StraightFace f
  | .poly p => StraightPoly p

def CurvedSeg (e : Seg) : Prop := e.curve ≠ none
def CurvedFace (f : Face) : Prop := f.curve ≠ none ∨ ∃ e ∈ f.edges, CurvedSeg e

/-- Some edge or face has a curve. -/
def CurvedGeo : Geo → Prop
  | .seg e => CurvedSeg e
  | .face f => CurvedFace f
  | .poly p => ∃ f ∈ p.faces, CurvedFace f

end Verif.Spec
