import Verif.Model.PackedGeom2D

/-! What the geometry objects of Nektar++ satisfy. -/

namespace Verif.Spec
open Verif.Model.Bytes Verif.Model.PackedGeom2D

/-- The number of points of a curve is an `int`. -/
def CurveOk : Option Curve → Prop
  | none => True
  | some c => c.points.length < 2 ^ 31

/-- A segment has two vertices. -/
def SegOk (e : Seg) : Prop := e.verts.length = 2 ∧ CurveOk e.curve

/-- A triangle has three edges, a quadrilateral four. -/
def GeomOk (kEdges : ℕ) (g : Geom) : Prop :=
  (kEdges = 3 ∨ kEdges = 4) ∧ g.edges.length = kEdges ∧ (∀ e ∈ g.edges, SegOk e) ∧ CurveOk g.curve

/-- A geometry owned by an MPI rank. -/
def RemoteOk (kEdges : ℕ) (r : Remote) : Prop := 0 ≤ r.rank.toInt ∧ GeomOk kEdges r.geom

end Verif.Spec
