import Mathlib.Algebra.Field.Basic
import Mathlib.Algebra.Order.Ring.Defs

/-!
Specification for C83: the corners of the cube, and the curves that Nektar++ expects for a hexahedron whose faces are given by their edges.
-/

namespace Verif.Spec.HexGeom

variable {K : Type*} [Field K]

/-- The point with fraction `s` on the line from `a` to `b`. -/
def onLine (a b : K × K × K) (s : K) : K × K × K :=
  ((1 - s) * a.1 + s * b.1, (1 - s) * a.2.1 + s * b.2.1, (1 - s) * a.2.2 + s * b.2.2)

/-- The point with fractions `s` (from corner `a` to `b`) and `t` (from `a` to `d`) of a parallelogram with the corners `a, b, c, d` in this order. -/
def onFace (a b d : K × K × K) (s t : K) : K × K × K :=
  (a.1 + s * (b.1 - a.1) + t * (d.1 - a.1), a.2.1 + s * (b.2.1 - a.2.1) + t * (d.2.1 - a.2.1), a.2.2 + s * (b.2.2 - a.2.2) + t * (d.2.2 - a.2.2))

/-- `v` are the corners of the face in the order of its edges: edge `i` joins corner `i` and corner `i + 1` (in one of the two directions). -/
def CornersOf (edgeVerts : ℕ → ℕ × ℕ) (faceEdges : List ℕ) (v : List ℕ) : Prop :=
  v.length = 4 ∧ faceEdges.length = 4 ∧ ∀ i < 4,
    edgeVerts (faceEdges.getD i 0) = (v.getD i 0, v.getD ((i + 1) % 4) 0) ∨ edgeVerts (faceEdges.getD i 0) = (v.getD ((i + 1) % 4) 0, v.getD i 0)

/-- The points on a face of the cube `[-1, 1]³` have a coordinate which is `-1` or `1`, and all coordinates in `[-1, 1]`. -/
def OnCubeSurface [LinearOrder K] (p : K × K × K) : Prop :=
  (-1 ≤ p.1 ∧ p.1 ≤ 1) ∧ (-1 ≤ p.2.1 ∧ p.2.1 ≤ 1) ∧ (-1 ≤ p.2.2 ∧ p.2.2 ≤ 1) ∧
    (p.1 = -1 ∨ p.1 = 1 ∨ p.2.1 = -1 ∨ p.2.1 = 1 ∨ p.2.2 = -1 ∨ p.2.2 = 1)

end Verif.Spec.HexGeom
