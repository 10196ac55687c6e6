import Mathlib.Algebra.BigOperators.Intervals
import Mathlib.Analysis.Calculus.Deriv.Basic
import Mathlib.LinearAlgebra.Matrix.NonsingularInverse
import Verif.Model.NewtonKernel

/-!
Specification of the straight-sided elements: reference vertices, vertex weights (shape functions), the map of an element, its Jacobian, and a
Newton step.
-/

namespace Verif.Spec.LinearElements
open Verif.Model.NewtonKernel (V3)

inductive Shape
  | quad | hex | prism | pyr | tet

variable {K : Type*} [Field K]

/-- The vertices of the reference element, in the order of Nektar++. -/
def refVerts : Shape → List (V3 K)
  | .quad => [⟨-1, -1, 0⟩, ⟨1, -1, 0⟩, ⟨1, 1, 0⟩, ⟨-1, 1, 0⟩]
  | .hex => [⟨-1, -1, -1⟩, ⟨1, -1, -1⟩, ⟨1, 1, -1⟩, ⟨-1, 1, -1⟩, ⟨-1, -1, 1⟩, ⟨1, -1, 1⟩, ⟨1, 1, 1⟩, ⟨-1, 1, 1⟩]
  | .prism => [⟨-1, -1, -1⟩, ⟨1, -1, -1⟩, ⟨1, 1, -1⟩, ⟨-1, 1, -1⟩, ⟨-1, -1, 1⟩, ⟨-1, 1, 1⟩]
  | .pyr => [⟨-1, -1, -1⟩, ⟨1, -1, -1⟩, ⟨1, 1, -1⟩, ⟨-1, 1, -1⟩, ⟨-1, -1, 1⟩]
  | .tet => [⟨-1, -1, -1⟩, ⟨1, -1, -1⟩, ⟨-1, 1, -1⟩, ⟨-1, -1, 1⟩]

/-- The weights of the vertices at a point of the reference element. The quadrilateral and the hexahedron have the products of the linear functions
of each direction; the tetrahedron the barycentric coordinates; the prism the products of the barycentric coordinates of its triangle (directions 0
and 2) and the linear functions of direction 1; the pyramid those of its base in the collapsed coordinates `2 (1 + ξ) / (1 - ξ₂) - 1`. -/
def weights : Shape → V3 K → List K
  | .quad, ⟨x, y, _⟩ => [(1 - x) / 2 * ((1 - y) / 2), (1 + x) / 2 * ((1 - y) / 2), (1 + x) / 2 * ((1 + y) / 2), (1 - x) / 2 * ((1 + y) / 2)]
  | .hex, ⟨x, y, z⟩ => [
      (1 - x) / 2 * ((1 - y) / 2) * ((1 - z) / 2), (1 + x) / 2 * ((1 - y) / 2) * ((1 - z) / 2),
      (1 + x) / 2 * ((1 + y) / 2) * ((1 - z) / 2), (1 - x) / 2 * ((1 + y) / 2) * ((1 - z) / 2),
      (1 - x) / 2 * ((1 - y) / 2) * ((1 + z) / 2), (1 + x) / 2 * ((1 - y) / 2) * ((1 + z) / 2),
      (1 + x) / 2 * ((1 + y) / 2) * ((1 + z) / 2), (1 - x) / 2 * ((1 + y) / 2) * ((1 + z) / 2)]
  | .prism, ⟨x, y, z⟩ => [
      (-(x + z) / 2) * ((1 - y) / 2), (1 + x) / 2 * ((1 - y) / 2), (1 + x) / 2 * ((1 + y) / 2), (-(x + z) / 2) * ((1 + y) / 2),
      (1 + z) / 2 * ((1 - y) / 2), (1 + z) / 2 * ((1 + y) / 2)]
  | .pyr, ⟨x, y, z⟩ =>
      let a := 2 * (1 + x) / (1 - z) - 1
      let b := 2 * (1 + y) / (1 - z) - 1
      [(1 - a) / 2 * ((1 - b) / 2) * ((1 - z) / 2), (1 + a) / 2 * ((1 - b) / 2) * ((1 - z) / 2),
       (1 + a) / 2 * ((1 + b) / 2) * ((1 - z) / 2), (1 - a) / 2 * ((1 + b) / 2) * ((1 - z) / 2), (1 + z) / 2]
  | .tet, ⟨x, y, z⟩ => [-(1 + x + y + z) / 2, (1 + x) / 2, (1 + y) / 2, (1 + z) / 2]

/-- The sum of the vertices with weights, from vertex `k` on. -/
def weightedFrom (c : ℕ → V3 K) : ℕ → List K → V3 K
  | _, [] => ⟨0, 0, 0⟩
  | k, w :: l => let r := weightedFrom c (k + 1) l; ⟨w * (c k).x + r.x, w * (c k).y + r.y, w * (c k).z + r.z⟩

/-- The map of the element with vertices `c`. -/
def X (s : Shape) (c : ℕ → V3 K) (xi : V3 K) : V3 K := weightedFrom c 0 (weights s xi)

/-- The components. -/
def V3.get {α : Type*} (v : V3 α) : Fin 3 → α := ![v.x, v.y, v.z]

/-- A vector with a component replaced. -/
def V3.put {α : Type*} (v : V3 α) (j : Fin 3) (t : α) : V3 α := ![⟨t, v.y, v.z⟩, ⟨v.x, t, v.z⟩, ⟨v.x, v.y, t⟩] j

/-- `J` is the matrix of the partial derivatives of `X` at `xi`. -/
def IsJacobian (X : V3 ℝ → V3 ℝ) (xi : V3 ℝ) (J : Matrix (Fin 3) (Fin 3) ℝ) : Prop :=
  ∀ i j, HasDerivAt (fun t => V3.get (X (V3.put xi j t)) i) (J i j) (V3.get xi j)

/-- The first two directions only. -/
def IsJacobian2 (X : V3 ℝ → V3 ℝ) (xi : V3 ℝ) (J : Matrix (Fin 2) (Fin 2) ℝ) : Prop :=
  ∀ i j : Fin 2, HasDerivAt (fun t => V3.get (X (V3.put xi (Fin.castSucc j) t)) (Fin.castSucc i)) (J i j) (V3.get xi (Fin.castSucc j))

end Verif.Spec.LinearElements
