import Verif.Spec.FieldCoupling
import Verif.Spec.LinearElements

/-!
The vertex modes of an element and the functions they span, for C86: which mode belongs to which vertex (assumptions about the ordering of Nektar++), the value at a point
of the reference element of the function that interpolates values given at the vertices, and integrals by quadrature.
-/

namespace Verif.Spec.VertexModes
open Verif.Spec Verif.Model Verif.Model.BasisReference Verif.Model.FieldCoupling Verif.Spec.FieldCoupling Verif.Props.C13
open Verif.Model.NewtonKernel (V3)

/-- The modes `(p, q, r)` of an element with `n` modes in each direction, in the order of its coefficients. -/
def modesOf : Shape → ℕ → List (ℕ × ℕ × ℕ)
  | .tri, n => (modesB n).map fun m => (m.1, m.2, 0)
  | .quad, n => (List.range n).flatMap fun q => (List.range n).map fun p => (p, q, 0)
  | .hex, n => (List.range n).flatMap fun r => (List.range n).flatMap fun q => (List.range n).map fun p => (p, q, r)
  | .prism, n => (List.range n).flatMap fun p => (List.range n).flatMap fun q => (List.range (n - p)).map fun r => (p, q, r)
  | .pyr, n => modesPyr n
  | .tet, n => modesC n

/-- The vertex (numbered as in Nektar++) that a mode belongs to, if it is a vertex mode. -/
def vertexOf : Shape → ℕ × ℕ × ℕ → Option ℕ
  | .tri, (0, 0, _) => some 0
  | .tri, (1, 0, _) => some 1
  | .tri, (0, 1, _) => some 2
  | .quad, (0, 0, _) => some 0
  | .quad, (1, 0, _) => some 1
  | .quad, (1, 1, _) => some 2
  | .quad, (0, 1, _) => some 3
  | .hex, (0, 0, 0) => some 0
  | .hex, (1, 0, 0) => some 1
  | .hex, (1, 1, 0) => some 2
  | .hex, (0, 1, 0) => some 3
  | .hex, (0, 0, 1) => some 4
  | .hex, (1, 0, 1) => some 5
  | .hex, (1, 1, 1) => some 6
  | .hex, (0, 1, 1) => some 7
  | .prism, (0, 0, 0) => some 0
  | .prism, (1, 0, 0) => some 1
  | .prism, (1, 1, 0) => some 2
  | .prism, (0, 1, 0) => some 3
  | .prism, (0, 0, 1) => some 4
  | .prism, (0, 1, 1) => some 5
  | .pyr, (0, 0, 0) => some 0
  | .pyr, (1, 0, 0) => some 1
  | .pyr, (1, 1, 0) => some 2
  | .pyr, (0, 1, 0) => some 3
  | .pyr, (0, 0, 1) => some 4
  | .tet, (0, 0, 0) => some 0
  | .tet, (1, 0, 0) => some 1
  | .tet, (0, 1, 0) => some 2
  | .tet, (0, 0, 1) => some 3
  | _, _ => none

variable {K : Type*} [Field K]

/-- The coefficients of an element whose vertex modes have the values `a v` and all other modes zero. -/
def vertexCoeffs (shape : Shape) (n : ℕ) (a : ℕ → K) : List K :=
  (modesOf shape n).map fun m => ((vertexOf shape m).map a).getD 0

/-- The weights of the vertices of a straight-sided element at a point of the reference element: the barycentric coordinates of a triangle, and those of
Spec/LinearElements.lean. -/
def shapeFunctions : Shape → K × K × K → List K
  | .tri, x => [-(x.1 + x.2.1) / 2, (1 + x.1) / 2, (1 + x.2.1) / 2]
  | .quad, x => LinearElements.weights .quad ⟨x.1, x.2.1, x.2.2⟩
  | .hex, x => LinearElements.weights .hex ⟨x.1, x.2.1, x.2.2⟩
  | .prism, x => LinearElements.weights .prism ⟨x.1, x.2.1, x.2.2⟩
  | .pyr, x => LinearElements.weights .pyr ⟨x.1, x.2.1, x.2.2⟩
  | .tet, x => LinearElements.weights .tet ⟨x.1, x.2.1, x.2.2⟩

/-- The value at `x` of the function that interpolates the values `a v` at the vertices. With the coordinates of the vertices this is the position of the point in the
straight-sided element. -/
def interpolate (shape : Shape) (a : ℕ → K) (x : K × K × K) : K :=
  (List.zipWith (· * ·) ((List.range (shapeFunctions shape x).length).map a) (shapeFunctions shape x)).sum

/-- The point is not the apex of a pyramid, where the weights are not defined. -/
def NotApex : Shape → K × K × K → Prop
  | .pyr, x => x.2.2 ≠ 1
  | _, _ => True

/-- The vector of coefficients of a field of `N` coefficients that interpolates the values `a e v` at the vertices `v` of each element `e`. -/
structure IsVertexField (exps : List Expansion) (N : ℕ) (a : Expansion → ℕ → K) (v : List K) : Prop where
  length : v.length = N
  coeffs : ∀ e ∈ exps, ∀ k < e.ncoeffs, v.getD (e.offset + k) 0 = (vertexCoeffs e.shape (order e) (a e)).getD k 0

/-- The blocks of coefficients of different expansions do not overlap. -/
def DisjointBlocks (exps : List Expansion) : Prop :=
  ∀ e ∈ exps, ∀ e' ∈ exps, e.elmtId ≠ e'.elmtId → e.offset + e.ncoeffs ≤ e'.offset ∨ e'.offset + e'.ncoeffs ≤ e.offset

/-- A point of a quadrature rule in an element: its weight (times the Jacobian), its reference position and its collapsed coordinates. -/
structure QPoint (K : Type*) where
  w : K
  xi : K × K × K
  eta : K × K × K

/-- The integral over the mesh of a function times the function with coefficients `u`. -/
def integral [DecidableEq K] (exps : List Expansion) (rule : Expansion → List (QPoint K)) (g : Expansion → QPoint K → K) (u : List K) : K :=
  (exps.map fun e => ((rule e).map fun p => p.w * g e p * valueAt e p.eta u).sum).sum

/-- The `L²` inner product of two functions, by quadrature. -/
def inner [DecidableEq K] (exps : List Expansion) (rule : Expansion → List (QPoint K)) (v u : List K) : K :=
  integral exps rule (fun e p => valueAt e p.eta v) u

end Verif.Spec.VertexModes
