import Verif.Model.Generic3D
import Verif.Spec.Interp
import Mathlib.Algebra.MvPolynomial.PDeriv
import Mathlib.LinearAlgebra.Matrix.Determinant.Basic
import Mathlib.Data.Fin.VecNotation

/-! What a curved element of Nektar++ looks like to `MappingGeneric3D` (assumptions about Nektar++), and its map, for C81. -/

namespace Verif.Spec.Generic3D
open Verif.Spec Verif.Model Verif.Model.Generic3D Verif.Model.NewtonKernel MvPolynomial

variable {K : Type*} [Field K]

/-- The expansion of the element's map has in each of the three directions distinct nodes with their barycentric weights; values at quadrature points come as arrays with one
entry for each point of the grid. `z` and `w` are the nodes and weights of the directions, `n` the numbers of nodes. -/
structure GeomOk (g : Geom3 K) (n : Fin 3 → ℕ) (z w : Fin 3 → List K) : Prop where
  base : g.base = [(z 0, w 0), (z 1, w 1), (z 2, w 2)]
  length : ∀ i, (z i).length = n i
  wlength : ∀ i, (w i).length = n i
  rule : ∀ i, BaryRule (n i) (z i) (w i)
  points : g.totPoints = n 0 * n 1 * n 2
  phys : ∀ i : Fin 3, (g.phys i).length = n 0 * n 1 * n 2
  deriv : ∀ i j : Fin 3, (g.deriv i j).length = n 0 * n 1 * n 2

/-- `F` is the polynomial in the collapsed coordinates, of degree below the number of nodes in each of them, that has the given values at the nodes. -/
def Interpolates (n : Fin 3 → ℕ) (z : Fin 3 → List K) (vals : List K) (F : K → K → K → K) : Prop :=
  NodalValues3 (n 0) (n 1) (n 2) (z 0) (z 1) (z 2) vals F ∧ ∃ c, F = poly3 (n 0) (n 1) (n 2) c

/-- The point of the reference element with collapsed coordinates `e0 e1 e2`. -/
def refPoint : Shape3 → K → K → K → Fin 3 → K
  | .hex, e0, e1, e2 => ![e0, e1, e2]
  | .prism, e0, e1, e2 => ![(1 + e0) * (1 - e2) / 2 - 1, e1, e2]
  | .pyr, e0, e1, e2 => ![(1 + e0) * (1 - e2) / 2 - 1, (1 + e1) * (1 - e2) / 2 - 1, e2]
  | .tet, e0, e1, e2 => ![(1 + e0) * (1 - e1) * (1 - e2) / 4 - 1, (1 + e1) * (1 - e2) / 2 - 1, e2]

/-- The exponents of the monomials in the local coordinates that are in the expansion space of a shape with the given numbers of modes. -/
def Admissible : Shape3 → (Fin 3 → ℕ) → (Fin 3 →₀ ℕ) → Prop
  | .hex, n, m => m 0 < n 0 ∧ m 1 < n 1 ∧ m 2 < n 2
  | .prism, n, m => m 0 < n 0 ∧ m 1 < n 1 ∧ m 0 + m 2 < n 2
  | .pyr, n, m => m 0 < n 0 ∧ m 1 < n 1 ∧ m 0 + m 1 + m 2 < n 2
  | .tet, n, m => m 0 < n 0 ∧ m 0 + m 1 < n 1 ∧ m 0 + m 1 + m 2 < n 2

/-- The element with the map `q` (a polynomial in the local coordinates for each coordinate): `q` is in the expansion space, `BwdTrans` of its coefficients gives the values of `q` at the
quadrature points, `PhysDeriv` the values of its partial derivatives. -/
structure PolynomialElement (s : Shape3) (g : Geom3 K) (n : Fin 3 → ℕ) (z : Fin 3 → List K) (q : Fin 3 → MvPolynomial (Fin 3) K) : Prop where
  space : ∀ i, ∀ m ∈ (q i).support, Admissible s n m
  phys : ∀ i : Fin 3, NodalValues3 (n 0) (n 1) (n 2) (z 0) (z 1) (z 2) (g.phys i) fun e0 e1 e2 => eval (refPoint s e0 e1 e2) (q i)
  deriv : ∀ i j : Fin 3, NodalValues3 (n 0) (n 1) (n 2) (z 0) (z 1) (z 2) (g.deriv i j) fun e0 e1 e2 => eval (refPoint s e0 e1 e2) (pderiv j (q i))

/-- The components of a vector. -/
def comp {α : Type*} (v : V3 α) : Fin 3 → α := ![v.x, v.y, v.z]

/-- The Jacobian matrix of the map at a point. -/
noncomputable def jacobian (q : Fin 3 → MvPolynomial (Fin 3) K) (x : V3 K) : Matrix (Fin 3) (Fin 3) K := fun i j => eval (comp x) (pderiv j (q i))

/-- Finite doubles. -/
def finite (v : V3 K) : V3 (Dbl K) := ⟨some v.x, some v.y, some v.z⟩

end Verif.Spec.Generic3D
