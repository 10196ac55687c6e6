import Verif.Spec.LinearElements

/-!
Specification of surfaces in three dimensions: the plane triangle and the bilinear quadrilateral surface.
-/

namespace Verif.Spec.Embedded
open Verif.Model.NewtonKernel (V3)

variable {K : Type*} [Field K]

/-- The point of a triangle with local coordinates `a`, `b`: the vertices with the barycentric weights `-(a + b) / 2`, `(1 + a) / 2`, `(1 + b) / 2`. -/
def triPoint (c : ℕ → V3 K) (a b : K) : V3 K := Verif.Spec.LinearElements.weightedFrom c 0 [-(a + b) / 2, (1 + a) / 2, (1 + b) / 2]

/-- The vertices are collinear: an edge is a multiple of the other, or is zero. -/
def Collinear (c : ℕ → V3 K) (i j : ℕ) : Prop :=
  ∃ s t : K, (s ≠ 0 ∨ t ≠ 0) ∧ s * ((c i).x - (c 0).x) + t * ((c j).x - (c 0).x) = 0 ∧ s * ((c i).y - (c 0).y) + t * ((c j).y - (c 0).y) = 0 ∧
    s * ((c i).z - (c 0).z) + t * ((c j).z - (c 0).z) = 0

/-- The point of the surface of a quadrilateral. -/
def quadPoint (c : ℕ → V3 K) (a b : K) : V3 K := Verif.Spec.LinearElements.X .quad c ⟨a, b, 0⟩

end Verif.Spec.Embedded
