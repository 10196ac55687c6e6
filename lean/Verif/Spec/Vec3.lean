import Mathlib.Algebra.Order.Field.Basic

/-! Vectors with three components: the textbook definitions used in specifications. -/

namespace Verif.Spec

/-- A point or vector of three-dimensional space. -/
@[ext] structure V3 (K : Type*) where
  x : K
  y : K
  z : K

namespace V3
variable {K : Type*}

/-- Sum. -/
def add [Add K] (a b : V3 K) : V3 K := ⟨a.x + b.x, a.y + b.y, a.z + b.z⟩
/-- Difference. -/
def sub [Sub K] (a b : V3 K) : V3 K := ⟨a.x - b.x, a.y - b.y, a.z - b.z⟩
/-- Multiplication with a scalar. -/
def smul [Mul K] (c : K) (a : V3 K) : V3 K := ⟨c * a.x, c * a.y, c * a.z⟩
/-- Scalar product. -/
def dot [Mul K] [Add K] (a b : V3 K) : K := a.x * b.x + a.y * b.y + a.z * b.z
/-- Vector product. -/
def cross [Mul K] [Sub K] (a b : V3 K) : V3 K :=
  ⟨a.y * b.z - a.z * b.y, a.z * b.x - a.x * b.z, a.x * b.y - a.y * b.x⟩
/-- Zero. -/
def zero [Zero K] : V3 K := ⟨0, 0, 0⟩

end V3
end Verif.Spec
