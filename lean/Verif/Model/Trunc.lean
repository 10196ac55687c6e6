import Mathlib.Algebra.Order.Floor.Ring

/-! Conversions from floating point to integers. -/

namespace Verif.Model

/-- The C++ conversion `int i = x` from `double`: truncation toward zero. (Values outside of the
range of `int` are undefined behaviour in C++ and are not modelled.) Used for particle_boundary_conditions.cpp:66-69 and utility_mesh_cartesian.hpp. -/
def truncZ {K : Type*} [Field K] [LinearOrder K] [FloorRing K] (x : K) : ℤ :=
  if 0 ≤ x then ⌊x⌋ else ⌈x⌉

variable {K : Type*} [Field K] [LinearOrder K] [IsStrictOrderedRing K] [FloorRing K]

theorem truncZ_of_nonneg {x : K} (h : 0 ≤ x) : truncZ x = ⌊x⌋ := if_pos h

theorem truncZ_nonneg {x : K} (h : 0 ≤ x) : 0 ≤ truncZ x := by
  rw [truncZ_of_nonneg h]; exact Int.floor_nonneg.2 h

theorem truncZ_nonpos {x : K} (h : x ≤ 0) : truncZ x ≤ 0 := by
  unfold truncZ
  split_ifs with h0
  · have : x = 0 := le_antisymm h h0
    simp [this]
  · exact Int.ceil_le.2 (by simpa using h)

end Verif.Model
