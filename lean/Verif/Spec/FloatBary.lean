import Verif.Spec.Rounding
import Mathlib.Algebra.BigOperators.Group.Finset.Basic

/-! The interpolating polynomial and what is assumed of the points at which a function is given, for evaluations in floating point arithmetic. -/

namespace Verif.Spec.FloatBary
open Verif.Spec.Rounding

/-- The Lagrange polynomial of point `i` at `x`. -/
noncomputable def lagrange (n : ℕ) (z : ℕ → ℝ) (i : ℕ) (x : ℝ) : ℝ := ∏ j ∈ (Finset.range n).erase i, (x - z j) / (z i - z j)

/-- The Lebesgue function: how much the interpolant at `x` can exceed the values at the points. -/
noncomputable def lebesgue (n : ℕ) (z : ℕ → ℝ) (x : ℝ) : ℝ := ∑ i ∈ Finset.range n, |lagrange n z i x|

/-- The interpolating polynomial of the values `f` at `x`. -/
noncomputable def interpolant1 (n : ℕ) (z f : ℕ → ℝ) (x : ℝ) : ℝ := ∑ i ∈ Finset.range n, f i * lagrange n z i x

/-- The tensor product in two dimensions, with the first dimension running fastest. -/
noncomputable def interpolant2 (n0 n1 : ℕ) (z0 z1 f : ℕ → ℝ) (x y : ℝ) : ℝ :=
  ∑ j ∈ Finset.range n1, ∑ i ∈ Finset.range n0, f (j * n0 + i) * lagrange n0 z0 i x * lagrange n1 z1 j y

/-- The tensor product in three dimensions. -/
noncomputable def interpolant3 (n0 n1 n2 : ℕ) (z0 z1 z2 f : ℕ → ℝ) (x y w : ℝ) : ℝ :=
  ∑ k ∈ Finset.range n2, ∑ j ∈ Finset.range n1, ∑ i ∈ Finset.range n0,
    f (k * (n0 * n1) + j * n0 + i) * lagrange n0 z0 i x * lagrange n1 z1 j y * lagrange n2 z2 k w

/-- The finite values of `double`. -/
def Double (x : ℝ) : Prop := IsFloat 53 (-1074) x

/-- A rounding mode for `double`. -/
def DoubleRounding (rnd : ℝ → ℝ) : Prop := Rounding 53 (-1074) rnd

/-- Points and weights of a dimension, and a coordinate. The weights are the barycentric weights of the points up to a common factor and relative errors
of at most `ρ`. The coordinate is one of the points, or not closer to any of them than `2 ^ -300`. -/
structure Points (ρ : ℝ) (n : ℕ) (z bw : ℕ → ℝ) (x : ℝ) : Prop where
  pos : 0 < n
  z_double : ∀ i < n, Double (z i)
  bw_double : ∀ i < n, Double (bw i)
  x_double : Double x
  distinct : ∀ i < n, ∀ j < n, z i = z j → i = j
  weights : ∃ κ : ℝ, κ ≠ 0 ∧ ∀ i < n, |bw i - κ * (∏ j ∈ (Finset.range n).erase i, (z i - z j))⁻¹| ≤ ρ * |κ * (∏ j ∈ (Finset.range n).erase i, (z i - z j))⁻¹|
  size : ∀ i < n, (2 : ℝ) ^ (-300 : ℤ) ≤ |bw i| ∧ |bw i| ≤ (2 : ℝ) ^ (300 : ℤ)
  coordinate : (∃ j < n, x = z j) ∨ ∀ i < n, (2 : ℝ) ^ (-300 : ℤ) ≤ |z i - x| ∧ |z i - x| ≤ 4
  rho : 0 ≤ ρ

/-- A bound on the relative error of the computed weights. -/
noncomputable def weightError (ρ : ℝ) (n : ℕ) (z : ℕ → ℝ) (x : ℝ) : ℝ := 5 * (ρ + (n + 4) * (2 : ℝ) ^ (-52 : ℤ)) * lebesgue n z x

end Verif.Spec.FloatBary
