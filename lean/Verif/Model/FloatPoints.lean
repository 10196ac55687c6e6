import Mathlib.Data.Real.Basic

/-!
Model of the positions of the points of a source line, `/repo/include/particle_utility/particle_initialisation_line.hpp`, and of the probes of `/repo/solvers/Electrostatic2D3V/Diagnostics/LineFieldEvaluations.hpp`,
in floating point arithmetic: each operation is followed by a rounding `rnd`, except for products which the compiler fuses with the sum they are part of. The integers are exact in double. Overflow, infinities and NaN are
not modelled.
-/

namespace Verif.Model.FloatPoints

/-- One coordinate of the point `i` of a line, particle_initialisation_line.hpp:77-82, 88-93. `fused` tells whether the product is fused with the sum. -/
noncomputable def linePointF (rnd : ℝ → ℝ) (fused : Bool) (npoints : ℕ) (lineStart lineEnd : ℝ) (i : ℕ) : ℝ :=
  let ih := rnd (1 / (npoints : ℝ))
  let r_step := rnd (rnd (lineEnd - lineStart) * ih)
  rnd (lineStart + if fused then (i : ℝ) * r_step else rnd ((i : ℝ) * r_step))

/-- One coordinate of the probes with the index `i` of `n` in this direction, LineFieldEvaluations.hpp:138-160. `extent` is the computed extent of the domain. -/
noncomputable def probeF (rnd : ℝ → ℝ) (c : ℕ → Bool) (origin extent : ℝ) (n i : ℕ) : ℝ :=
  let h := rnd (extent / (n : ℝ))
  let init_pos := rnd (origin + if c 0 then (1 / 2) * h else rnd ((1 / 2) * h))
  rnd (init_pos + if c 1 then (i : ℝ) * h else rnd ((i : ℝ) * h))

end Verif.Model.FloatPoints
