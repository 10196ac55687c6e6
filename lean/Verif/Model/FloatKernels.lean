import Verif.Model.Trunc
import Verif.Model.CartesianMesh
import Mathlib.Data.Real.Archimedean

/-!
Models of kernels in floating point arithmetic: each operation is followed by a rounding `rnd`. Comparisons, negation, absolute values and `fmod` are exact.
Overflow, infinities and NaN are not modelled.
-/

namespace Verif.Model.FloatKernels
open Verif.Model

/-- `a * b + c`, which a compiler may contract to a fused operation with one rounding. IntegratorBorisUniformB.hpp:92-143. -/
noncomputable def mulAdd (rnd : ℝ → ℝ) (contract : Bool) (a b c : ℝ) : ℝ := if contract then rnd (a * b + c) else rnd (rnd (a * b) + c)

/-- `fmod(x, y)`, which IEEE 754 computes exactly. -/
noncomputable def fmodF (x y : ℝ) : ℝ := x - truncZ (x / y) * y

/-- The number of periods the kernel of `NektarCartesianPeriodic` adds, particle_boundary_conditions.cpp:64-66. -/
noncomputable def periods (rnd : ℝ → ℝ) (origin q : ℝ) : ℤ := truncZ (rnd (|rnd (q - origin)| + 2))

/-- The kernel of `NektarCartesianPeriodic` for one component, src/nektar_interface/particle_boundary_conditions.cpp:61-70. The conversion of `INT` to
`double` is rounded. -/
noncomputable def wrapF (rnd : ℝ → ℝ) (contract : Bool) (origin extent q : ℝ) : ℝ :=
  let pos := rnd (q - origin)
  let pos_fmod := fmodF (mulAdd rnd contract (rnd (periods rnd origin q)) extent pos) extent
  rnd (pos_fmod + origin)

/-! ### The sub steps of the neutral particle systems -/

/-- `dt_inner`, solvers/DriftReduced/ParticleSystems/NeutralParticleSystem.hpp:167 and solvers/SimpleSOL/ParticleSystems/NeutralParticleSystem.hpp:365. -/
noncomputable def stepSize (rnd : ℝ → ℝ) (timeEnd dt time : ℝ) : ℝ := min dt (rnd (timeEnd - time))

/-- `time_tmp += dt_inner`, lines 170 and 369. -/
noncomputable def nextTime (rnd : ℝ → ℝ) (timeEnd dt time : ℝ) : ℝ := rnd (time + stepSize rnd timeEnd dt time)

/-- The loops of lines 166-171 and 364-370: from `time` the loop ends after sub steps of the sizes in the list, at the last time. -/
inductive SubSteps (rnd : ℝ → ℝ) (timeEnd dt : ℝ) : ℝ → List ℝ → ℝ → Prop
  | done (t : ℝ) : ¬ t < timeEnd → SubSteps rnd timeEnd dt t [] t
  | step (t : ℝ) (ds : List ℝ) (t' : ℝ) : t < timeEnd → SubSteps rnd timeEnd dt (nextTime rnd timeEnd dt t) ds t' →
      SubSteps rnd timeEnd dt t (stepSize rnd timeEnd dt t :: ds) t'

end Verif.Model.FloatKernels
