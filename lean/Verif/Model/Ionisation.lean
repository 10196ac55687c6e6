import Mathlib.Analysis.SpecialFunctions.Pow.Real
import Mathlib.Analysis.SpecialFunctions.Log.Basic
import Mathlib.Analysis.SpecialFunctions.Sqrt

/-!
Model of the ionisation kernels of the two neutral particle systems
(`/repo/solvers/SimpleSOL/ParticleSystems/NeutralParticleSystem.hpp` and
`/repo/solvers/DriftReduced/ParticleSystems/NeutralParticleSystem.hpp`) and of
`/repo/solvers/common/solver_utils.hpp`.

Simplifications: `double` is the real numbers; `sycl::exp`, `sycl::log`, `sycl::sqrt` and `sycl::pow` are the real
functions. A result that is not finite in the code (non-positive temperature) is the outcome `none`.
-/

namespace Verif.Model.Ionisation

/-- `gamma_Euler_Mascheroni`, solver_utils.hpp:15. -/
noncomputable def gammaEM : ℝ := 5772156649015329 / 10000000000000000

/-- `G`, solver_utils.hpp:16. -/
noncomputable def barryG : ℝ := Real.exp (-gammaEM)

/-- `b`, solver_utils.hpp:17. -/
noncomputable def barryB : ℝ := Real.sqrt (2 * (1 - barryG) / barryG / (2 - barryG))

/-- `h_inf`, solver_utils.hpp:18-19. -/
noncomputable def barryHInf : ℝ :=
  (1 - barryG) * (barryG * barryG - 6 * barryG + 12) / (3 * barryG * ((2 - barryG) * (2 - barryG)) * barryB)

/-- `q`, solver_utils.hpp:20. -/
noncomputable def barryQ (x : ℝ) : ℝ := 20 / 47 * x ^ Real.sqrt (31 / 26)

/-- `h`, solver_utils.hpp:21. -/
noncomputable def barryH (x : ℝ) : ℝ := 1 / (1 + x * Real.sqrt x) + barryHInf * barryQ x / (1 + barryQ x)

/-- The argument of the logarithm, solver_utils.hpp:23. -/
noncomputable def barryLogArg (x : ℝ) : ℝ :=
  1 + barryG / x - (1 - barryG) / ((barryH x + barryB * x) * (barryH x + barryB * x))

/-- `expint_barry_approx`, solver_utils.hpp:14-25. -/
noncomputable def expintBarry (x : ℝ) : ℝ :=
  Real.exp (-x) / (barryG + (1 - barryG) * Real.exp (-(x / (1 - barryG)))) * Real.log (barryLogArg x)

/-- The ionisation rate at the temperature `TeV`: SimpleSOL/ParticleSystems/NeutralParticleSystem.hpp:451-462, 479-483 and DriftReduced/ParticleSystems/NeutralParticleSystem.hpp:464-482 (the same
formula). `none` where the code divides by zero or takes the root of a negative number. -/
noncomputable def ionRate (TeV : ℝ) : Option ℝ :=
  if TeV ≤ 0 then none else
  let a_i : ℝ := 4 / 10 ^ 14
  let b_i : ℝ := 6 / 10
  let c_i : ℝ := 56 / 100
  let E_i : ℝ := 136 / 10
  let q_i : ℝ := 1
  let b_i_expc_i := b_i * Real.exp c_i
  let rateFactor := -q_i * (67 * 10 ^ 6) * a_i * (1 / 10 ^ 6)
  let invratio := E_i / TeV
  some (-rateFactor / (TeV * Real.sqrt TeV) *
    (expintBarry invratio / invratio + (b_i_expc_i / (invratio + c_i)) * expintBarry (invratio + c_i)))

/-- The part of a particle the ionisation kernels read and write (SimpleSOL/ParticleSystems/NeutralParticleSystem.hpp and DriftReduced/ParticleSystems/NeutralParticleSystem.hpp `init_spec`).
Simplification: `PARTICLE_ID` is its component 0, the one that is compared with `particle_remove_key`; the
position is kept as a pair (the third component of the DriftReduced system plays no role here). SimpleSOL: lines 279-321; DriftReduced: lines 232-252. -/
structure Particle where
  pos : ℝ × ℝ
  vel : ℝ × ℝ
  id : ℤ
  weight : ℝ
  sourceDensity : ℝ
  sourceMomentum : ℝ × ℝ
  sourceEnergy : ℝ

/-- `particle_remove_key`, SimpleSOL/ParticleSystems/NeutralParticleSystem.hpp:124, DriftReduced/ParticleSystems/NeutralParticleSystem.hpp:35. -/
def removeKey : ℤ := -1

/-- The unit conversions and the angle used by `ionise`. SimpleSOL/ParticleSystems/NeutralParticleSystem.hpp:89, 133-135. -/
structure Params where
  tToSI : ℝ
  nToSI : ℝ
  theta : ℝ

/-- The weight change of one particle, SimpleSOL/ParticleSystems/NeutralParticleSystem.hpp:487-499, DriftReduced/ParticleSystems/NeutralParticleSystem.hpp:493-505: the new identity, the (adjusted) change of
the weight and the new weight. -/
noncomputable def weightChange (rate dtSI nSI : ℝ) (id : ℤ) (weight : ℝ) : ℤ × ℝ × ℝ :=
  let deltaweight := -rate * weight * dtSI * nSI
  if weight + deltaweight ≤ 0 then (removeKey, -weight, weight + -weight)
  else (id, deltaweight, weight + deltaweight)

/-- The kernel of `ionise` of the SimpleSOL system, SimpleSOL/ParticleSystems/NeutralParticleSystem.hpp:473-514. `nSI`, `TeV` are the values which
`evaluate_fields` (SimpleSOL/ParticleSystems/NeutralParticleSystem.hpp:412-436) stored on the particle. -/
noncomputable def ioniseSOL (prm : Params) (dt nSI TeV : ℝ) (p : Particle) : Option Particle :=
  match ionRate TeV with
  | none => none
  | some rate =>
    let nScale := 1 / prm.nToSI
    let w := weightChange rate (dt * prm.tToSI) nSI p.id p.weight
    let sd := -w.2.1 * nScale / dt
    let vs := p.vel.1 * Real.cos prm.theta + p.vel.2 * Real.sin prm.theta
    some { p with
      id := w.1
      weight := w.2.2
      sourceDensity := sd
      sourceMomentum := (sd * vs * Real.cos prm.theta, sd * vs * Real.sin prm.theta)
      sourceEnergy := sd * vs * vs * (1 / 2) }

/-- The kernel of `ionise` of the DriftReduced system, DriftReduced/ParticleSystems/NeutralParticleSystem.hpp:488-508. The temperature is a constant of the
system; `nSI` is the value which `evaluate_fields` (DriftReduced/ParticleSystems/NeutralParticleSystem.hpp:387-402) stored on the particle. -/
noncomputable def ioniseDR (prm : Params) (TeV dt nSI : ℝ) (p : Particle) : Option Particle :=
  match ionRate TeV with
  | none => none
  | some rate =>
    let nScale := 1 / prm.nToSI
    let w := weightChange rate (dt * prm.tToSI) nSI p.id p.weight
    some { p with
      id := w.1
      weight := w.2.2
      sourceDensity := -w.2.1 * nScale / dt }

end Verif.Model.Ionisation
