import Verif.Model.FloatKernels
import Verif.Model.Ionisation

/-!
Model of the ionisation kernels of the neutral particle systems in floating point arithmetic: each operation is followed by a rounding `rnd`. Comparisons and negation
are exact. The rate (solvers/SimpleSOL/ParticleSystems/NeutralParticleSystem.hpp:479-483), the sine and the cosine are any floating point numbers. Overflow, infinities and NaN are not modelled.
-/

namespace Verif.Model.FloatIonisation
open Verif.Model.FloatKernels

/-- Which of the sums a compiler contracts with the preceding multiplication to a fused operation: the sum of the test (SimpleSOL/ParticleSystems/NeutralParticleSystem.hpp:494,
DriftReduced/ParticleSystems/NeutralParticleSystem.hpp:500), the sum of the update (lines 500 and 506), the sum of the velocity (line 506 of the SimpleSOL system). -/
structure Contract where
  test : Bool
  update : Bool
  velocity : Bool

/-- The constants of one call of `ionise`: `dt`, `t_to_SI`, `n_to_SI`, `cos(theta)`, `sin(theta)`. SimpleSOL/ParticleSystems/NeutralParticleSystem.hpp:448-450, 467-468. -/
structure Params where
  dt : ℝ
  tToSI : ℝ
  nToSI : ℝ
  cosTheta : ℝ
  sinTheta : ℝ

/-- `k_dt_SI`, SimpleSOL/ParticleSystems/NeutralParticleSystem.hpp:449, DriftReduced/ParticleSystems/NeutralParticleSystem.hpp:462. -/
noncomputable def dtSI (rnd : ℝ → ℝ) (prm : Params) : ℝ := rnd (prm.dt * prm.tToSI)

/-- `k_n_scale`, SimpleSOL/ParticleSystems/NeutralParticleSystem.hpp:450, DriftReduced/ParticleSystems/NeutralParticleSystem.hpp:463. -/
noncomputable def nScale (rnd : ℝ → ℝ) (prm : Params) : ℝ := rnd (1 / prm.nToSI)

/-- `n_SI`: the evaluated density `n` in SI units, `evaluate_fields` SimpleSOL/ParticleSystems/NeutralParticleSystem.hpp:430-431, 478 and DriftReduced/ParticleSystems/NeutralParticleSystem.hpp:387-402, 491. -/
noncomputable def densitySI (rnd : ℝ → ℝ) (prm : Params) (n : ℝ) : ℝ := rnd (n * prm.nToSI)

/-- `-rate * weight * k_dt_SI`: the part of `deltaweight` without its last factor. SimpleSOL/ParticleSystems/NeutralParticleSystem.hpp:487, DriftReduced/ParticleSystems/NeutralParticleSystem.hpp:493. -/
noncomputable def deltaPart (rnd : ℝ → ℝ) (rate weight dtSI : ℝ) : ℝ := rnd (rnd (-rate * weight) * dtSI)

/-- The identity, `deltaweight` and the weight after the call. SimpleSOL/ParticleSystems/NeutralParticleSystem.hpp:487-500, DriftReduced/ParticleSystems/NeutralParticleSystem.hpp:493-506. -/
noncomputable def weightF (rnd : ℝ → ℝ) (c : Contract) (rate dtSI nSI : ℝ) (id : ℤ) (weight : ℝ) : ℤ × ℝ × ℝ :=
  let x := deltaPart rnd rate weight dtSI
  let deltaweight := rnd (x * nSI)
  if mulAdd rnd c.test x nSI weight ≤ 0 then (Ionisation.removeKey, -weight, rnd (weight + -weight))
  else (id, deltaweight, mulAdd rnd c.update x nSI weight)

/-- `k_SD`, SimpleSOL/ParticleSystems/NeutralParticleSystem.hpp:502, DriftReduced/ParticleSystems/NeutralParticleSystem.hpp:508. -/
noncomputable def sourceF (rnd : ℝ → ℝ) (prm : Params) (deltaweight : ℝ) : ℝ := rnd (rnd (-deltaweight * nScale rnd prm) / prm.dt)

/-- `v_s`, SimpleSOL/ParticleSystems/NeutralParticleSystem.hpp:506-507. -/
noncomputable def alongF (rnd : ℝ → ℝ) (c : Contract) (prm : Params) (v : ℝ × ℝ) : ℝ :=
  mulAdd rnd c.velocity v.1 prm.cosTheta (rnd (v.2 * prm.sinTheta))

/-- The kernel of `ionise` of the SimpleSOL system, SimpleSOL/ParticleSystems/NeutralParticleSystem.hpp:473-514: `rate` and `n` are the rate and the density at the particle. -/
noncomputable def ioniseSOL (rnd : ℝ → ℝ) (c : Contract) (prm : Params) (rate n : ℝ) (p : Ionisation.Particle) : Ionisation.Particle :=
  let w := weightF rnd c rate (dtSI rnd prm) (densitySI rnd prm n) p.id p.weight
  let sd := sourceF rnd prm w.2.1
  let vs := alongF rnd c prm p.vel
  { p with
    id := w.1
    weight := w.2.2
    sourceDensity := sd
    sourceMomentum := (rnd (rnd (sd * vs) * prm.cosTheta), rnd (rnd (sd * vs) * prm.sinTheta))
    sourceEnergy := rnd (rnd (rnd (sd * vs) * vs) * (1 / 2)) }

/-- The kernel of `ionise` of the DriftReduced system, DriftReduced/ParticleSystems/NeutralParticleSystem.hpp:488-509. -/
noncomputable def ioniseDR (rnd : ℝ → ℝ) (c : Contract) (prm : Params) (rate n : ℝ) (p : Ionisation.Particle) : Ionisation.Particle :=
  let w := weightF rnd c rate (dtSI rnd prm) (densitySI rnd prm n) p.id p.weight
  { p with
    id := w.1
    weight := w.2.2
    sourceDensity := sourceF rnd prm w.2.1 }

/-- One call of either kernel (`sol`: SimpleSOL/ParticleSystems/NeutralParticleSystem.hpp:473-514, otherwise DriftReduced/ParticleSystems/NeutralParticleSystem.hpp:488-509). -/
noncomputable def ionise (rnd : ℝ → ℝ) (sol : Bool) (c : Contract) (prm : Params) (rate n : ℝ) (p : Ionisation.Particle) : Ionisation.Particle :=
  if sol then ioniseSOL rnd c prm rate n p else ioniseDR rnd c prm rate n p

/-- The particle after several calls with the step sizes, rates and densities in the list, and the number the fluid has received according to its density source:
`dt * n_to_SI * SOURCE_DENSITY` in each step, summed exactly. SimpleSOL/ParticleSystems/NeutralParticleSystem.hpp:364-370, DriftReduced/ParticleSystems/NeutralParticleSystem.hpp:166-171: the callers of `ionise`.
Simplification: the removal of marked particles is modelled in C64, here a marked particle is kept. -/
noncomputable def ioniseSteps (rnd : ℝ → ℝ) (sol : Bool) (c : Contract) (prm : Params) : List (ℝ × ℝ × ℝ) → Ionisation.Particle → Ionisation.Particle × ℝ
  | [], p => (p, 0)
  | (dt, rate, n) :: l, p =>
    let p' := ionise rnd sol c { prm with dt := dt } rate n p
    let r := ioniseSteps rnd sol c prm l p'
    (r.1, dt * (prm.nToSI * p'.sourceDensity) + r.2)

end Verif.Model.FloatIonisation
