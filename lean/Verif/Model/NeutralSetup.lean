import Verif.Model.NeutralSystem
import Mathlib.Analysis.SpecialFunctions.Trigonometric.Basic

/-!
Model of the set up of the neutral particles: `set_up_particles` of
`/repo/solvers/SimpleSOL/ParticleSystems/NeutralParticleSystem.hpp:530-713` and
`/repo/solvers/DriftReduced/ParticleSystems/NeutralParticleSystem.hpp:76-136`, and the positions in `add_particles` of the latter.

Simplifications: `double` is the real numbers, a division by zero is `0`; the theorems assume non-zero divisors. The points of a line are the
subject of Model/Sampling.lean; the inverse error function is a parameter.
-/

namespace Verif.Model.NeutralSetup

/-! ### Units of the SimpleSOL system -/

/-- The scaling factors computed in SimpleSOL/ParticleSystems/NeutralParticleSystem.hpp:555-568. -/
structure Units where
  velToSI : ℝ
  TtoK : ℝ
  nToSI : ℝ
  TtoEV : ℝ
  tToSI : ℝ
  LtoSI : ℝ

/-- `mu_SI`, the mass of an ion: SimpleSOL/ParticleSystems/NeutralParticleSystem.hpp:542, 545, 554. -/
noncomputable def muSI : ℝ := 2 * (167 / 100 * (1 / 10 ^ 27))

/-- `kB_J_per_K`, SimpleSOL/ParticleSystems/NeutralParticleSystem.hpp:547. -/
noncomputable def kBJ : ℝ := 1380649 / 10 ^ 6 * (1 / 10 ^ 23)

/-- `kB_eV_per_K`, SimpleSOL/ParticleSystems/NeutralParticleSystem.hpp:546. -/
noncomputable def kBeV : ℝ := 8617333262 / 10 ^ 9 * (1 / 10 ^ 5)

/-- The conversion factors from the parameters `GasConstant`, `rhoInf`, `uInf` (default 1), SimpleSOL/ParticleSystems/NeutralParticleSystem.hpp:535-568. -/
noncomputable def units (gasConstant rhoInf uInf : Option ℝ) : Units :=
  let rs := gasConstant.getD 1
  let rho := rhoInf.getD 1
  let u := uInf.getD 1
  let rsSI := kBJ / muSI
  let rsToSI := rsSI / rs
  let velToSI := 30000 / u
  let TtoK := velToSI * velToSI / rsToSI
  { velToSI := velToSI, TtoK := TtoK, nToSI := 3 * 10 ^ 18 / rho, TtoEV := TtoK * kBeV, tToSI := 1 / velToSI, LtoSI := 1 }

/-! ### Weights -/

/-- The weight of a particle and the number density, from the parameter, the number of particles and the volume:
SimpleSOL/ParticleSystems/NeutralParticleSystem.hpp:602-613, DriftReduced/ParticleSystems/NeutralParticleSystem.hpp:107-121. -/
noncomputable def weightAndDensity (density : ℝ) (numParts : ℕ) (volume : ℝ) : ℝ × ℝ :=
  if density < 0 then (1, numParts / volume)
  else (if numParts = 0 then 0 else density * volume / numParts, density)

/-- `particle_region_volume` of the SimpleSOL system, SimpleSOL/ParticleSystems/NeutralParticleSystem.hpp:595-597 (`L_to_SI` is 1). -/
noncomputable def regionVolumeSOL (gaussianWidth xMax yMax : ℝ) : ℝ := gaussianWidth * 1 ^ 3 * xMax * yMax

/-- `particle_region_volume` of the DriftReduced system: a loop over the dimensions after the first,
DriftReduced/ParticleSystems/NeutralParticleSystem.hpp:100-103. -/
noncomputable def regionVolumeDR (extent : ℕ → ℝ) (ndim : ℕ) : ℝ :=
  (List.range (ndim - 1)).foldl (fun v k => v * extent (k + 1)) (extent 0)

/-! ### Source lines of the SimpleSOL system -/

/-- A line from one point to another. SimpleSOL/ParticleSystems/NeutralParticleSystem.hpp:625-626. -/
structure Line where
  first : ℝ × ℝ
  last : ℝ × ℝ

/-- What the session says about the sources, with the defaults of SimpleSOL/ParticleSystems/NeutralParticleSystem.hpp:577-593. -/
structure Sources where
  regionCount : ℤ
  offset : ℝ
  width : ℝ
  linesPerGaussian : ℤ
  theta : ℝ
  xMax : ℝ
  yMax : ℝ

/-- The defaults: SimpleSOL/ParticleSystems/NeutralParticleSystem.hpp:577-593. -/
noncomputable def defaults : Sources := ⟨2, 1 / 5, 1 / 1000, 3, 0, 110, 1⟩

/-- `region_lines`: one line in the middle, or two at the offset from both ends; `none` is the assertion.
SimpleSOL/ParticleSystems/NeutralParticleSystem.hpp:628-654. -/
noncomputable def regionLines (s : Sources) : Option (List Line) :=
  if s.regionCount = 1 then
    let mid := 1 / 2 * s.xMax
    some [⟨(mid, 0), (mid, s.yMax)⟩]
  else if s.regionCount = 2 then
    let lower := s.offset * s.xMax
    let upper := (1 - s.offset) * s.xMax
    some [⟨(lower, 0), (lower, s.yMax)⟩, ⟨(upper, 0), (upper, s.yMax)⟩]
  else none

/-- The lambda `rotate`, SimpleSOL/ParticleSystems/NeutralParticleSystem.hpp:657-665. -/
noncomputable def rotate (theta : ℝ) (p : ℝ × ℝ) : ℝ × ℝ :=
  (p.1 * Real.cos theta - p.2 * Real.sin theta, p.1 * Real.sin theta + p.2 * Real.cos theta)

/-- `expx`, SimpleSOL/ParticleSystems/NeutralParticleSystem.hpp:675. -/
noncomputable def expx (lineCounter : ℕ) (pslpg : ℝ) : ℝ := lineCounter * 2 / pslpg - 1 + 1 / pslpg

/-- The body of the inner loop: the shifted and rotated line. SimpleSOL/ParticleSystems/NeutralParticleSystem.hpp:668-680. -/
noncomputable def sourceLine (erfInv : ℝ → ℝ) (s : Sources) (region : Line) (lineCounter : ℕ) : Line :=
  let sigma := s.width * s.xMax
  let shift := erfInv (expx lineCounter s.linesPerGaussian) * 3 * sigma
  ⟨rotate s.theta (region.first.1 + shift, region.first.2), rotate s.theta (region.last.1 + shift, region.last.2)⟩

/-- `source_lines`: the double loop of SimpleSOL/ParticleSystems/NeutralParticleSystem.hpp:667-690. The bound of the inner loop is the converted
integer, so the body runs for `0 .. linesPerGaussian - 1` (never for negative values). -/
noncomputable def sourceLines (erfInv : ℝ → ℝ) (s : Sources) : Option (List Line) :=
  (regionLines s).map fun regions =>
    regions.flatMap fun region => (List.range s.linesPerGaussian.toNat).map fun c => sourceLine erfInv s region c

/-! ### Positions of the DriftReduced system -/

/-- `offsets` of `add_particles`, DriftReduced/ParticleSystems/NeutralParticleSystem.hpp:327-330. -/
noncomputable def centreDR (origin extent : ℕ → ℝ) (d : ℕ) : ℝ := if d = 2 then (extent 2 - origin 2) / 2 else 0

end Verif.Model.NeutralSetup
