import Verif.Model.PartSys
import Mathlib.Data.Real.Basic
import Mathlib.Analysis.SpecialFunctions.Trigonometric.Basic

/-!
Model of `ChargedParticles::add_particles` (/repo/solvers/Electrostatic2D3V/ParticleSystems/ChargedParticles.hpp:73-347) up to
the call of `add_particles_local`, and of `sobol_within_extents` (/repo/include/particle_utility/position_distribution.hpp:26-50).

Simplifications: `double` is the real numbers. The engines of the standard library and of Boost are arbitrary state machines
(`Env`); a draw of a Boost distribution from the Sobol engine takes one number of the engine. The later stepwise movement to
the owning ranks (`parallel_advection_*` of NESO-Particles) restores the positions and is not modelled here (transfers are the
subject of C90).
-/

namespace Verif.Model.InitialParticles
open Verif.Model.PartSys

/-- The external random numbers. `Rng` is the state of `std::mt19937`, ChargedParticles.hpp:84-92; `sobol seed k` is the `k`-th
number in [0,1) after `se.seed(seed)`, position_distribution.hpp:29-32; `uniformExtents` is `NP::uniform_within_extents`,
ChargedParticles.hpp:125-126; `erfInv` is `boost::math::erf_inv`, which throws (`none`) at and beyond ±1, ChargedParticles.hpp:263-265;
`vz` is what the constructor of `ParticleSet` leaves in the third component of `V`, ChargedParticles.hpp:101-102, 468-474. -/
structure Env where
  Rng : Type
  mt : ℤ → Rng
  coin : Rng → Bool × Rng
  u01 : Rng → ℝ × Rng
  sobol : ℤ → ℕ → ℝ
  uniformExtents : ℕ → (Fin 2 → ℝ) → Rng → (Fin 2 → ℕ → ℝ) × Rng
  erfInv : ℝ → Option ℝ
  vz : ℝ

/-- What the session file and the constructor provide: parameters with `none` if absent, ChargedParticles.hpp:84-98, 105-112, 131, 247-248;
the members `particle_charge`, `particle_mass`, the extents of `NektarCartesianPeriodic`. -/
structure Input where
  key : Option ℤ
  kind : Option ℤ
  initialVelocity : Option ℝ
  thermalVelocity : Option ℝ
  charge : ℝ
  mass : ℝ
  origin : Fin 2 → ℝ
  extent : Fin 2 → ℝ

/-- One row of the `ParticleSet`, ChargedParticles.hpp:467-474. -/
structure Particle where
  p : Fin 2 → ℝ
  v : Fin 3 → ℝ
  q : ℝ
  m : ℝ
  e : Fin 2 → ℝ
  cell : ℕ
  id : ℕ

/-- `sobol_within_extents`, position_distribution.hpp:26-50: the engine is advanced by `discard * ndim`, then gives the numbers of
the double loop over particles and dimensions one after the other; the result is indexed by dimension, then particle. -/
def sobolWithinExtents (env : Env) (extents : Fin 2 → ℝ) (discard : ℕ) (seed : ℤ) : Fin 2 → ℕ → ℝ :=
  fun d px => env.sobol seed (discard * 2 + (px * 2 + d)) * extents d

/-- The position, velocity, charge and mass a particle gets in the branches of ChargedParticles.hpp:129-314. -/
structure Phase where
  p : Fin 2 → ℝ
  v : Fin 3 → ℝ
  q : ℝ
  m : ℝ

/-- The branch for the key 0, "square in lower left", ChargedParticles.hpp:129-150. -/
noncomputable def key0 (env : Env) (i : Input) (v0 : ℝ) (pos : Fin 2 → ℕ → ℝ) (px : ℕ) (r : env.Rng) : Option (Phase × env.Rng) :=
  some (⟨fun d => (pos d px + i.origin d) * (1 / 4), ![v0, 0, env.vz], i.charge, i.mass⟩, r)

/-- The branch for the key 1, two streams at one and three quarters of the height, ChargedParticles.hpp:151-188. -/
noncomputable def key1 (env : Env) (i : Input) (v0 : ℝ) (pos : Fin 2 → ℕ → ℝ) (px : ℕ) (r : env.Rng) : Option (Phase × env.Rng) :=
  let (species, r) := env.coin r
  let y := i.extent 1 * (if species then 1 / 4 else 3 / 4) + i.origin 1
  let shift := 1 / 100 * (pos 1 px / i.extent 1) - 5 / 1000
  some (⟨![pos 0 px + i.origin 0, y + shift], ![if species then v0 else -1 * v0, 0, env.vz], i.charge, i.mass⟩, r)

/-- The branch for the key 2, the standard two stream set up, ChargedParticles.hpp:189-215. -/
noncomputable def key2 (env : Env) (i : Input) (v0 : ℝ) (pos : Fin 2 → ℕ → ℝ) (px : ℕ) (r : env.Rng) : Option (Phase × env.Rng) :=
  let (species, r) := env.coin r
  some (⟨![pos 0 px + i.origin 0, pos 1 px + i.origin 1], ![if species then v0 else -1 * v0, 0, env.vz], i.charge, i.mass⟩, r)

/-- The branch for the key 3, a heavy species of opposite charge at rest, ChargedParticles.hpp:216-241. -/
noncomputable def key3 (env : Env) (i : Input) (v0 : ℝ) (pos : Fin 2 → ℕ → ℝ) (px : ℕ) (r : env.Rng) : Option (Phase × env.Rng) :=
  let (species, r) := env.coin r
  some (⟨![pos 0 px + i.origin 0, pos 1 px + i.origin 1], ![if species then 0 else v0, 0, env.vz],
    if species then i.charge else -1 * i.charge, if species then i.mass * 1000000 else i.mass⟩, r)

/-- The body of the loop for the key 4, the Maxwellian with a tenth of the particles on a ring, ChargedParticles.hpp:242-288. -/
noncomputable def key4 (env : Env) (i : Input) (vth : ℝ) (pos : Fin 2 → ℕ → ℝ) (px : ℕ) (r : env.Rng) : Option (Phase × env.Rng) :=
  let (ux, r) := env.u01 r
  (env.erfInv (2 * ux - 1)).bind fun rvx =>
  let (uy, r) := env.u01 r
  (env.erfInv (2 * uy - 1)).bind fun rvy =>
  let (uz, r) := env.u01 r
  (env.erfInv (2 * uz - 1)).bind fun rvz =>
  let (ut, r) := env.u01 r
  let p := ![pos 0 px + i.origin 0, pos 1 px + i.origin 1]
  if ut > 1 / 10 then some (⟨p, ![vth * rvx, vth * rvy, vth * rvz], i.charge, i.mass⟩, r)
  else
    let (ua, r) := env.u01 r
    let theta := 2 * Real.pi * ua
    some (⟨p, ![vth * 0, vth * (4 * vth * Real.sin theta), vth * (4 * vth * Real.cos theta)], i.charge, i.mass⟩, r)

/-- The branch for the key 5, ChargedParticles.hpp:289-314. -/
noncomputable def key5 (env : Env) (i : Input) (v0 : ℝ) (pos : Fin 2 → ℕ → ℝ) (px : ℕ) (r : env.Rng) : Option (Phase × env.Rng) :=
  let (u, r) := env.u01 r
  some (⟨![pos 0 px + i.origin 0, pos 1 px + i.origin 1], ![v0, 1 + u, 0], i.charge, i.mass⟩, r)

/-- A loop `for (px = k; px < k + n; px++)` whose body draws random numbers. ChargedParticles.hpp:134, 156, 193, 220, 250, 293. -/
def rows {R : Type} (body : ℕ → R → Option (Phase × R)) : ℕ → ℕ → R → Option (List Phase)
  | _, 0, _ => some []
  | px, n + 1, r => (body px r).bind fun x => (rows body (px + 1) n x.2).map (x.1 :: ·)

/-- The chain of branches, ChargedParticles.hpp:129-314. A parameter is read (and its absence fails) only in the branch which uses it.
The key 4 draws positions of its own. -/
noncomputable def phases (env : Env) (i : Input) (key : ℤ) (pos : Fin 2 → ℕ → ℝ) (N : ℕ) (r : env.Rng) : Option (List Phase) :=
  if key = 0 then i.initialVelocity.bind fun v0 => rows (key0 env i v0 pos) 0 N r
  else if key = 1 then i.initialVelocity.bind fun v0 => rows (key1 env i v0 pos) 0 N r
  else if key = 2 then i.initialVelocity.bind fun v0 => rows (key2 env i v0 pos) 0 N r
  else if key = 3 then i.initialVelocity.bind fun v0 => rows (key3 env i v0 pos) 0 N r
  else if key = 4 then
    let (pos, r) := env.uniformExtents N i.extent r
    i.thermalVelocity.bind fun vth => rows (key4 env i vth pos) 0 N r
  else if key = 5 then i.initialVelocity.bind fun v0 => rows (key5 env i v0 pos) 0 N r
  else some []

/-- The positions drawn before the branches, ChargedParticles.hpp:104-127: type 0 (the default) is the Sobol sequence after the
`rstart` particles of the lower ranks, type 1 is uniform; other types fail an assertion. -/
noncomputable def positions (env : Env) (i : Input) (seed : ℤ) (N rstart : ℕ) (r : env.Rng) : Option ((Fin 2 → ℕ → ℝ) × env.Rng) :=
  let kind := i.kind.getD 0
  if kind ≥ 0 ∧ kind ≤ 1 then
    if kind = 0 then some (sobolWithinExtents env i.extent rstart seed, r)
    else some (env.uniformExtents N i.extent r)
  else none

/-- The loop of ChargedParticles.hpp:316-323, which sets the field, the cell and the identity. -/
def finish (cellCount rstart : ℕ) (l : List Phase) : List Particle :=
  l.zipIdx.map fun x => ⟨x.1.p, x.1.v, x.1.q, x.1.m, fun _ => 0, x.2 % cellCount, x.2 + rstart⟩

/-- `add_particles` on one rank: the particles it creates; `none` is an assertion, an exception or the remainder by zero of
ChargedParticles.hpp:320. `seed` is the value of ChargedParticles.hpp:84-87 on this rank. ChargedParticles.hpp:73-325. -/
noncomputable def addRank {size : ℕ} (env : Env) (D : Decomp size) (i : Input) (n : ℕ) (seed : ℤ) (cellCount : ℕ) (rank : Fin size) :
    Option (List Particle) :=
  let rstart := D.rstart n rank
  let N := D.rend n rank - rstart
  let rng := env.mt (seed + (rank : ℕ))
  i.key.bind fun key =>
  if key > -1 ∧ key < 6 then
    if N > 0 then
      (positions env i seed N rstart rng).bind fun x =>
      (phases env i key x.1 N x.2).bind fun l =>
      if cellCount = 0 then none else some (finish cellCount rstart l)
    else some []
  else none

end Verif.Model.InitialParticles
