import Verif.Model.Ionisation
import Verif.Model.Trunc
import Mathlib.Algebra.Order.Floor.Semiring
import Mathlib.Tactic.FieldSimp
import Mathlib.Tactic.Linarith
import Mathlib.Data.Int.Log

/-!
Model of the time integration of the two neutral particle systems, of their coupling to the fluid and of the mass
recording: `/repo/solvers/SimpleSOL/ParticleSystems/NeutralParticleSystem.hpp`,
`/repo/solvers/DriftReduced/ParticleSystems/NeutralParticleSystem.hpp`,
`/repo/solvers/SimpleSOL/EquationSystems/SOLWithParticlesSystem.cpp`,
`/repo/solvers/DriftReduced/EquationSystems/DriftReducedSystem.cpp`,
`/repo/solvers/SimpleSOL/Diagnostics/MassRecording.hpp`.

Simplifications: `double` is the real numbers. The particles of all ranks form one list: moving particles between
ranks and cells (`hybrid_move`, `cell_move`, NESO-Particles) changes none of the modelled properties, and the order of
the list is immaterial. What external code supplies (the sampled points and velocities, the periodic map of the
positions, the values of the plasma fields) is the argument `Env`, one for every sub step.
-/

namespace Verif.Model.NeutralSystem
open Verif.Model Verif.Model.Ionisation

/-- What the external code supplies during one sub step: the `i`-th sampled point, its velocity and the rank it is
created on, the periodic map of `NektarCartesianPeriodic`, and the density and temperature fields. SimpleSOL/ParticleSystems/NeutralParticleSystem.hpp:200-271, DriftReduced/ParticleSystems/NeutralParticleSystem.hpp:300-372. -/
structure Env where
  point : ℕ → ℝ × ℝ
  velocity : ℕ → ℝ × ℝ
  rank : ℕ → ℕ
  wrap : ℝ × ℝ → ℝ × ℝ
  fieldN : ℝ × ℝ → ℝ
  fieldT : ℝ × ℝ → ℝ

/-- Members of the particle systems that do not change after the set up: SimpleSOL/ParticleSystems/NeutralParticleSystem.hpp:95-141, DriftReduced/ParticleSystems/NeutralParticleSystem.hpp:131-137, 258-284. -/
structure Config where
  prm : Params
  numPartsTot : ℕ
  totalLines : ℕ
  particleWeight : ℝ
  unrotatedXMax : ℝ
  fullyPeriodic : Bool
  TtoEV : ℝ
  nBgSI : ℝ
  TeV : ℝ

/-- The mutable state; `clock` counts the sub steps done so far and selects the `Env` of the next one. SimpleSOL/ParticleSystems/NeutralParticleSystem.hpp:73-137, DriftReduced/ParticleSystems/NeutralParticleSystem.hpp:65-144. -/
structure Sys where
  particles : List Particle
  simulationTime : ℝ
  totalAdded : ℕ
  clock : ℕ

/-- A particle as created by `add_particles`, SimpleSOL/ParticleSystems/NeutralParticleSystem.hpp:239-266. Its source properties are those of a new
`ParticleSet`, zero. -/
def newParticle (cfg : Config) (env : Env) (i : ℕ) : Particle :=
  { pos := env.point i, vel := env.velocity i, id := env.rank i, weight := cfg.particleWeight,
    sourceDensity := 0, sourceMomentum := (0, 0), sourceEnergy := 0 }

/-- `num_particles_per_line`, SimpleSOL/ParticleSystems/NeutralParticleSystem.hpp:224-226: a conversion of a `double` to `int`. -/
noncomputable def particlesPerLine (cfg : Config) (addProportion : ℝ) : ℤ :=
  truncZ (addProportion * ((cfg.numPartsTot : ℝ) / (cfg.totalLines : ℝ)))

/-- `add_particles` of the SimpleSOL system over all ranks, SimpleSOL/ParticleSystems/NeutralParticleSystem.hpp:221-274: every line gets `num_particles_per_line`
points, each on one of the ranks (property C46). -/
noncomputable def addSOL (cfg : Config) (env : Env) (addProportion : ℝ) (s : Sys) : Sys :=
  let n := cfg.totalLines * (particlesPerLine cfg addProportion).toNat
  { s with particles := s.particles ++ (List.range n).map (newParticle cfg env), totalAdded := s.totalAdded + n }

/-- The kernel of `forward_euler`, SimpleSOL/ParticleSystems/NeutralParticleSystem.hpp:384-387. -/
noncomputable def euler (dt : ℝ) (p : Particle) : Particle :=
  { p with pos := (p.pos.1 + dt * p.vel.1, p.pos.2 + dt * p.vel.2) }

/-- The kernel of `wall_boundary_conditions`, SimpleSOL/ParticleSystems/NeutralParticleSystem.hpp:302-308. -/
noncomputable def markWall (cfg : Config) (p : Particle) : Particle :=
  if p.pos.1 < 0 ∨ p.pos.1 > 0 + cfg.unrotatedXMax then { p with id := removeKey } else p

/-- `remove_marked_particles`, SimpleSOL/ParticleSystems/NeutralParticleSystem.hpp:317-322, DriftReduced/ParticleSystems/NeutralParticleSystem.hpp:539-544. -/
def removeMarked (l : List Particle) : List Particle := l.filter fun p => p.id ≠ removeKey

/-- `boundary_conditions`, SimpleSOL/ParticleSystems/NeutralParticleSystem.hpp:327-332, with `wall_boundary_conditions`, SimpleSOL/ParticleSystems/NeutralParticleSystem.hpp:292-315. -/
noncomputable def boundarySOL (cfg : Config) (env : Env) (l : List Particle) : List Particle :=
  let l := if cfg.fullyPeriodic then l else removeMarked (l.map (markWall cfg))
  l.map fun p => { p with pos := env.wrap p.pos }

/-- `forward_euler` with `transfer_particles`, SimpleSOL/ParticleSystems/NeutralParticleSystem.hpp:380-399, 337-346. -/
noncomputable def forwardEulerSOL (cfg : Config) (env : Env) (dt : ℝ) (l : List Particle) : List Particle :=
  boundarySOL cfg env (l.map (euler dt))

/-- `ionise` of the SimpleSOL system, SimpleSOL/ParticleSystems/NeutralParticleSystem.hpp:443-528 with the unit conversion of `evaluate_fields`, SimpleSOL/ParticleSystems/NeutralParticleSystem.hpp:421-435. -/
noncomputable def ioniseAllSOL (cfg : Config) (env : Env) (dt : ℝ) (l : List Particle) : Option (List Particle) :=
  l.mapM fun p => ioniseSOL cfg.prm dt (env.fieldN p.pos * cfg.prm.nToSI) (env.fieldT p.pos * cfg.TtoEV) p

/-- One pass of the loop of `integrate`, SimpleSOL/ParticleSystems/NeutralParticleSystem.hpp:366-369; `dt` is the requested step, `dtInner` the step taken. -/
noncomputable def substepSOL (cfg : Config) (envs : ℕ → Env) (dt dtInner : ℝ) (s : Sys) : Option Sys :=
  let env := envs s.clock
  let s := addSOL cfg env (dtInner / dt) s
  match ioniseAllSOL cfg env dtInner (forwardEulerSOL cfg env dtInner s.particles) with
  | none => none
  | some l => some { s with particles := l, clock := s.clock + 1 }

theorem loop_decreases {t tEnd dt : ℝ} (h : t < tEnd) (hdt : 0 < dt) :
    ⌈(tEnd - (t + min dt (tEnd - t))) / dt⌉₊ < ⌈(tEnd - t) / dt⌉₊ := by
  have hx : 0 < (tEnd - t) / dt := div_pos (by linarith) hdt
  have hle : (tEnd - (t + min dt (tEnd - t))) / dt ≤ max ((tEnd - t) / dt - 1) 0 := by
    rcases min_cases dt (tEnd - t) with ⟨h1, h2⟩ | ⟨h1, h2⟩
    · rw [h1]
      apply le_max_of_le_left
      apply le_of_eq
      field_simp
      ring
    · rw [h1]
      apply le_max_of_le_right
      apply le_of_eq
      simp
  have h1 : 1 ≤ ⌈(tEnd - t) / dt⌉₊ := Nat.one_le_ceil_iff.mpr hx
  have h2 : (tEnd - t) / dt ≤ (⌈(tEnd - t) / dt⌉₊ : ℝ) := Nat.le_ceil _
  have h3 : ⌈(tEnd - (t + min dt (tEnd - t))) / dt⌉₊ ≤ ⌈(tEnd - t) / dt⌉₊ - 1 := by
    apply Nat.ceil_le.mpr
    rw [Nat.cast_sub h1, Nat.cast_one]
    refine hle.trans (max_le (by linarith) ?_)
    have : (1 : ℝ) ≤ (⌈(tEnd - t) / dt⌉₊ : ℝ) := by exact_mod_cast h1
    linarith
  omega

/-- The `while` loop of `integrate`, SimpleSOL/ParticleSystems/NeutralParticleSystem.hpp:365-371, DriftReduced/ParticleSystems/NeutralParticleSystem.hpp:165-171; `substep dtInner` is the body of the loop.
For a non-positive time step the loop does not end: the outcome `none`. -/
noncomputable def integrateLoop {S : Type*} (substep : ℝ → S → Option S) (tEnd dt t : ℝ) (s : S) : Option S :=
  if h : t < tEnd then
    if hdt : 0 < dt then
      let dtInner := min dt (tEnd - t)
      match substep dtInner s with
      | none => none
      | some s' => integrateLoop substep tEnd dt (t + dtInner) s'
    else none
  else some s
termination_by ⌈(tEnd - t) / dt⌉₊
decreasing_by exact loop_decreases h hdt

/-- `integrate` of the SimpleSOL system, SimpleSOL/ParticleSystems/NeutralParticleSystem.hpp:355-374. -/
noncomputable def integrateSOL (cfg : Config) (envs : ℕ → Env) (timeEnd dt : ℝ) (s : Sys) : Option Sys :=
  if timeEnd < s.simulationTime then none
  else if timeEnd = s.simulationTime then some s
  else (integrateLoop (substepSOL cfg envs dt) timeEnd dt s.simulationTime s).map
    fun s => { s with simulationTime := timeEnd }

/-- What `project_source_terms` hands to the projection onto the source fields: position, density, momentum and energy
source of every particle, SimpleSOL/ParticleSystems/NeutralParticleSystem.hpp:204-210 (the DriftReduced system only projects the density, DriftReduced/ParticleSystems/NeutralParticleSystem.hpp:183-185). -/
structure Deposit where
  pos : ℝ × ℝ
  density : ℝ
  momentum : ℝ × ℝ
  energy : ℝ

/-- `project_source_terms`, SimpleSOL/ParticleSystems/NeutralParticleSystem.hpp:200-214, DriftReduced/ParticleSystems/NeutralParticleSystem.hpp:179-197. -/
def projectSourceTerms (s : Sys) : List Deposit × Sys :=
  (s.particles.map fun p => ⟨p.pos, p.sourceDensity, p.sourceMomentum, p.sourceEnergy⟩,
    { s with particles := removeMarked s.particles })

/-- `part_timestep`, SOLWithParticlesSystem.cpp:47-50, DriftReducedSystem.cpp:344-348. -/
noncomputable def partTimestep (timestep : ℝ) (numPartSubsteps : ℕ) : ℝ := timestep / numPartSubsteps

/-- The particle part of `v_PreIntegrate`, SOLWithParticlesSystem.cpp:95-98, at the fluid time `time`. -/
noncomputable def preIntegrateSOL (cfg : Config) (envs : ℕ → Env) (time timestep : ℝ) (numPartSubsteps : ℕ) (s : Sys) :
    Option (List Deposit × Sys) :=
  (integrateSOL cfg envs (time + timestep) (partTimestep timestep numPartSubsteps) s).map projectSourceTerms

/-! ### The DriftReduced system -/

/-- `add_particles(1.0)` over all ranks, DriftReduced/ParticleSystems/NeutralParticleSystem.hpp:300-373: the ranks create the particles `[rstart, rend)` of their part of
`0..num_particles_to_add`; the identity of a particle is its global number. The 20 transfers of the parallel advection
initialisation end with the positions restored, DriftReduced/ParticleSystems/NeutralParticleSystem.hpp:357-372, and one more transfer. -/
def addDR (cfg : Config) (env : Env) (s : Sys) : Sys :=
  let n := cfg.numPartsTot
  { s with
    particles := s.particles ++ (List.range n).map fun i =>
      { newParticle cfg env i with id := ((i + s.totalAdded : ℕ) : ℤ), pos := env.wrap (env.point i) }
    totalAdded := s.totalAdded + n }

/-- `forward_euler` with `transfer_particles`, DriftReduced/ParticleSystems/NeutralParticleSystem.hpp:409-431, 549-559; `boundary_conditions` refuses boundaries
which are not periodic, DriftReduced/ParticleSystems/NeutralParticleSystem.hpp:378-382. -/
noncomputable def forwardEulerDR (cfg : Config) (env : Env) (dt : ℝ) (l : List Particle) : Option (List Particle) :=
  if cfg.fullyPeriodic then some ((l.map (euler dt)).map fun p => { p with pos := env.wrap p.pos }) else none

/-- `ionise` of the DriftReduced system, DriftReduced/ParticleSystems/NeutralParticleSystem.hpp:456-520 with `evaluate_fields`, DriftReduced/ParticleSystems/NeutralParticleSystem.hpp:387-402. -/
noncomputable def ioniseAllDR (cfg : Config) (env : Env) (dt : ℝ) (l : List Particle) : Option (List Particle) :=
  l.mapM fun p => ioniseDR cfg.prm cfg.TeV dt (cfg.nBgSI + env.fieldN p.pos * cfg.prm.nToSI) p

/-- One pass of the loop of `integrate`, DriftReduced/ParticleSystems/NeutralParticleSystem.hpp:167-170. -/
noncomputable def substepDR (cfg : Config) (envs : ℕ → Env) (dtInner : ℝ) (s : Sys) : Option Sys :=
  let env := envs s.clock
  match forwardEulerDR cfg env dtInner s.particles with
  | none => none
  | some l => match ioniseAllDR cfg env dtInner l with
    | none => none
    | some l => some { s with particles := l, clock := s.clock + 1 }

/-- `integrate` of the DriftReduced system, DriftReduced/ParticleSystems/NeutralParticleSystem.hpp:153-174. The particles are added before the first sub step. -/
noncomputable def integrateDR (cfg : Config) (envs : ℕ → Env) (timeEnd dt : ℝ) (s : Sys) : Option Sys :=
  if timeEnd < s.simulationTime then none
  else if timeEnd = s.simulationTime ∨ cfg.numPartsTot = 0 then some s
  else
    let s := if s.totalAdded = 0 then addDR cfg (envs s.clock) s else s
    (integrateLoop (substepDR cfg envs) timeEnd dt s.simulationTime s).map
      fun s => { s with simulationTime := timeEnd }

/-- The particle part of `v_PreIntegrate`, DriftReducedSystem.cpp:563-568. -/
noncomputable def preIntegrateDR (cfg : Config) (envs : ℕ → Env) (time timestep : ℝ) (numPartSubsteps : ℕ) (s : Sys) :
    Option (List Deposit × Sys) :=
  (integrateDR cfg envs (time + timestep) (partTimestep timestep numPartSubsteps) s).map projectSourceTerms

/-! ### Mass recording -/

/-- `compute_particle_mass`, MassRecording.hpp:50-65. -/
def particleMass (s : Sys) : ℝ := (s.particles.map (·.weight)).sum

/-- `compute_total_added_mass`, MassRecording.hpp:72-84. -/
def addedMass (cfg : Config) (s : Sys) : ℝ := (s.totalAdded : ℝ) * cfg.particleWeight

/-- The relative error written by `compute`, MassRecording.hpp:99-119; `fluidMass` is `compute_fluid_mass` (MassRecording.hpp:67-70). -/
noncomputable def relativeError (cfg : Config) (initialFluidMass fluidMass : ℝ) (s : Sys) : ℝ :=
  let massTotal := particleMass s + fluidMass
  let correctTotal := addedMass cfg s + initialFluidMass
  |correctTotal - massTotal| / |correctTotal|

end Verif.Model.NeutralSystem
