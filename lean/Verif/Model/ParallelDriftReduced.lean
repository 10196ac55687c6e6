import Verif.Model.ParallelPic
import Verif.Model.LineInit
import Verif.Model.NeutralSystem
import Verif.Model.NeutralSetup

/-!
Model of the neutral particles of the DriftReduced solver on several ranks, in three dimensions: `/repo/solvers/DriftReduced/ParticleSystems/NeutralParticleSystem.hpp`. The kernel of the ionisation is that of
Model/Ionisation.lean; here the particles are in the cells of the ranks (Model/ParallelStep.lean), and the density is evaluated in the element of the cell of a particle, at its reference position. Line numbers are of
that NeutralParticleSystem.hpp.

Simplifications: `double` is the real numbers. The values of the density in an element and of the basis functions are parameters (functions of the element and the reference position, not of the rank; properties C78-C80).
The normal distributions are arbitrary numbers. `parallel_advection_*` of NESO-Particles (external): the positions are stored with the particles, are then set to anything, and are restored at the end. The interpolation
of `low_order_project` is not modelled.
-/

namespace Verif.Model.ParallelDR
open Verif.Model.ParallelStep Verif.Model.MapChain Verif.Model.CoarseLookup Verif.Model.LineInit Verif.Model.NeutralSystem Verif.Model.ParallelPic

variable {n : ℕ} {J : Type}

/-- The properties of a particle that are not changed by the mapping. DriftReduced/ParticleSystems/NeutralParticleSystem.cpp:5-17; `PARTICLE_ID` is its component 0; the mass and the stored density play no role. -/
@[ext] structure Neutral where
  vel : ℕ → ℝ
  id : ℤ
  weight : ℝ
  sourceDensity : ℝ

/-- With the position that `parallel_advection_store` keeps. NeutralParticleSystem.hpp:361-371. -/
abbrev Tagged := Neutral × (ℕ → ℝ)

/-- What does not change: the distributed mesh, with the periodic boundary conditions as its boundary condition; the numbers; `get_decomp_1d` for all particles: rank `r` creates the particles from `split r` to
`split (r + 1) - 1`; the random numbers of the positions and the velocities; the positions during the parallel advection; the density that sub step `k` evaluates in an element at a reference position.
NeutralParticleSystem.hpp:76-144, 220-291. -/
structure Setup (n : ℕ) where
  world : World n ℝ
  cfg : Config
  split : ℕ → ℕ
  normal : Fin n → ℕ → ℕ → ℝ
  velocity : Fin n → ℕ → ℕ → ℝ
  origin : ℕ → ℝ
  extent : ℕ → ℝ
  advected : ℕ → Tagged → (ℕ → ℝ) → (ℕ → ℝ)
  fieldN : ℕ → ℤ → List ℝ → ℝ

/-- The state of all ranks: `total_num_particles_added` is the same on all ranks, NeutralParticleSystem.hpp:359. NeutralParticleSystem.hpp:138-144, 290. -/
structure Sys (n : ℕ) where
  group : State n Tagged ℝ
  totalAdded : ℕ
  simulationTime : ℝ
  clock : ℕ

/-- The particles that rank `r` creates, NeutralParticleSystem.hpp:306-357; `CELL_ID` is `ipart % cell_count`. The source of a new `ParticleSet` is zero. -/
noncomputable def created (C : Setup n) (total : ℕ) (r : Fin n) : List (Tagged × Particle ℝ) :=
  (List.range (C.split (r + 1) - C.split r)).map fun i =>
    (((⟨fun d => if d < 3 then C.velocity r i d else 0, ((i + C.split r + total : ℕ) : ℤ), C.cfg.particleWeight, 0⟩ : Neutral), fun _ => 0),
      ⟨fun d => if d < 3 then C.normal r i d + NeutralSetup.centreDR C.origin C.extent d else 0, 0, ((i % (C.world.ranks r).translation.mapToNektar.length : ℕ) : ℤ), []⟩)

/-- A particle loop on all ranks. External, used in NeutralParticleSystem.hpp:413-421. -/
def loopAll (f : Tagged × (ℕ → ℝ) → Tagged × (ℕ → ℝ)) (S : State n Tagged ℝ) : State n Tagged ℝ := fun r =>
  particleLoop (fun a => ((f (a.1, a.2.pos)).1, { a.2 with pos := (f (a.1, a.2.pos)).2 })) (S r)

/-- `transfer_particles` with `boundary_conditions`, NeutralParticleSystem.hpp:378-382, 549-559: the assertion that all boundaries are periodic. -/
def transferParticles (C : Setup n) (S : State n Tagged ℝ) : Option (State n Tagged ℝ) :=
  if C.cfg.fullyPeriodic then transfer C.world.boundary C.world.target C.world.ranks S else none

/-- `parallel_advection_store`, NeutralParticleSystem.hpp:362. External. -/
def store (C : Setup n) : State n Tagged ℝ → State n Tagged ℝ := loopAll fun a => ((a.1.1, a.2), C.advected 0 a.1 a.2)

/-- `parallel_advection_step`, NeutralParticleSystem.hpp:366. External. -/
def advect (C : Setup n) (k : ℕ) : State n Tagged ℝ → State n Tagged ℝ := loopAll fun a => (a.1, C.advected (k + 1) a.1 a.2)

/-- `parallel_advection_restore`, NeutralParticleSystem.hpp:369. External. -/
def restore : State n Tagged ℝ → State n Tagged ℝ := loopAll fun a => (a.1, a.1.2)

/-- `add_particles(1.0)` on all ranks, NeutralParticleSystem.hpp:300-373. -/
noncomputable def addParticles (C : Setup n) (s : Sys n) : Option (Sys n) :=
  (forRanks fun r => addLocal (s.group r) (created C s.totalAdded r)).bind fun S =>
  ((List.range 20).foldlM (fun S k => transferParticles C (advect C k S)) (store C S)).bind fun S =>
  (transferParticles C (restore S)).map fun S => { s with group := S, totalAdded := s.totalAdded + C.cfg.numPartsTot }

/-- The kernel of `forward_euler`, NeutralParticleSystem.hpp:415-419. -/
noncomputable def euler (dt : ℝ) (a : Tagged × (ℕ → ℝ)) : Tagged × (ℕ → ℝ) := (a.1, fun d => if d < 3 then a.2 d + dt * a.1.1.vel d else a.2 d)

/-- `forward_euler`, NeutralParticleSystem.hpp:409-431. -/
noncomputable def forwardEuler (C : Setup n) (dt : ℝ) (S : State n Tagged ℝ) : Option (State n Tagged ℝ) := transferParticles C (loopAll (euler dt) S)

/-- The particle as the kernel of Model/Ionisation.lean sees it: the position and the velocity are not used. NeutralParticleSystem.hpp:488-508. -/
def toParticle (a : Neutral) : Ionisation.Particle := ⟨(0, 0), (0, 0), a.id, a.weight, a.sourceDensity, (0, 0), 0⟩

/-- `ionise` of the particles of a cell with element `g`, NeutralParticleSystem.hpp:456-520 and 387-402. -/
noncomputable def ioniseCell (C : Setup n) (k : ℕ) (dt : ℝ) (g : ℤ) (c : List (Tagged × Particle ℝ)) : Option (List (Tagged × Particle ℝ)) :=
  c.mapM fun a => (Ionisation.ioniseDR C.cfg.prm C.cfg.TeV dt (C.cfg.nBgSI + C.fieldN k g a.2.ref * C.cfg.prm.nToSI) (toParticle a.1.1)).map fun p =>
    (((⟨a.1.1.vel, p.id, p.weight, p.sourceDensity⟩ : Neutral), a.1.2), a.2)

/-- `ionise` on all ranks, NeutralParticleSystem.hpp:456-520. -/
noncomputable def ionise (C : Setup n) (k : ℕ) (dt : ℝ) (S : State n Tagged ℝ) : Option (State n Tagged ℝ) :=
  forRanks fun r => (S r).zipIdx.mapM fun c => ioniseCell C k dt (gid (C.world.ranks r) c.2) c.1

/-- One pass of the loop of `integrate`, NeutralParticleSystem.hpp:167-170. -/
noncomputable def substep (C : Setup n) (dtInner : ℝ) (s : Sys n) : Option (Sys n) :=
  (forwardEuler C dtInner s.group).bind fun S => (ionise C s.clock dtInner S).map fun S => { s with group := S, clock := s.clock + 1 }

/-- `integrate`, NeutralParticleSystem.hpp:153-174. -/
noncomputable def integrate (C : Setup n) (timeEnd dt : ℝ) (s : Sys n) : Option (Sys n) :=
  if timeEnd < s.simulationTime then none
  else if timeEnd = s.simulationTime ∨ C.cfg.numPartsTot = 0 then some s
  else (if s.totalAdded = 0 then addParticles C s else some s).bind fun s =>
    (integrateLoop (substep C) timeEnd dt s.simulationTime s).map fun s => { s with simulationTime := timeEnd }

/-- `remove_marked_particles` on all ranks, NeutralParticleSystem.hpp:539-544. -/
def removeAll (S : State n Tagged ℝ) : State n Tagged ℝ := fun r => (S r).map fun c => c.filter fun a => a.1.1.id ≠ Ionisation.removeKey

/-- The right hand side of the projection of the density source, summed over all ranks, NeutralParticleSystem.hpp:183-185: `basis g ref j` is the value of basis function `j`. -/
def sourceRhs (C : Setup n) (basis : ℤ → List ℝ → J → ℝ) (S : State n Tagged ℝ) (j : J) : ℝ :=
  ∑ r, ((S r).mapIdx fun i c => (c.map fun a => a.1.1.sourceDensity * basis (gid (C.world.ranks r) i) a.2.ref j).sum).sum

/-- The particle part of `v_PreIntegrate`, DriftReducedSystem.cpp:563-568, with `project_source_terms`, NeutralParticleSystem.hpp:179-197: the right hand side of the projection and the state without marked particles. -/
noncomputable def preIntegrate (C : Setup n) (basis : ℤ → List ℝ → J → ℝ) (time timestep : ℝ) (numPartSubsteps : ℕ) (s : Sys n) : Option ((J → ℝ) × Sys n) :=
  (integrate C (time + timestep) (partTimestep timestep numPartSubsteps) s).map fun s => (sourceRhs C basis s.group, { s with group := removeAll s.group })

end Verif.Model.ParallelDR
