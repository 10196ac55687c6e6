import Verif.Model.ParallelPic
import Verif.Model.LineInit
import Verif.Model.NeutralSystem

/-!
Model of the neutral particles of SimpleSOL on several ranks: `/repo/solvers/SimpleSOL/ParticleSystems/NeutralParticleSystem.hpp`. The kernels are those of Model/NeutralSystem.lean and Model/Ionisation.lean, where all
particles form one list; here the particles are in the cells of the ranks (Model/ParallelStep.lean), the points of the source lines are those that each rank stores (Model/LineInit.lean), and fields are evaluated in the
element of the cell of a particle, at its reference position. Line numbers without a file are of NeutralParticleSystem.hpp.

Simplifications: `double` is the real numbers. The values of the fields in an element and of the basis functions are parameters (functions of the element and the reference position, not of the rank; properties C78-C80).
-/

namespace Verif.Model.ParallelNeutral
open Verif.Model.ParallelStep Verif.Model.MapChain Verif.Model.CoarseLookup Verif.Model.LineInit Verif.Model.Sampling Verif.Model.NeutralSystem Verif.Model.ParallelPic

variable {n : ℕ} {J : Type}

/-- The properties of a particle that are not changed by the mapping: NeutralParticleSystem.cpp:3-16. `PARTICLE_ID` is its component 0; the mass plays no role. -/
@[ext] structure Neutral where
  vel : ℝ × ℝ
  id : ℤ
  weight : ℝ
  sourceDensity : ℝ
  sourceMomentum : ℝ × ℝ
  sourceEnergy : ℝ

/-- A particle: its properties and its position. NeutralParticleSystem.cpp:3-16. -/
abbrev Body := Neutral × (ℕ → ℝ)

/-- The particle as the kernels of Model/NeutralSystem.lean see it: the position has two components, NeutralParticleSystem.hpp:384-387. -/
def toParticle (a : Body) : Ionisation.Particle := ⟨(a.2 0, a.2 1), a.1.vel, a.1.id, a.1.weight, a.1.sourceDensity, a.1.sourceMomentum, a.1.sourceEnergy⟩

/-- A kernel writes the properties and the two components of the position of a particle. NeutralParticleSystem.hpp:384-387, 473-514. -/
def update (a : Body) (p : Ionisation.Particle) : Body :=
  (⟨p.vel, p.id, p.weight, p.sourceDensity, p.sourceMomentum, p.sourceEnergy⟩, fun d => if d = 0 then p.pos.1 else if d = 1 then p.pos.2 else a.2 d)

/-- A source line on all ranks: the stored points, the values of the common generator and the samplers. NeutralParticleSystem.hpp:91-96. -/
structure SourceLine (n : ℕ) where
  points : Fin n → Points ℝ
  stream : ℕ → ℤ
  sampler : Fin n → Sampler

/-- What does not change: the distributed mesh, with the periodic boundary conditions as its boundary condition; the numbers; the velocities that each rank draws; the density and the temperature that sub step `k`
evaluates in an element at a reference position. NeutralParticleSystem.hpp:73-141. -/
structure Setup (n : ℕ) where
  world : World n ℝ
  cfg : Config
  velocities : Fin n → ℕ → ℝ
  fieldN : ℕ → ℤ → List ℝ → ℝ
  fieldT : ℕ → ℤ → List ℝ → ℝ

/-- The state of all ranks: `drawn` counts the velocity components drawn by a rank. NeutralParticleSystem.hpp:73-137. -/
structure Sys (n : ℕ) where
  group : State n Neutral ℝ
  lines : List (SourceLine n)
  drawn : Fin n → ℕ
  totalAdded : Fin n → ℕ
  simulationTime : ℝ
  clock : ℕ

/-- The properties of new particle `px` on a rank, NeutralParticleSystem.hpp:252-262: three components of the velocity are drawn. The source terms are those of a new `ParticleSet`, zero. -/
def newNeutral (C : Setup n) (drawn : Fin n → ℕ) (r : Fin n) (px : ℕ) : Neutral :=
  ⟨(C.velocities r (drawn r + 3 * px), C.velocities r (drawn r + 3 * px + 1)), r.val, C.cfg.particleWeight, 0, (0, 0), 0⟩

/-- The body of the loop over the lines on all ranks, NeutralParticleSystem.hpp:231-267. -/
noncomputable def addFromLine (C : Setup n) (num : ℕ) (s : Sys n) (L : SourceLine n) : Option (Sys n) :=
  let out := fun r => getSamples L.stream (L.sampler r) num
  (addLine L.points (fun r => (out r).2) (newNeutral C s.drawn) s.group).map fun g =>
    { s with
      group := g
      lines := s.lines ++ [{ L with sampler := fun r => (out r).1 }]
      drawn := fun r => s.drawn r + 3 * (out r).2.length
      totalAdded := fun r => s.totalAdded r + (out r).2.length }

/-- `add_particles` on all ranks, NeutralParticleSystem.hpp:221-268. -/
noncomputable def addParticles (C : Setup n) (addProportion : ℝ) (s : Sys n) : Option (Sys n) :=
  s.lines.foldlM (addFromLine C (particlesPerLine C.cfg addProportion).toNat) { s with lines := [] }

/-- A kernel in a particle loop over all particles of all ranks. NeutralParticleSystem.hpp:298-311, 382-391. -/
def loopAll (f : Ionisation.Particle → Ionisation.Particle) (S : State n Neutral ℝ) : State n Neutral ℝ := fun r =>
  particleLoop (fun a => let b := update (a.1, a.2.pos) (f (toParticle (a.1, a.2.pos))); (b.1, { a.2 with pos := b.2 })) (S r)

/-- `remove_marked_particles` on all ranks, NeutralParticleSystem.hpp:317-322. -/
def removeAll (S : State n Neutral ℝ) : State n Neutral ℝ := fun r => (S r).map fun c => c.filter fun a => a.1.id ≠ Ionisation.removeKey

/-- `transfer_particles`, NeutralParticleSystem.hpp:337-346, with `boundary_conditions`, NeutralParticleSystem.hpp:327-332, and `wall_boundary_conditions`, NeutralParticleSystem.hpp:292-315. -/
noncomputable def transferParticles (C : Setup n) (S : State n Neutral ℝ) : Option (State n Neutral ℝ) :=
  let S := if C.cfg.fullyPeriodic then S else removeAll (loopAll (markWall C.cfg) S)
  transfer C.world.boundary C.world.target C.world.ranks S

/-- `forward_euler`, NeutralParticleSystem.hpp:380-399. -/
noncomputable def forwardEuler (C : Setup n) (dt : ℝ) (S : State n Neutral ℝ) : Option (State n Neutral ℝ) := transferParticles C (loopAll (euler dt) S)

/-- `ionise` of the particles of a cell with element `g`, NeutralParticleSystem.hpp:443-528 and 412-436: the fields are evaluated in this element. -/
noncomputable def ioniseCell (C : Setup n) (k : ℕ) (dt : ℝ) (g : ℤ) (c : List (Neutral × Particle ℝ)) : Option (List (Neutral × Particle ℝ)) :=
  c.mapM fun a => (Ionisation.ioniseSOL C.cfg.prm dt (C.fieldN k g a.2.ref * C.cfg.prm.nToSI) (C.fieldT k g a.2.ref * C.cfg.TtoEV) (toParticle (a.1, a.2.pos))).map fun p =>
    ((update (a.1, a.2.pos) p).1, a.2)

/-- `ionise` on all ranks, NeutralParticleSystem.hpp:443-528. -/
noncomputable def ionise (C : Setup n) (k : ℕ) (dt : ℝ) (S : State n Neutral ℝ) : Option (State n Neutral ℝ) :=
  forRanks fun r => (S r).zipIdx.mapM fun c => ioniseCell C k dt (gid (C.world.ranks r) c.2) c.1

/-- One pass of the loop of `integrate`, NeutralParticleSystem.hpp:366-369. -/
noncomputable def substep (C : Setup n) (dt dtInner : ℝ) (s : Sys n) : Option (Sys n) :=
  (addParticles C (dtInner / dt) s).bind fun s =>
  (forwardEuler C dtInner s.group).bind fun S =>
  (ionise C s.clock dtInner S).map fun S => { s with group := S, clock := s.clock + 1 }

/-- `integrate`, NeutralParticleSystem.hpp:355-374. -/
noncomputable def integrate (C : Setup n) (timeEnd dt : ℝ) (s : Sys n) : Option (Sys n) :=
  if timeEnd < s.simulationTime then none
  else if timeEnd = s.simulationTime then some s
  else (integrateLoop (substep C dt) timeEnd dt s.simulationTime s).map fun s => { s with simulationTime := timeEnd }

/-- The right hand sides of the projections of the four source terms, summed over all ranks, NeutralParticleSystem.hpp:204-210: `basis g ref j` is the value of basis function `j`. The order is that of `components`. -/
def sourceRhs (C : Setup n) (basis : ℤ → List ℝ → J → ℝ) (S : State n Neutral ℝ) (f : Neutral → ℝ) (j : J) : ℝ :=
  ∑ r, ((S r).mapIdx fun i c => (c.map fun a => f a.1 * basis (gid (C.world.ranks r) i) a.2.ref j).sum).sum

/-- `project_source_terms`, NeutralParticleSystem.hpp:200-214: the four right hand sides, and the state without marked particles. -/
def projectSources (C : Setup n) (basis : ℤ → List ℝ → J → ℝ) (s : Sys n) : (List (J → ℝ)) × Sys n :=
  ([sourceRhs C basis s.group (·.sourceDensity), sourceRhs C basis s.group (·.sourceMomentum.1), sourceRhs C basis s.group (·.sourceMomentum.2), sourceRhs C basis s.group (·.sourceEnergy)],
    { s with group := removeAll s.group })

/-- The particle part of `v_PreIntegrate`, SOLWithParticlesSystem.cpp:95-98, on all ranks. -/
noncomputable def preIntegrate (C : Setup n) (basis : ℤ → List ℝ → J → ℝ) (time timestep : ℝ) (numPartSubsteps : ℕ) (s : Sys n) : Option (List (J → ℝ) × Sys n) :=
  (integrate C (time + timestep) (partTimestep timestep numPartSubsteps) s).map (projectSources C basis)

end Verif.Model.ParallelNeutral
