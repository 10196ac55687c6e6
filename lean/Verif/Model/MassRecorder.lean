import Mathlib.Algebra.Order.Field.Basic
import Mathlib.Algebra.BigOperators.Group.List.Basic

/-!
Model of the mass recorders `/repo/solvers/DriftReduced/Diagnostics/MassRecorder.hpp` (DR) and
`/repo/solvers/SimpleSOL/Diagnostics/MassRecording.hpp` (SOL) and of their use in
`/repo/solvers/DriftReduced/EquationSystems/HWSystem.cpp` and `/repo/solvers/SimpleSOL/EquationSystems/SOLWithParticlesSystem.cpp`.

The object of one rank is modelled; what it reads from the particle system and the density field at the time of a call is an environment.
`GlobalArray::get` after a loop that adds, and `MPI_Allreduce` with `MPI_SUM`, return the sum over all ranks (external contract); each is a collective call.
Numbers are those of a linearly ordered field; the counters do not overflow 64 bits.
-/

namespace Verif.Model.MassRecorder

variable {K : Type} [Field K] [LinearOrder K]

/-- The two classes. MassRecorder.hpp:20-60, MassRecording.hpp:16-40. -/
inductive Variant | dr | sol
  deriving DecidableEq

/-- What is read at the time of a call. `integral`: `n->Integral(n->GetPhys())`, a global integral; `weights`: the COMPUTATIONAL_WEIGHT of the particles of each rank;
`added`: `total_num_particles_added` of each rank; `initWeight`: `particle_init_weight` (DR) or `particle_weight` (SOL). MassRecorder.hpp:67-123. -/
structure Env (K : Type) where
  integral : K
  nToSI : K
  weights : List (List K)
  added : List ℕ
  initWeight : K

/-- The collective operations that are called. MassRecorder.hpp:68, 96-123. -/
inductive Collective | integral | particleMass | addedMass
  deriving DecidableEq

/-- A line of the file: step, relative_error, mass_particles, mass_fluid. MassRecorder.hpp:131-147. -/
structure Line (K : Type) where
  step : ℤ
  relativeError : K
  massParticles : K
  massFluid : K

/-- The members: the flag, the initial mass, the parameter, the rank and the file (`none`: not open). `trace` records the collective calls. MassRecorder.hpp:20-60. -/
structure Rec (K : Type) where
  variant : Variant
  computed : Bool
  initial : K
  step : ℤ
  rank : ℕ
  file : Option (List (Line K))
  trace : List Collective

/-- The constructor, DR lines 42-56, SOL lines 31-44. `particleSys`: whether the pointer to the particle system is set, it is dereferenced. `param`: the value of
`mass_recording_step` if the session defines it, else the default 0. `junk`: the uninitialised member `initial_mass_fluid`. The header of the file is not listed. -/
def create (v : Variant) (particleSys : Bool) (param : Option ℤ) (rank : ℕ) (junk : K) : Option (Rec K) :=
  if particleSys then
    let step := param.getD 0
    some ⟨v, false, junk, step, rank, if rank = 0 ∧ step > 0 then some [] else none, []⟩
  else none

/-- `compute_fluid_mass`, DR lines 67-69, SOL lines 67-70. -/
def fluidMass (e : Env K) : K := e.integral * e.nToSI

/-- `compute_particle_mass`, DR lines 96-111, SOL lines 50-65. -/
def particleMass (e : Env K) : K := (e.weights.map List.sum).sum

/-- `compute_total_added_mass`, DR lines 117-124 (the value of this rank), SOL lines 72-84 (the sum over the ranks). -/
def addedMass (v : Variant) (rank : ℕ) (e : Env K) : K :=
  match v with
  | .dr => ((e.added.getD rank 0 : ℕ) : K) * e.initWeight
  | .sol => ((e.added.sum : ℕ) : K) * e.initWeight

/-- `compute_initial_fluid_mass`, DR lines 74-81, SOL lines 86-91. -/
def Rec.computeInitial (r : Rec K) (e : Env K) : Rec K :=
  if (r.variant = .sol ∨ r.step > 0) ∧ r.computed = false then
    { r with initial := fluidMass e, computed := true, trace := r.trace ++ [.integral] }
  else r

/-- `get_initial_mass`, DR lines 86-90, SOL lines 93-97: `none` is a failed assertion. -/
def Rec.getInitial (r : Rec K) : Option K := if r.computed then some r.initial else none

/-- `compute`, DR lines 131-150, SOL lines 99-119; `%` is the remainder of C++. -/
def Rec.compute (r : Rec K) (step : ℤ) (e : Env K) : Rec K :=
  if r.step > 0 then
    if Int.tmod step r.step = 0 then
      let mp := particleMass e
      let mf := fluidMass e
      let total := mp + mf
      let correct := addedMass r.variant r.rank e + r.initial
      { r with
        trace := r.trace ++ (match r.variant with | .dr => [.particleMass, .integral] | .sol => [.particleMass, .integral, .addedMass])
        file := if r.rank = 0 then r.file.map (· ++ [⟨step, |correct - total| / |correct|, mp, mf⟩]) else r.file }
    else r
  else r

/-- The equation system with its recorder: `diag_mass_recording_enabled` is whether the parameter is defined (HWSystem.cpp:20-21, SOLWithParticlesSystem.cpp:23-24).
`v_InitObject`: HWSystem.cpp:78-82 creates the recorder only if it is enabled, SOLWithParticlesSystem.cpp:68-69 always; `none`: a null pointer is dereferenced. -/
structure Sys (K : Type) where
  enabled : Bool
  recorder : Option (Rec K)

/-- The construction of the recorder in `v_InitObject`, MassRecorder.hpp:40-60. -/
def initObject (v : Variant) (particleSys : Bool) (param : Option ℤ) (rank : ℕ) (junk : K) : Option (Sys K) :=
  match v with
  | .dr => if param.isSome then (create v particleSys param rank junk).map fun r => ⟨true, some r⟩ else some ⟨false, none⟩
  | .sol => (create v particleSys param rank junk).map fun r => ⟨param.isSome, some r⟩

/-- The part of `v_PreIntegrate` that belongs to the recorder, HWSystem.cpp:108-110, SOLWithParticlesSystem.cpp:90-92. -/
def Sys.pre (s : Sys K) (e : Env K) : Sys K := if s.enabled then { s with recorder := s.recorder.map (·.computeInitial e) } else s

/-- The part of `v_PostIntegrate` that belongs to the recorder, HWSystem.cpp:93-95, SOLWithParticlesSystem.cpp:79-81. -/
def Sys.post (s : Sys K) (step : ℤ) (e : Env K) : Sys K := if s.enabled then { s with recorder := s.recorder.map (·.compute step e) } else s

/-- The time loop (of Nektar++): step `k` calls `v_PreIntegrate(k)`, integrates, and calls `v_PostIntegrate(k)`; each with what is read at that time. The callers are DriftReducedSystem.cpp:466-478 and 547-570. -/
def run (s : Sys K) (first : ℕ) : List (Env K × Env K) → Sys K
  | [] => s
  | x :: l => run ((s.pre x.1).post (first : ℤ) x.2) (first + 1) l

end Verif.Model.MassRecorder
