import Mathlib.Algebra.BigOperators.Group.List.Basic
import Mathlib.Data.List.OfFn
import Mathlib.Data.Int.ModEq

/-!
Model of the base class of the particle systems, `/repo/src/nektar_interface/solver_base/partsys_base.cpp` and
`/repo/include/nektar_interface/solver_base/partsys_base.hpp`, and of the identities which the particle systems
give to new particles: `/repo/solvers/DriftReduced/ParticleSystems/NeutralParticleSystem.hpp`,
`/repo/solvers/Electrostatic2D3V/ParticleSystems/ChargedParticles.hpp`,
`/repo/solvers/SimpleSOL/ParticleSystems/NeutralParticleSystem.hpp`.

Simplifications: integers are unbounded (the bounds under which the C++ types hold the values are part of the theorems).
-/

namespace Verif.Model.PartSys

/-! ### Numbers of particles -/

/-- `load_parameter(name, value, -1)`: the value of the configuration or the default. partsys_base.cpp:69-105. -/
def loadOr (v : Option ℤ) (d : ℤ) : ℤ := v.getD d

/-- `read_params`, partsys_base.cpp:69-105, on any rank: the value given to the member `num_parts_tot`. `none` means that the member is
not assigned; partsys_base.hpp:53 declares it without a value. `localElements` are the numbers of elements on the ranks, their
sum is that of `MPI_Allreduce`. -/
def readNumParts (total perCell : Option ℤ) (localElements : List ℕ) : Option ℤ :=
  let numPartsTot := loadOr total (-1)
  let numPartsPerCell := loadOr perCell (-1)
  if numPartsTot > 0 then some numPartsTot
  else if numPartsPerCell > 0 then some (((localElements.sum : ℕ) : ℤ) * numPartsPerCell)
  else none

/-! ### Output -/

/-- `is_output_step`, partsys_base.cpp:65-67; `%` of C++ truncates. -/
def isOutputStep (outputFreq step : ℤ) : Bool := decide (outputFreq > 0) && decide (step.tmod outputFreq = 0)

/-- The output file: its name and the states of the particles written to it. partsys_base.hpp:139-149. -/
structure OutFile (σ : Type*) where
  name : String
  frames : List σ

/-- What the user does with the particle system: set up an output file, write, or change the particles. partsys_base.hpp:139-149, partsys_base.cpp:107-119. -/
inductive Op (σ : Type*) where
  | initOutput (name : String)
  | write
  | evolve (s : σ)

/-- The particles and the file, if there is one. partsys_base.hpp:139-149. -/
structure Out (σ : Type*) where
  state : σ
  file : Option (OutFile σ)

/-- `init_output`, partsys_base.hpp:139-149, and `write`, partsys_base.cpp:107-119. -/
def Out.step {σ : Type*} (o : Out σ) : Op σ → Out σ
  | .initOutput name =>
    match o.file with
    | some _ => o
    | none => { o with file := some ⟨name, []⟩ }
  | .write =>
    match o.file with
    | some f => { o with file := some { f with frames := f.frames ++ [o.state] } }
    | none => o
  | .evolve s => { o with state := s }

/-- A history of operations. No code: calls one after the other of partsys_base.hpp:139-149 and partsys_base.cpp:107-119. -/
def Out.run {σ : Type*} (o : Out σ) (ops : List (Op σ)) : Out σ := ops.foldl Out.step o

/-! ### Identities -/

/-- `get_decomp_1d(size, n, rank, &rstart, &rend)` of NESO-Particles (external): the argument order of the model is `n`, `rank`. Called in NeutralParticleSystem.hpp:300-359. -/
structure Decomp (size : ℕ) where
  rstart : ℕ → ℕ → ℕ
  rend : ℕ → ℕ → ℕ

/-- Identities of the particles created on every rank and the counters `total_num_particles_added` of the ranks. NeutralParticleSystem.hpp:221-270. -/
structure Ids (size : ℕ) where
  ids : Fin size → List ℕ
  added : Fin size → ℕ

/-- `add_particles` of the DriftReduced system, DriftReduced/ParticleSystems/NeutralParticleSystem.hpp:300-359: rank `r` creates `rend - rstart` particles. -/
def addDR {size : ℕ} (D : Decomp size) (n : ℕ) (s : Ids size) : Ids size where
  ids r := s.ids r ++ (List.range (D.rend n r - D.rstart n r)).map fun ipart => ipart + D.rstart n r + s.added r
  added r := s.added r + n

/-- Any number of calls, from the state of the constructor (DriftReduced/ParticleSystems/NeutralParticleSystem.hpp:142). -/
def addDRs {size : ℕ} (D : Decomp size) (ns : List ℕ) : Ids size :=
  ns.foldl (fun s n => addDR D n s) ⟨fun _ => [], fun _ => 0⟩

/-- The identities given by `ChargedParticles::add_particles` on rank `r`, ChargedParticles.hpp:73-80, 315-323. -/
def chargedIds {size : ℕ} (D : Decomp size) (n : ℕ) (r : Fin size) : List ℕ :=
  (List.range (D.rend n r - D.rstart n r)).map fun px => px + D.rstart n r

/-- The identities which one call of `add_particles` of the SimpleSOL system gives on one rank, SimpleSOL/ParticleSystems/NeutralParticleSystem.hpp:221-270; `counts` are
the numbers of samples of the lines on this rank. -/
def solIds (rank : ℕ) (counts : List ℕ) : List (ℕ × ℕ) :=
  (counts.map fun n => (List.range n).map fun px => (rank, px)).flatten

end Verif.Model.PartSys
