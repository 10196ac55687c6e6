import Verif.Model.MapChain
import Verif.Model.CellId
import Verif.Model.Periodic
import Verif.Model.Claims
import Mathlib.Data.Multiset.MapFold

/-!
Model of the transfer of particles between ranks: `transfer_particles`, solvers/DriftReduced/ParticleSystems/NeutralParticleSystem.hpp:549-558,
solvers/SimpleSOL/ParticleSystems/NeutralParticleSystem.hpp:337-346, solvers/Electrostatic2D3V/ParticleSystems/ChargedParticles.hpp:552-562.
`hybrid_move` and `cell_move` are functions of NESO-Particles (not in this repository); they are modelled by what they do with the particles.
-/

namespace Verif.Model.ParallelStep
open Verif.Model.CoarseLookup Verif.Model.MapChain

variable {n : ℕ} {T K : Type*}

/-- The particles of each cell of a rank; `T` are the other properties of a particle. External: the cell lists of a `ParticleGroup`, used in ChargedParticles.hpp:552-562. -/
abbrev Group (T K : Type*) := List (List (T × Particle K))

/-- The groups of all ranks. ChargedParticles.hpp:552-562. -/
abbrev State (n : ℕ) (T K : Type*) := Fin n → Group T K

/-- All ranks do their part; `none` if one of them fails. ChargedParticles.hpp:552-562. -/
def forRanks {α : Type*} (f : Fin n → Option α) : Option (Fin n → α) :=
  if h : ∀ r, (f r).isSome then some fun r => (f r).get (h r) else none

/-- A particle loop that does not fail. External, used in ChargedParticles.hpp:578-653. -/
def particleLoop (f : T × Particle K → T × Particle K) (g : Group T K) : Group T K := g.map fun c => c.map f

/-- `LocalMapper::map` of NESO-Particles with the mapper `f`: the other properties are not changed. External, called through ChargedParticles.hpp:555. -/
def mapGroup (f : Cells K → Option (Cells K)) (g : Group T K) : Option (Group T K) :=
  (f (g.map fun c => c.map Prod.snd)).map fun g' => List.zipWith (List.zipWith fun a q => (a.1, q)) g g'

/-- `reset_mpi_ranks`, called first by `hybrid_move`. External, called through ChargedParticles.hpp:555. -/
def resetRanks : Group T K → Group T K := particleLoop fun a => (a.1, { a.2 with rank := -1 })

/-- The cell of the mesh hierarchy of a position, `MeshHierarchyGlobalMap` of NESO-Particles. External, called through ChargedParticles.hpp:555. -/
def cellOf {K : Type*} [Field K] [LinearOrder K] [FloorRing K] (m : Claims.MHGeom K) (p : ℕ → K) : ℕ → ℤ := fun d => ⌊(p d - m.origin d) * m.invWidth⌋

/-- The rank that owns the cell of a position (as `cellOf`). External, called through ChargedParticles.hpp:555. -/
def ownerOf {K : Type*} [Field K] [LinearOrder K] [FloorRing K] (m : Claims.MHGeom K) (owner : ℤ → ℤ) (p : ℕ → K) : ℤ :=
  owner (MeshHierarchy.tupleToLinearGlobal m.toMH (MeshHierarchy.meshTupleToMhTuple m.toMH (cellOf m p)))

/-- The particles that rank `r` sends to others: they are not mapped and the cell of the mesh hierarchy that contains the position belongs to the other rank; `target` is the owner of this cell. External, called through ChargedParticles.hpp:555. -/
def leaves (target : (ℕ → K) → ℤ) (r : Fin n) (a : T × Particle K) : Bool := decide (a.2.rank < 0) && decide (target a.2.pos ≠ r.val)

/-- The global move of `hybrid_move`: particles that are not mapped go to the owner of the cell of the mesh hierarchy, and are in cell zero there. External, called through ChargedParticles.hpp:555. -/
def globalMove (target : (ℕ → K) → ℤ) (S : State n T K) : State n T K := fun r =>
  let received := (List.finRange n).flatMap fun s => (S s).flatten.filter fun a => leaves target s a && decide (target a.2.pos = r.val)
  match (S r).map fun c => c.filter fun a => !leaves target r a with
  | [] => []
  | c :: g => (c ++ received) :: g

/-- The local move of `hybrid_move`: each particle goes to the rank it is mapped to. External, called through ChargedParticles.hpp:555. -/
def localMove (S : State n T K) : Fin n → List (T × Particle K) := fun r =>
  (List.finRange n).flatMap fun s => (S s).flatten.filter fun a => decide (a.2.rank = r.val)

/-- `hybrid_move` of NESO-Particles. `mapAt r` is the local mapper of rank `r`. Called in ChargedParticles.hpp:552-562. -/
def hybridMove (mapAt : Fin n → ℤ → Cells K → Option (Cells K)) (target : (ℕ → K) → ℤ) (S : State n T K) : Option (Fin n → List (T × Particle K)) :=
  (forRanks fun r => mapGroup (mapAt r (-1)) (resetRanks (S r))).bind fun S1 =>
  (forRanks fun r => mapGroup (mapAt r 0) (globalMove target S1 r)).map fun S2 => localMove S2

/-- `CellIDTranslation::execute`, cell_id_translation.hpp:126-141, for the particles of a rank. -/
def translate (t : CellId.Translation) (l : List (T × Particle K)) : Option (List (T × Particle K)) :=
  l.mapM fun a => (CellId.execute t a.2.cell).map fun c => (a.1, { a.2 with cell := c })

/-- `cell_move` of NESO-Particles: each particle goes to the cell of its cell id. Called in ChargedParticles.hpp:552-562. -/
def cellMove (ncells : ℕ) (l : List (T × Particle K)) : Group T K := (List.range ncells).map fun i : ℕ => l.filter fun a => decide (a.2.cell = (i : ℤ))

/-- What a rank has: the local mapper, the translation of the cell ids (its number of cells is that of the mesh). ChargedParticles.hpp:440-490. -/
structure Rank (K : Type*) where
  mapAt : ℤ → Cells K → Option (Cells K)
  translation : CellId.Translation

/-- `transfer_particles` (cited above); `boundary` is `boundary_conditions` for the position of a particle. ChargedParticles.hpp:552-562. -/
def transfer (boundary : (ℕ → K) → (ℕ → K)) (target : (ℕ → K) → ℤ) (R : Fin n → Rank K) (S : State n T K) : Option (State n T K) :=
  let S0 : State n T K := fun r => particleLoop (fun a => (a.1, { a.2 with pos := boundary a.2.pos })) (S r)
  (hybridMove (fun r => (R r).mapAt) target S0).bind fun l =>
  (forRanks fun r => translate (R r).translation (l r)).map fun l r => cellMove (R r).translation.mapToNektar.length (l r)

/-- The particles of all ranks as a multiset: other properties and position. No code: what a user sees of the particles. -/
def particles (S : State n T K) : Multiset (T × (ℕ → K)) :=
  (((List.finRange n).flatMap fun r => (S r).flatten).map fun a => (a.1, a.2.pos) : List _)

/-- A time step of a solver: a particle loop that moves each particle and can change its other properties, depending on all particles (through fields), then `transfer_particles`. ChargedParticles.hpp:578-636. -/
def step (push : Multiset (T × (ℕ → K)) → T × (ℕ → K) → T × (ℕ → K)) (boundary : (ℕ → K) → (ℕ → K)) (target : (ℕ → K) → ℤ) (R : Fin n → Rank K) (S : State n T K) :
    Option (State n T K) :=
  let M := particles S
  transfer boundary target R fun r => particleLoop (fun a => let b := push M (a.1, a.2.pos); (b.1, { a.2 with pos := b.2 })) (S r)

/-- Time steps. ElectrostaticTwoStream2D3V.hpp:255-332. -/
def steps (push : Multiset (T × (ℕ → K)) → T × (ℕ → K) → T × (ℕ → K)) (boundary : (ℕ → K) → (ℕ → K)) (target : (ℕ → K) → ℤ) (R : Fin n → Rank K) :
    ℕ → State n T K → Option (State n T K)
  | 0, S => some S
  | k + 1, S => (steps push boundary target R k S).bind (step push boundary target R)

end Verif.Model.ParallelStep
