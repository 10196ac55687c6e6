import Verif.Model.ParallelStep
import Verif.Model.Sampling

/-!
Model of the constructor of `ParticleInitialisationLine`, `/repo/include/particle_utility/particle_initialisation_line.hpp:52-148`, on all ranks, and of the particles that `add_particles` of
`/repo/solvers/SimpleSOL/ParticleSystems/NeutralParticleSystem.hpp:221-268` creates at sampled points of a line (`get_samples` is in Model/Sampling.lean).

External functions of NESO-Particles: `get_decomp_1d` gives each rank an interval of indices; `add_particles_local` puts each particle in the cell of its cell id (zero if it is not set);
`parallel_advection_initialisation` moves the particles to the ranks that own their positions, which is what `hybrid_move` does (Model/ParallelStep.lean).
-/

namespace Verif.Model.LineInit
open Verif.Model.ParallelStep Verif.Model.MapChain Verif.Model.CoarseLookup

variable {n : ℕ} {K : Type} [Field K] {T : Type}

/-- The position of a point of the line: particle_initialisation_line.hpp:77-82, 88-93. The coordinates that do not exist are 0. -/
def nodeAt (ndim npoints : ℕ) (lineStart lineEnd : List K) (i : ℕ) : ℕ → K := fun d =>
  if d < ndim then
    let rStep := (lineEnd.getD d 0 - lineStart.getD d 0) * (1 / (npoints : K))
    lineStart.getD d 0 + (i : K) * rStep
  else 0

/-- The particles that a rank creates: particle_initialisation_line.hpp:71-96. -/
def created (ndim npoints : ℕ) (lineStart lineEnd : List K) (rstart rend : ℕ) : List (Unit × Particle K) :=
  (List.range (rend - rstart)).map fun px => ((), ⟨nodeAt ndim npoints lineStart lineEnd (rstart + px), 0, 0, []⟩)

/-- `add_particles_local` of NESO-Particles: each particle goes to the cell of its cell id, `none` if there is no such cell. External, called in particle_initialisation_line.hpp:95,
NeutralParticleSystem.hpp:265. -/
def addLocal (g : Group T K) (l : List (T × Particle K)) : Option (Group T K) :=
  l.foldlM (fun g a => if 0 ≤ a.2.cell ∧ a.2.cell < (g.length : ℤ) then some (g.modify a.2.cell.toNat (· ++ [a])) else none) g

/-- The members of the class: particle_initialisation_line.hpp:26-35. `phys` and `ref` are indexed by the dimension, then by the point. -/
structure Points (K : Type) where
  npointsLocal : ℕ
  phys : ℕ → List K
  ref : ℕ → List K
  cells : List ℤ

/-- The body of the innermost loops: particle_initialisation_line.hpp:131-137. -/
def storePoint (ndim : ℕ) (cellx : ℕ) (a : Unit × Particle K) (s : ℕ × Points K) : Option (ℕ × Points K) := do
  let cells ← Mem.write s.2.cells (s.1 : ℕ) (cellx : ℤ)
  let pts ← (List.range ndim).foldlM (fun (pts : Points K) d => do
    let ph ← Mem.write (pts.phys d) (s.1 : ℕ) (a.2.pos d)
    let x ← a.2.ref[d]?
    let rf ← Mem.write (pts.ref d) (s.1 : ℕ) x
    pure { pts with phys := Function.update pts.phys d ph, ref := Function.update pts.ref d rf }) { s.2 with cells := cells }
  pure (s.1 + 1, pts)

/-- The arrays are resized and filled in loops over the cells and their particles; `none` is the assertion or an access outside of an array. particle_initialisation_line.hpp:104-146. -/
def collect (ndim : ℕ) (g : Group Unit K) : Option (Points K) := do
  let npointsLocal := g.flatten.length
  let s ← g.zipIdx.foldlM (fun s c => c.1.foldlM (fun s a => storePoint ndim c.2 a s) s)
    (0, (⟨npointsLocal, fun _ => List.replicate npointsLocal 0, fun _ => List.replicate npointsLocal 0, List.replicate npointsLocal 0⟩ : Points K))
  if s.1 = npointsLocal then pure s.2 else none

/-- The constructor on all ranks, particle_initialisation_line.hpp:52-148. Rank `r` creates the points from `b r` to `b (r + 1) - 1`. `none`: an assertion fails on a rank or a point is found in no element. -/
def construct (ndim npoints : ℕ) (lineStart lineEnd : List K) (b : ℕ → ℕ) (target : (ℕ → K) → ℤ) (R : Fin n → Rank K) : Option (Fin n → Points K) :=
  if ndim ≤ lineStart.length ∧ ndim ≤ lineEnd.length ∧ 0 < npoints then
    (forRanks fun r => addLocal (List.replicate (R r).translation.mapToNektar.length []) (created ndim npoints lineStart lineEnd (b r) (b (r + 1)))).bind fun S0 =>
    (transfer id target R S0).bind fun S => forRanks fun r => collect ndim (S r)
  else none

/-- The particle for a sampled point, NeutralParticleSystem.hpp:241-262; `other` are the properties that do not depend on the point. -/
def newAt (pts : Points K) (idx : ℤ) (other : T) : Option (T × Particle K) := do
  let p0 ← Mem.read (pts.phys 0) idx
  let r0 ← Mem.read (pts.ref 0) idx
  let p1 ← Mem.read (pts.phys 1) idx
  let r1 ← Mem.read (pts.ref 1) idx
  let c ← Mem.read pts.cells idx
  pure (other, ⟨fun d => if d = 0 then p0 else if d = 1 then p1 else 0, 0, c, [r0, r1]⟩)

/-- The particles of a line on a rank: the indices are taken from the back of the list, NeutralParticleSystem.hpp:231-266. `samples` is the list that `get_samples` has filled (it is empty before,
since each line takes all its indices). `other px` are the remaining properties of new particle `px`. -/
def lineParticles (pts : Points K) (samples : List ℤ) (other : ℕ → T) : Option (List (T × Particle K)) :=
  samples.reverse.zipIdx.mapM fun x => newAt pts x.1 (other x.2)

/-- The particles of a line are added on all ranks, NeutralParticleSystem.hpp:230-267. -/
def addLine (P : Fin n → Points K) (samples : Fin n → List ℤ) (other : Fin n → ℕ → T) (S : State n T K) : Option (State n T K) :=
  forRanks fun r => (lineParticles (P r) (samples r) (other r)).bind (addLocal (S r))

end Verif.Model.LineInit
