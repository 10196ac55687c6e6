import Verif.Model.ParallelStep
import Verif.Model.PicLoop
import Mathlib.Algebra.BigOperators.Group.List.Basic
import Mathlib.Algebra.BigOperators.Fin

/-!
Model of the electrostatic solvers on several ranks: the main loop of `Model/PicLoop.lean`, where the particles are those of all ranks (`Model/ParallelStep.lean`).
ChargedParticles.hpp and PoissonParticleCoupling.hpp are in `/repo/solvers/Electrostatic2D3V/ParticleSystems/`.

The values of the basis functions and of the potential in an element, and the solve (mass matrix, neutralising field and Poisson equation, properties C65 and C78-C80) are parameters: they are
functions of the element and the reference position, not of the rank. The assembly of Nektar++ sums the contributions of all ranks.
-/

namespace Verif.Model.ParallelPic
open Verif.Model.ParallelStep Verif.Model.MapChain Verif.Model.CoarseLookup

variable {n : ℕ} {K : Type} [Field K] {J U : Type}

/-- The properties of a particle except the position, ChargedParticles.hpp:467-474. -/
@[ext] structure Charged (K : Type) where
  v0 : K
  v1 : K
  v2 : K
  q : K
  m : K
  e0 : K
  e1 : K

/-- A particle: its properties and its position. ChargedParticles.hpp:467-474. -/
abbrev Body (K : Type) := Charged K × (ℕ → K)

/-- The numbers of the integrators. ChargedParticles.hpp:578-630, IntegratorBorisUniformB.hpp:70-80. -/
structure Params (K : Type) where
  dt : K
  eCoefficient : K

/-- The kick of both kernels of velocity Verlet, ChargedParticles.hpp:587-591, 623-627. -/
def kick (prm : Params K) (c : Charged K) : Charged K :=
  let h := prm.eCoefficient * (prm.dt * (1 / 2)) * c.q / c.m
  { c with v0 := c.v0 - c.e0 * h, v1 := c.v1 - c.e1 * h }

/-- The kernel of `velocity_verlet_1`, ChargedParticles.hpp:585-595. -/
def verlet1 (prm : Params K) (a : Body K) : Body K :=
  let c := kick prm a.1
  (c, fun d => if d = 0 then a.2 0 + prm.dt * c.v0 else if d = 1 then a.2 1 + prm.dt * c.v1 else a.2 d)

/-- The kernel of `velocity_verlet_2`, ChargedParticles.hpp:621-628. -/
def verlet2 (prm : Params K) (a : Body K) : Body K := (kick prm a.1, a.2)

/-- The kernel of `boris_2`, IntegratorBorisUniformB.hpp:70-148. The mass must not be zero; then `Boris.boris2` gives a result. -/
def boris2 [DecidableEq K] (prm : Params K) (b : K × K × K) (a : Body K) : Body K :=
  match Boris.boris2 ⟨prm.dt, b.1, b.2.1, b.2.2, prm.eCoefficient⟩ ⟨a.2 0, a.2 1, ⟨a.1.v0, a.1.v1, a.1.v2⟩, a.1.m, a.1.q, a.1.e0, a.1.e1⟩ with
  | some r => ({ a.1 with v0 := r.v.x, v1 := r.v.y, v2 := r.v.z }, fun d => if d = 0 then r.p0 else if d = 1 then r.p1 else a.2 d)
  | none => a

/-- A half of an integrator: its particle loop, and whether `transfer_particles` follows. ChargedParticles.hpp:578-653. -/
structure Half (K : Type) where
  kernel : Body K → Body K
  moves : Bool

/-- `integrator_1` and `integrator_2` of the solvers, ElectrostaticTwoStream2D3V.hpp:54-68, ElectrostaticElectronBernsteinWaves2D3V.hpp:51-53, ChargedParticles.hpp:578-653. `boris_1` does nothing, IntegratorBorisUniformB.hpp:64-66. -/
structure Integrator (K : Type) where
  first : Half K
  second : Half K

/-- Velocity Verlet (as `Integrator`). ChargedParticles.hpp:578-636. -/
def verletIntegrator (prm : Params K) : Integrator K := ⟨⟨verlet1 prm, true⟩, ⟨verlet2 prm, false⟩⟩

/-- Boris (as `Integrator`). ChargedParticles.hpp:640-653. -/
def borisIntegrator [DecidableEq K] (prm : Params K) (b : K × K × K) : Integrator K := ⟨⟨id, false⟩, ⟨boris2 prm b, true⟩⟩

/-- A particle loop over properties and position on all ranks. ChargedParticles.hpp:578-653. -/
def loopAll (f : Body K → Body K) (S : State n (Charged K) K) : State n (Charged K) K := fun r =>
  particleLoop (fun a => ((f (a.1, a.2.pos)).1, { a.2 with pos := (f (a.1, a.2.pos)).2 })) (S r)

/-- The mesh and its distribution: boundary condition, owners of the cells of the mesh hierarchy, mappers and cell ids. ChargedParticles.hpp:440-490. -/
structure World (n : ℕ) (K : Type) where
  boundary : (ℕ → K) → (ℕ → K)
  target : (ℕ → K) → ℤ
  ranks : Fin n → Rank K

/-- A half of a step on all ranks. ChargedParticles.hpp:578-653. -/
def pushAll (W : World n K) (h : Half K) (S : State n (Charged K) K) : Option (State n (Charged K) K) :=
  if h.moves then transfer W.boundary W.target W.ranks (loopAll h.kernel S) else some (loopAll h.kernel S)

/-- The element of a cell of a rank, `CellIDTranslation::map_to_nektar`, as used by `FieldProject` and `FieldEvaluate`. cell_id_translation.hpp:126-141. -/
def gid (R : Rank K) (i : ℕ) : ℤ := R.translation.mapToNektar.getD i 0

/-- What the elements give: the basis functions at a reference position, and value and gradient of a potential. PoissonParticleCoupling.hpp:252-285. -/
structure Elements (K J U : Type) where
  basis : ℤ → List K → J → K
  value : U → ℤ → List K → K
  gradient : U → ℤ → List K → K × K

/-- A sum over the particles of all ranks; the summand can depend on the element and the reference position. KineticEnergy.hpp:46-73. -/
def sumAll (W : World n K) (f : ℤ → List K → Body K → K) (S : State n (Charged K) K) : K :=
  ∑ r, ((S r).mapIdx fun i c => (c.map fun a => f (gid (W.ranks r) i) a.2.ref (a.1, a.2.pos)).sum).sum

/-- `compute_field`, PoissonParticleCoupling.hpp:252-285: the charges are projected, the equations are solved, and the gradient of the potential is stored with the particles. -/
def computeField (W : World n K) (E : Elements K J U) (solve : (J → K) → U) (S : State n (Charged K) K) : State n (Charged K) K × U :=
  let u := solve fun j => sumAll W (fun g ref a => a.1.q * E.basis g ref j) S
  (fun r => (S r).mapIdx fun i c => c.map fun a =>
    let e := E.gradient u (gid (W.ranks r) i) a.2.ref
    ({ a.1 with e0 := e.1, e1 := e.2 }, a.2), u)

/-- `KineticEnergy::compute`, Diagnostics/KineticEnergy.hpp:46-73, with the sum over all ranks of `MPI_Allreduce`. -/
def kineticEnergy (W : World n K) (mass : K) (S : State n (Charged K) K) : K :=
  sumAll W (fun _ _ a => (a.1.v0 * a.1.v0 + a.1.v1 * a.1.v1 + a.1.v2 * a.1.v2) * ((1 / 2) * mass)) S

/-- `PotentialEnergy::compute`, Diagnostics/PotentialEnergy.hpp:77-103; `mean` is the mean of the potential. -/
def potentialEnergy (W : World n K) (E : Elements K J U) (mean : U → K) (S : State n (Charged K) K) (u : U) : K :=
  sumAll W (fun g ref a => a.1.q * (E.value u g ref + -(mean u))) S * (1 / 2)

/-- What the main loop calls (`PicLoop.Ops`). A rank that fails stops the program: then the result is `none`. ElectrostaticTwoStream2D3V.hpp:255-332. -/
def ops (W : World n K) (I : Integrator K) (E : Elements K J U) (solve : (J → K) → U) (mean fieldEnergy : U → K) (mass : K) :
    PicLoop.Ops (Option (State n (Charged K) K)) (Option U) (Option K) where
  push1 S := S.bind (pushAll W I.first)
  field S := (S.map fun S => (computeField W E solve S).1, S.map fun S => (computeField W E solve S).2)
  push2 S := S.bind (pushAll W I.second)
  fieldEnergy u := u.map fieldEnergy
  kineticEnergy S := S.map (kineticEnergy W mass)
  potentialEnergy S u := S.bind fun S => u.map (potentialEnergy W E mean S)
  callbacks := []

end Verif.Model.ParallelPic
