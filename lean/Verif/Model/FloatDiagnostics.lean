import Mathlib.Data.Real.Basic

/-!
Model of the sums over all particles in floating point arithmetic: `KineticEnergy::compute`, `PotentialEnergy::compute` (`/repo/solvers/Electrostatic2D3V/Diagnostics`) and `compute_particle_mass` of the mass recorders
(`/repo/solvers/DriftReduced/Diagnostics/MassRecorder.hpp`, `/repo/solvers/SimpleSOL/Diagnostics/MassRecording.hpp`).

Each operation is followed by a rounding `rnd`, except for products which the compiler fuses with the sum they are part of. Overflow, infinities and NaN are not modelled.
-/

namespace Verif.Model.FloatDiagnostics

/-- The additions that give the value of a `GlobalArray` after a loop with `Access::add` and `MPI_Allreduce`, in the order in which they happen (NESO-Particles and MPI, external: any order and any number of intermediate
sums that start at zero, on each work group and each rank). KineticEnergy.hpp:46-73 (`ga_kinetic_energy`), PotentialEnergy.hpp:77-103 (`ga_energy`), MassRecorder.hpp:96-111, MassRecording.hpp:50-65. -/
inductive Additions (P : Type) where
  | zero
  | term (a : P)
  | add (s t : Additions P)

/-- The particles whose terms are added. KineticEnergy.hpp:46-73. -/
def Additions.particles {P : Type} : Additions P → List P
  | .zero => []
  | .term a => [a]
  | .add s t => s.particles ++ t.particles

/-- The number of additions that follow one another. KineticEnergy.hpp:46-73. -/
def Additions.depth {P : Type} : Additions P → ℕ
  | .zero => 0
  | .term _ => 0
  | .add s t => max s.depth t.depth + 1

/-- The computed sum of the terms `f`. KineticEnergy.hpp:46-73. -/
noncomputable def Additions.value {P : Type} (rnd : ℝ → ℝ) (f : P → ℝ) : Additions P → ℝ
  | .zero => 0
  | .term a => f a
  | .add s t => rnd (s.value rnd f + t.value rnd f)

/-- The loop `half_mvv += V_vdimx * V_vdimx`, KineticEnergy.hpp:59-62. `c i` tells whether the product `i` is fused with the addition. -/
noncomputable def squaresF (rnd : ℝ → ℝ) (c : ℕ → Bool) : ℕ → ℝ → List ℝ → ℝ
  | _, half_mvv, [] => half_mvv
  | i, half_mvv, v :: vs => squaresF rnd c (i + 1) (rnd (half_mvv + if c i then v * v else rnd (v * v))) vs

/-- The term of a particle with the velocity `v`, KineticEnergy.hpp:48, 58-63. -/
noncomputable def kineticTermF (rnd : ℝ → ℝ) (c : ℕ → Bool) (mass : ℝ) (v : List ℝ) : ℝ :=
  let k_half_particle_mass := rnd ((1 / 2) * mass)
  rnd (squaresF rnd c 0 0 v * k_half_particle_mass)

/-- `KineticEnergy::compute`, KineticEnergy.hpp:46-73. `s` are the additions. -/
noncomputable def kineticF {P : Type} (rnd : ℝ → ℝ) (c : ℕ → Bool) (mass : ℝ) (velocity : P → List ℝ) (s : Additions P) : ℝ :=
  s.value rnd fun a => kineticTermF rnd c mass (velocity a)

/-- `PotentialEnergy::compute`, PotentialEnergy.hpp:77-103, for the computed values of the potential at the particles and the computed mean of the potential. -/
noncomputable def potentialF {P : Type} (rnd : ℝ → ℝ) (mean : ℝ) (charge phi : P → ℝ) (s : Additions P) : ℝ :=
  let k_potential_shift := -mean
  rnd ((s.value rnd fun a => rnd (charge a * rnd (phi a + k_potential_shift))) * (1 / 2))

/-- `compute_particle_mass`, MassRecorder.hpp:96-111, MassRecording.hpp:50-65. -/
noncomputable def particleMassF {P : Type} (rnd : ℝ → ℝ) (weight : P → ℝ) (s : Additions P) : ℝ := s.value rnd weight

/-- The relative error of the mass that is recorded, MassRecorder.hpp:131-147 with `compute_fluid_mass` (67-69) and `compute_total_added_mass` (117-124); MassRecording.hpp:67-84, 99-121. `integral` is the computed integral
of the density, `added` the number of particles added, `initial` the computed fluid mass at the start. `c` tells which products are fused with the sum. -/
noncomputable def recordedErrorF {P : Type} (rnd : ℝ → ℝ) (c : ℕ → Bool) (weight : P → ℝ) (s : Additions P) (integral nToSI : ℝ) (added : ℕ) (initWeight initial : ℝ) : ℝ :=
  let mass_particles := particleMassF rnd weight s
  let mass_total := rnd (mass_particles + if c 0 then integral * nToSI else rnd (integral * nToSI))
  let n := rnd (added : ℝ)
  let correct_total := rnd ((if c 1 then n * initWeight else rnd (n * initWeight)) + initial)
  rnd (|rnd (correct_total - mass_total)| / |correct_total|)

/-- The additions of one rank in the order of a list, from zero: `sycl::atomic` additions one after the other. KineticEnergy.hpp:46-73. -/
def Additions.sequential {P : Type} (ps : List P) : Additions P := ps.foldl (fun s a => .add s (.term a)) .zero

end Verif.Model.FloatDiagnostics
