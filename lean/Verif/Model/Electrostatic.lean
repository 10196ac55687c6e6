import Verif.Model.Periodic
import Mathlib.Data.Real.Sqrt
import Mathlib.Algebra.Order.BigOperators.Ring.Finset

/-!
Model of the Electrostatic2D3V solver: `/repo/solvers/Electrostatic2D3V/ParticleSystems/ChargedParticles.hpp`,
`ParticleSystems/PoissonParticleCoupling.hpp`, `EquationSystems/PoissonPIC.cpp`,
`ElectrostaticTwoStream2D3V.hpp` and the diagnostics in `Diagnostics/` of that directory.

Simplifications: `double` is the real numbers. The particles of all ranks form one family indexed by `ι`; moving particles
between ranks and cells changes none of the modelled properties. The finite element spaces of Nektar++ enter through
their quadrature weights and their transforms (`Space`), the Poisson solver, the projection (property C14) and the
evaluation at the particles through arbitrary functions.
-/

namespace Verif.Model.Electrostatic
open Verif.Model

/-! ### Set up of the particles -/

/-- The parameters of the session which the constructor of `ChargedParticles` reads, and the sizes of the mesh. ChargedParticles.hpp:421-516. -/
structure SetupInput where
  numElements : ℕ
  perCell : ℤ
  total : ℤ
  density : ℝ
  extent0 : ℝ
  extent1 : ℝ
  chargeDensity : Option ℝ
  charge : Option ℝ

/-- The members which the constructor computes. `chargeDensity = none` is an uninitialised member. ChargedParticles.hpp:351-384. -/
structure Setup where
  numParticles : ℤ
  numberDensity : ℝ
  weight : ℝ
  charge : ℝ
  chargeDensity : Option ℝ

/-- A quotient of doubles which is `none` where the result is not finite. ChargedParticles.hpp:500, 511-515. -/
noncomputable def quot (a b : ℝ) : Option ℝ := if b = 0 then none else some (a / b)

/-- The number of particles, ChargedParticles.hpp:431-451. -/
def numParticles (i : SetupInput) : ℤ := if i.total > -1 then i.total else (i.numElements : ℤ) * i.perCell

/-- The constructor of `ChargedParticles`, ChargedParticles.hpp:431-451, 488-520. The default charge is 1 (ChargedParticles.hpp:364). -/
noncomputable def setup (i : SetupInput) : Option Setup :=
  let n := numParticles i
  let volume := i.extent0 * i.extent1
  (if i.density < 0 then (quot n volume).map fun d => ((1 : ℝ), d)
    else (quot (i.density * volume) n).map fun w => (w, i.density)).bind fun wd =>
  match i.chargeDensity, i.charge with
  | some c, _ => (quot (c * volume) (wd.2 * volume)).map fun q => ⟨n, wd.2, wd.1, q, some c⟩
  | none, some q => some ⟨n, wd.2, wd.1, q, some (wd.2 * q)⟩
  | none, none => some ⟨n, wd.2, wd.1, 1, none⟩

/-! ### The Poisson problem -/

/-- A function space of Nektar++: quadrature weights (with the Jacobian) at the points, and the transforms. Used in PoissonParticleCoupling.hpp:187-230. -/
structure Space (N M : ℕ) where
  w : Fin N → ℝ
  fwd : (Fin N → ℝ) → (Fin M → ℝ)
  bwd : (Fin M → ℝ) → (Fin N → ℝ)

/-- `Integral(phys)` of Nektar++. Called in PoissonParticleCoupling.hpp:69, 192. -/
def Space.integral {N M : ℕ} (S : Space N M) (f : Fin N → ℝ) : ℝ := ∑ i, S.w i * f i

/-- `L2(phys, exact)` of Nektar++. Called in PoissonParticleCoupling.hpp:220. -/
noncomputable def Space.l2 {N M : ℕ} (S : Space N M) (f g : Fin N → ℝ) : ℝ :=
  Real.sqrt (S.integral fun i => (f i - g i) ^ 2)

/-- The members `volume`, `ncd_coeff_values`, `ncd_phys_values` of the coupling. PoissonParticleCoupling.hpp:49-50, 187-212. -/
structure Coupling (N M : ℕ) where
  volume : ℝ
  ncdCoeffs : Fin M → ℝ
  ncdPhys : Fin N → ℝ

/-- The constructor of `PoissonParticleCoupling`, PoissonParticleCoupling.hpp:183-232; `none` is the failure of the assertion at PoissonParticleCoupling.hpp:226.
The checks for finite values have no counterpart over the reals. -/
noncomputable def coupling {N M : ℕ} (S : Space N M) : Option (Coupling N M) :=
  let minusOne : Fin N → ℝ := fun _ => -1
  let volume := -(S.integral minusOne)
  let ncdCoeffs := S.fwd minusOne
  let ncdPhys := S.bwd ncdCoeffs
  let l2error := S.l2 minusOne ncdPhys / volume
  if l2error < 1 / 10 ^ 6 then some ⟨volume, ncdCoeffs, ncdPhys⟩ else none

/-- Values of the forcing function. PoissonParticleCoupling.hpp:72-89. -/
structure Forcing (N M : ℕ) where
  phys : Fin N → ℝ
  coeffs : Fin M → ℝ

/-- `add_neutralising_field`, PoissonParticleCoupling.hpp:63-100; `weight` is `particle_weight`. -/
noncomputable def addNeutralising {N M : ℕ} (S : Space N M) (c : Coupling N M) (weight : ℝ) (f : Forcing N M) :
    Option (Forcing N M) :=
  let totalCharge := S.integral f.phys
  let average := totalCharge / c.volume
  let coeffs := fun k => f.coeffs k + c.ncdCoeffs k * average
  let phys := fun k => f.phys k + c.ncdPhys k * average
  if |S.integral phys * weight| < 1 / 10 ^ 6 then some ⟨phys, coeffs⟩ else none

/-- The scaling of the right hand side in `solve_equation_system`, PoissonParticleCoupling.hpp:102-112. The coefficients are overwritten. -/
def scaleForcing {N M : ℕ} (weight : ℝ) (f : Forcing N M) : Forcing N M :=
  let scaling := -weight
  ⟨fun k => f.phys k * scaling, fun _ => scaling⟩

/-- All fields of the solver. PoissonParticleCoupling.hpp:119-180. -/
structure Fields (N M : ℕ) (U : Type*) where
  forcing : Forcing N M
  potential : U

/-- `compute_field`, PoissonParticleCoupling.hpp:252-284, with `v_DoSolve`, PoissonPIC.cpp:51-64. `project` is the projection of the charges (it replaces
all the values), `helmSolve` the solver, which reads the physical values of the forcing only and starts from zero;
`gradient` evaluates the derivative of the potential at the particles. The old fields are zeroed first. The result are the new
fields and the property `E` of the particles. -/
noncomputable def computeField {N M : ℕ} {U ι : Type*} (S : Space N M) (c : Coupling N M) (weight : ℝ)
    (project : (ι → (ℝ × ℝ) × ℝ) → Forcing N M) (helmSolve : (Fin N → ℝ) → U) (gradient : U → ℝ × ℝ → ℝ × ℝ)
    (_old : Fields N M U) (ps : ι → (ℝ × ℝ) × ℝ) : Option (Fields N M U × (ι → ℝ × ℝ)) :=
  let f := project ps
  (addNeutralising S c weight f).map fun f =>
    let f := scaleForcing weight f
    let u := helmSolve f.phys
    (⟨f, u⟩, fun i => gradient u (ps i).1)

/-! ### Velocity Verlet -/

/-- The properties of a particle, ChargedParticles.hpp:467-474. `e` holds the gradient of the potential. -/
@[ext] structure Particle where
  pos : ℝ × ℝ
  v0 : ℝ
  v1 : ℝ
  v2 : ℝ
  q : ℝ
  m : ℝ
  e : ℝ × ℝ

/-- The members of `ChargedParticles` used by the integrator, with origin and extent of the periodic domain. ChargedParticles.hpp:351-384. -/
structure Params where
  dt : ℝ
  eCoefficient : ℝ
  origin : ℝ × ℝ
  extent : ℝ × ℝ

/-- The boundary condition of `transfer_particles`, ChargedParticles.hpp:552-561: the map of property C27. -/
noncomputable def periodic (prm : Params) (x : ℝ × ℝ) : ℝ × ℝ :=
  (Periodic.wrap prm.origin.1 prm.extent.1 x.1, Periodic.wrap prm.origin.2 prm.extent.2 x.2)

/-- The factor of the half kicks, ChargedParticles.hpp:587-589, 623-625. -/
noncomputable def halfKick (prm : Params) (p : Particle) : ℝ := prm.eCoefficient * (prm.dt * (1 / 2)) * p.q / p.m

/-- The kernel of `velocity_verlet_1`, ChargedParticles.hpp:586-595, and the boundary condition. -/
noncomputable def verlet1 (prm : Params) (p : Particle) : Particle :=
  let h := halfKick prm p
  let v0 := p.v0 - p.e.1 * h
  let v1 := p.v1 - p.e.2 * h
  { p with v0 := v0, v1 := v1, pos := periodic prm (p.pos.1 + prm.dt * v0, p.pos.2 + prm.dt * v1) }

/-- The kernel of `velocity_verlet_2`, ChargedParticles.hpp:622-628. -/
noncomputable def verlet2 (prm : Params) (p : Particle) : Particle :=
  let h := halfKick prm p
  { p with v0 := p.v0 - p.e.1 * h, v1 := p.v1 - p.e.2 * h }

/-- What `compute_field` reads of the particles: positions and charges. PoissonParticleCoupling.hpp:260-299. -/
def seen {ι : Type*} (ps : ι → Particle) : ι → (ℝ × ℝ) × ℝ := fun i => ((ps i).pos, (ps i).q)

/-- One step of the main loop with the Verlet integrator, ElectrostaticTwoStream2D3V.hpp:257-260: `field` is `compute_field`, a function of the positions
and charges only (property C65). -/
noncomputable def step {ι : Type*} (prm : Params) (field : (ι → (ℝ × ℝ) × ℝ) → ι → ℝ × ℝ) (ps : ι → Particle) : ι → Particle :=
  let ps1 := fun i => verlet1 prm (ps i)
  let e := field (seen ps1)
  fun i => verlet2 prm { ps1 i with e := e i }

/-- The main loop, ElectrostaticTwoStream2D3V.hpp:255-260. -/
noncomputable def steps {ι : Type*} (prm : Params) (field : (ι → (ℝ × ℝ) × ℝ) → ι → ℝ × ℝ) : ℕ → (ι → Particle) → (ι → Particle)
  | 0, ps => ps
  | n + 1, ps => steps prm field n (step prm field ps)

/-- The property `E` of the particles created by `add_particles`, ChargedParticles.hpp:316-318. -/
def initial {ι : Type*} (ps : ι → Particle) : ι → Particle := fun i => { ps i with e := (0, 0) }

/-! ### Choice of the integrator -/

/-- The integrator: 0 is velocity Verlet, everything else Boris (ElectrostaticTwoStream2D3V.hpp:54-68). The choice is made in ElectrostaticTwoStream2D3V.hpp:139-173 from the
parameters `particle_B_{z,y,x}_magnitude` and `particle_integrator_type`. -/
def integratorType (bz by_ bx : Option ℝ) (user : Option ℤ) : ℤ :=
  let t : ℤ := 0
  let t := if bz.isSome then 1 else t
  let t := if by_.isSome then 1 else t
  let t := if bx.isSome then 1 else t
  match user with
  | some u => u
  | none => t

/-- The assertion on the type of the integrator, ElectrostaticTwoStream2D3V.hpp:183-185. -/
def integratorCheck (t : ℤ) : Bool := t ≥ 0 || t ≤ 1

/-! ### Diagnostics -/

/-- `FieldMean`: constructor and `get_mean`, Diagnostics/FieldMean.hpp:27-48. -/
noncomputable def fieldMean {N M : ℕ} (S : Space N M) (phys : Fin N → ℝ) : ℝ :=
  S.integral phys / S.integral fun _ => 1

/-- `FieldEnergy::compute`, Diagnostics/FieldEnergy.hpp:58-74. -/
noncomputable def fieldEnergy {N M : ℕ} (S : Space N M) (phys : Fin N → ℝ) : ℝ :=
  let shift := -(fieldMean S phys)
  S.integral fun i => (phys i + shift) * (phys i + shift)

/-- `KineticEnergy::compute`, Diagnostics/KineticEnergy.hpp:46-73; `mass` is the mass given to the constructor. -/
noncomputable def kineticEnergy {ι : Type*} [Fintype ι] (mass : ℝ) (ps : ι → Particle) : ℝ :=
  ∑ i, ((ps i).v0 * (ps i).v0 + (ps i).v1 * (ps i).v1 + (ps i).v2 * (ps i).v2) * ((1 / 2) * mass)

/-- `PotentialEnergy::compute`, Diagnostics/PotentialEnergy.hpp:77-103; `phi i` is the value of the potential at particle `i`. -/
noncomputable def potentialEnergy {N M : ℕ} {ι : Type*} [Fintype ι] (S : Space N M) (phys : Fin N → ℝ) (phi : ι → ℝ)
    (ps : ι → Particle) : ℝ :=
  let shift := -(fieldMean S phys)
  (∑ i, (ps i).q * (phi i + shift)) * (1 / 2)

/-- The sample points of `LineFieldEvaluations` with their property `INDEX`, Diagnostics/LineFieldEvaluations.hpp:138-174. -/
noncomputable def samplePoints (origin extent : ℝ × ℝ) (nx ny : ℕ) : List ((ℝ × ℝ) × (ℕ × ℕ)) :=
  let hx := extent.1 / nx
  let hy := extent.2 / ny
  let x0 := origin.1 + (1 / 2) * hx
  let y0 := origin.2 + (1 / 2) * hy
  (List.range nx).flatMap fun (px : ℕ) => (List.range ny).map fun (py : ℕ) => ((x0 + (px : ℝ) * hx, y0 + (py : ℝ) * hy), ((px, py) : ℕ × ℕ))

/-! ### Initial positions and velocities -/

/-- One coordinate of the positions of distribution 0: ChargedParticles.hpp:134-141. `x` is the sampled value in
`[0, extent)`. -/
noncomputable def position0 (origin x : ℝ) : ℝ := (x + origin) * (1 / 4)

/-- The second coordinate in distribution 1, ChargedParticles.hpp:163-178. -/
noncomputable def position1 (origin extent x : ℝ) (species : Bool) : ℝ :=
  let pos := if species then 1 / 4 else 3 / 4
  let pos := extent * pos + origin
  let shift := (1 / 100) * (x / extent) - 5 / 1000
  pos + shift

/-- The coordinates of all other distributions, ChargedParticles.hpp:200-207. -/
def positionOther (origin x : ℝ) : ℝ := x + origin

end Verif.Model.Electrostatic
