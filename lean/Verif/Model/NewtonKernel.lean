import Mathlib.Algebra.Order.Field.Basic
import Verif.Model.Loop

/-!
Model of include/nektar_interface/particle_cell_mapping/x_map_newton_kernel.hpp, of the test of a candidate in map_particles_newton.hpp, and of
newton_relative_exit_tolerances.hpp. The values have any type `V` with the operations used by the code, so that the theorems on the iteration
hold for floating point numbers with NaN and infinities. The local memory of the implementations is scratch space and is not modelled.
-/

namespace Verif.Model.NewtonKernel

/-- Three values. No code: three `REAL` variables, x_map_newton_kernel.hpp:71-75. -/
structure V3 (V : Type*) where
  x : V
  y : V
  z : V

/-- The operations on values used in the kernels: `a > b`, `a <= b`, `ABS(a) > 15.0`, `sycl::isfinite(a)`, `Kernel::min`, `Kernel::max`. -/
structure Ops (V : Type*) where
  gt : V → V → Bool
  le : V → V → Bool
  absGt15 : V → Bool
  isfinite : V → Bool
  kmin : V → V → V
  kmax : V → V → V

/-- The operations of exact arithmetic. No code: exact arithmetic for x_map_newton_kernel.hpp:71-126. -/
def exactOps (K : Type*) [Field K] [LinearOrder K] : Ops K where
  gt a b := decide (a > b)
  le a b := decide (a ≤ b)
  absGt15 a := decide (|a| > 15)
  isfinite _ := true
  kmin := min
  kmax := max

/-- A specialisation of `MappingNewtonIterationBase`, mapping_newton_iteration_base.hpp:45-293, for the data of one geometry. `residual` is
`newton_residual`: the value it returns and the vector it writes. -/
structure Impl (V : Type*) where
  initial : V3 V → V3 V
  residual : V3 V → V3 V → V × V3 V
  step : V3 V → V3 V → V3 V → V3 V
  toCollapsed : V3 V → V3 V
  fromCollapsed : V3 V → V3 V

variable {V : Type*}

/-- `XMapNewtonKernel::x`, x_map_newton_kernel.hpp:35-52. -/
def xMap [Zero V] (I : Impl V) (xi : V3 V) : V3 V := (I.residual xi ⟨0, 0, 0⟩).2

/-- The test for divergence, lines 122-123. -/
def hasDiverged (o : Ops V) (xi : V3 V) (residual : V) : Bool :=
  o.absGt15 xi.x || o.absGt15 xi.y || o.absGt15 xi.z || !o.isfinite residual

/-- The state of the loop: `k_xi`, `residual`, `f`, `diverged`. x_map_newton_kernel.hpp:95-104. -/
structure State (V : Type*) where
  xi : V3 V
  residual : V
  f : V3 V
  diverged : Bool

/-- The loop, lines 106-124; the argument is the number of steps left. -/
def iterate (o : Ops V) (I : Impl V) (p : V3 V) (tol : V) : ℕ → State V → State V
  | 0, s => s
  | n + 1, s =>
    if o.gt s.residual tol && !s.diverged then
      let xi := I.step s.xi p s.f
      let r := I.residual xi p
      iterate o I p tol n ⟨xi, r.1, r.2, hasDiverged o xi r.1⟩
    else s

/-- `XMapNewtonKernel::x_inverse`, lines 74-129. `start` is the input `xi` if `initial_override` is set. A negative number of iterations is zero
iterations. -/
def xInverse (o : Ops V) (I : Impl V) (p : V3 V) (maxIterations : ℤ) (tol : V) (start : Option (V3 V)) : V3 V × Bool :=
  let xi0 := start.getD (I.initial p)
  let r := I.residual xi0 p
  let s := iterate o I p tol maxIterations.toNat ⟨xi0, r.1, r.2, false⟩
  (s.xi, o.le s.residual tol)

/-- The settings of `MapParticlesNewton`, map_particles_newton.hpp:138-151: `newton_tol`, `newton_max_iteration`, `1.0 + contained_tol`,
`-1.0 - contained_tol`. -/
structure Settings (V : Type*) where
  tol : V
  maxIterations : ℤ
  hi : V
  lo : V

/-- The test of a candidate with a starting point, map_particles_newton.hpp:337-364 and 493-523: the reference position that is written if the
candidate is accepted. -/
def tryCandidate (o : Ops V) (I : Impl V) (c : Settings V) (p : V3 V) (start : Option (V3 V)) : Option (V3 V) :=
  let inv := xInverse o I p c.maxIterations c.tol start
  let eta := I.toCollapsed inv.1
  let clamp := fun v => o.kmax (o.kmin v c.hi) c.lo
  let xi := I.fromCollapsed ⟨clamp eta.x, clamp eta.y, clamp eta.z⟩
  let clamped_residual := (I.residual xi p).1
  if o.le clamped_residual c.tol && inv.2 then some xi else none

/-- `map_initial` for a candidate: the test from the starting point of the implementation. map_particles_newton.hpp:315-350. -/
def acceptInitial (o : Ops V) (I : Impl V) (c : Settings V) (p : V3 V) : Option (V3 V) := tryCandidate o I c p none

/-- The grid of starting points, map_particles_newton.hpp:420-423 and 486-491; `point g` is `-1.0 + g * k_grid_width`. -/
def startGrid (ndim gridSize : ℕ) (point : ℕ → V) : List (V3 V) :=
  let gx := max (gridSize - 1) 1
  let gy := if ndim > 1 then gx else 1
  let gz := if ndim > 2 then gx else 1
  (List.range (gz + 1)).flatMap fun g2 => (List.range (gy + 1)).flatMap fun g1 => (List.range (gx + 1)).map fun g0 => ⟨point g0, point g1, point g2⟩

/-- `map_final` for a candidate: the first starting point of the grid for which the test succeeds. map_particles_newton.hpp:470-520. -/
def acceptFinal (o : Ops V) (I : Impl V) (c : Settings V) (grid : List (V3 V)) (p : V3 V) : Option (V3 V) :=
  grid.findSome? fun start => tryCandidate o I c p (some start)

/-! ### Exit tolerances -/

/-- `create_newton_relative_exit_tolerances`, newton_relative_exit_tolerances.hpp:49-71, for a dimension: `scaling_dir`. `jac` are the Jacobians at the
points of the element. -/
def scalingDir {K : Type*} [Field K] [LinearOrder K] (jac : List K) (lo hi : K) : K :=
  let tol_scaling := jac.sum / (jac.length : K)
  1 / (max |lo| |hi| * tol_scaling)

/-- `get_relative_error_2d`, lines 21-26. -/
def relativeError2d {K : Type*} [Field K] [LinearOrder K] (s : V3 K) (f0 f1 : K) : K := max (|f0| * s.x) (|f1| * s.y)

/-- `get_relative_error_3d`, lines 34-41. -/
def relativeError3d {K : Type*} [Field K] [LinearOrder K] (s : V3 K) (f0 f1 f2 : K) : K := max (max (|f0| * s.x) (|f1| * s.y)) (|f2| * s.z)

end Verif.Model.NewtonKernel
