import Verif.Model.NewtonKernel

/-!
The Newton iteration with the local memory of the implementation: x_map_newton_kernel.hpp, the test of a candidate in map_particles_newton.hpp, and the host
interface x_map_newton.hpp, in include/nektar_interface/particle_cell_mapping. `M` is the local memory, `none` an access outside of an array.
-/

namespace Verif.Model.NewtonMemory
open Verif.Model.NewtonKernel

/-- A specialisation of `MappingNewtonIterationBase`, mapping_newton_iteration_base.hpp:45-293, that uses the local memory. `newton_step` reads it, `newton_residual` reads and
writes it. -/
structure MImpl (V M : Type*) where
  initial : V3 V → V3 V
  residual : V3 V → V3 V → M → Option ((V × V3 V) × M)
  step : V3 V → V3 V → V3 V → M → Option (V3 V)
  toCollapsed : V3 V → V3 V
  fromCollapsed : V3 V → V3 V

variable {V M : Type*}

/-- A specialisation that does not use the local memory (the pointer is passed and ignored): newton_quad.hpp, newton_hex.hpp, newton_prism.hpp, newton_pyr.hpp, newton_tet.hpp. newton_hex.hpp:45-129, newton_quad.hpp:60-127. -/
def ofImpl (I : Impl V) : MImpl V Unit where
  initial := I.initial
  residual xi p _ := some (I.residual xi p, ())
  step xi p f _ := some (I.step xi p f)
  toCollapsed := I.toCollapsed
  fromCollapsed := I.fromCollapsed

/-- The loop of `XMapNewtonKernel::x_inverse`, x_map_newton_kernel.hpp:106-124; the argument is the number of steps left. -/
def iterateM (o : Ops V) (I : MImpl V M) (p : V3 V) (tol : V) : ℕ → State V × M → Option (State V × M)
  | 0, s => some s
  | n + 1, s =>
    if o.gt s.1.residual tol && !s.1.diverged then
      (I.step s.1.xi p s.1.f s.2).bind fun xi =>
      (I.residual xi p s.2).bind fun r =>
      iterateM o I p tol n (⟨xi, r.1.1, r.1.2, hasDiverged o xi r.1.1⟩, r.2)
    else some s

/-- `XMapNewtonKernel::x_inverse`, x_map_newton_kernel.hpp:74-129. -/
def xInverseM (o : Ops V) (I : MImpl V M) (p : V3 V) (maxIterations : ℤ) (tol : V) (start : Option (V3 V)) (mem : M) : Option ((V3 V × Bool) × M) :=
  let xi0 := start.getD (I.initial p)
  (I.residual xi0 p mem).bind fun r =>
  (iterateM o I p tol maxIterations.toNat (⟨xi0, r.1.1, r.1.2, false⟩, r.2)).map fun s =>
  ((s.1.xi, o.le s.1.residual tol), s.2)

/-- `XMapNewtonKernel::x`, x_map_newton_kernel.hpp:35-52, and `XMapNewton::x`, x_map_newton.hpp:118-165: the vector written by `newton_residual` for the point zero. -/
def xMapM (I : MImpl V M) (zero : V) (xi : V3 V) (mem : M) : Option (V3 V × M) :=
  (I.residual xi ⟨zero, zero, zero⟩ mem).map fun r => (r.1.2, r.2)

/-- The state of the loops of `XMapNewton::x_inverse`, x_map_newton.hpp:222-226: `k_xi`, `residual`, `cell_found`, and the local memory. -/
structure Search (V M : Type*) where
  xi : V3 V
  residual : V
  found : Bool
  mem : M

/-- The body of the loops for a starting point, x_map_newton.hpp:234-264 (the same operations as map_particles_newton.hpp:493-523). -/
def attemptM (o : Ops V) (I : MImpl V M) (c : Settings V) (p : V3 V) (start : V3 V) (mem : M) : Option (Search V M) :=
  (xInverseM o I p c.maxIterations c.tol (some start) mem).bind fun inv =>
  let eta := I.toCollapsed inv.1.1
  let e0 := o.kmin eta.x c.hi
  let e1 := o.kmin eta.y c.hi
  let e2 := o.kmin eta.z c.hi
  let e0 := o.kmax e0 c.lo
  let e1 := o.kmax e1 c.lo
  let e2 := o.kmax e2 c.lo
  let xi := I.fromCollapsed ⟨e0, e1, e2⟩
  (I.residual xi p inv.2).map fun r =>
  ⟨xi, r.1.1, o.le r.1.1 c.tol && inv.1.2, r.2⟩

/-- `XMapNewton::x_inverse`, x_map_newton.hpp:184-278: `max_iterations` is 51, the grid has `num_modes_factor * num_modes` points. `point gx g` is `-1.0 + g * (2.0 / gx)`, `c` has the
tolerances of the call, `init` the initial values of lines 222-226. The three nested loops stop when `cell_found` is set. -/
def hostInverse (o : Ops V) (I : MImpl V M) (ndim : ℕ) (numModesFactor numModes : ℤ) (point : ℕ → ℕ → V) (tol hi lo : V) (p : V3 V) (init : Search V M) :
    Option (V3 V × Bool) :=
  let gridSize := (numModesFactor * numModes).toNat
  let gx := max (gridSize - 1) 1
  ((startGrid ndim gridSize (point gx)).foldlM (fun (s : Search V M) start =>
    if s.found then some s else attemptM o I ⟨tol, 51, hi, lo⟩ p start s.mem) init).map fun s =>
  (s.xi, o.le s.residual tol && s.found)

end Verif.Model.NewtonMemory
