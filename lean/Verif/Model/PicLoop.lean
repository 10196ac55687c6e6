import Verif.Model.Electrostatic
import Verif.Model.Boris
import Verif.Model.Hdf5Writer

/-!
Model of the constructors (the parts that the main loop reads) and of `run` of the two electrostatic solvers in
`/repo/solvers/Electrostatic2D3V/`: `ElectrostaticTwoStream2D3V.hpp` and `ElectrostaticElectronBernsteinWaves2D3V.hpp`.

The pushes, the field solve and the diagnostics are parameters (`Ops`); they are modelled in `Model/Electrostatic.lean` and `Model/Boris.lean` and are put
in below. Output goes to a list of events, except the HDF5 file of the energies, which is `Model/Hdf5Writer.lean`. Timers are not modelled.
-/

namespace Verif.Model.PicLoop
open Verif.Model.Hdf5

/-- The two classes. ElectrostaticTwoStream2D3V.hpp:34-70, ElectrostaticElectronBernsteinWaves2D3V.hpp:34-55. -/
inductive Solver
  | twoStream
  | bernstein
  deriving DecidableEq

/-- The integers that the constructors read, ElectrostaticTwoStream2D3V.hpp:110-119 and 217-219, ElectrostaticElectronBernsteinWaves2D3V.hpp:95-104 and 184-186, and the rank. `lineStep = none`: the session does not define
`line_field_deriv_evaluations_step`. -/
structure Config where
  numTimeSteps : ℤ
  writeParticle : ℤ
  writeField : ℤ
  writeEnergy : ℤ
  print : ℤ
  rank : ℤ
  lineStep : Option ℤ

/-- `global_hdf5_write`, ElectrostaticTwoStream2D3V.hpp:121-127, ElectrostaticElectronBernsteinWaves2D3V.hpp:106-112. -/
def Config.hdf5 (c : Config) : Bool := c.rank == 0 && (decide (c.writeEnergy > 0) || decide (c.writeParticle > 0))

/-- `line_field_deriv_evaluations_flag` after the constructor, ElectrostaticTwoStream2D3V.hpp:210-226, ElectrostaticElectronBernsteinWaves2D3V.hpp:177-193. `garbage` is the value of the member
`line_field_deriv_evaluations_step`, which is read without having been set if the session does not define the parameter. -/
def Config.lineFlag (c : Config) (garbage : ℤ) : Bool := c.lineStep.isSome && decide (c.lineStep.getD garbage > 0)

/-- What `run` calls: the two halves of the push, the field solve (it sets the gradient on the particles and gives the potential), the three energies, and the
callbacks, which get the object and may change it. ElectrostaticTwoStream2D3V.hpp:255-332. -/
structure Ops (P F V : Type) where
  push1 : P → P
  field : P → P × F
  push2 : P → P
  fieldEnergy : F → V
  kineticEnergy : P → V
  potentialEnergy : P → F → V
  callbacks : List (ℕ → P → F → P × F)

/-- The output of `run` except the HDF5 file of the energies. `energies p f` are the printed values. ElectrostaticTwoStream2D3V.hpp:255-332. -/
inductive Out (P F V : Type)
  | particles (p : P)
  | forcing (step : ℕ) (f : F)
  | potential (step : ℕ) (f : F)
  | line (step : ℕ) (f : F)
  | lineDeriv (step : ℕ) (f : F)
  | printed (step : ℕ) (energies : Option (Option V × Option V × Option V))
  | callback (index step : ℕ) (p : P) (f : F)

/-- The state of the simulation; the energies are the members of the diagnostics objects, `none` before the first `compute`. ElectrostaticTwoStream2D3V.hpp:255-332. -/
structure St (P F V : Type) where
  p : P
  f : F
  fe : Option V
  ke : Option V
  pe : Option V
  writer : Writer V
  out : List (Out P F V)

/-- `if (n > 0) if ((stepx % n) == 0)`: the tests in the main loop. ElectrostaticTwoStream2D3V.hpp:262-304. -/
def due (n : ℤ) (k : ℕ) : Bool := decide (n > 0) && decide ((k : ℤ).tmod n = 0)

/-- Appends output. ElectrostaticTwoStream2D3V.hpp:262-325. -/
def St.emit {P F V : Type} (s : St P F V) (l : List (Out P F V)) : St P F V := { s with out := s.out ++ l }

/-- The three lines of the time step, ElectrostaticTwoStream2D3V.hpp:258-260, ElectrostaticElectronBernsteinWaves2D3V.hpp:225-227. -/
def advance {P F V : Type} (X : Ops P F V) (s : St P F V) : St P F V :=
  let r := X.field (X.push1 s.p)
  { s with p := X.push2 r.1, f := r.2 }

/-- Writing of particles and fields, ElectrostaticTwoStream2D3V.hpp:267-277, ElectrostaticElectronBernsteinWaves2D3V.hpp:230-240. -/
def writeData {P F V : Type} (c : Config) (k : ℕ) (s : St P F V) : St P F V :=
  let s := if due c.writeParticle k then s.emit [.particles s.p] else s
  if due c.writeField k then s.emit [.forcing k s.f, .potential k s.f] else s

/-- The energies, ElectrostaticTwoStream2D3V.hpp:279-297, ElectrostaticElectronBernsteinWaves2D3V.hpp:242-259. No HDF5 call fails by itself. -/
def energies {P F V : Type} (X : Ops P F V) (c : Config) (k : ℕ) (s : St P F V) : St P F V :=
  if due c.writeEnergy k then
    let fe := X.fieldEnergy s.f
    let ke := X.kineticEnergy s.p
    let pe := X.potentialEnergy s.p s.f
    let s := { s with fe := some fe, ke := some ke, pe := some pe }
    if c.hdf5 then
      let w := s.writer.stepStart (k : ℤ)
      let w := w.writeStep (fun _ => false) "field_energy" fe
      let w := w.writeStep (fun _ => false) "kinetic_energy" ke
      let w := w.writeStep (fun _ => false) "potential_energy" pe
      { s with writer := w.stepEnd }
    else s
  else s

/-- The evaluations on a line, ElectrostaticTwoStream2D3V.hpp:299-303, ElectrostaticElectronBernsteinWaves2D3V.hpp:261-265: the two solvers write the two files in a different order. -/
def lines {P F V : Type} (solver : Solver) (c : Config) (garbage : ℤ) (k : ℕ) (s : St P F V) : St P F V :=
  if c.lineFlag garbage && decide ((k : ℤ).tmod (c.lineStep.getD garbage) = 0) then
    match solver with
    | .twoStream => s.emit [.line k s.f, .lineDeriv k s.f]
    | .bernstein => s.emit [.lineDeriv k s.f, .line k s.f]
  else s

/-- The line on the screen, ElectrostaticTwoStream2D3V.hpp:304-325, ElectrostaticElectronBernsteinWaves2D3V.hpp:267-288. -/
def prints {P F V : Type} (c : Config) (k : ℕ) (s : St P F V) : St P F V :=
  if due c.print k && c.rank == 0 then
    s.emit [.printed k (if c.writeEnergy > 0 then some (s.fe, s.ke, s.pe) else none)]
  else s

/-- The callbacks, ElectrostaticTwoStream2D3V.hpp:327-330, ElectrostaticElectronBernsteinWaves2D3V.hpp:290-293, from index `i` on. -/
def callbacks {P F V : Type} (k : ℕ) : ℕ → List (ℕ → P → F → P × F) → St P F V → St P F V
  | _, [], s => s
  | i, g :: gs, s =>
    let s' := s.emit [.callback i k s.p s.f]
    callbacks k (i + 1) gs { s' with p := (g k s.p s.f).1, f := (g k s.p s.f).2 }

/-- The body of the main loop, ElectrostaticTwoStream2D3V.hpp:255-332, ElectrostaticElectronBernsteinWaves2D3V.hpp:221-295. -/
def body {P F V : Type} (solver : Solver) (X : Ops P F V) (c : Config) (garbage : ℤ) (s : St P F V) (k : ℕ) : St P F V :=
  callbacks k 0 X.callbacks (prints c k (lines solver c garbage k (energies X c k (writeData c k (advance X s)))))

/-- The main loop, ElectrostaticTwoStream2D3V.hpp:255-332, ElectrostaticElectronBernsteinWaves2D3V.hpp:221-295. -/
def run {P F V : Type} (solver : Solver) (X : Ops P F V) (c : Config) (garbage : ℤ) (s : St P F V) : St P F V :=
  (List.range c.numTimeSteps.toNat).foldl (body solver X c garbage) s

/-- The object after the constructor: no output and no energies yet. `globals` are the values that the constructor writes to the file,
ElectrostaticTwoStream2D3V.hpp:187-208, ElectrostaticElectronBernsteinWaves2D3V.hpp:150-175. -/
def St.init {P F V : Type} (p : P) (f : F) (globals : List (String × V)) : St P F V :=
  ⟨p, f, none, none, none, (Writer.new V).run (fun _ => false) (globals.map fun g => .writeGlobal g.1 g.2), []⟩

/-! ### The magnetic field -/

/-- The magnetic field of the electron Bernstein wave solver, ElectrostaticElectronBernsteinWaves2D3V.hpp:124-141. The first loop reads the defined components into a vector that is not used;
`LoadParameter` without a default stops if the parameter is not defined (`none`). -/
def bernsteinB (bx by_ bz : Option ℝ) : Option (ℝ × ℝ × ℝ) :=
  let _unused : ℝ × ℝ × ℝ := (bx.getD 0, by_.getD 0, bz.getD 0)
  bx.bind fun x => by_.bind fun y => bz.map fun z => (x, y, z)

/-- The magnetic field of the two stream solver, ElectrostaticTwoStream2D3V.hpp:143-166. -/
noncomputable def twoStreamB (bx by_ bz : Option ℝ) : ℝ × ℝ × ℝ := (bx.getD 0, by_.getD 0, bz.getD 0)

/-! ### The two integrators -/

open Verif.Model.Electrostatic

variable {ι U V : Type}

/-- `compute_field` on the particles: the potential depends on positions and charges only (property C65), and the property `E` is set to its gradient. -/
def setField (potential : (ι → (ℝ × ℝ) × ℝ) → U) (gradient : U → ℝ × ℝ → ℝ × ℝ) (ps : ι → Particle) : (ι → Particle) × U :=
  let u := potential (seen ps)
  (fun i => { ps i with e := gradient u (ps i).pos }, u)

/-- `boris_2` on a particle, with the boundary condition of `transfer_particles`, ChargedParticles.hpp:648-653. The mass must not be zero; then `boris2` gives a result. -/
noncomputable def boris2P (prm : Params) (b : ℝ × ℝ × ℝ) (p : Particle) : Particle :=
  match Boris.boris2 ⟨prm.dt, b.1, b.2.1, b.2.2, prm.eCoefficient⟩ ⟨p.pos.1, p.pos.2, ⟨p.v0, p.v1, p.v2⟩, p.m, p.q, p.e.1, p.e.2⟩ with
  | some r => { p with pos := periodic prm (r.p0, r.p1), v0 := r.v.x, v1 := r.v.y, v2 := r.v.z }
  | none => p

/-- `integrator_1` and `integrator_2` with type 0, ElectrostaticTwoStream2D3V.hpp:54-68: velocity Verlet. -/
noncomputable def verletOps (prm : Params) (potential : (ι → (ℝ × ℝ) × ℝ) → U) (gradient : U → ℝ × ℝ → ℝ × ℝ)
    (fe : U → V) (ke : (ι → Particle) → V) (pe : (ι → Particle) → U → V) : Ops (ι → Particle) U V where
  push1 ps i := verlet1 prm (ps i)
  field := setField potential gradient
  push2 ps i := verlet2 prm (ps i)
  fieldEnergy := fe
  kineticEnergy := ke
  potentialEnergy := pe
  callbacks := []

/-- The same with the Boris integrator, ElectrostaticTwoStream2D3V.hpp:54-68, ElectrostaticElectronBernsteinWaves2D3V.hpp:51-53; `boris_1` does nothing (IntegratorBorisUniformB.hpp:64-66). -/
noncomputable def borisOps (prm : Params) (b : ℝ × ℝ × ℝ) (potential : (ι → (ℝ × ℝ) × ℝ) → U) (gradient : U → ℝ × ℝ → ℝ × ℝ)
    (fe : U → V) (ke : (ι → Particle) → V) (pe : (ι → Particle) → U → V) : Ops (ι → Particle) U V where
  push1 ps := ps
  field := setField potential gradient
  push2 ps i := boris2P prm b (ps i)
  fieldEnergy := fe
  kineticEnergy := ke
  potentialEnergy := pe
  callbacks := []

end Verif.Model.PicLoop
