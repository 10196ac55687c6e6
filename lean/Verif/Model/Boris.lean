import Verif.Spec.Vec3

/-!
Model of `/repo/solvers/Electrostatic2D3V/ParticleSystems/IntegratorBorisUniformB.hpp` over an arbitrary
ordered field (rounding is not modelled).
-/

namespace Verif.Model.Boris
open Verif.Spec

variable {K : Type*} [Field K]

/-- The particle properties read and written by `boris_2`: `P` (2 components), `V` (3 components), `M`,
`Q`, `E` (2 components; holds the gradient of the potential). IntegratorBorisUniformB.hpp:71-149. -/
structure Particle (K : Type*) where
  p0 : K
  p1 : K
  v : V3 K
  m : K
  q : K
  e0 : K
  e1 : K

/-- The macro `ELEC_PIC_2D3V_CROSS_PRODUCT_3D`, lines 9-12. -/
def crossProduct3D (a1 a2 a3 b1 b2 b3 : K) : V3 K :=
  ⟨a2 * b3 - a3 * b2, a3 * b1 - a1 * b3, a1 * b2 - a2 * b1⟩

/-- Parameters of the integrator, lines 24-28. -/
structure Params (K : Type*) where
  dt : K
  b0 : K
  b1 : K
  b2 : K
  eCoefficient : K

/-- The kernel of `boris_2`, lines 82-135. `M = 0` divides by zero and is the outcome `none`. -/
def boris2 [DecidableEq K] (prm : Params K) (pt : Particle K) : Option (Particle K) :=
  if pt.m = 0 then none else
  let dht := prm.dt * (1 / 2)
  let qom := pt.q / pt.m
  let scalingT := qom * dht
  let t0 := prm.b0 * scalingT
  let t1 := prm.b1 * scalingT
  let t2 := prm.b2 * scalingT
  let tmagsq := t0 * t0 + t1 * t1 + t2 * t2
  let scalingS := 2 / (1 + tmagsq)
  let s0 := scalingS * t0
  let s1 := scalingS * t1
  let s2 := scalingS * t2
  let vm0 := pt.v.x + (-1 * pt.e0) * scalingT * prm.eCoefficient
  let vm1 := pt.v.y + (-1 * pt.e1) * scalingT * prm.eCoefficient
  let vm2 := pt.v.z
  let c := crossProduct3D vm0 vm1 vm2 t0 t1 t2
  let vp0 := c.x + vm0
  let vp1 := c.y + vm1
  let vp2 := c.z + vm2
  let d := crossProduct3D vp0 vp1 vp2 s0 s1 s2
  let w0 := d.x + vm0
  let w1 := d.y + vm1
  let w2 := d.z + vm2
  let n0 := w0 + scalingT * (-1 * pt.e0) * prm.eCoefficient
  let n1 := w1 + scalingT * (-1 * pt.e1) * prm.eCoefficient
  let n2 := w2
  some { pt with v := ⟨n0, n1, n2⟩, p0 := pt.p0 + prm.dt * n0, p1 := pt.p1 + prm.dt * n1 }

/-- `n` time steps with an electric field that is set anew before each step; `es k` is the field before
step `k`. The calls of `boris_2` in the loop of ElectrostaticTwoStream2D3V.hpp:242-293 (see Model/PicLoop.lean for the loop). -/
def borisSteps [DecidableEq K] (prm : Params K) (es : ℕ → K × K) : ℕ → Particle K → Option (Particle K)
  | 0, pt => some pt
  | n + 1, pt => (borisSteps prm es n pt).bind fun q => boris2 prm { q with e0 := (es n).1, e1 := (es n).2 }

end Verif.Model.Boris
