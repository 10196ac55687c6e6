import Verif.Model.Boris
import Mathlib.Data.Real.Basic

/-!
Model of the kernel of `boris_2`, `/repo/solvers/Electrostatic2D3V/ParticleSystems/IntegratorBorisUniformB.hpp`, in floating point arithmetic: each operation is followed by a rounding `rnd`,
except for products which the compiler fuses with the sum they are part of. Negation (`-1.0 * x`) is exact. Overflow, infinities and NaN are not modelled.
-/

namespace Verif.Model.FloatBoris
open Verif.Spec

/-- A product that is part of a sum: rounded, or fused with the sum. IntegratorBorisUniformB.hpp:9-12, 92-138. Simplification: a fused operation leaves one of the products of a sum unrounded; here any number
of them may be, so the model has more behaviours than the code. -/
noncomputable def prodF (rnd : ℝ → ℝ) (fused : Bool) (a b : ℝ) : ℝ := if fused then a * b else rnd (a * b)

/-- `scaling_t`, lines 74, 85-87. -/
noncomputable def scalingF (rnd : ℝ → ℝ) (dt q m : ℝ) : ℝ := rnd (rnd (q / m) * rnd (dt * (1 / 2)))

/-- `t_0`, `t_1`, `t_2`, lines 88-90. -/
noncomputable def fieldF (rnd : ℝ → ℝ) (prm : Boris.Params ℝ) (sc : ℝ) : V3 ℝ := ⟨rnd (prm.b0 * sc), rnd (prm.b1 * sc), rnd (prm.b2 * sc)⟩

/-- `s_0`, `s_1`, `s_2`, lines 92-97. `c` tells which products are fused. -/
noncomputable def scaledF (rnd : ℝ → ℝ) (c : ℕ → Bool) (t : V3 ℝ) : V3 ℝ :=
  let tmagsq := rnd (rnd (prodF rnd (c 0) t.x t.x + prodF rnd (c 1) t.y t.y) + prodF rnd (c 2) t.z t.z)
  let scaling_s := rnd (2 / rnd (1 + tmagsq))
  ⟨rnd (scaling_s * t.x), rnd (scaling_s * t.y), rnd (scaling_s * t.z)⟩

/-- The term of the electric field in lines 105, 107 and 130, 132 (the two factors of the inner product are exchanged there), as part of a sum. -/
noncomputable def kickF (rnd : ℝ → ℝ) (fused : Bool) (e sc coefficient : ℝ) : ℝ := prodF rnd fused (rnd (-e * sc)) coefficient

/-- The macro `ELEC_PIC_2D3V_CROSS_PRODUCT_3D`, lines 9-12, for the products `i`, ..., `i + 5`. -/
noncomputable def crossF (rnd : ℝ → ℝ) (c : ℕ → Bool) (i : ℕ) (a b : V3 ℝ) : V3 ℝ :=
  ⟨rnd (prodF rnd (c i) a.y b.z - prodF rnd (c (i + 1)) a.z b.y),
   rnd (prodF rnd (c (i + 2)) a.z b.x - prodF rnd (c (i + 3)) a.x b.z),
   rnd (prodF rnd (c (i + 4)) a.x b.y - prodF rnd (c (i + 5)) a.y b.x)⟩

/-- `v += w`, lines 116-118, 124-126. -/
noncomputable def addF (rnd : ℝ → ℝ) (a b : V3 ℝ) : V3 ℝ := ⟨rnd (a.x + b.x), rnd (a.y + b.y), rnd (a.z + b.z)⟩

/-- The new velocity for a computed field `t` and scaling `sc`, lines 92-134. -/
noncomputable def velocityF (rnd : ℝ → ℝ) (c : ℕ → Bool) (t : V3 ℝ) (sc coefficient e0 e1 : ℝ) (v : V3 ℝ) : V3 ℝ :=
  let s := scaledF rnd c t
  let v_minus : V3 ℝ := ⟨rnd (v.x + kickF rnd (c 3) e0 sc coefficient), rnd (v.y + kickF rnd (c 4) e1 sc coefficient), v.z⟩
  let v_prime := addF rnd (crossF rnd c 5 v_minus t) v_minus
  let v_plus := addF rnd (crossF rnd c 11 v_prime s) v_minus
  ⟨rnd (v_plus.x + kickF rnd (c 17) e0 sc coefficient), rnd (v_plus.y + kickF rnd (c 18) e1 sc coefficient), v_plus.z⟩

/-- The kernel of `boris_2`, lines 82-138. `M = 0` divides by zero and is the outcome `none`. -/
noncomputable def boris2F (rnd : ℝ → ℝ) (c : ℕ → Bool) (prm : Boris.Params ℝ) (pt : Boris.Particle ℝ) : Option (Boris.Particle ℝ) :=
  if pt.m = 0 then none else
  let sc := scalingF rnd prm.dt pt.q pt.m
  let v := velocityF rnd c (fieldF rnd prm sc) sc prm.eCoefficient pt.e0 pt.e1 pt.v
  some { pt with v := v, p0 := rnd (pt.p0 + prodF rnd (c 19) prm.dt v.x), p1 := rnd (pt.p1 + prodF rnd (c 20) prm.dt v.y) }

/-- `n` time steps with the electric field `es k` before step `k` (Model/Boris.lean `borisSteps`). The calls of `boris_2` in the loop of ElectrostaticTwoStream2D3V.hpp:242-293. -/
noncomputable def borisStepsF (rnd : ℝ → ℝ) (c : ℕ → Bool) (prm : Boris.Params ℝ) (es : ℕ → ℝ × ℝ) : ℕ → Boris.Particle ℝ → Option (Boris.Particle ℝ)
  | 0, pt => some pt
  | n + 1, pt => (borisStepsF rnd c prm es n pt).bind fun q => boris2F rnd c prm { q with e0 := (es n).1, e1 := (es n).2 }

end Verif.Model.FloatBoris
