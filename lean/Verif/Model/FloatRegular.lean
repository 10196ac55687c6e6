import Verif.Model.FloatBoris
import Verif.Model.RegularMap

/-!
Model of the test of regular (affine) elements of the plane in floating point arithmetic: the body of the loop over candidates in
src/nektar_interface/particle_cell_mapping/map_particles_2d_regular.cpp. Each operation is followed by a rounding `rnd`, except for products which the compiler fuses with the sum they are
part of. Comparisons, absolute values and negation are exact. Overflow is not modelled; a division by zero gives an infinity or NaN, for which all later comparisons of the test fail.
-/

namespace Verif.Model.FloatRegular
open Verif.Spec Verif.Model.FloatBoris Verif.Model.RegularMap

/-- The macro `MAPPING_DOT_PRODUCT_3D`, particle_cell_mapping_common.hpp:30-33, for the products `i`, `i + 1`, `i + 2`. -/
noncomputable def dotF (rnd : ℝ → ℝ) (c : ℕ → Bool) (i : ℕ) (a b : V3 ℝ) : ℝ :=
  rnd (rnd (prodF rnd (c i) a.x b.x + prodF rnd (c (i + 1)) a.y b.y) + prodF rnd (c (i + 2)) a.z b.z)

/-- `er`, `e10`, `e20`, map_particles_2d_regular.cpp:199-209. -/
noncomputable def edgeF (rnd : ℝ → ℝ) (x y : ℝ) (v : NewtonKernel.V3 ℝ) : V3 ℝ := ⟨rnd (x - v.x), rnd (y - v.y), 0⟩

/-- The four dot products, map_particles_2d_regular.cpp:199-231: numerator and denominator of `scale0`, then of `scale1`. The macro `MAPPING_CROSS_PRODUCT_3D` (particle_cell_mapping_common.hpp:23-28)
has the same operations as that of the Boris integrator. `c` tells which products are fused. -/
noncomputable def dotsF (rnd : ℝ → ℝ) (c : ℕ → Bool) (v0 v1 v2 : NewtonKernel.V3 ℝ) (p0 p1 : ℝ) : (ℝ × ℝ) × ℝ × ℝ :=
  let er := edgeF rnd p0 p1 v0
  let e10 := edgeF rnd v1.x v1.y v0
  let e20 := edgeF rnd v2.x v2.y v0
  let norm := crossF rnd c 0 e10 e20
  let orth1 := crossF rnd c 6 norm e10
  let orth2 := crossF rnd c 12 norm e20
  ((dotF rnd c 18 er orth2, dotF rnd c 21 e10 orth2), dotF rnd c 24 er orth1, dotF rnd c 27 e20 orth1)

/-- `xi0` from the numerator and denominator, map_particles_2d_regular.cpp:221-226 (and 227-232 for `xi1`). -/
noncomputable def localF (rnd : ℝ → ℝ) (fused : Bool) (num den : ℝ) : ℝ := rnd (prodF rnd fused 2 (rnd (num / den)) - 1)

/-- The collapsed coordinate `eta0`, map_particles_2d_regular.cpp:234-250. -/
noncomputable def eta0F (rnd : ℝ → ℝ) (tol0 : ℝ) (s : Shape2) (xi0 xi1 : ℝ) : ℝ :=
  match s with
  | .tri =>
    let d1 := rnd (1 - xi1)
    let d1 := if |d1| < tol0 then (if d1 ≥ 0 then tol0 else -tol0) else d1
    rnd (rnd (rnd (2 * rnd (1 + xi0)) / d1) - 1)
  | .quad => xi0

/-- The test, map_particles_2d_regular.cpp:199-264: the reference position that is stored, `none` if the particle is not in the element. -/
noncomputable def accept2F (rnd : ℝ → ℝ) (c : ℕ → Bool) (tol0 ktol : ℝ) (s : Shape2) (v0 v1 v2 : NewtonKernel.V3 ℝ) (p0 p1 : ℝ) : Option (ℝ × ℝ) :=
  let d := dotsF rnd c v0 v1 v2 p0 p1
  if d.1.2 = 0 ∨ d.2.2 = 0 then none else
  let xi0 := localF rnd (c 30) d.1.1 d.1.2
  let xi1 := localF rnd (c 31) d.2.1 d.2.2
  let eta0 := eta0F rnd tol0 s xi0 xi1
  if rnd (-1 - ktol) ≤ eta0 ∧ eta0 ≤ rnd (1 + ktol) ∧ rnd (-1 - ktol) ≤ xi1 ∧ xi1 ≤ rnd (1 + ktol) then some (xi0, xi1) else none

end Verif.Model.FloatRegular
