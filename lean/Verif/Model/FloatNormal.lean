import Verif.Model.FloatWall

/-!
Model of the normals of straight boundary lines in floating point arithmetic: each operation, division and square root is followed by a rounding `rnd`, except for products which the compiler fuses with the sum
they are part of. Negation is exact. Overflow is not modelled. The normals of flat faces are `normalF` in Model/FloatWall.lean.
-/

namespace Verif.Model.FloatNormal
open Verif.Spec Verif.Model.FloatBoris

/-- `get_normal_vector` for a line with the vertices `a` and `b`, src/nektar_interface/composite_interaction/composite_utility.cpp:5-36 (the same operations are in the constructor
include/nektar_interface/composite_interaction/line_line_intersection.hpp:40-66). `none`: the division by a length that is zero, the result is not finite. `c` tells which products are fused. -/
noncomputable def lineNormalF (rnd : ℝ → ℝ) (c : ℕ → Bool) (a b : ℝ × ℝ) : Option (ℝ × ℝ) :=
  let dx := rnd (b.1 - a.1)
  let dy := rnd (b.2 - a.2)
  let n0t := -dy
  let n1t := dx
  let len := rnd (Real.sqrt (rnd (prodF rnd (c 0) n0t n0t + prodF rnd (c 1) n1t n1t)))
  if len = 0 then none
  else
    let l := rnd (1 / len)
    some (rnd (n0t * l), rnd (n1t * l))

end Verif.Model.FloatNormal
