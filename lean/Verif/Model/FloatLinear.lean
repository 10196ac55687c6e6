import Verif.Model.FloatExpr
import Verif.Model.NewtonKernel

/-!
The residual functions of include/nektar_interface/particle_cell_mapping/generated_linear/*.hpp in floating point arithmetic, one `let` for each C++ statement (written by
tools/gen_float_linear.py). The arguments are those of Model/LinearElements.lean. The values are expressions: what a program computes for them is said in Model/FloatExpr.lean.
-/

namespace Verif.Model.FloatLinear
open Verif.Model.NewtonKernel Verif.Model.FloatExpr

/-- `newton_f_linear_2d`, generated_linear/quadrilateral.hpp:126-143. -/
noncomputable def Quad.newtonF (c : ℕ → V3 Expr) (xi phys : V3 Expr) : V3 Expr :=
  let xi0 := xi.x
  let xi1 := xi.y
  let v00 := (c 0).x
  let v01 := (c 0).y
  let v10 := (c 1).x
  let v11 := (c 1).y
  let v20 := (c 2).x
  let v21 := (c 2).y
  let v30 := (c 3).x
  let v31 := (c 3).y
  let phys0 := phys.x
  let phys1 := phys.y
  let x0 := xi0 - lit 1
  let x1 := xi1 - lit 1
  let x2 := xi0 + lit 1
  let x3 := lit (1 / 4) * x1 * x2
  let x4 := xi1 + lit 1
  let x5 := lit (1 / 4) * x0 * x4
  let f0_tmp := -phys0 + lit (1 / 4) * v00 * x0 * x1 - v10 * x3 + lit (1 / 4) * v20 * x2 * x4 - v30 * x5
  let f1_tmp := -phys1 + lit (1 / 4) * v01 * x0 * x1 - v11 * x3 + lit (1 / 4) * v21 * x2 * x4 - v31 * x5
  ⟨f0_tmp, f1_tmp, lit 0⟩

/-- `newton_f_linear_3d`, generated_linear/hexahedron.hpp:243-281. -/
noncomputable def Hex.newtonF (c : ℕ → V3 Expr) (xi phys : V3 Expr) : V3 Expr :=
  let xi0 := xi.x
  let xi1 := xi.y
  let xi2 := xi.z
  let v00 := (c 0).x
  let v01 := (c 0).y
  let v02 := (c 0).z
  let v10 := (c 1).x
  let v11 := (c 1).y
  let v12 := (c 1).z
  let v20 := (c 2).x
  let v21 := (c 2).y
  let v22 := (c 2).z
  let v30 := (c 3).x
  let v31 := (c 3).y
  let v32 := (c 3).z
  let v40 := (c 4).x
  let v41 := (c 4).y
  let v42 := (c 4).z
  let v50 := (c 5).x
  let v51 := (c 5).y
  let v52 := (c 5).z
  let v60 := (c 6).x
  let v61 := (c 6).y
  let v62 := (c 6).z
  let v70 := (c 7).x
  let v71 := (c 7).y
  let v72 := (c 7).z
  let phys0 := phys.x
  let phys1 := phys.y
  let phys2 := phys.z
  let x0 := xi0 - lit 1
  let x1 := xi1 - lit 1
  let x2 := xi2 - lit 1
  let x3 := lit (1 / 8) * x2
  let x4 := x0 * x1 * x3
  let x5 := xi0 + lit 1
  let x6 := xi1 + lit 1
  let x7 := x3 * x5 * x6
  let x8 := xi2 + lit 1
  let x9 := lit (1 / 8) * x8
  let x10 := x1 * x5 * x9
  let x11 := x0 * x6 * x9
  let f0_tmp := -phys0 - v00 * x4 + lit (1 / 8) * v10 * x1 * x2 * x5 - v20 * x7 + lit (1 / 8) * v30 * x0 * x2 * x6 + lit (1 / 8) * v40 * x0 * x1 * x8 - v50 * x10 + lit (1 / 8) * v60 * x5 * x6 * x8 - v70 * x11
  let f1_tmp := -phys1 - v01 * x4 + lit (1 / 8) * v11 * x1 * x2 * x5 - v21 * x7 + lit (1 / 8) * v31 * x0 * x2 * x6 + lit (1 / 8) * v41 * x0 * x1 * x8 - v51 * x10 + lit (1 / 8) * v61 * x5 * x6 * x8 - v71 * x11
  let f2_tmp := -phys2 - v02 * x4 + lit (1 / 8) * v12 * x1 * x2 * x5 - v22 * x7 + lit (1 / 8) * v32 * x0 * x2 * x6 + lit (1 / 8) * v42 * x0 * x1 * x8 - v52 * x10 + lit (1 / 8) * v62 * x5 * x6 * x8 - v72 * x11
  ⟨f0_tmp, f1_tmp, f2_tmp⟩

/-- `newton_f_linear_3d`, generated_linear/prism.hpp:202-232. -/
noncomputable def Prism.newtonF (c : ℕ → V3 Expr) (xi phys : V3 Expr) : V3 Expr :=
  let xi0 := xi.x
  let xi1 := xi.y
  let xi2 := xi.z
  let v00 := (c 0).x
  let v01 := (c 0).y
  let v02 := (c 0).z
  let v10 := (c 1).x
  let v11 := (c 1).y
  let v12 := (c 1).z
  let v20 := (c 2).x
  let v21 := (c 2).y
  let v22 := (c 2).z
  let v30 := (c 3).x
  let v31 := (c 3).y
  let v32 := (c 3).z
  let v40 := (c 4).x
  let v41 := (c 4).y
  let v42 := (c 4).z
  let v50 := (c 5).x
  let v51 := (c 5).y
  let v52 := (c 5).z
  let phys0 := phys.x
  let phys1 := phys.y
  let phys2 := phys.z
  let x0 := xi0 + xi2
  let x1 := xi1 - lit 1
  let x2 := xi0 + lit 1
  let x3 := lit (1 / 4) * x1
  let x4 := x2 * x3
  let x5 := xi1 + lit 1
  let x6 := lit (1 / 4) * x0 * x5
  let x7 := xi2 + lit 1
  let x8 := x3 * x7
  let f0_tmp := -phys0 + lit (1 / 4) * v00 * x0 * x1 - v10 * x4 + lit (1 / 4) * v20 * x2 * x5 - v30 * x6 - v40 * x8 + lit (1 / 4) * v50 * x5 * x7
  let f1_tmp := -phys1 + lit (1 / 4) * v01 * x0 * x1 - v11 * x4 + lit (1 / 4) * v21 * x2 * x5 - v31 * x6 - v41 * x8 + lit (1 / 4) * v51 * x5 * x7
  let f2_tmp := -phys2 + lit (1 / 4) * v02 * x0 * x1 - v12 * x4 + lit (1 / 4) * v22 * x2 * x5 - v32 * x6 - v42 * x8 + lit (1 / 4) * v52 * x5 * x7
  ⟨f0_tmp, f1_tmp, f2_tmp⟩

/-- `newton_f_linear_3d`, generated_linear/pyramid.hpp:214-241. -/
noncomputable def Pyr.newtonF (c : ℕ → V3 Expr) (xi phys : V3 Expr) : V3 Expr :=
  let xi0 := xi.x
  let xi1 := xi.y
  let xi2 := xi.z
  let v00 := (c 0).x
  let v01 := (c 0).y
  let v02 := (c 0).z
  let v10 := (c 1).x
  let v11 := (c 1).y
  let v12 := (c 1).z
  let v20 := (c 2).x
  let v21 := (c 2).y
  let v22 := (c 2).z
  let v30 := (c 3).x
  let v31 := (c 3).y
  let v32 := (c 3).z
  let v40 := (c 4).x
  let v41 := (c 4).y
  let v42 := (c 4).z
  let phys0 := phys.x
  let phys1 := phys.y
  let phys2 := phys.z
  let x0 := xi2 + lit 1
  let x1 := xi0 + lit 1
  let x2 := xi1 + lit 1
  let x3 := xi2 - lit 1
  let x4 := lit 1 / x3
  let x5 := x2 * x4
  let x6 := lit (1 / 2) * x1 * x5
  let x7 := x5 + lit 1
  let x8 := x1 * x4 + lit 1
  let x9 := lit (1 / 2) * x3 * x7 * x8
  let f0_tmp := -phys0 - v00 * x9 + lit (1 / 2) * v10 * x1 * x7 - v20 * x6 + lit (1 / 2) * v30 * x2 * x8 + lit (1 / 2) * v40 * x0
  let f1_tmp := -phys1 - v01 * x9 + lit (1 / 2) * v11 * x1 * x7 - v21 * x6 + lit (1 / 2) * v31 * x2 * x8 + lit (1 / 2) * v41 * x0
  let f2_tmp := -phys2 - v02 * x9 + lit (1 / 2) * v12 * x1 * x7 - v22 * x6 + lit (1 / 2) * v32 * x2 * x8 + lit (1 / 2) * v42 * x0
  ⟨f0_tmp, f1_tmp, f2_tmp⟩

/-- `newton_f_linear_3d`, generated_linear/tetrahedron.hpp:161-180. -/
noncomputable def Tet.newtonF (c : ℕ → V3 Expr) (xi phys : V3 Expr) : V3 Expr :=
  let xi0 := xi.x
  let xi1 := xi.y
  let xi2 := xi.z
  let v00 := (c 0).x
  let v01 := (c 0).y
  let v02 := (c 0).z
  let v10 := (c 1).x
  let v11 := (c 1).y
  let v12 := (c 1).z
  let v20 := (c 2).x
  let v21 := (c 2).y
  let v22 := (c 2).z
  let v30 := (c 3).x
  let v31 := (c 3).y
  let v32 := (c 3).z
  let phys0 := phys.x
  let phys1 := phys.y
  let phys2 := phys.z
  let x0 := lit (1 / 2) * xi0 + lit (1 / 2)
  let x1 := lit (1 / 2) * xi1 + lit (1 / 2)
  let x2 := lit (1 / 2) * xi2 + lit (1 / 2)
  let f0_tmp := -phys0 + v00 - x0 * (v00 - v10) - x1 * (v00 - v20) - x2 * (v00 - v30)
  let f1_tmp := -phys1 + v01 - x0 * (v01 - v11) - x1 * (v01 - v21) - x2 * (v01 - v31)
  let f2_tmp := -phys2 + v02 - x0 * (v02 - v12) - x1 * (v02 - v22) - x2 * (v02 - v32)
  ⟨f0_tmp, f1_tmp, f2_tmp⟩

end Verif.Model.FloatLinear
