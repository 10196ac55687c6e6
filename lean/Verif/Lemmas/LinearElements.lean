import Mathlib.LinearAlgebra.Matrix.NonsingularInverse
import Mathlib.LinearAlgebra.Matrix.Notation
import Verif.Model.LinearElements

/-! The Jacobians in the generated functions (written by tools/gen_linear.py). -/

namespace Verif.Model.LinearElements
open Verif.Model.NewtonKernel

variable {K : Type*} [Field K]

/-- The last statements of the 2D function. -/
def cramer2 (J : Matrix (Fin 2) (Fin 2) K) (xi f : V3 K) : V3 K :=
  let y2 := 1 / (J 0 0 * J 1 1 - J 0 1 * J 1 0)
  ⟨y2 * (J 0 1 * f.y - J 1 1 * f.x + xi.x * (J 0 0 * J 1 1) - xi.x * (J 0 1 * J 1 0)),
   y2 * (-J 0 0 * f.y + J 1 0 * f.x + xi.y * (J 0 0 * J 1 1) - xi.y * (J 0 1 * J 1 0)), 0⟩

/-- The last statements of the 3D functions. -/
def cramer3 (J : Matrix (Fin 3) (Fin 3) K) (xi f : V3 K) : V3 K :=
  let y0 := J 1 1 * J 2 2
  let y1 := J 0 0 * y0
  let y2 := J 0 1 * J 1 2
  let y3 := J 2 0 * y2
  let y4 := J 0 2 * J 2 1
  let y5 := J 1 0 * y4
  let y6 := J 1 2 * J 2 1
  let y7 := J 0 0 * y6
  let y8 := J 0 1 * J 2 2
  let y9 := J 1 0 * y8
  let y10 := J 0 2 * J 1 1
  let y11 := J 2 0 * y10
  let y12 := 1 / (y1 - y11 + y3 + y5 - y7 - y9)
  let y13 := J 0 0 * f.z
  let y14 := J 2 0 * f.y
  let y15 := J 1 0 * f.x
  let y16 := J 0 0 * f.y
  let y17 := J 1 0 * f.z
  let y18 := J 2 0 * f.x
  let xin0_tmp := y12 * (-f.x * y0 + f.x * y6 - f.y * y4 + f.y * y8 + f.z * y10 - f.z * y2 + xi.x * y1 - xi.x * y11 + xi.x * y3 + xi.x * y5 - xi.x * y7 - xi.x * y9)
  let xin1_tmp := y12 * (J 0 2 * y14 - J 0 2 * y17 + J 1 2 * y13 - J 1 2 * y18 + J 2 2 * y15 - J 2 2 * y16 + xi.y * y1 - xi.y * y11 + xi.y * y3 + xi.y * y5 - xi.y * y7 - xi.y * y9)
  let xin2_tmp := y12 * (-J 0 1 * y14 + J 0 1 * y17 - J 1 1 * y13 + J 1 1 * y18 - J 2 1 * y15 + J 2 1 * y16 + xi.z * y1 - xi.z * y11 + xi.z * y3 + xi.z * y5 - xi.z * y7 - xi.z * y9)
  ⟨xin0_tmp, xin1_tmp, xin2_tmp⟩

/-- The temporaries `J_ij` of `Quad.newtonStep`. -/
def Quad.jac (c : ℕ → V3 K) (xi : V3 K) : Matrix (Fin 2) (Fin 2) K :=
  let xi0 := xi.x
  let xi1 := xi.y
  let v00 := (c 0).x
  let v01 := (c 0).y
  let v10 := (c 1).x
  let v11 := (c 1).y
  let v20 := (c 2).x
  let v21 := (c 2).y
  let v30 := (c 3).x
  let v31 := (c 3).y
  let x0 := xi1 - 1
  let x1 := xi1 + 1
  let x2 := xi0 - 1
  let x3 := xi0 + 1
  let J00 := (1 / 4) * v00 * x0 - (1 / 4) * v10 * x0 + (1 / 4) * v20 * x1 - (1 / 4) * v30 * x1
  let J01 := (1 / 4) * v00 * x2 - (1 / 4) * v10 * x3 + (1 / 4) * v20 * x3 - (1 / 4) * v30 * x2
  let J10 := (1 / 4) * v01 * x0 - (1 / 4) * v11 * x0 + (1 / 4) * v21 * x1 - (1 / 4) * v31 * x1
  let J11 := (1 / 4) * v01 * x2 - (1 / 4) * v11 * x3 + (1 / 4) * v21 * x3 - (1 / 4) * v31 * x2
  !![J00, J01; J10, J11]

theorem Quad.newtonStep_eq (c : ℕ → V3 K) (xi phys f : V3 K) : Quad.newtonStep c xi phys f = cramer2 (Quad.jac c xi) xi f := rfl

/-- The temporaries `J_ij` of `QuadEmbed.newtonStep`. -/
def QuadEmbed.jac (c : ℕ → V3 K) (xi : V3 K) : Matrix (Fin 3) (Fin 3) K :=
  let xi0 := xi.x
  let xi1 := xi.y
  let xi2 := xi.z
  let v00 := (c 0).x
  let v01 := (c 0).y
  let v02 := (c 0).z
  let v10 := (c 1).x
  let v11 := (c 1).y
  let v12 := (c 1).z
  let v20 := (c 2).x
  let v21 := (c 2).y
  let v22 := (c 2).z
  let v30 := (c 3).x
  let v31 := (c 3).y
  let v32 := (c 3).z
  let v40 := (c 4).x
  let v41 := (c 4).y
  let v42 := (c 4).z
  let x0 := xi1 - 1
  let x1 := xi1 + 1
  let x2 := xi0 - 1
  let x3 := xi0 + 1
  let J00 := (1 / 4) * v00 * x0 - (1 / 4) * v10 * x0 + (1 / 4) * v20 * x1 - (1 / 4) * v30 * x1
  let J01 := (1 / 4) * v00 * x2 - (1 / 4) * v10 * x3 + (1 / 4) * v20 * x3 - (1 / 4) * v30 * x2
  let J02 := v40
  let J10 := (1 / 4) * v01 * x0 - (1 / 4) * v11 * x0 + (1 / 4) * v21 * x1 - (1 / 4) * v31 * x1
  let J11 := (1 / 4) * v01 * x2 - (1 / 4) * v11 * x3 + (1 / 4) * v21 * x3 - (1 / 4) * v31 * x2
  let J12 := v41
  let J20 := (1 / 4) * v02 * x0 - (1 / 4) * v12 * x0 + (1 / 4) * v22 * x1 - (1 / 4) * v32 * x1
  let J21 := (1 / 4) * v02 * x2 - (1 / 4) * v12 * x3 + (1 / 4) * v22 * x3 - (1 / 4) * v32 * x2
  let J22 := v42
  !![J00, J01, J02; J10, J11, J12; J20, J21, J22]

theorem QuadEmbed.newtonStep_eq (c : ℕ → V3 K) (xi phys f : V3 K) : QuadEmbed.newtonStep c xi phys f = cramer3 (QuadEmbed.jac c xi) xi f := rfl

/-- The temporaries `J_ij` of `Hex.newtonStep`. -/
def Hex.jac (c : ℕ → V3 K) (xi : V3 K) : Matrix (Fin 3) (Fin 3) K :=
  let xi0 := xi.x
  let xi1 := xi.y
  let xi2 := xi.z
  let v00 := (c 0).x
  let v01 := (c 0).y
  let v02 := (c 0).z
  let v10 := (c 1).x
  let v11 := (c 1).y
  let v12 := (c 1).z
  let v20 := (c 2).x
  let v21 := (c 2).y
  let v22 := (c 2).z
  let v30 := (c 3).x
  let v31 := (c 3).y
  let v32 := (c 3).z
  let v40 := (c 4).x
  let v41 := (c 4).y
  let v42 := (c 4).z
  let v50 := (c 5).x
  let v51 := (c 5).y
  let v52 := (c 5).z
  let v60 := (c 6).x
  let v61 := (c 6).y
  let v62 := (c 6).z
  let v70 := (c 7).x
  let v71 := (c 7).y
  let v72 := (c 7).z
  let x0 := xi1 - 1
  let x1 := xi2 - 1
  let x2 := x0 * x1
  let x3 := xi1 + 1
  let x4 := x1 * x3
  let x5 := xi2 + 1
  let x6 := x0 * x5
  let x7 := x3 * x5
  let x8 := xi0 - 1
  let x9 := x1 * x8
  let x10 := xi0 + 1
  let x11 := x1 * x10
  let x12 := x10 * x5
  let x13 := x5 * x8
  let x14 := x0 * x8
  let x15 := x10 * x3
  let x16 := x0 * x10
  let x17 := x3 * x8
  let J00 := -(1 / 8) * v00 * x2 + (1 / 8) * v10 * x0 * x1 - (1 / 8) * v20 * x4 + (1 / 8) * v30 * x1 * x3 + (1 / 8) * v40 * x0 * x5 - (1 / 8) * v50 * x6 + (1 / 8) * v60 * x3 * x5 - (1 / 8) * v70 * x7
  let J01 := -(1 / 8) * v00 * x9 + (1 / 8) * v10 * x1 * x10 - (1 / 8) * v20 * x11 + (1 / 8) * v30 * x1 * x8 + (1 / 8) * v40 * x5 * x8 - (1 / 8) * v50 * x12 + (1 / 8) * v60 * x10 * x5 - (1 / 8) * v70 * x13
  let J02 := -(1 / 8) * v00 * x14 + (1 / 8) * v10 * x0 * x10 - (1 / 8) * v20 * x15 + (1 / 8) * v30 * x3 * x8 + (1 / 8) * v40 * x0 * x8 - (1 / 8) * v50 * x16 + (1 / 8) * v60 * x10 * x3 - (1 / 8) * v70 * x17
  let J10 := -(1 / 8) * v01 * x2 + (1 / 8) * v11 * x0 * x1 - (1 / 8) * v21 * x4 + (1 / 8) * v31 * x1 * x3 + (1 / 8) * v41 * x0 * x5 - (1 / 8) * v51 * x6 + (1 / 8) * v61 * x3 * x5 - (1 / 8) * v71 * x7
  let J11 := -(1 / 8) * v01 * x9 + (1 / 8) * v11 * x1 * x10 - (1 / 8) * v21 * x11 + (1 / 8) * v31 * x1 * x8 + (1 / 8) * v41 * x5 * x8 - (1 / 8) * v51 * x12 + (1 / 8) * v61 * x10 * x5 - (1 / 8) * v71 * x13
  let J12 := -(1 / 8) * v01 * x14 + (1 / 8) * v11 * x0 * x10 - (1 / 8) * v21 * x15 + (1 / 8) * v31 * x3 * x8 + (1 / 8) * v41 * x0 * x8 - (1 / 8) * v51 * x16 + (1 / 8) * v61 * x10 * x3 - (1 / 8) * v71 * x17
  let J20 := -(1 / 8) * v02 * x2 + (1 / 8) * v12 * x0 * x1 - (1 / 8) * v22 * x4 + (1 / 8) * v32 * x1 * x3 + (1 / 8) * v42 * x0 * x5 - (1 / 8) * v52 * x6 + (1 / 8) * v62 * x3 * x5 - (1 / 8) * v72 * x7
  let J21 := -(1 / 8) * v02 * x9 + (1 / 8) * v12 * x1 * x10 - (1 / 8) * v22 * x11 + (1 / 8) * v32 * x1 * x8 + (1 / 8) * v42 * x5 * x8 - (1 / 8) * v52 * x12 + (1 / 8) * v62 * x10 * x5 - (1 / 8) * v72 * x13
  let J22 := -(1 / 8) * v02 * x14 + (1 / 8) * v12 * x0 * x10 - (1 / 8) * v22 * x15 + (1 / 8) * v32 * x3 * x8 + (1 / 8) * v42 * x0 * x8 - (1 / 8) * v52 * x16 + (1 / 8) * v62 * x10 * x3 - (1 / 8) * v72 * x17
  !![J00, J01, J02; J10, J11, J12; J20, J21, J22]

theorem Hex.newtonStep_eq (c : ℕ → V3 K) (xi phys f : V3 K) : Hex.newtonStep c xi phys f = cramer3 (Hex.jac c xi) xi f := rfl

/-- The temporaries `J_ij` of `Prism.newtonStep`. -/
def Prism.jac (c : ℕ → V3 K) (xi : V3 K) : Matrix (Fin 3) (Fin 3) K :=
  let xi0 := xi.x
  let xi1 := xi.y
  let xi2 := xi.z
  let v00 := (c 0).x
  let v01 := (c 0).y
  let v02 := (c 0).z
  let v10 := (c 1).x
  let v11 := (c 1).y
  let v12 := (c 1).z
  let v20 := (c 2).x
  let v21 := (c 2).y
  let v22 := (c 2).z
  let v30 := (c 3).x
  let v31 := (c 3).y
  let v32 := (c 3).z
  let v40 := (c 4).x
  let v41 := (c 4).y
  let v42 := (c 4).z
  let v50 := (c 5).x
  let v51 := (c 5).y
  let v52 := (c 5).z
  let x0 := xi1 + 1
  let x1 := xi1 - 1
  let x2 := v00 * x1 - v30 * x0
  let x3 := xi0 + xi2
  let x4 := xi0 + 1
  let x5 := xi2 + 1
  let x6 := v01 * x1 - v31 * x0
  let x7 := v02 * x1 - v32 * x0
  let J00 := -(1 / 4) * v10 * x1 + (1 / 4) * v20 * x0 + (1 / 4) * x2
  let J01 := (1 / 4) * v00 * x3 - (1 / 4) * v10 * x4 + (1 / 4) * v20 * x4 - (1 / 4) * v30 * x3 - (1 / 4) * v40 * x5 + (1 / 4) * v50 * x5
  let J02 := -(1 / 4) * v40 * x1 + (1 / 4) * v50 * x0 + (1 / 4) * x2
  let J10 := -(1 / 4) * v11 * x1 + (1 / 4) * v21 * x0 + (1 / 4) * x6
  let J11 := (1 / 4) * v01 * x3 - (1 / 4) * v11 * x4 + (1 / 4) * v21 * x4 - (1 / 4) * v31 * x3 - (1 / 4) * v41 * x5 + (1 / 4) * v51 * x5
  let J12 := -(1 / 4) * v41 * x1 + (1 / 4) * v51 * x0 + (1 / 4) * x6
  let J20 := -(1 / 4) * v12 * x1 + (1 / 4) * v22 * x0 + (1 / 4) * x7
  let J21 := (1 / 4) * v02 * x3 - (1 / 4) * v12 * x4 + (1 / 4) * v22 * x4 - (1 / 4) * v32 * x3 - (1 / 4) * v42 * x5 + (1 / 4) * v52 * x5
  let J22 := -(1 / 4) * v42 * x1 + (1 / 4) * v52 * x0 + (1 / 4) * x7
  !![J00, J01, J02; J10, J11, J12; J20, J21, J22]

theorem Prism.newtonStep_eq (c : ℕ → V3 K) (xi phys f : V3 K) : Prism.newtonStep c xi phys f = cramer3 (Prism.jac c xi) xi f := rfl

/-- The temporaries `J_ij` of `Pyr.newtonStep`. -/
def Pyr.jac (c : ℕ → V3 K) (xi : V3 K) : Matrix (Fin 3) (Fin 3) K :=
  let xi0 := xi.x
  let xi1 := xi.y
  let xi2 := xi.z
  let v00 := (c 0).x
  let v01 := (c 0).y
  let v02 := (c 0).z
  let v10 := (c 1).x
  let v11 := (c 1).y
  let v12 := (c 1).z
  let v20 := (c 2).x
  let v21 := (c 2).y
  let v22 := (c 2).z
  let v30 := (c 3).x
  let v31 := (c 3).y
  let v32 := (c 3).z
  let v40 := (c 4).x
  let v41 := (c 4).y
  let v42 := (c 4).z
  let x0 := xi1 + 1
  let x1 := xi2 - 1
  let x2 := 1 / x1
  let x3 := x0 * x2
  let x4 := x3 + 1
  let x5 := v00 * x4
  let x6 := xi0 + 1
  let x7 := x2 * x6
  let x8 := x7 + 1
  let x9 := v00 * x8
  let x10 := x0 * x6 * 1 / (x1 * x1)
  let x11 := v01 * x4
  let x12 := v01 * x8
  let x13 := v02 * x4
  let x14 := v02 * x8
  let J00 := (1 / 2) * v10 * x4 - (1 / 2) * v20 * x3 + (1 / 2) * v30 * x0 * x2 - (1 / 2) * x5
  let J01 := (1 / 2) * v10 * x2 * x6 - (1 / 2) * v20 * x7 + (1 / 2) * v30 * x8 - (1 / 2) * x9
  let J02 := -(1 / 2) * v10 * x10 + (1 / 2) * v20 * x10 - (1 / 2) * v30 * x10 + (1 / 2) * v40 + (1 / 2) * x3 * x9 + (1 / 2) * x5 * x7 - (1 / 2) * x5 * x8
  let J10 := (1 / 2) * v11 * x4 - (1 / 2) * v21 * x3 + (1 / 2) * v31 * x0 * x2 - (1 / 2) * x11
  let J11 := (1 / 2) * v11 * x2 * x6 - (1 / 2) * v21 * x7 + (1 / 2) * v31 * x8 - (1 / 2) * x12
  let J12 := -(1 / 2) * v11 * x10 + (1 / 2) * v21 * x10 - (1 / 2) * v31 * x10 + (1 / 2) * v41 + (1 / 2) * x11 * x7 - (1 / 2) * x11 * x8 + (1 / 2) * x12 * x3
  let J20 := (1 / 2) * v12 * x4 - (1 / 2) * v22 * x3 + (1 / 2) * v32 * x0 * x2 - (1 / 2) * x13
  let J21 := (1 / 2) * v12 * x2 * x6 - (1 / 2) * v22 * x7 + (1 / 2) * v32 * x8 - (1 / 2) * x14
  let J22 := -(1 / 2) * v12 * x10 + (1 / 2) * v22 * x10 - (1 / 2) * v32 * x10 + (1 / 2) * v42 + (1 / 2) * x13 * x7 - (1 / 2) * x13 * x8 + (1 / 2) * x14 * x3
  !![J00, J01, J02; J10, J11, J12; J20, J21, J22]

theorem Pyr.newtonStep_eq (c : ℕ → V3 K) (xi phys f : V3 K) : Pyr.newtonStep c xi phys f = cramer3 (Pyr.jac c xi) xi f := rfl

/-- The temporaries `J_ij` of `Tet.newtonStep`. -/
def Tet.jac (c : ℕ → V3 K) (xi : V3 K) : Matrix (Fin 3) (Fin 3) K :=
  let xi0 := xi.x
  let xi1 := xi.y
  let xi2 := xi.z
  let v00 := (c 0).x
  let v01 := (c 0).y
  let v02 := (c 0).z
  let v10 := (c 1).x
  let v11 := (c 1).y
  let v12 := (c 1).z
  let v20 := (c 2).x
  let v21 := (c 2).y
  let v22 := (c 2).z
  let v30 := (c 3).x
  let v31 := (c 3).y
  let v32 := (c 3).z
  let J00 := (1 / 2) * (-v00 + v10)
  let J01 := (1 / 2) * (-v00 + v20)
  let J02 := (1 / 2) * (-v00 + v30)
  let J10 := (1 / 2) * (-v01 + v11)
  let J11 := (1 / 2) * (-v01 + v21)
  let J12 := (1 / 2) * (-v01 + v31)
  let J20 := (1 / 2) * (-v02 + v12)
  let J21 := (1 / 2) * (-v02 + v22)
  let J22 := (1 / 2) * (-v02 + v32)
  !![J00, J01, J02; J10, J11, J12; J20, J21, J22]

theorem Tet.newtonStep_eq (c : ℕ → V3 K) (xi phys f : V3 K) : Tet.newtonStep c xi phys f = cramer3 (Tet.jac c xi) xi f := rfl

end Verif.Model.LinearElements
