import Verif.Model.NewtonKernel

/-!
The functions of include/nektar_interface/particle_cell_mapping/generated_linear/*.hpp, one `let` for each C++ statement (written by
tools/gen_linear.py). The coordinates of vertex `i` are `c i`; the arguments are passed as in newton_quad.hpp:56-93, newton_hex.hpp,
newton_prism.hpp, newton_pyr.hpp, newton_tet.hpp and newton_quad_embed_3d.hpp: `v_ij` is coordinate `j` of vertex `i`. Division is that of a field.
-/

namespace Verif.Model.LinearElements
open Verif.Model.NewtonKernel

variable {K : Type*} [Field K]

/-- `newton_step_linear_2d`, generated_linear/quadrilateral.hpp:67-92. -/
def Quad.newtonStep (c : ℕ → V3 K) (xi phys f : V3 K) : V3 K :=
  let xi0 := xi.x
  let xi1 := xi.y
  let v00 := (c 0).x
  let v01 := (c 0).y
  let v10 := (c 1).x
  let v11 := (c 1).y
  let v20 := (c 2).x
  let v21 := (c 2).y
  let v30 := (c 3).x
  let v31 := (c 3).y
  let f0 := f.x
  let f1 := f.y
  let x0 := xi1 - 1
  let x1 := xi1 + 1
  let x2 := xi0 - 1
  let x3 := xi0 + 1
  let J00 := (1 / 4) * v00 * x0 - (1 / 4) * v10 * x0 + (1 / 4) * v20 * x1 - (1 / 4) * v30 * x1
  let J01 := (1 / 4) * v00 * x2 - (1 / 4) * v10 * x3 + (1 / 4) * v20 * x3 - (1 / 4) * v30 * x2
  let J10 := (1 / 4) * v01 * x0 - (1 / 4) * v11 * x0 + (1 / 4) * v21 * x1 - (1 / 4) * v31 * x1
  let J11 := (1 / 4) * v01 * x2 - (1 / 4) * v11 * x3 + (1 / 4) * v21 * x3 - (1 / 4) * v31 * x2
  let y0 := J00 * J11
  let y1 := J01 * J10
  let y2 := 1 / (y0 - y1)
  let xin0_tmp := y2 * (J01 * f1 - J11 * f0 + xi0 * y0 - xi0 * y1)
  let xin1_tmp := y2 * (-J00 * f1 + J10 * f0 + xi1 * y0 - xi1 * y1)
  ⟨xin0_tmp, xin1_tmp, 0⟩

/-- `newton_f_linear_2d`, generated_linear/quadrilateral.hpp:126-143. -/
def Quad.newtonF (c : ℕ → V3 K) (xi phys : V3 K) : V3 K :=
  let xi0 := xi.x
  let xi1 := xi.y
  let v00 := (c 0).x
  let v01 := (c 0).y
  let v10 := (c 1).x
  let v11 := (c 1).y
  let v20 := (c 2).x
  let v21 := (c 2).y
  let v30 := (c 3).x
  let v31 := (c 3).y
  let phys0 := phys.x
  let phys1 := phys.y
  let x0 := xi0 - 1
  let x1 := xi1 - 1
  let x2 := xi0 + 1
  let x3 := (1 / 4) * x1 * x2
  let x4 := xi1 + 1
  let x5 := (1 / 4) * x0 * x4
  let f0_tmp := -phys0 + (1 / 4) * v00 * x0 * x1 - v10 * x3 + (1 / 4) * v20 * x2 * x4 - v30 * x5
  let f1_tmp := -phys1 + (1 / 4) * v01 * x0 * x1 - v11 * x3 + (1 / 4) * v21 * x2 * x4 - v31 * x5
  ⟨f0_tmp, f1_tmp, 0⟩

/-- `newton_step_linear_2d`, generated_linear/quadrilateralembed3d.hpp:78-136. -/
def QuadEmbed.newtonStep (c : ℕ → V3 K) (xi phys f : V3 K) : V3 K :=
  let xi0 := xi.x
  let xi1 := xi.y
  let xi2 := xi.z
  let v00 := (c 0).x
  let v01 := (c 0).y
  let v02 := (c 0).z
  let v10 := (c 1).x
  let v11 := (c 1).y
  let v12 := (c 1).z
  let v20 := (c 2).x
  let v21 := (c 2).y
  let v22 := (c 2).z
  let v30 := (c 3).x
  let v31 := (c 3).y
  let v32 := (c 3).z
  let v40 := (c 4).x
  let v41 := (c 4).y
  let v42 := (c 4).z
  let f0 := f.x
  let f1 := f.y
  let f2 := f.z
  let x0 := xi1 - 1
  let x1 := xi1 + 1
  let x2 := xi0 - 1
  let x3 := xi0 + 1
  let J00 := (1 / 4) * v00 * x0 - (1 / 4) * v10 * x0 + (1 / 4) * v20 * x1 - (1 / 4) * v30 * x1
  let J01 := (1 / 4) * v00 * x2 - (1 / 4) * v10 * x3 + (1 / 4) * v20 * x3 - (1 / 4) * v30 * x2
  let J02 := v40
  let J10 := (1 / 4) * v01 * x0 - (1 / 4) * v11 * x0 + (1 / 4) * v21 * x1 - (1 / 4) * v31 * x1
  let J11 := (1 / 4) * v01 * x2 - (1 / 4) * v11 * x3 + (1 / 4) * v21 * x3 - (1 / 4) * v31 * x2
  let J12 := v41
  let J20 := (1 / 4) * v02 * x0 - (1 / 4) * v12 * x0 + (1 / 4) * v22 * x1 - (1 / 4) * v32 * x1
  let J21 := (1 / 4) * v02 * x2 - (1 / 4) * v12 * x3 + (1 / 4) * v22 * x3 - (1 / 4) * v32 * x2
  let J22 := v42
  let y0 := J11 * J22
  let y1 := J00 * y0
  let y2 := J01 * J12
  let y3 := J20 * y2
  let y4 := J02 * J21
  let y5 := J10 * y4
  let y6 := J12 * J21
  let y7 := J00 * y6
  let y8 := J01 * J22
  let y9 := J10 * y8
  let y10 := J02 * J11
  let y11 := J20 * y10
  let y12 := 1 / (y1 - y11 + y3 + y5 - y7 - y9)
  let y13 := J00 * f2
  let y14 := J20 * f1
  let y15 := J10 * f0
  let y16 := J00 * f1
  let y17 := J10 * f2
  let y18 := J20 * f0
  let xin0_tmp := y12 * (-f0 * y0 + f0 * y6 - f1 * y4 + f1 * y8 + f2 * y10 - f2 * y2 + xi0 * y1 - xi0 * y11 + xi0 * y3 + xi0 * y5 - xi0 * y7 - xi0 * y9)
  let xin1_tmp := y12 * (J02 * y14 - J02 * y17 + J12 * y13 - J12 * y18 + J22 * y15 - J22 * y16 + xi1 * y1 - xi1 * y11 + xi1 * y3 + xi1 * y5 - xi1 * y7 - xi1 * y9)
  let xin2_tmp := y12 * (-J01 * y14 + J01 * y17 - J11 * y13 + J11 * y18 - J21 * y15 + J21 * y16 + xi2 * y1 - xi2 * y11 + xi2 * y3 + xi2 * y5 - xi2 * y7 - xi2 * y9)
  ⟨xin0_tmp, xin1_tmp, xin2_tmp⟩

/-- `newton_f_linear_2d`, generated_linear/quadrilateralembed3d.hpp:180-203. -/
def QuadEmbed.newtonF (c : ℕ → V3 K) (xi phys : V3 K) : V3 K :=
  let xi0 := xi.x
  let xi1 := xi.y
  let xi2 := xi.z
  let v00 := (c 0).x
  let v01 := (c 0).y
  let v02 := (c 0).z
  let v10 := (c 1).x
  let v11 := (c 1).y
  let v12 := (c 1).z
  let v20 := (c 2).x
  let v21 := (c 2).y
  let v22 := (c 2).z
  let v30 := (c 3).x
  let v31 := (c 3).y
  let v32 := (c 3).z
  let v40 := (c 4).x
  let v41 := (c 4).y
  let v42 := (c 4).z
  let phys0 := phys.x
  let phys1 := phys.y
  let phys2 := phys.z
  let x0 := xi0 - 1
  let x1 := xi1 - 1
  let x2 := xi0 + 1
  let x3 := (1 / 4) * x1 * x2
  let x4 := xi1 + 1
  let x5 := (1 / 4) * x0 * x4
  let f0_tmp := -phys0 + (1 / 4) * v00 * x0 * x1 - v10 * x3 + (1 / 4) * v20 * x2 * x4 - v30 * x5 + v40 * xi2
  let f1_tmp := -phys1 + (1 / 4) * v01 * x0 * x1 - v11 * x3 + (1 / 4) * v21 * x2 * x4 - v31 * x5 + v41 * xi2
  let f2_tmp := -phys2 + (1 / 4) * v02 * x0 * x1 - v12 * x3 + (1 / 4) * v22 * x2 * x4 - v32 * x5 + v42 * xi2
  ⟨f0_tmp, f1_tmp, f2_tmp⟩

/-- `newton_step_linear_3d`, generated_linear/hexahedron.hpp:91-186. -/
def Hex.newtonStep (c : ℕ → V3 K) (xi phys f : V3 K) : V3 K :=
  let xi0 := xi.x
  let xi1 := xi.y
  let xi2 := xi.z
  let v00 := (c 0).x
  let v01 := (c 0).y
  let v02 := (c 0).z
  let v10 := (c 1).x
  let v11 := (c 1).y
  let v12 := (c 1).z
  let v20 := (c 2).x
  let v21 := (c 2).y
  let v22 := (c 2).z
  let v30 := (c 3).x
  let v31 := (c 3).y
  let v32 := (c 3).z
  let v40 := (c 4).x
  let v41 := (c 4).y
  let v42 := (c 4).z
  let v50 := (c 5).x
  let v51 := (c 5).y
  let v52 := (c 5).z
  let v60 := (c 6).x
  let v61 := (c 6).y
  let v62 := (c 6).z
  let v70 := (c 7).x
  let v71 := (c 7).y
  let v72 := (c 7).z
  let f0 := f.x
  let f1 := f.y
  let f2 := f.z
  let x0 := xi1 - 1
  let x1 := xi2 - 1
  let x2 := x0 * x1
  let x3 := xi1 + 1
  let x4 := x1 * x3
  let x5 := xi2 + 1
  let x6 := x0 * x5
  let x7 := x3 * x5
  let x8 := xi0 - 1
  let x9 := x1 * x8
  let x10 := xi0 + 1
  let x11 := x1 * x10
  let x12 := x10 * x5
  let x13 := x5 * x8
  let x14 := x0 * x8
  let x15 := x10 * x3
  let x16 := x0 * x10
  let x17 := x3 * x8
  let J00 := -(1 / 8) * v00 * x2 + (1 / 8) * v10 * x0 * x1 - (1 / 8) * v20 * x4 + (1 / 8) * v30 * x1 * x3 + (1 / 8) * v40 * x0 * x5 - (1 / 8) * v50 * x6 + (1 / 8) * v60 * x3 * x5 - (1 / 8) * v70 * x7
  let J01 := -(1 / 8) * v00 * x9 + (1 / 8) * v10 * x1 * x10 - (1 / 8) * v20 * x11 + (1 / 8) * v30 * x1 * x8 + (1 / 8) * v40 * x5 * x8 - (1 / 8) * v50 * x12 + (1 / 8) * v60 * x10 * x5 - (1 / 8) * v70 * x13
  let J02 := -(1 / 8) * v00 * x14 + (1 / 8) * v10 * x0 * x10 - (1 / 8) * v20 * x15 + (1 / 8) * v30 * x3 * x8 + (1 / 8) * v40 * x0 * x8 - (1 / 8) * v50 * x16 + (1 / 8) * v60 * x10 * x3 - (1 / 8) * v70 * x17
  let J10 := -(1 / 8) * v01 * x2 + (1 / 8) * v11 * x0 * x1 - (1 / 8) * v21 * x4 + (1 / 8) * v31 * x1 * x3 + (1 / 8) * v41 * x0 * x5 - (1 / 8) * v51 * x6 + (1 / 8) * v61 * x3 * x5 - (1 / 8) * v71 * x7
  let J11 := -(1 / 8) * v01 * x9 + (1 / 8) * v11 * x1 * x10 - (1 / 8) * v21 * x11 + (1 / 8) * v31 * x1 * x8 + (1 / 8) * v41 * x5 * x8 - (1 / 8) * v51 * x12 + (1 / 8) * v61 * x10 * x5 - (1 / 8) * v71 * x13
  let J12 := -(1 / 8) * v01 * x14 + (1 / 8) * v11 * x0 * x10 - (1 / 8) * v21 * x15 + (1 / 8) * v31 * x3 * x8 + (1 / 8) * v41 * x0 * x8 - (1 / 8) * v51 * x16 + (1 / 8) * v61 * x10 * x3 - (1 / 8) * v71 * x17
  let J20 := -(1 / 8) * v02 * x2 + (1 / 8) * v12 * x0 * x1 - (1 / 8) * v22 * x4 + (1 / 8) * v32 * x1 * x3 + (1 / 8) * v42 * x0 * x5 - (1 / 8) * v52 * x6 + (1 / 8) * v62 * x3 * x5 - (1 / 8) * v72 * x7
  let J21 := -(1 / 8) * v02 * x9 + (1 / 8) * v12 * x1 * x10 - (1 / 8) * v22 * x11 + (1 / 8) * v32 * x1 * x8 + (1 / 8) * v42 * x5 * x8 - (1 / 8) * v52 * x12 + (1 / 8) * v62 * x10 * x5 - (1 / 8) * v72 * x13
  let J22 := -(1 / 8) * v02 * x14 + (1 / 8) * v12 * x0 * x10 - (1 / 8) * v22 * x15 + (1 / 8) * v32 * x3 * x8 + (1 / 8) * v42 * x0 * x8 - (1 / 8) * v52 * x16 + (1 / 8) * v62 * x10 * x3 - (1 / 8) * v72 * x17
  let y0 := J11 * J22
  let y1 := J00 * y0
  let y2 := J01 * J12
  let y3 := J20 * y2
  let y4 := J02 * J21
  let y5 := J10 * y4
  let y6 := J12 * J21
  let y7 := J00 * y6
  let y8 := J01 * J22
  let y9 := J10 * y8
  let y10 := J02 * J11
  let y11 := J20 * y10
  let y12 := 1 / (y1 - y11 + y3 + y5 - y7 - y9)
  let y13 := J00 * f2
  let y14 := J20 * f1
  let y15 := J10 * f0
  let y16 := J00 * f1
  let y17 := J10 * f2
  let y18 := J20 * f0
  let xin0_tmp := y12 * (-f0 * y0 + f0 * y6 - f1 * y4 + f1 * y8 + f2 * y10 - f2 * y2 + xi0 * y1 - xi0 * y11 + xi0 * y3 + xi0 * y5 - xi0 * y7 - xi0 * y9)
  let xin1_tmp := y12 * (J02 * y14 - J02 * y17 + J12 * y13 - J12 * y18 + J22 * y15 - J22 * y16 + xi1 * y1 - xi1 * y11 + xi1 * y3 + xi1 * y5 - xi1 * y7 - xi1 * y9)
  let xin2_tmp := y12 * (-J01 * y14 + J01 * y17 - J11 * y13 + J11 * y18 - J21 * y15 + J21 * y16 + xi2 * y1 - xi2 * y11 + xi2 * y3 + xi2 * y5 - xi2 * y7 - xi2 * y9)
  ⟨xin0_tmp, xin1_tmp, xin2_tmp⟩

/-- `newton_f_linear_3d`, generated_linear/hexahedron.hpp:243-281. -/
def Hex.newtonF (c : ℕ → V3 K) (xi phys : V3 K) : V3 K :=
  let xi0 := xi.x
  let xi1 := xi.y
  let xi2 := xi.z
  let v00 := (c 0).x
  let v01 := (c 0).y
  let v02 := (c 0).z
  let v10 := (c 1).x
  let v11 := (c 1).y
  let v12 := (c 1).z
  let v20 := (c 2).x
  let v21 := (c 2).y
  let v22 := (c 2).z
  let v30 := (c 3).x
  let v31 := (c 3).y
  let v32 := (c 3).z
  let v40 := (c 4).x
  let v41 := (c 4).y
  let v42 := (c 4).z
  let v50 := (c 5).x
  let v51 := (c 5).y
  let v52 := (c 5).z
  let v60 := (c 6).x
  let v61 := (c 6).y
  let v62 := (c 6).z
  let v70 := (c 7).x
  let v71 := (c 7).y
  let v72 := (c 7).z
  let phys0 := phys.x
  let phys1 := phys.y
  let phys2 := phys.z
  let x0 := xi0 - 1
  let x1 := xi1 - 1
  let x2 := xi2 - 1
  let x3 := (1 / 8) * x2
  let x4 := x0 * x1 * x3
  let x5 := xi0 + 1
  let x6 := xi1 + 1
  let x7 := x3 * x5 * x6
  let x8 := xi2 + 1
  let x9 := (1 / 8) * x8
  let x10 := x1 * x5 * x9
  let x11 := x0 * x6 * x9
  let f0_tmp := -phys0 - v00 * x4 + (1 / 8) * v10 * x1 * x2 * x5 - v20 * x7 + (1 / 8) * v30 * x0 * x2 * x6 + (1 / 8) * v40 * x0 * x1 * x8 - v50 * x10 + (1 / 8) * v60 * x5 * x6 * x8 - v70 * x11
  let f1_tmp := -phys1 - v01 * x4 + (1 / 8) * v11 * x1 * x2 * x5 - v21 * x7 + (1 / 8) * v31 * x0 * x2 * x6 + (1 / 8) * v41 * x0 * x1 * x8 - v51 * x10 + (1 / 8) * v61 * x5 * x6 * x8 - v71 * x11
  let f2_tmp := -phys2 - v02 * x4 + (1 / 8) * v12 * x1 * x2 * x5 - v22 * x7 + (1 / 8) * v32 * x0 * x2 * x6 + (1 / 8) * v42 * x0 * x1 * x8 - v52 * x10 + (1 / 8) * v62 * x5 * x6 * x8 - v72 * x11
  ⟨f0_tmp, f1_tmp, f2_tmp⟩

/-- `newton_step_linear_3d`, generated_linear/prism.hpp:88-148. -/
def Prism.newtonStep (c : ℕ → V3 K) (xi phys f : V3 K) : V3 K :=
  let xi0 := xi.x
  let xi1 := xi.y
  let xi2 := xi.z
  let v00 := (c 0).x
  let v01 := (c 0).y
  let v02 := (c 0).z
  let v10 := (c 1).x
  let v11 := (c 1).y
  let v12 := (c 1).z
  let v20 := (c 2).x
  let v21 := (c 2).y
  let v22 := (c 2).z
  let v30 := (c 3).x
  let v31 := (c 3).y
  let v32 := (c 3).z
  let v40 := (c 4).x
  let v41 := (c 4).y
  let v42 := (c 4).z
  let v50 := (c 5).x
  let v51 := (c 5).y
  let v52 := (c 5).z
  let f0 := f.x
  let f1 := f.y
  let f2 := f.z
  let x0 := xi1 + 1
  let x1 := xi1 - 1
  let x2 := v00 * x1 - v30 * x0
  let x3 := xi0 + xi2
  let x4 := xi0 + 1
  let x5 := xi2 + 1
  let x6 := v01 * x1 - v31 * x0
  let x7 := v02 * x1 - v32 * x0
  let J00 := -(1 / 4) * v10 * x1 + (1 / 4) * v20 * x0 + (1 / 4) * x2
  let J01 := (1 / 4) * v00 * x3 - (1 / 4) * v10 * x4 + (1 / 4) * v20 * x4 - (1 / 4) * v30 * x3 - (1 / 4) * v40 * x5 + (1 / 4) * v50 * x5
  let J02 := -(1 / 4) * v40 * x1 + (1 / 4) * v50 * x0 + (1 / 4) * x2
  let J10 := -(1 / 4) * v11 * x1 + (1 / 4) * v21 * x0 + (1 / 4) * x6
  let J11 := (1 / 4) * v01 * x3 - (1 / 4) * v11 * x4 + (1 / 4) * v21 * x4 - (1 / 4) * v31 * x3 - (1 / 4) * v41 * x5 + (1 / 4) * v51 * x5
  let J12 := -(1 / 4) * v41 * x1 + (1 / 4) * v51 * x0 + (1 / 4) * x6
  let J20 := -(1 / 4) * v12 * x1 + (1 / 4) * v22 * x0 + (1 / 4) * x7
  let J21 := (1 / 4) * v02 * x3 - (1 / 4) * v12 * x4 + (1 / 4) * v22 * x4 - (1 / 4) * v32 * x3 - (1 / 4) * v42 * x5 + (1 / 4) * v52 * x5
  let J22 := -(1 / 4) * v42 * x1 + (1 / 4) * v52 * x0 + (1 / 4) * x7
  let y0 := J11 * J22
  let y1 := J00 * y0
  let y2 := J01 * J12
  let y3 := J20 * y2
  let y4 := J02 * J21
  let y5 := J10 * y4
  let y6 := J12 * J21
  let y7 := J00 * y6
  let y8 := J01 * J22
  let y9 := J10 * y8
  let y10 := J02 * J11
  let y11 := J20 * y10
  let y12 := 1 / (y1 - y11 + y3 + y5 - y7 - y9)
  let y13 := J00 * f2
  let y14 := J20 * f1
  let y15 := J10 * f0
  let y16 := J00 * f1
  let y17 := J10 * f2
  let y18 := J20 * f0
  let xin0_tmp := y12 * (-f0 * y0 + f0 * y6 - f1 * y4 + f1 * y8 + f2 * y10 - f2 * y2 + xi0 * y1 - xi0 * y11 + xi0 * y3 + xi0 * y5 - xi0 * y7 - xi0 * y9)
  let xin1_tmp := y12 * (J02 * y14 - J02 * y17 + J12 * y13 - J12 * y18 + J22 * y15 - J22 * y16 + xi1 * y1 - xi1 * y11 + xi1 * y3 + xi1 * y5 - xi1 * y7 - xi1 * y9)
  let xin2_tmp := y12 * (-J01 * y14 + J01 * y17 - J11 * y13 + J11 * y18 - J21 * y15 + J21 * y16 + xi2 * y1 - xi2 * y11 + xi2 * y3 + xi2 * y5 - xi2 * y7 - xi2 * y9)
  ⟨xin0_tmp, xin1_tmp, xin2_tmp⟩

/-- `newton_f_linear_3d`, generated_linear/prism.hpp:202-232. -/
def Prism.newtonF (c : ℕ → V3 K) (xi phys : V3 K) : V3 K :=
  let xi0 := xi.x
  let xi1 := xi.y
  let xi2 := xi.z
  let v00 := (c 0).x
  let v01 := (c 0).y
  let v02 := (c 0).z
  let v10 := (c 1).x
  let v11 := (c 1).y
  let v12 := (c 1).z
  let v20 := (c 2).x
  let v21 := (c 2).y
  let v22 := (c 2).z
  let v30 := (c 3).x
  let v31 := (c 3).y
  let v32 := (c 3).z
  let v40 := (c 4).x
  let v41 := (c 4).y
  let v42 := (c 4).z
  let v50 := (c 5).x
  let v51 := (c 5).y
  let v52 := (c 5).z
  let phys0 := phys.x
  let phys1 := phys.y
  let phys2 := phys.z
  let x0 := xi0 + xi2
  let x1 := xi1 - 1
  let x2 := xi0 + 1
  let x3 := (1 / 4) * x1
  let x4 := x2 * x3
  let x5 := xi1 + 1
  let x6 := (1 / 4) * x0 * x5
  let x7 := xi2 + 1
  let x8 := x3 * x7
  let f0_tmp := -phys0 + (1 / 4) * v00 * x0 * x1 - v10 * x4 + (1 / 4) * v20 * x2 * x5 - v30 * x6 - v40 * x8 + (1 / 4) * v50 * x5 * x7
  let f1_tmp := -phys1 + (1 / 4) * v01 * x0 * x1 - v11 * x4 + (1 / 4) * v21 * x2 * x5 - v31 * x6 - v41 * x8 + (1 / 4) * v51 * x5 * x7
  let f2_tmp := -phys2 + (1 / 4) * v02 * x0 * x1 - v12 * x4 + (1 / 4) * v22 * x2 * x5 - v32 * x6 - v42 * x8 + (1 / 4) * v52 * x5 * x7
  ⟨f0_tmp, f1_tmp, f2_tmp⟩

/-- `newton_step_linear_3d`, generated_linear/pyramid.hpp:88-160. -/
def Pyr.newtonStep (c : ℕ → V3 K) (xi phys f : V3 K) : V3 K :=
  let xi0 := xi.x
  let xi1 := xi.y
  let xi2 := xi.z
  let v00 := (c 0).x
  let v01 := (c 0).y
  let v02 := (c 0).z
  let v10 := (c 1).x
  let v11 := (c 1).y
  let v12 := (c 1).z
  let v20 := (c 2).x
  let v21 := (c 2).y
  let v22 := (c 2).z
  let v30 := (c 3).x
  let v31 := (c 3).y
  let v32 := (c 3).z
  let v40 := (c 4).x
  let v41 := (c 4).y
  let v42 := (c 4).z
  let f0 := f.x
  let f1 := f.y
  let f2 := f.z
  let x0 := xi1 + 1
  let x1 := xi2 - 1
  let x2 := 1 / x1
  let x3 := x0 * x2
  let x4 := x3 + 1
  let x5 := v00 * x4
  let x6 := xi0 + 1
  let x7 := x2 * x6
  let x8 := x7 + 1
  let x9 := v00 * x8
  let x10 := x0 * x6 * 1 / (x1 * x1)
  let x11 := v01 * x4
  let x12 := v01 * x8
  let x13 := v02 * x4
  let x14 := v02 * x8
  let J00 := (1 / 2) * v10 * x4 - (1 / 2) * v20 * x3 + (1 / 2) * v30 * x0 * x2 - (1 / 2) * x5
  let J01 := (1 / 2) * v10 * x2 * x6 - (1 / 2) * v20 * x7 + (1 / 2) * v30 * x8 - (1 / 2) * x9
  let J02 := -(1 / 2) * v10 * x10 + (1 / 2) * v20 * x10 - (1 / 2) * v30 * x10 + (1 / 2) * v40 + (1 / 2) * x3 * x9 + (1 / 2) * x5 * x7 - (1 / 2) * x5 * x8
  let J10 := (1 / 2) * v11 * x4 - (1 / 2) * v21 * x3 + (1 / 2) * v31 * x0 * x2 - (1 / 2) * x11
  let J11 := (1 / 2) * v11 * x2 * x6 - (1 / 2) * v21 * x7 + (1 / 2) * v31 * x8 - (1 / 2) * x12
  let J12 := -(1 / 2) * v11 * x10 + (1 / 2) * v21 * x10 - (1 / 2) * v31 * x10 + (1 / 2) * v41 + (1 / 2) * x11 * x7 - (1 / 2) * x11 * x8 + (1 / 2) * x12 * x3
  let J20 := (1 / 2) * v12 * x4 - (1 / 2) * v22 * x3 + (1 / 2) * v32 * x0 * x2 - (1 / 2) * x13
  let J21 := (1 / 2) * v12 * x2 * x6 - (1 / 2) * v22 * x7 + (1 / 2) * v32 * x8 - (1 / 2) * x14
  let J22 := -(1 / 2) * v12 * x10 + (1 / 2) * v22 * x10 - (1 / 2) * v32 * x10 + (1 / 2) * v42 + (1 / 2) * x13 * x7 - (1 / 2) * x13 * x8 + (1 / 2) * x14 * x3
  let y0 := J11 * J22
  let y1 := J00 * y0
  let y2 := J01 * J12
  let y3 := J20 * y2
  let y4 := J02 * J21
  let y5 := J10 * y4
  let y6 := J12 * J21
  let y7 := J00 * y6
  let y8 := J01 * J22
  let y9 := J10 * y8
  let y10 := J02 * J11
  let y11 := J20 * y10
  let y12 := 1 / (y1 - y11 + y3 + y5 - y7 - y9)
  let y13 := J00 * f2
  let y14 := J20 * f1
  let y15 := J10 * f0
  let y16 := J00 * f1
  let y17 := J10 * f2
  let y18 := J20 * f0
  let xin0_tmp := y12 * (-f0 * y0 + f0 * y6 - f1 * y4 + f1 * y8 + f2 * y10 - f2 * y2 + xi0 * y1 - xi0 * y11 + xi0 * y3 + xi0 * y5 - xi0 * y7 - xi0 * y9)
  let xin1_tmp := y12 * (J02 * y14 - J02 * y17 + J12 * y13 - J12 * y18 + J22 * y15 - J22 * y16 + xi1 * y1 - xi1 * y11 + xi1 * y3 + xi1 * y5 - xi1 * y7 - xi1 * y9)
  let xin2_tmp := y12 * (-J01 * y14 + J01 * y17 - J11 * y13 + J11 * y18 - J21 * y15 + J21 * y16 + xi2 * y1 - xi2 * y11 + xi2 * y3 + xi2 * y5 - xi2 * y7 - xi2 * y9)
  ⟨xin0_tmp, xin1_tmp, xin2_tmp⟩

/-- `newton_f_linear_3d`, generated_linear/pyramid.hpp:214-241. -/
def Pyr.newtonF (c : ℕ → V3 K) (xi phys : V3 K) : V3 K :=
  let xi0 := xi.x
  let xi1 := xi.y
  let xi2 := xi.z
  let v00 := (c 0).x
  let v01 := (c 0).y
  let v02 := (c 0).z
  let v10 := (c 1).x
  let v11 := (c 1).y
  let v12 := (c 1).z
  let v20 := (c 2).x
  let v21 := (c 2).y
  let v22 := (c 2).z
  let v30 := (c 3).x
  let v31 := (c 3).y
  let v32 := (c 3).z
  let v40 := (c 4).x
  let v41 := (c 4).y
  let v42 := (c 4).z
  let phys0 := phys.x
  let phys1 := phys.y
  let phys2 := phys.z
  let x0 := xi2 + 1
  let x1 := xi0 + 1
  let x2 := xi1 + 1
  let x3 := xi2 - 1
  let x4 := 1 / x3
  let x5 := x2 * x4
  let x6 := (1 / 2) * x1 * x5
  let x7 := x5 + 1
  let x8 := x1 * x4 + 1
  let x9 := (1 / 2) * x3 * x7 * x8
  let f0_tmp := -phys0 - v00 * x9 + (1 / 2) * v10 * x1 * x7 - v20 * x6 + (1 / 2) * v30 * x2 * x8 + (1 / 2) * v40 * x0
  let f1_tmp := -phys1 - v01 * x9 + (1 / 2) * v11 * x1 * x7 - v21 * x6 + (1 / 2) * v31 * x2 * x8 + (1 / 2) * v41 * x0
  let f2_tmp := -phys2 - v02 * x9 + (1 / 2) * v12 * x1 * x7 - v22 * x6 + (1 / 2) * v32 * x2 * x8 + (1 / 2) * v42 * x0
  ⟨f0_tmp, f1_tmp, f2_tmp⟩

/-- `newton_step_linear_3d`, generated_linear/tetrahedron.hpp:74-121. -/
def Tet.newtonStep (c : ℕ → V3 K) (xi phys f : V3 K) : V3 K :=
  let xi0 := xi.x
  let xi1 := xi.y
  let xi2 := xi.z
  let v00 := (c 0).x
  let v01 := (c 0).y
  let v02 := (c 0).z
  let v10 := (c 1).x
  let v11 := (c 1).y
  let v12 := (c 1).z
  let v20 := (c 2).x
  let v21 := (c 2).y
  let v22 := (c 2).z
  let v30 := (c 3).x
  let v31 := (c 3).y
  let v32 := (c 3).z
  let f0 := f.x
  let f1 := f.y
  let f2 := f.z
  let J00 := (1 / 2) * (-v00 + v10)
  let J01 := (1 / 2) * (-v00 + v20)
  let J02 := (1 / 2) * (-v00 + v30)
  let J10 := (1 / 2) * (-v01 + v11)
  let J11 := (1 / 2) * (-v01 + v21)
  let J12 := (1 / 2) * (-v01 + v31)
  let J20 := (1 / 2) * (-v02 + v12)
  let J21 := (1 / 2) * (-v02 + v22)
  let J22 := (1 / 2) * (-v02 + v32)
  let y0 := J11 * J22
  let y1 := J00 * y0
  let y2 := J01 * J12
  let y3 := J20 * y2
  let y4 := J02 * J21
  let y5 := J10 * y4
  let y6 := J12 * J21
  let y7 := J00 * y6
  let y8 := J01 * J22
  let y9 := J10 * y8
  let y10 := J02 * J11
  let y11 := J20 * y10
  let y12 := 1 / (y1 - y11 + y3 + y5 - y7 - y9)
  let y13 := J00 * f2
  let y14 := J20 * f1
  let y15 := J10 * f0
  let y16 := J00 * f1
  let y17 := J10 * f2
  let y18 := J20 * f0
  let xin0_tmp := y12 * (-f0 * y0 + f0 * y6 - f1 * y4 + f1 * y8 + f2 * y10 - f2 * y2 + xi0 * y1 - xi0 * y11 + xi0 * y3 + xi0 * y5 - xi0 * y7 - xi0 * y9)
  let xin1_tmp := y12 * (J02 * y14 - J02 * y17 + J12 * y13 - J12 * y18 + J22 * y15 - J22 * y16 + xi1 * y1 - xi1 * y11 + xi1 * y3 + xi1 * y5 - xi1 * y7 - xi1 * y9)
  let xin2_tmp := y12 * (-J01 * y14 + J01 * y17 - J11 * y13 + J11 * y18 - J21 * y15 + J21 * y16 + xi2 * y1 - xi2 * y11 + xi2 * y3 + xi2 * y5 - xi2 * y7 - xi2 * y9)
  ⟨xin0_tmp, xin1_tmp, xin2_tmp⟩

/-- `newton_f_linear_3d`, generated_linear/tetrahedron.hpp:161-180. -/
def Tet.newtonF (c : ℕ → V3 K) (xi phys : V3 K) : V3 K :=
  let xi0 := xi.x
  let xi1 := xi.y
  let xi2 := xi.z
  let v00 := (c 0).x
  let v01 := (c 0).y
  let v02 := (c 0).z
  let v10 := (c 1).x
  let v11 := (c 1).y
  let v12 := (c 1).z
  let v20 := (c 2).x
  let v21 := (c 2).y
  let v22 := (c 2).z
  let v30 := (c 3).x
  let v31 := (c 3).y
  let v32 := (c 3).z
  let phys0 := phys.x
  let phys1 := phys.y
  let phys2 := phys.z
  let x0 := (1 / 2) * xi0 + (1 / 2)
  let x1 := (1 / 2) * xi1 + (1 / 2)
  let x2 := (1 / 2) * xi2 + (1 / 2)
  let f0_tmp := -phys0 + v00 - x0 * (v00 - v10) - x1 * (v00 - v20) - x2 * (v00 - v30)
  let f1_tmp := -phys1 + v01 - x0 * (v01 - v11) - x1 * (v01 - v21) - x2 * (v01 - v31)
  let f2_tmp := -phys2 + v02 - x0 * (v02 - v12) - x1 * (v02 - v22) - x2 * (v02 - v32)
  ⟨f0_tmp, f1_tmp, f2_tmp⟩

end Verif.Model.LinearElements
