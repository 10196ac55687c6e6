import Verif.Model.ExpansionLooping
import Verif.Model.FloatKernels

/-!
Model in floating point arithmetic of the loops over the modes of include/nektar_interface/expansion_looping/{quadrilateral,
triangle,hexahedron,prism,pyramid,tetrahedron}.hpp and of the atomic additions of function_basis_projection.hpp.

Real numbers with a rounding function applied to the result of each operation; overflow is not modelled. The local spaces are the
values the basis kernels stored (finite). `contract i` says whether the compiler contracts the last product and the addition of the
`i`th accumulation statement of a function into one fused operation.
-/

namespace Verif.Model.FloatExpansion
open Verif.Model Verif.Model.FloatKernels Verif.Spec Verif.Model.BasisReference

/-- `mode` and `evaluation`. The variables of quadrilateral.hpp:50-75 and the same functions of the other shapes. -/
structure EvF where
  mode : ℕ
  evaluation : ℝ

/-- `mode` and the atomic additions so far. The variables of quadrilateral.hpp:90-115 and the same functions of the other shapes. -/
structure PrF where
  mode : ℕ
  adds : List (ℕ × ℝ)

variable (rnd : ℝ → ℝ) (contract : ℕ → Bool)

/-- `Quadrilateral::loop_evaluate_v`, quadrilateral.hpp:45-60. -/
noncomputable def quadEvaluateF (n : ℕ) (dofs l0 l1 : List ℝ) : Option ℝ :=
  forLoop n (fun qx ev => forLoop n (fun px ev =>
    let mode := qx * n + px
    (Mem.read dofs (mode : ℤ)).bind fun coeff =>
    (Mem.read l0 (px : ℤ)).bind fun etmp0 =>
    (Mem.read l1 (qx : ℤ)).bind fun etmp1 =>
    some (mulAdd rnd (contract 0) (rnd (coeff * etmp0)) etmp1 ev)) ev) 0

/-- `Quadrilateral::loop_project_v`, quadrilateral.hpp:62-80. -/
noncomputable def quadProjectF (n : ℕ) (value : ℝ) (l0 l1 : List ℝ) : Option (List (ℕ × ℝ)) :=
  forLoop n (fun qx adds => forLoop n (fun px adds =>
    let mode := qx * n + px
    (Mem.read l0 (px : ℤ)).bind fun etmp0 =>
    (Mem.read l1 (qx : ℤ)).bind fun etmp1 =>
    some (adds ++ [(mode, rnd (rnd (value * etmp0) * etmp1))])) adds) []

/-- `Triangle::loop_evaluate_v`, triangle.hpp:45-63. -/
noncomputable def triEvaluateF (n : ℕ) (dofs l0 l1 : List ℝ) : Option ℝ :=
  (forLoop n (fun px s => forLoop (n - px) (fun _ (s : EvF) =>
    (Mem.read dofs (s.mode : ℤ)).bind fun coeff =>
    (if s.mode = 1 then some 1 else Mem.read l0 (px : ℤ)).bind fun etmp0 =>
    (Mem.read l1 (s.mode : ℤ)).bind fun etmp1 =>
    some ⟨s.mode + 1, mulAdd rnd (contract 0) (rnd (coeff * etmp0)) etmp1 s.evaluation⟩) s)
    ⟨0, 0⟩).map fun s => s.evaluation

/-- `Triangle::loop_project_v`, triangle.hpp:65-82. -/
noncomputable def triProjectF (n : ℕ) (value : ℝ) (l0 l1 : List ℝ) : Option (List (ℕ × ℝ)) :=
  (forLoop n (fun px s => forLoop (n - px) (fun _ (s : PrF) =>
    (if s.mode = 1 then some 1 else Mem.read l0 (px : ℤ)).bind fun etmp0 =>
    (Mem.read l1 (s.mode : ℤ)).bind fun etmp1 =>
    some ⟨s.mode + 1, s.adds ++ [(s.mode, rnd (rnd (value * etmp0) * etmp1))]⟩) s)
    ⟨0, []⟩).map fun s => s.adds

/-- `Hexahedron::loop_evaluate_v`, hexahedron.hpp:48-68. -/
noncomputable def hexEvaluateF (n : ℕ) (dofs l0 l1 l2 : List ℝ) : Option ℝ :=
  forLoop n (fun rx ev =>
    let modeR := rx * n * n
    (Mem.read l2 (rx : ℤ)).bind fun etmp2 =>
    forLoop n (fun qx ev =>
      let modeQ := qx * n + modeR
      (Mem.read l1 (qx : ℤ)).bind fun x1 =>
      let etmp1 := rnd (x1 * etmp2)
      forLoop n (fun px ev =>
        let mode := px + modeQ
        (Mem.read dofs (mode : ℤ)).bind fun coeff =>
        (Mem.read l0 (px : ℤ)).bind fun etmp0 =>
        some (mulAdd rnd (contract 0) (rnd (coeff * etmp0)) etmp1 ev)) ev) ev) 0

/-- `Hexahedron::loop_project_v`, hexahedron.hpp:70-91. -/
noncomputable def hexProjectF (n : ℕ) (value : ℝ) (l0 l1 l2 : List ℝ) : Option (List (ℕ × ℝ)) :=
  forLoop n (fun rx adds =>
    let modeR := rx * n * n
    (Mem.read l2 (rx : ℤ)).bind fun x2 =>
    let etmp2 := rnd (x2 * value)
    forLoop n (fun qx adds =>
      let modeQ := qx * n + modeR
      (Mem.read l1 (qx : ℤ)).bind fun x1 =>
      let etmp1 := rnd (x1 * etmp2)
      forLoop n (fun px adds =>
        let mode := px + modeQ
        (Mem.read l0 (px : ℤ)).bind fun x0 =>
        some (adds ++ [(mode, rnd (x0 * etmp1))])) adds) adds) []

/-- `Prism::loop_evaluate_v`, prism.hpp:46-73; the state of the loop over `p` is `(mode_r, mode, evaluation)`. -/
noncomputable def prismEvaluateF (n : ℕ) (dofs l0 l1 l2 : List ℝ) : Option ℝ :=
  (forLoop n (fun p (st : ℕ × EvF) =>
    (Mem.read l0 (p : ℤ)).bind fun etmp0 =>
    (forLoop n (fun q s =>
      (Mem.read l1 (q : ℤ)).bind fun etmp1 =>
      forLoop (n - p) (fun r (s : EvF) =>
        (Mem.read l2 ((st.1 + r : ℕ) : ℤ)).bind fun etmp2 =>
        let tmp := if p = 0 ∧ r = 1 then rnd (etmp1 * etmp2) else rnd (rnd (etmp0 * etmp1) * etmp2)
        (Mem.read dofs (s.mode : ℤ)).bind fun coeff =>
        some ⟨s.mode + 1, mulAdd rnd (contract 0) coeff tmp s.evaluation⟩) s) st.2).map fun s =>
    (st.1 + (n - p), s)) (0, ⟨0, 0⟩)).map fun st => st.2.evaluation

/-- `Prism::loop_project_v`, prism.hpp:75-102. -/
noncomputable def prismProjectF (n : ℕ) (value : ℝ) (l0 l1 l2 : List ℝ) : Option (List (ℕ × ℝ)) :=
  (forLoop n (fun p (st : ℕ × PrF) =>
    (Mem.read l0 (p : ℤ)).bind fun etmp0 =>
    (forLoop n (fun q s =>
      (Mem.read l1 (q : ℤ)).bind fun etmp1 =>
      forLoop (n - p) (fun r (s : PrF) =>
        (Mem.read l2 ((st.1 + r : ℕ) : ℤ)).bind fun etmp2 =>
        let evaluation := if p = 0 ∧ r = 1 then rnd (rnd (value * etmp1) * etmp2)
          else rnd (rnd (rnd (value * etmp0) * etmp1) * etmp2)
        some ⟨s.mode + 1, s.adds ++ [(s.mode, evaluation)]⟩) s) st.2).map fun s =>
    (st.1 + (n - p), s)) (0, ⟨0, []⟩)).map fun st => st.2.adds

/-- `Pyramid::loop_evaluate_v`, pyramid.hpp:49-73. -/
noncomputable def pyrEvaluateF (n : ℕ) (dofs l0 l1 l2 : List ℝ) : Option ℝ :=
  (forLoop n (fun p s =>
    (Mem.read l0 (p : ℤ)).bind fun etmp0 =>
    forLoop n (fun q s =>
      (Mem.read l1 (q : ℤ)).bind fun etmp1 =>
      forLoop (n - max p q) (fun _ (s : EvF) =>
        (Mem.read l2 (s.mode : ℤ)).bind fun etmp2 =>
        (Mem.read dofs (s.mode : ℤ)).bind fun coeff =>
        some ⟨s.mode + 1,
          if s.mode = 1 then mulAdd rnd (contract 0) coeff etmp2 s.evaluation
          else mulAdd rnd (contract 1) (rnd (rnd (coeff * etmp0) * etmp1)) etmp2 s.evaluation⟩) s) s)
    ⟨0, 0⟩).map fun s => s.evaluation

/-- `Pyramid::loop_project_v`, pyramid.hpp:75-101. -/
noncomputable def pyrProjectF (n : ℕ) (value : ℝ) (l0 l1 l2 : List ℝ) : Option (List (ℕ × ℝ)) :=
  (forLoop n (fun p s =>
    (Mem.read l0 (p : ℤ)).bind fun etmp0 =>
    forLoop n (fun q s =>
      (Mem.read l1 (q : ℤ)).bind fun etmp1 =>
      forLoop (n - max p q) (fun _ (s : PrF) =>
        (Mem.read l2 (s.mode : ℤ)).bind fun etmp2 =>
        let evaluation := if s.mode = 1 then rnd (value * etmp2)
          else rnd (rnd (rnd (value * etmp0) * etmp1) * etmp2)
        some ⟨s.mode + 1, s.adds ++ [(s.mode, evaluation)]⟩) s) s)
    ⟨0, []⟩).map fun s => s.adds

/-- `Tetrahedron::loop_evaluate_v`, tetrahedron.hpp:48-75; the state of the outer loops is `(mode_q, mode, evaluation)`. -/
noncomputable def tetEvaluateF (n : ℕ) (dofs l0 l1 l2 : List ℝ) : Option ℝ :=
  (forLoop n (fun p (st : ℕ × EvF) =>
    (Mem.read l0 (p : ℤ)).bind fun etmp0 =>
    forLoop (n - p) (fun q (st : ℕ × EvF) =>
      (Mem.read l1 (st.1 : ℤ)).bind fun etmp1 =>
      (forLoop (n - p - q) (fun _ (s : EvF) =>
        (Mem.read l2 (s.mode : ℤ)).bind fun etmp2 =>
        (Mem.read dofs (s.mode : ℤ)).bind fun coeff =>
        some ⟨s.mode + 1,
          if s.mode = 1 then mulAdd rnd (contract 0) coeff etmp2 s.evaluation
          else if p = 0 ∧ q = 1 then mulAdd rnd (contract 1) (rnd (coeff * etmp1)) etmp2 s.evaluation
          else mulAdd rnd (contract 2) (rnd (rnd (coeff * etmp0) * etmp1)) etmp2 s.evaluation⟩) st.2).map fun s => (st.1 + 1, s)) st)
    (0, ⟨0, 0⟩)).map fun st => st.2.evaluation

/-- `Tetrahedron::loop_project_v`, tetrahedron.hpp:77-106. -/
noncomputable def tetProjectF (n : ℕ) (value : ℝ) (l0 l1 l2 : List ℝ) : Option (List (ℕ × ℝ)) :=
  (forLoop n (fun p (st : ℕ × PrF) =>
    (Mem.read l0 (p : ℤ)).bind fun etmp0 =>
    forLoop (n - p) (fun q (st : ℕ × PrF) =>
      (Mem.read l1 (st.1 : ℤ)).bind fun etmp1 =>
      (forLoop (n - p - q) (fun _ (s : PrF) =>
        (Mem.read l2 (s.mode : ℤ)).bind fun etmp2 =>
        let evaluation := if s.mode = 1 then rnd (value * etmp2)
          else if p = 0 ∧ q = 1 then rnd (rnd (value * etmp1) * etmp2)
          else rnd (rnd (rnd (value * etmp0) * etmp1) * etmp2)
        some ⟨s.mode + 1, s.adds ++ [(s.mode, evaluation)]⟩) st.2).map fun s => (st.1 + 1, s)) st)
    (0, ⟨0, []⟩)).map fun st => st.2.adds

/-- `loop_evaluate` of the class of the shape, jacobi_expansion_looping_interface.hpp:144-151. -/
noncomputable def loopEvaluateF : Shape → ℕ → List ℝ → List ℝ → List ℝ → List ℝ → Option ℝ
  | .tri, n, dofs, l0, l1, _ => triEvaluateF rnd contract n dofs l0 l1
  | .quad, n, dofs, l0, l1, _ => quadEvaluateF rnd contract n dofs l0 l1
  | .hex, n, dofs, l0, l1, l2 => hexEvaluateF rnd contract n dofs l0 l1 l2
  | .prism, n, dofs, l0, l1, l2 => prismEvaluateF rnd contract n dofs l0 l1 l2
  | .pyr, n, dofs, l0, l1, l2 => pyrEvaluateF rnd contract n dofs l0 l1 l2
  | .tet, n, dofs, l0, l1, l2 => tetEvaluateF rnd contract n dofs l0 l1 l2

/-- `loop_project` of the class of the shape, jacobi_expansion_looping_interface.hpp:179-185. -/
noncomputable def loopProjectF : Shape → ℕ → ℝ → List ℝ → List ℝ → List ℝ → Option (List (ℕ × ℝ))
  | .tri, n, v, l0, l1, _ => triProjectF rnd n v l0 l1
  | .quad, n, v, l0, l1, _ => quadProjectF rnd n v l0 l1
  | .hex, n, v, l0, l1, l2 => hexProjectF rnd n v l0 l1 l2
  | .prism, n, v, l0, l1, l2 => prismProjectF rnd n v l0 l1 l2
  | .pyr, n, v, l0, l1, l2 => pyrProjectF rnd n v l0 l1 l2
  | .tet, n, v, l0, l1, l2 => tetProjectF rnd n v l0 l1 l2

/-- `coeff_atomic_ref.fetch_add(evaluation)` for a sequence of additions. As in quadrilateral.hpp:90-115. -/
noncomputable def applyAddsF (dofs : List ℝ) : List (ℕ × ℝ) → Option (List ℝ)
  | [] => some dofs
  | (m, v) :: rest =>
    (Mem.read dofs (m : ℤ)).bind fun old =>
    (Mem.write dofs (m : ℤ) (rnd (old + v))).bind fun dofs => applyAddsF dofs rest

end Verif.Model.FloatExpansion
