import Verif.Model.BasisEvaluation
import Verif.Model.BasisEvaluateBase
import Verif.Model.CoordinateMapping

/-!
Model of include/nektar_interface/expansion_looping/{quadrilateral,triangle,hexahedron,prism,pyramid,
tetrahedron}.hpp (loops over the modes), of `eval_modes` (basis_reference.cpp:362-459) and of the per-particle kernel of
basis_evaluate_base.hpp:57-80 and function_basis_evaluation.hpp / function_basis_projection.hpp.

`l0, l1, l2` are the three local spaces. Reads are checked (`none`: outside of the buffer). The projection loops are modelled
by the list of their atomic additions `(mode, increment)` in program order; `applyAdds` performs additions in some order.
-/

namespace Verif.Model.ExpansionLooping
open Verif.Model.JacobiCoeff Verif.Model.BasisReference Verif.Model.BasisEvaluation Verif.Spec

variable {K : Type*} [Field K] [DecidableEq K]

/-- `mode` and `evaluation`. The variables of quadrilateral.hpp:50-75 and the same functions of the other shapes. -/
structure EvSt (K : Type*) where
  mode : ℕ
  evaluation : Dbl K

/-- `mode` and the atomic additions so far. The variables of quadrilateral.hpp:90-115 and the same functions of the other shapes. -/
structure PrSt (K : Type*) where
  mode : ℕ
  adds : List (ℕ × Dbl K)

/-- `Quadrilateral::loop_evaluate_v`, quadrilateral.hpp:45-60. -/
def quadEvaluate (n : ℕ) (dofs : List K) (l0 l1 : List (Dbl K)) : Option (Dbl K) :=
  forLoop n (fun qx ev => forLoop n (fun px ev =>
    let mode := qx * n + px
    (Mem.read dofs (mode : ℤ)).bind fun coeff =>
    (Mem.read l0 (px : ℤ)).bind fun etmp0 =>
    (Mem.read l1 (qx : ℤ)).bind fun etmp1 =>
    some (Dbl.add ev (Dbl.mul (Dbl.mul (some coeff) etmp0) etmp1))) ev) (some 0)

/-- `Quadrilateral::loop_project_v`, quadrilateral.hpp:62-80. -/
def quadProject (n : ℕ) (value : K) (l0 l1 : List (Dbl K)) : Option (List (ℕ × Dbl K)) :=
  forLoop n (fun qx adds => forLoop n (fun px adds =>
    let mode := qx * n + px
    (Mem.read l0 (px : ℤ)).bind fun etmp0 =>
    (Mem.read l1 (qx : ℤ)).bind fun etmp1 =>
    some (adds ++ [(mode, Dbl.mul (Dbl.mul (some value) etmp0) etmp1)])) adds) []

/-- `Triangle::loop_evaluate_v`, triangle.hpp:45-63. -/
def triEvaluate (n : ℕ) (dofs : List K) (l0 l1 : List (Dbl K)) : Option (Dbl K) :=
  (forLoop n (fun px s => forLoop (n - px) (fun _ (s : EvSt K) =>
    (Mem.read dofs (s.mode : ℤ)).bind fun coeff =>
    (if s.mode = 1 then some (some 1) else Mem.read l0 (px : ℤ)).bind fun etmp0 =>
    (Mem.read l1 (s.mode : ℤ)).bind fun etmp1 =>
    some ⟨s.mode + 1, Dbl.add s.evaluation (Dbl.mul (Dbl.mul (some coeff) etmp0) etmp1)⟩) s)
    ⟨0, some 0⟩).map fun s => s.evaluation

/-- `Triangle::loop_project_v`, triangle.hpp:65-82. -/
def triProject (n : ℕ) (value : K) (l0 l1 : List (Dbl K)) : Option (List (ℕ × Dbl K)) :=
  (forLoop n (fun px s => forLoop (n - px) (fun _ (s : PrSt K) =>
    (if s.mode = 1 then some (some 1) else Mem.read l0 (px : ℤ)).bind fun etmp0 =>
    (Mem.read l1 (s.mode : ℤ)).bind fun etmp1 =>
    some ⟨s.mode + 1, s.adds ++ [(s.mode, Dbl.mul (Dbl.mul (some value) etmp0) etmp1)]⟩) s)
    ⟨0, []⟩).map fun s => s.adds

/-- `Hexahedron::loop_evaluate_v`, hexahedron.hpp:48-68. -/
def hexEvaluate (n : ℕ) (dofs : List K) (l0 l1 l2 : List (Dbl K)) : Option (Dbl K) :=
  forLoop n (fun rx ev =>
    let modeR := rx * n * n
    (Mem.read l2 (rx : ℤ)).bind fun etmp2 =>
    forLoop n (fun qx ev =>
      let modeQ := qx * n + modeR
      (Mem.read l1 (qx : ℤ)).bind fun x1 =>
      let etmp1 := Dbl.mul x1 etmp2
      forLoop n (fun px ev =>
        let mode := px + modeQ
        (Mem.read dofs (mode : ℤ)).bind fun coeff =>
        (Mem.read l0 (px : ℤ)).bind fun etmp0 =>
        some (Dbl.add ev (Dbl.mul (Dbl.mul (some coeff) etmp0) etmp1))) ev) ev) (some 0)

/-- `Hexahedron::loop_project_v`, hexahedron.hpp:70-91. -/
def hexProject (n : ℕ) (value : K) (l0 l1 l2 : List (Dbl K)) : Option (List (ℕ × Dbl K)) :=
  forLoop n (fun rx adds =>
    let modeR := rx * n * n
    (Mem.read l2 (rx : ℤ)).bind fun x2 =>
    let etmp2 := Dbl.mul x2 (some value)
    forLoop n (fun qx adds =>
      let modeQ := qx * n + modeR
      (Mem.read l1 (qx : ℤ)).bind fun x1 =>
      let etmp1 := Dbl.mul x1 etmp2
      forLoop n (fun px adds =>
        let mode := px + modeQ
        (Mem.read l0 (px : ℤ)).bind fun x0 =>
        some (adds ++ [(mode, Dbl.mul x0 etmp1)])) adds) adds) []

/-- `Prism::loop_evaluate_v`, prism.hpp:46-73; the state of the loop over `p` is `(mode_r, mode, evaluation)`. -/
def prismEvaluate (n : ℕ) (dofs : List K) (l0 l1 l2 : List (Dbl K)) : Option (Dbl K) :=
  (forLoop n (fun p (st : ℕ × EvSt K) =>
    (Mem.read l0 (p : ℤ)).bind fun etmp0 =>
    (forLoop n (fun q s =>
      (Mem.read l1 (q : ℤ)).bind fun etmp1 =>
      forLoop (n - p) (fun r (s : EvSt K) =>
        (Mem.read l2 ((st.1 + r : ℕ) : ℤ)).bind fun etmp2 =>
        let tmp := if p = 0 ∧ r = 1 then Dbl.mul etmp1 etmp2 else Dbl.mul (Dbl.mul etmp0 etmp1) etmp2
        (Mem.read dofs (s.mode : ℤ)).bind fun coeff =>
        some ⟨s.mode + 1, Dbl.add s.evaluation (Dbl.mul (some coeff) tmp)⟩) s) st.2).map fun s =>
    (st.1 + (n - p), s)) (0, ⟨0, some 0⟩)).map fun st => st.2.evaluation

/-- `Prism::loop_project_v`, prism.hpp:75-102. -/
def prismProject (n : ℕ) (value : K) (l0 l1 l2 : List (Dbl K)) : Option (List (ℕ × Dbl K)) :=
  (forLoop n (fun p (st : ℕ × PrSt K) =>
    (Mem.read l0 (p : ℤ)).bind fun etmp0 =>
    (forLoop n (fun q s =>
      (Mem.read l1 (q : ℤ)).bind fun etmp1 =>
      forLoop (n - p) (fun r (s : PrSt K) =>
        (Mem.read l2 ((st.1 + r : ℕ) : ℤ)).bind fun etmp2 =>
        let evaluation := if p = 0 ∧ r = 1 then Dbl.mul (Dbl.mul (some value) etmp1) etmp2
          else Dbl.mul (Dbl.mul (Dbl.mul (some value) etmp0) etmp1) etmp2
        some ⟨s.mode + 1, s.adds ++ [(s.mode, evaluation)]⟩) s) st.2).map fun s =>
    (st.1 + (n - p), s)) (0, ⟨0, []⟩)).map fun st => st.2.adds

/-- `Pyramid::loop_evaluate_v`, pyramid.hpp:49-73. -/
def pyrEvaluate (n : ℕ) (dofs : List K) (l0 l1 l2 : List (Dbl K)) : Option (Dbl K) :=
  (forLoop n (fun p s =>
    (Mem.read l0 (p : ℤ)).bind fun etmp0 =>
    forLoop n (fun q s =>
      (Mem.read l1 (q : ℤ)).bind fun etmp1 =>
      forLoop (n - max p q) (fun _ (s : EvSt K) =>
        (Mem.read l2 (s.mode : ℤ)).bind fun etmp2 =>
        (Mem.read dofs (s.mode : ℤ)).bind fun coeff =>
        some ⟨s.mode + 1, Dbl.add s.evaluation
          (if s.mode = 1 then Dbl.mul (some coeff) etmp2
           else Dbl.mul (Dbl.mul (Dbl.mul (some coeff) etmp0) etmp1) etmp2)⟩) s) s)
    ⟨0, some 0⟩).map fun s => s.evaluation

/-- `Pyramid::loop_project_v`, pyramid.hpp:75-101. -/
def pyrProject (n : ℕ) (value : K) (l0 l1 l2 : List (Dbl K)) : Option (List (ℕ × Dbl K)) :=
  (forLoop n (fun p s =>
    (Mem.read l0 (p : ℤ)).bind fun etmp0 =>
    forLoop n (fun q s =>
      (Mem.read l1 (q : ℤ)).bind fun etmp1 =>
      forLoop (n - max p q) (fun _ (s : PrSt K) =>
        (Mem.read l2 (s.mode : ℤ)).bind fun etmp2 =>
        let evaluation := if s.mode = 1 then Dbl.mul (some value) etmp2
          else Dbl.mul (Dbl.mul (Dbl.mul (some value) etmp0) etmp1) etmp2
        some ⟨s.mode + 1, s.adds ++ [(s.mode, evaluation)]⟩) s) s)
    ⟨0, []⟩).map fun s => s.adds

/-- `Tetrahedron::loop_evaluate_v`, tetrahedron.hpp:48-75; the state of the outer loops is `(mode_q, mode, evaluation)`. -/
def tetEvaluate (n : ℕ) (dofs : List K) (l0 l1 l2 : List (Dbl K)) : Option (Dbl K) :=
  (forLoop n (fun p (st : ℕ × EvSt K) =>
    (Mem.read l0 (p : ℤ)).bind fun etmp0 =>
    forLoop (n - p) (fun q (st : ℕ × EvSt K) =>
      (Mem.read l1 (st.1 : ℤ)).bind fun etmp1 =>
      (forLoop (n - p - q) (fun _ (s : EvSt K) =>
        (Mem.read l2 (s.mode : ℤ)).bind fun etmp2 =>
        (Mem.read dofs (s.mode : ℤ)).bind fun coeff =>
        some ⟨s.mode + 1, Dbl.add s.evaluation
          (if s.mode = 1 then Dbl.mul (some coeff) etmp2
           else if p = 0 ∧ q = 1 then Dbl.mul (Dbl.mul (some coeff) etmp1) etmp2
           else Dbl.mul (Dbl.mul (Dbl.mul (some coeff) etmp0) etmp1) etmp2)⟩) st.2).map fun s => (st.1 + 1, s)) st)
    (0, ⟨0, some 0⟩)).map fun st => st.2.evaluation

/-- `Tetrahedron::loop_project_v`, tetrahedron.hpp:77-106. -/
def tetProject (n : ℕ) (value : K) (l0 l1 l2 : List (Dbl K)) : Option (List (ℕ × Dbl K)) :=
  (forLoop n (fun p (st : ℕ × PrSt K) =>
    (Mem.read l0 (p : ℤ)).bind fun etmp0 =>
    forLoop (n - p) (fun q (st : ℕ × PrSt K) =>
      (Mem.read l1 (st.1 : ℤ)).bind fun etmp1 =>
      (forLoop (n - p - q) (fun _ (s : PrSt K) =>
        (Mem.read l2 (s.mode : ℤ)).bind fun etmp2 =>
        let evaluation := if s.mode = 1 then Dbl.mul (some value) etmp2
          else if p = 0 ∧ q = 1 then Dbl.mul (Dbl.mul (some value) etmp1) etmp2
          else Dbl.mul (Dbl.mul (Dbl.mul (some value) etmp0) etmp1) etmp2
        some ⟨s.mode + 1, s.adds ++ [(s.mode, evaluation)]⟩) st.2).map fun s => (st.1 + 1, s)) st)
    (0, ⟨0, []⟩)).map fun st => st.2.adds

/-- `loop_evaluate` of the class of the shape, jacobi_expansion_looping_interface.hpp:144-151. -/
def loopEvaluate : Shape → ℕ → List K → List (Dbl K) → List (Dbl K) → List (Dbl K) → Option (Dbl K)
  | .tri, n, dofs, l0, l1, _ => triEvaluate n dofs l0 l1
  | .quad, n, dofs, l0, l1, _ => quadEvaluate n dofs l0 l1
  | .hex, n, dofs, l0, l1, l2 => hexEvaluate n dofs l0 l1 l2
  | .prism, n, dofs, l0, l1, l2 => prismEvaluate n dofs l0 l1 l2
  | .pyr, n, dofs, l0, l1, l2 => pyrEvaluate n dofs l0 l1 l2
  | .tet, n, dofs, l0, l1, l2 => tetEvaluate n dofs l0 l1 l2

/-- `loop_project` of the class of the shape, jacobi_expansion_looping_interface.hpp:179-185. -/
def loopProject : Shape → ℕ → K → List (Dbl K) → List (Dbl K) → List (Dbl K) → Option (List (ℕ × Dbl K))
  | .tri, n, v, l0, l1, _ => triProject n v l0 l1
  | .quad, n, v, l0, l1, _ => quadProject n v l0 l1
  | .hex, n, v, l0, l1, l2 => hexProject n v l0 l1 l2
  | .prism, n, v, l0, l1, l2 => prismProject n v l0 l1 l2
  | .pyr, n, v, l0, l1, l2 => pyrProject n v l0 l1 l2
  | .tet, n, v, l0, l1, l2 => tetProject n v l0 l1 l2

/-- `evaluate_basis_0`, `_1`, `_2` of the class of the shape (lines 21-46 of each of the shape headers): which kernel fills
which local space. The third kernel of the two dimensional shapes is empty. -/
def evaluateBasis (T : Tables K) (n : ℕ) : Shape → ℕ → K → List (Dbl K) → Option (List (Dbl K))
  | .tri, 0, z, buf => modA T n z buf
  | .tri, 1, z, buf => modB T n z buf
  | .quad, 0, z, buf => modA T n z buf
  | .quad, 1, z, buf => modA T n z buf
  | .hex, 0, z, buf => modA T n z buf
  | .hex, 1, z, buf => modA T n z buf
  | .hex, 2, z, buf => modA T n z buf
  | .prism, 0, z, buf => modA T n z buf
  | .prism, 1, z, buf => modA T n z buf
  | .prism, 2, z, buf => modB T n z buf
  | .pyr, 0, z, buf => modA T n z buf
  | .pyr, 1, z, buf => modA T n z buf
  | .pyr, 2, z, buf => modPyrC T n z buf
  | .tet, 0, z, buf => modA T n z buf
  | .tet, 1, z, buf => modB T n z buf
  | .tet, 2, z, buf => modC T n z buf
  | _, _, _, buf => some buf

/-- `loc_coord_to_loc_collapsed` of the class of the shape (lines 14-19 of each of the shape headers). The third
coordinate is not used for the two dimensional shapes. -/
def collapse [LinearOrder K] (tol : K) : Shape → K → K → K → K × K × K
  | .tri, x0, x1, x2 => ((CoordMap.triToCollapsed tol x0 x1).1, (CoordMap.triToCollapsed tol x0 x1).2, x2)
  | .quad, x0, x1, x2 => ((CoordMap.quadToCollapsed x0 x1).1, (CoordMap.quadToCollapsed x0 x1).2, x2)
  | .hex, x0, x1, x2 => CoordMap.hexToCollapsed x0 x1 x2
  | .prism, x0, x1, x2 => CoordMap.prismToCollapsed tol x0 x1 x2
  | .pyr, x0, x1, x2 => CoordMap.pyrToCollapsed tol x0 x1 x2
  | .tet, x0, x1, x2 => CoordMap.tetToCollapsed tol x0 x1 x2

/-- The least size of the local space of a direction, basis_evaluate_base.hpp:194-212: the maximum over the cells of the shape of
`GetTotNumModes()` of the basis in that direction (modified A, B, C or pyramid C, see `evaluateBasis`). -/
def spaceSize (shape : Shape) (n : ℕ) : ℕ → ℕ
  | 0 => totalNumModesBasis .modA n
  | 1 => match shape with
    | .tri | .tet => totalNumModesBasis .modB n
    | _ => totalNumModesBasis .modA n
  | _ => match shape with
    | .tri | .quad => 0
    | .hex => totalNumModesBasis .modA n
    | .prism => totalNumModesBasis .modB n
    | .pyr => totalNumModesBasis .modPyrC n
    | .tet => totalNumModesBasis .modC n

/-- `prepare_per_dim_basis`, basis_evaluate_base.hpp:57-80. The three regions of the local memory are modelled as three
buffers (so that writing past the end of a region counts as outside of the buffer). -/
def prepareBasis [LinearOrder K] (tol : K) (T : Tables K) (shape : Shape) (n : ℕ) (xi : K × K × K)
    (s0 s1 s2 : List (Dbl K)) : Option (List (Dbl K) × List (Dbl K) × List (Dbl K)) :=
  let eta := collapse tol shape xi.1 xi.2.1 xi.2.2
  (evaluateBasis T n shape 0 eta.1 s0).bind fun l0 =>
  (evaluateBasis T n shape 1 eta.2.1 s1).bind fun l1 =>
  (evaluateBasis T n shape 2 eta.2.2 s2).bind fun l2 => some (l0, l1, l2)

/-- The kernel of one particle of `FunctionEvaluateBasis`, function_basis_evaluation.hpp:101-120. -/
def evaluateParticle [LinearOrder K] (tol : K) (T : Tables K) (shape : Shape) (n : ℕ) (xi : K × K × K)
    (s0 s1 s2 : List (Dbl K)) (dofs : List K) : Option (Dbl K) :=
  (prepareBasis tol T shape n xi s0 s1 s2).bind fun l => loopEvaluate shape n dofs l.1 l.2.1 l.2.2

/-- The kernel of one particle of `FunctionProjectBasis`, function_basis_projection.hpp:98-115: the atomic
additions to the degrees of freedom of its cell. -/
def projectParticle [LinearOrder K] (tol : K) (T : Tables K) (shape : Shape) (n : ℕ) (xi : K × K × K)
    (s0 s1 s2 : List (Dbl K)) (value : K) : Option (List (ℕ × Dbl K)) :=
  (prepareBasis tol T shape n xi s0 s1 s2).bind fun l => loopProject shape n value l.1 l.2.1 l.2.2

/-- `coeff_atomic_ref.fetch_add(evaluation)` for a sequence of additions. As in quadrilateral.hpp:90-115. -/
def applyAdds (dofs : List (Dbl K)) : List (ℕ × Dbl K) → Option (List (Dbl K))
  | [] => some dofs
  | (m, v) :: rest =>
    (Mem.read dofs (m : ℤ)).bind fun old =>
    (Mem.write dofs (m : ℤ) (Dbl.add old v)).bind fun dofs => applyAdds dofs rest

/-- `eval_modes`, basis_reference.cpp:362-459: `b[mode] = ...; mode++` appends, `mode` is the number of values so far. -/
def evalModes (shape : Shape) (P : ℕ) (eta0 eta1 eta2 : K) : List K :=
  match shape with
  | .tri => loop P (fun px b => loop (P - px) (fun qx b =>
      let etmp0 := if b.length = 1 then 1 else evalModA px eta0
      b ++ [etmp0 * evalModB px qx eta1]) b) []
  | .quad => loop P (fun my b => loop P (fun mx b => b ++ [evalModA mx eta0 * evalModA my eta1]) b) []
  | .hex => loop P (fun mz b => loop P (fun my b => loop P (fun mx b =>
      b ++ [evalModA mx eta0 * evalModA my eta1 * evalModA mz eta2]) b) b) []
  | .pyr => loop P (fun p b => loop P (fun q b => loop (P - max p q) (fun r b =>
      b ++ [if b.length = 1 then evalModPyrC p q r eta2
            else evalModA p eta0 * evalModA q eta1 * evalModPyrC p q r eta2]) b) b) []
  | .prism => loop P (fun p b => loop P (fun q b => loop (P - p) (fun r b =>
      b ++ [if p = 0 ∧ r = 1 then evalModA q eta1 * evalModB p r eta2
            else evalModA p eta0 * evalModA q eta1 * evalModB p r eta2]) b) b) []
  | .tet => loop P (fun p b => loop (P - p) (fun q b => loop (P - p - q) (fun r b =>
      b ++ [if b.length = 1 then evalModC p q r eta2
            else if p = 0 ∧ q = 1 then evalModB p q eta1 * evalModC p q r eta2
            else evalModA p eta0 * evalModB p q eta1 * evalModC p q r eta2]) b) b) []

end Verif.Model.ExpansionLooping
