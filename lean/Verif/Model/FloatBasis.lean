import Verif.Model.ExpansionLooping
import Verif.Model.BasisEvaluateBase
import Verif.Model.FloatKernels

/-!
Model in floating point arithmetic of src/nektar_interface/expansion_looping/jacobi_coeff_mod_basis.cpp and of `mod_A` of
include/nektar_interface/basis_evaluation.hpp.

Real numbers with a rounding function applied to the result of each operation; overflow is not modelled. As in Model/JacobiCoeff.lean a `double`
that may be not finite (a division by zero) is an `Option`, with `none` for a value that is not finite.
-/

namespace Verif.Model.FloatBasis
open Verif.Model Verif.Model.FloatKernels Verif.Model.JacobiCoeff Verif.Model.BasisReference

variable (rnd : ℝ → ℝ)

/-! ### The tables -/

/-- `c`, jacobi_coeff_mod_basis.cpp:26-28. The integers `nx + alphax` and `nx + beta` are converted to `double`. -/
noncomputable def cF (alphax nx : ℕ) : ℝ := rnd (rnd (nx + alphax : ℕ) + rnd (nx + 1 : ℕ))

/-- `c_pn`, jacobi_coeff_mod_basis.cpp:31. -/
noncomputable def cPnF (alphax nx : ℕ) : ℝ :=
  rnd (rnd (rnd (2 * rnd nx) * rnd (cF rnd alphax nx - rnd nx)) * rnd (cF rnd alphax nx - 2))

/-- `c_pnm10`, jacobi_coeff_mod_basis.cpp:32. -/
noncomputable def cPnm10F (alphax nx : ℕ) : ℝ :=
  rnd (rnd (rnd (cF rnd alphax nx - 1) * cF rnd alphax nx) * rnd (cF rnd alphax nx - 2))

/-- `c_pnm11`, jacobi_coeff_mod_basis.cpp:33; `c - 2 * n` may be contracted. -/
noncomputable def cPnm11F (contract : Bool) (alphax nx : ℕ) : ℝ :=
  rnd (rnd (rnd (cF rnd alphax nx - 1) * rnd (rnd (nx + alphax : ℕ) - rnd (nx + 1 : ℕ))) * mulAdd rnd contract (-2) (rnd nx) (cF rnd alphax nx))

/-- `c_pnm2`, jacobi_coeff_mod_basis.cpp:34. -/
noncomputable def cPnm2F (alphax nx : ℕ) : ℝ :=
  rnd (rnd (rnd (-2 * rnd (rnd (nx + alphax : ℕ) - 1)) * rnd (rnd (nx + 1 : ℕ) - 1)) * cF rnd alphax nx)

/-- `ic_pn * x`, jacobi_coeff_mod_basis.cpp:35-39: not finite when `c_pn` is zero. -/
noncomputable def entryF (alphax nx : ℕ) (x : ℝ) : Dbl ℝ :=
  if cPnF rnd alphax nx = 0 then none else some (rnd (rnd (1 / cPnF rnd alphax nx) * x))

/-- The constructor, jacobi_coeff_mod_basis.cpp:16-42. -/
noncomputable def mkF (contract : Bool) (maxN maxAlpha : ℕ) : Tables ℝ where
  maxN := maxN
  maxAlpha := maxAlpha
  strideN := maxN + 1
  pnm10 := pushTable (fun alphax nx => entryF rnd alphax nx (cPnm10F rnd alphax nx)) maxN maxAlpha
  pnm11 := pushTable (fun alphax nx => entryF rnd alphax nx (cPnm11F rnd contract alphax nx)) maxN maxAlpha
  pnm2 := pushTable (fun alphax nx => entryF rnd alphax nx (cPnm2F rnd alphax nx)) maxN maxAlpha

/-- The tables of the cells of a mesh, basis_evaluate_base.hpp:251. -/
noncomputable def tablesF (contract : Bool) (cells : List (Shape × ℕ)) : Tables ℝ :=
  mkF rnd contract (BasisEvaluateBase.tableDims cells).1.toNat (BasisEvaluateBase.tableDims cells).2.toNat

/-! ### The recursion -/

/-- Which of the two products of a sum `a * b + c * d` is contracted with the addition. No code: choice of the compiler for
basis_evaluation.hpp:169. -/
inductive Fuse where
  | neither | left | right
deriving DecidableEq, Repr

/-- The choices for the two additions of `c_pnm10 * pnm1 * z + c_pnm11 * pnm1 + c_pnm2 * pnm2`. No code: choice of the compiler for
basis_evaluation.hpp:169. -/
structure Choice where
  inner : Fuse
  outer : Bool

/-- `pn = c_pnm10 * pnm1 * z + c_pnm11 * pnm1 + c_pnm2 * pnm2`, jacobi_coeff_mod_basis.cpp:74 and basis_evaluation.hpp:169. -/
noncomputable def pnF (ch : Choice) (c10 c11 c2 z pnm1 pnm2 : ℝ) : ℝ :=
  let s := match ch.inner with
    | .neither => rnd (rnd (rnd (c10 * pnm1) * z) + rnd (c11 * pnm1))
    | .left => rnd (rnd (c10 * pnm1) * z + rnd (c11 * pnm1))
    | .right => rnd (rnd (rnd (c10 * pnm1) * z) + c11 * pnm1)
  mulAdd rnd ch.outer c2 pnm2 s

/-- One pass of the recursion with the entries at `stride_n * alpha + nx`, jacobi_coeff_mod_basis.cpp:71-74 and basis_evaluation.hpp:165-169.
The outcome `none` is an access outside of the tables, the outcome `some none` a value that is not finite. -/
noncomputable def recStepF (ch : Choice) (T : Tables ℝ) (alpha nx : ℕ) (z : ℝ) (pnm1 pnm2 : Dbl ℝ) : Option (Dbl ℝ) :=
  (Mem.read T.pnm10 (T.strideN * alpha + nx)).bind fun c10 =>
  (Mem.read T.pnm11 (T.strideN * alpha + nx)).bind fun c11 =>
  (Mem.read T.pnm2 (T.strideN * alpha + nx)).bind fun c2 =>
    some (c10.bind fun c10 => c11.bind fun c11 => c2.bind fun c2 => pnm1.bind fun pnm1 => pnm2.map fun pnm2 => pnF rnd ch c10 c11 c2 z pnm1 pnm2)

/-! ### host_evaluate -/

/-- `0.5 * (2 * (alpha + 1) + (alpha + beta + 2) * (z - 1.0))`, jacobi_coeff_mod_basis.cpp:65. The integers are converted to `double`. -/
noncomputable def start1F (contract : Bool) (z : ℝ) (alpha : ℕ) : ℝ :=
  rnd (1 / 2 * mulAdd rnd contract (rnd (alpha + 1 + 2 : ℕ)) (rnd (z - 1)) (rnd (2 * (alpha + 1) : ℕ)))

/-- The loop of jacobi_coeff_mod_basis.cpp:70-77 after `k` passes (pass `k` has `nx = k + 2`); the state is `(pnm1, pnm2)`. -/
noncomputable def hostLoopF (ch : Choice) (contract : Bool) (T : Tables ℝ) (alpha : ℕ) (z : ℝ) (k : ℕ) : Option (Dbl ℝ × Dbl ℝ) :=
  forLoop k (fun i s => (recStepF rnd ch T alpha (i + 2) z s.1 s.2).bind fun pn => some (pn, s.1))
    (some (start1F rnd contract z alpha), some 1)

/-- `host_evaluate(n, alpha, z)`, jacobi_coeff_mod_basis.cpp:52-80. -/
noncomputable def hostEvaluateF (ch : Choice) (contract : Bool) (T : Tables ℝ) (n alpha : ℤ) (z : ℝ) : Except Fail ℝ :=
  if 0 ≤ n ∧ n ≤ T.maxN then
    if 0 ≤ alpha ∧ alpha ≤ T.maxAlpha then
      if n = 0 then .ok 1
      else if n = 1 then .ok (start1F rnd contract z alpha.toNat)
      else match hostLoopF rnd ch contract T alpha.toNat z (n.toNat - 1) with
        | none => .error .undefinedBehaviour
        | some (none, _) => .error .notFinite
        | some (some pn, _) => .ok pn
    else .error .assertion
  else .error .assertion

/-! ### mod_A -/

/-- `b0`, basis_evaluation.hpp:151. -/
noncomputable def b0F (z : ℝ) : ℝ := rnd (1 / 2 * rnd (1 - z))

/-- `b1`, basis_evaluation.hpp:152. -/
noncomputable def b1F (z : ℝ) : ℝ := rnd (1 / 2 * rnd (1 + z))

/-- `2.0 + 2.0 * (z - 1.0)`, basis_evaluation.hpp:157. -/
noncomputable def startAF (contract : Bool) (z : ℝ) : ℝ := mulAdd rnd contract 2 (rnd (z - 1)) 2

/-- State of the loop of `mod_A`. The variables of basis_evaluation.hpp:147-172. -/
structure AStF where
  buf : List (Dbl ℝ)
  pnm1 : Dbl ℝ
  pnm2 : Dbl ℝ

/-- `mod_A(nummodes, z, ..., output)`, basis_evaluation.hpp:147-174. Slots 0 and 1 are written whatever `nummodes` is. -/
noncomputable def modAF (ch : Choice) (contract : Bool) (T : Tables ℝ) (nummodes : ℕ) (z : ℝ) (buf : List (Dbl ℝ)) : Option (List (Dbl ℝ)) :=
  (Mem.write buf 0 (some (b0F rnd z))).bind fun buf =>
  (Mem.write buf 1 (some (b1F rnd z))).bind fun buf =>
  (if nummodes > 2 then Mem.write buf 2 (some (rnd (b0F rnd z * b1F rnd z))) else some buf).bind fun buf =>
  (if nummodes > 3 then Mem.write buf 3 (some (rnd (rnd (b0F rnd z * b1F rnd z) * startAF rnd contract z))) else some buf).bind fun buf =>
  (forLoop (nummodes - 4) (fun i (s : AStF) =>
      let modex := i + 4
      (recStepF rnd ch T 1 (modex - 2) z s.pnm1 s.pnm2).bind fun pn =>
      (Mem.write s.buf (modex : ℕ) (pn.map fun pn => rnd (rnd (b0F rnd z * b1F rnd z) * pn))).map fun buf => ⟨buf, pn, s.pnm1⟩)
    ⟨buf, some (startAF rnd contract z), some 1⟩).map fun s => s.buf

end Verif.Model.FloatBasis
