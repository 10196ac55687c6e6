import Verif.Model.FloatBasis

/-!
Model in floating point arithmetic of the maps to collapsed coordinates of include/nektar_interface/coordinate_mapping.hpp and of `mod_B`, `mod_C` and `mod_PyrC` of
include/nektar_interface/basis_evaluation.hpp, for all shapes of elements. As in Model/FloatBasis.lean: real numbers with a rounding function applied to the result
of each operation, overflow is not modelled, `none` is a value that is not finite or not initialised.
-/

namespace Verif.Model.FloatShapes
open Verif.Model Verif.Model.FloatKernels Verif.Model.FloatBasis Verif.Model.JacobiCoeff Verif.Model.BasisReference Verif.Model.BasisEvaluation

variable (rnd : ℝ → ℝ)

/-! ### Collapsed coordinates -/

/-- `2.0 * (1.0 + x) / d - 1.0`, coordinate_mapping.hpp:190-191, 247-248, 304 and 433. -/
noncomputable def ratioF (x d : ℝ) : ℝ := rnd (rnd (rnd (2 * rnd (1 + x)) / d) - 1)

/-- `d2 = 1.0 - xi2` and the guard against division by zero, coordinate_mapping.hpp:174-182, 238-245, 294-301 and 426-432. Comparisons and the assignment
of a constant are exact. -/
noncomputable def oneMinusF (tol x : ℝ) : ℝ := CoordMap.zeroGuard tol (rnd (1 - x))

/-- `d12 = -xi1 - xi2` and the guard, coordinate_mapping.hpp:175 and 183-189. -/
noncomputable def minusSumF (tol x1 x2 : ℝ) : ℝ := CoordMap.zeroGuard tol (rnd (-x1 - x2))

/-- `loc_coord_to_loc_collapsed` of the class of the shape, coordinate_mapping.hpp:170-193, 234-249, 290-305, 331-435. The third coordinate is not used for the
two dimensional shapes. -/
noncomputable def collapseF (tol : ℝ) : Shape → ℝ → ℝ → ℝ → ℝ × ℝ × ℝ
  | .tri, x0, x1, x2 => (ratioF rnd x0 (oneMinusF rnd tol x1), x1, x2)
  | .quad, x0, x1, x2 => (x0, x1, x2)
  | .hex, x0, x1, x2 => (x0, x1, x2)
  | .prism, x0, x1, x2 => (ratioF rnd x0 (oneMinusF rnd tol x2), x1, x2)
  | .pyr, x0, x1, x2 => (ratioF rnd x0 (oneMinusF rnd tol x2), ratioF rnd x1 (oneMinusF rnd tol x2), x2)
  | .tet, x0, x1, x2 => (ratioF rnd x0 (minusSumF rnd tol x1 x2), ratioF rnd x1 (oneMinusF rnd tol x2), x2)

/-! ### The kernels of the collapsed directions -/

/-- A product of two `double` that may be not finite. basis_evaluation.hpp:70, 100-115, 212, 246-261, 330-363. -/
noncomputable def mulF (x y : Dbl ℝ) : Dbl ℝ := x.bind fun a => y.map fun b => rnd (a * b)

/-- `1.0 / b0`, basis_evaluation.hpp:67 and 207: not finite when `b0` is zero. -/
noncomputable def invF (x : ℝ) : Dbl ℝ := if x = 0 then none else some (rnd (1 / x))

/-- `0.5 * (2.0 * (alpha + 1) + (alpha + 3) * (z - 1.0))`, basis_evaluation.hpp:104, 250 and 371. The integers are converted to `double`. The second product may be
contracted with the addition; to contract the first makes no difference when it is exact. -/
noncomputable def startBF (contract : Bool) (z : ℝ) (alpha : ℕ) : ℝ :=
  rnd (1 / 2 * mulAdd rnd contract (rnd (alpha + 3 : ℕ)) (rnd (z - 1)) (rnd (2 * rnd (alpha + 1 : ℕ))))

/-- The body of the innermost loops of `mod_B` (basis_evaluation.hpp:72-120, `bpow` is `b1_pow`) and of `mod_C` (lines 218-267, `bpow` is `inner_b1_pow`, `px = p + q`,
`qx = r`); the two texts are the same. The contractions of the recursion may differ between the branches for `px` zero and not. -/
noncomputable def rowBodyF (ch : Bool → Choice) (contract : Bool) (T : Tables ℝ) (z : ℝ) (bpow : Dbl ℝ) (px qx : ℕ) (s : RowSt ℝ) : Option (RowSt ℝ) :=
  if px = 0 then
    if qx = 0 then put s (some (b0F rnd z)) s.pnm1 s.pnm2
    else if qx = 1 then put s (some (b1F rnd z)) s.pnm1 s.pnm2
    else if qx = 2 then put s (some (rnd (b0F rnd z * b1F rnd z))) s.pnm1 (some 1)
    else if qx = 3 then put s (some (rnd (rnd (b0F rnd z * b1F rnd z) * startAF rnd contract z))) (some (startAF rnd contract z)) s.pnm2
    else (recStepF rnd (ch false) T 1 (qx - 2) z s.pnm1 s.pnm2).bind fun pn =>
      put s (mulF rnd (mulF rnd pn (some (b0F rnd z))) (some (b1F rnd z))) pn s.pnm1
  else if qx = 0 then put s bpow s.pnm1 s.pnm2
  else
    let alpha := 2 * px - 1
    if qx = 1 then put s (mulF rnd bpow (some (b1F rnd z))) s.pnm1 (some 1)
    else if qx = 2 then
      put s (mulF rnd (mulF rnd bpow (some (b1F rnd z))) (some (startBF rnd contract z alpha))) (some (startBF rnd contract z alpha)) s.pnm2
    else (recStepF rnd (ch true) T alpha (qx - 1) z s.pnm1 s.pnm2).bind fun pn =>
      put s (mulF rnd (mulF rnd bpow (some (b1F rnd z))) pn) pn s.pnm1

/-- The innermost loop with `pn, pnm1, pnm2` declared without initialiser before it, basis_evaluation.hpp:69-120 and 216-267. -/
noncomputable def rowLoopF (ch : Bool → Choice) (contract : Bool) (T : Tables ℝ) (z : ℝ) (bpow : Dbl ℝ) (px len mode : ℕ) (buf : List (Dbl ℝ)) :
    Option (ℕ × List (Dbl ℝ)) :=
  (forLoop len (rowBodyF rnd ch contract T z bpow px) ⟨mode, buf, none, none⟩).map fun s => (s.mode, s.buf)

/-- `mod_B(nummodes, z, ..., output)`, basis_evaluation.hpp:60-122. -/
noncomputable def modBF (ch : Bool → Choice) (contract : Bool) (T : Tables ℝ) (nummodes : ℕ) (z : ℝ) (buf : List (Dbl ℝ)) : Option (List (Dbl ℝ)) :=
  (forLoop nummodes (fun px (s : PowSt ℝ) =>
      let b1pow := mulF rnd s.pow (some (b0F rnd z))
      (rowLoopF rnd ch contract T z b1pow px (nummodes - px) s.mode s.buf).map fun r => ⟨r.1, r.2, b1pow⟩)
    ⟨0, buf, invF rnd (b0F rnd z)⟩).map fun s => s.buf

/-- `mod_C(nummodes, z, ..., output)`, basis_evaluation.hpp:199-271. -/
noncomputable def modCF (ch : Bool → Choice) (contract : Bool) (T : Tables ℝ) (nummodes : ℕ) (z : ℝ) (buf : List (Dbl ℝ)) : Option (List (Dbl ℝ)) :=
  (forLoop nummodes (fun p (s : PowSt ℝ) =>
      let outer := mulF rnd s.pow (some (b0F rnd z))
      (forLoop (nummodes - p) (fun q (t : PowSt ℝ) =>
          (rowLoopF rnd ch contract T z t.pow (p + q) (nummodes - p - q) t.mode t.buf).map fun r =>
            ⟨r.1, r.2, mulF rnd t.pow (some (b0F rnd z))⟩)
        ⟨s.mode, s.buf, outer⟩).map fun t => ⟨t.mode, t.buf, outer⟩)
    ⟨0, buf, invF rnd (b0F rnd z)⟩).map fun s => s.buf

/-- The body of the innermost loop of `mod_PyrC`, basis_evaluation.hpp:361-384, with `r = i + 1`. -/
noncomputable def pyrBodyF (ch : Choice) (contract : Bool) (T : Tables ℝ) (z : ℝ) (rInner : Dbl ℝ) (alpha i : ℕ) (s : RowSt ℝ) : Option (RowSt ℝ) :=
  let r := i + 1
  let coef := mulF rnd rInner (some (b1F rnd z))
  if r = 1 then put s coef s.pnm1 (some 1)
  else if r = 2 then put s (mulF rnd (some (startBF rnd contract z alpha)) coef) (some (startBF rnd contract z alpha)) s.pnm2
  else (recStepF rnd ch T alpha (r - 1) z s.pnm1 s.pnm2).bind fun pn =>
    put s (mulF rnd pn coef) pn s.pnm1

/-- The body of the loop over `q` of `mod_PyrC`, basis_evaluation.hpp:342-385, with `q = j + 2`. -/
noncomputable def pyrQF (ch : Choice) (contract : Bool) (T : Tables ℝ) (nummodes : ℕ) (z : ℝ) (p j : ℕ) (s : PowSt ℝ) : Option (PowSt ℝ) :=
  let q := j + 2
  let rInner := mulF rnd s.pow (some (b0F rnd z))
  (Mem.write s.buf (s.mode : ℤ) rInner).bind fun buf =>
  (forLoop (nummodes - max p q - 1) (pyrBodyF rnd ch contract T z rInner (2 * p + 2 * q - 3)) ⟨s.mode + 1, buf, none, none⟩).map
    fun t => ⟨t.mode, t.buf, rInner⟩

/-- The body of the loop over `p` of `mod_PyrC`, basis_evaluation.hpp:329-386, with `p = i + 2`. -/
noncomputable def pyrPF (ch : Choice) (contract : Bool) (T : Tables ℝ) (nummodes : ℕ) (z : ℝ) (i : ℕ) (s : PyrSt ℝ) : Option (PyrSt ℝ) :=
  let p := i + 2
  let r0pow := mulF rnd s.pow (some (b0F rnd z))
  let ltmp := nummodes - p
  (copyTwice ltmp s.base s.out s.buf).bind fun buf =>
  (forLoop (nummodes - 2) (pyrQF rnd ch contract T nummodes z p) ⟨s.out + 2 * ltmp, buf, r0pow⟩).map fun t =>
    ⟨t.mode, t.buf, s.base + ltmp, r0pow⟩

/-- `mod_PyrC(nummodes, z, ..., output)`, basis_evaluation.hpp:296-387, for `nummodes ≥ 1`. -/
noncomputable def modPyrCF (ch : Bool → Choice) (chP : Choice) (contract : Bool) (T : Tables ℝ) (nummodes : ℕ) (z : ℝ) (buf : List (Dbl ℝ)) : Option (List (Dbl ℝ)) :=
  let base := nummodes
  (modBF rnd ch contract T nummodes z buf).bind fun buf =>
  let out := nummodes * (nummodes + 1) / 2
  (copyLoop (nummodes - 1) base out buf).bind fun buf =>
  let out := out + (nummodes - 1)
  let ltmp := (nummodes - 1) * nummodes / 2
  (copyLoop ltmp base out buf).bind fun buf =>
  let base := base + (nummodes - 1)
  let out := out + ltmp
  (forLoop (nummodes - 2) (pyrPF rnd chP contract T nummodes z) ⟨out, buf, base, some 1⟩).map fun s => s.buf

/-! ### All shapes -/

/-- How the kernels are compiled. No code: the contractions of the constructor of the tables (jacobi_coeff_mod_basis.cpp:33), of the start values, and of the recursion in
`mod_A`, in the two branches of `mod_B` and `mod_C` and in `mod_PyrC` (basis_evaluation.hpp:104, 169, 371). -/
structure Build where
  table : Bool
  start : Bool
  chA : Choice
  chB : Bool → Choice
  chP : Choice

/-- `evaluate_basis_0`, `_1`, `_2` of the class of the shape (lines 21-46 of each of the shape headers): which kernel fills which local space. -/
noncomputable def evaluateBasisF (o : Build) (T : Tables ℝ) (n : ℕ) : Shape → ℕ → ℝ → List (Dbl ℝ) → Option (List (Dbl ℝ))
  | .tri, 0, z, buf => modAF rnd o.chA o.start T n z buf
  | .tri, 1, z, buf => modBF rnd o.chB o.start T n z buf
  | .quad, 0, z, buf => modAF rnd o.chA o.start T n z buf
  | .quad, 1, z, buf => modAF rnd o.chA o.start T n z buf
  | .hex, 0, z, buf => modAF rnd o.chA o.start T n z buf
  | .hex, 1, z, buf => modAF rnd o.chA o.start T n z buf
  | .hex, 2, z, buf => modAF rnd o.chA o.start T n z buf
  | .prism, 0, z, buf => modAF rnd o.chA o.start T n z buf
  | .prism, 1, z, buf => modAF rnd o.chA o.start T n z buf
  | .prism, 2, z, buf => modBF rnd o.chB o.start T n z buf
  | .pyr, 0, z, buf => modAF rnd o.chA o.start T n z buf
  | .pyr, 1, z, buf => modAF rnd o.chA o.start T n z buf
  | .pyr, 2, z, buf => modPyrCF rnd o.chB o.chP o.start T n z buf
  | .tet, 0, z, buf => modAF rnd o.chA o.start T n z buf
  | .tet, 1, z, buf => modBF rnd o.chB o.start T n z buf
  | .tet, 2, z, buf => modCF rnd o.chB o.start T n z buf
  | _, _, _, buf => some buf

/-- `prepare_per_dim_basis`, basis_evaluate_base.hpp:57-80. -/
noncomputable def prepareBasisF (o : Build) (tol : ℝ) (T : Tables ℝ) (shape : Shape) (n : ℕ) (xi : ℝ × ℝ × ℝ) (s0 s1 s2 : List (Dbl ℝ)) :
    Option (List (Dbl ℝ) × List (Dbl ℝ) × List (Dbl ℝ)) :=
  let eta := collapseF rnd tol shape xi.1 xi.2.1 xi.2.2
  (evaluateBasisF rnd o T n shape 0 eta.1 s0).bind fun l0 =>
  (evaluateBasisF rnd o T n shape 1 eta.2.1 s1).bind fun l1 =>
  (evaluateBasisF rnd o T n shape 2 eta.2.2 s2).bind fun l2 => some (l0, l1, l2)

end Verif.Model.FloatShapes
