import Verif.Model.FloatKernels
import Verif.Model.Loop

/-!
Model of include/nektar_interface/bary_interpolation/bary_evaluation.hpp in floating point arithmetic: each operation is followed by a rounding `rnd`.
Comparisons are exact. Overflow, infinities and NaN are not modelled, except that `none` is a division by a denominator that is zero. The arrays are
functions of the index; accesses are those of `Verif.Model.Bary`, where they are checked.
-/

namespace Verif.Model.FloatBary
open Verif.Model Verif.Model.FloatKernels

/-- `bw_over_diff`, bary_evaluation.hpp:40-41. -/
noncomputable def overDiff (rnd : ℝ → ℝ) (z bw : ℕ → ℝ) (coord : ℝ) (ix : ℕ) : ℝ := rnd (bw ix / rnd (z ix - coord))

/-- The sum `denom`, bary_evaluation.hpp:38-44. -/
noncomputable def denomF (rnd : ℝ → ℝ) (n : ℕ) (z bw : ℕ → ℝ) (coord : ℝ) : ℝ := loop n (fun ix denom => rnd (denom + overDiff rnd z bw coord ix)) 0

open Classical in
/-- `preprocess_weights`, bary_evaluation.hpp:24-49: `div_values`. The search of lines 31-37 ends at the first point with `xdiff == 0.0`. -/
noncomputable def weightsF (rnd : ℝ → ℝ) (n : ℕ) (z bw : ℕ → ℝ) (coord : ℝ) : Option (ℕ → ℝ) :=
  match (List.range n).find? fun ix => decide (rnd (z ix - coord) = 0) with
  | some j => some fun ix => if ix = j then 1 else 0
  | none =>
    let denom := denomF rnd n z bw coord
    if denom = 0 then none else
    let factor := rnd (1 / denom)
    some fun ix => rnd (overDiff rnd z bw coord ix * factor)

/-- `compute_dir_0`, bary_evaluation.hpp:125-136. -/
noncomputable def dir0F (rnd : ℝ → ℝ) (contract : Bool) (n : ℕ) (phys d0 : ℕ → ℝ) : ℝ :=
  loop n (fun ix numer => mulAdd rnd contract (d0 ix) (phys ix) numer) 0

/-- The factors of a product that is added to the result: `compute_dir_10` and `compute_dir_210` multiply from left to right (bary_evaluation.hpp:158,
269-270), the interlaced versions multiply the weights first (194-196, 234-236, 313-315, 364-366). -/
noncomputable def factors (rnd : ℝ → ℝ) (interlaced : Bool) (p d0 c1 : ℝ) : ℝ × ℝ :=
  if interlaced then (p, rnd (d0 * c1)) else (rnd (p * d0), c1)

/-- `compute_dir_10`, bary_evaluation.hpp:149-162, and one function of `compute_dir_10_interlaced`, 179-203 and 222-240. -/
noncomputable def dir10F (rnd : ℝ → ℝ) (contract interlaced : Bool) (n0 n1 : ℕ) (phys d0 d1 : ℕ → ℝ) : ℝ :=
  loop n1 (fun i1 pval1 => loop n0 (fun i0 pval1 =>
    let f := factors rnd interlaced (phys (i1 * n0 + i0)) (d0 i0) (d1 i1)
    mulAdd rnd contract f.1 f.2 pval1) pval1) 0

/-- `compute_dir_210`, bary_evaluation.hpp:255-275, and one function of `compute_dir_210_interlaced`, 296-323 and 345-373. -/
noncomputable def dir210F (rnd : ℝ → ℝ) (contract interlaced : Bool) (n0 n1 n2 : ℕ) (phys d0 d1 d2 : ℕ → ℝ) : ℝ :=
  loop n2 (fun i2 pval2 => loop n1 (fun i1 pval2 =>
    let c1 := rnd (d2 i2 * d1 i1)
    loop n0 (fun i0 pval2 =>
      let f := factors rnd interlaced (phys (i2 * (n0 * n1) + i1 * n0 + i0)) (d0 i0) c1
      mulAdd rnd contract f.1 f.2 pval2) pval2) pval2) 0

/-- The evaluation of a function at a point of one dimension: `preprocess_weights` and `compute_dir_0`, bary_evaluation.hpp:24-49 and 125-136. -/
noncomputable def evaluate1 (rnd : ℝ → ℝ) (contract : Bool) (n : ℕ) (z bw phys : ℕ → ℝ) (x : ℝ) : Option ℝ :=
  (weightsF rnd n z bw x).map fun d => dir0F rnd contract n phys d

/-- `evaluate_2d`, bary_evaluation.hpp:459-478, and with `interlaced` the evaluation of one of several functions, function_bary_evaluation.hpp:56-120. -/
noncomputable def evaluate2 (rnd : ℝ → ℝ) (contract interlaced : Bool) (n0 n1 : ℕ) (z0 bw0 z1 bw1 phys : ℕ → ℝ) (x y : ℝ) : Option ℝ :=
  (weightsF rnd n0 z0 bw0 x).bind fun d0 => (weightsF rnd n1 z1 bw1 y).map fun d1 => dir10F rnd contract interlaced n0 n1 phys d0 d1

/-- `evaluate_3d`, bary_evaluation.hpp:501-523, and with `interlaced` the evaluation of one of several functions, function_bary_evaluation.hpp:123-195. -/
noncomputable def evaluate3 (rnd : ℝ → ℝ) (contract interlaced : Bool) (n0 n1 n2 : ℕ) (z0 bw0 z1 bw1 z2 bw2 phys : ℕ → ℝ) (x y w : ℝ) : Option ℝ :=
  (weightsF rnd n0 z0 bw0 x).bind fun d0 => (weightsF rnd n1 z1 bw1 y).bind fun d1 => (weightsF rnd n2 z2 bw2 w).map fun d2 =>
    dir210F rnd contract interlaced n0 n1 n2 phys d0 d1 d2

end Verif.Model.FloatBary
