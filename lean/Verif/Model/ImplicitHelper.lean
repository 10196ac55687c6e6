import Mathlib.Analysis.Real.Sqrt

/-!
Model of `/repo/include/solvers/helpers/implicit_helper.hpp`. Arrays are functions on indices together with
the sizes `nFields`, `nPts`. Values are real numbers.
-/

namespace Verif.Model.ImplicitHelper

/-- `Vmath::Vcopy(n, src, 1, dst + off, 1)`. implicit_helper.hpp:54, 63. -/
def vcopyTo (n : ℕ) (src : ℕ → ℝ) (off : ℕ) (dst : ℕ → ℝ) : ℕ → ℝ :=
  fun i => if off ≤ i ∧ i < off + n then src (i - off) else dst i

/-- The flattening loop of `implicit_time_int`, lines 49-55; `junk` is the initial content of the
array. -/
def flatten (nFields nPts : ℕ) (inPts : ℕ → ℕ → ℝ) (junk : ℕ → ℝ) : ℕ → ℝ :=
  (List.range nFields).foldl (fun acc f => vcopyTo nPts (inPts f) (f * nPts) acc) junk

/-- The loop writing the result to the output arrays, lines 60-64. `out0` is the
previous content of the output. -/
def unflatten (nFields nPts : ℕ) (flat : ℕ → ℝ) (out0 : ℕ → ℕ → ℝ) : ℕ → ℕ → ℝ :=
  (List.range nFields).foldl
    (fun acc f => fun g => if g = f then vcopyTo nPts (fun i => flat (f * nPts + i)) 0 (acc g) else acc g) out0

/-- `implicit_time_int`, lines 37-65, with the external nonlinear solver as a parameter. -/
def implicitTimeInt (nFields nPts : ℕ) (solve : (ℕ → ℝ) → (ℕ → ℝ)) (inPts : ℕ → ℕ → ℝ) (junk : ℕ → ℝ)
    (out0 : ℕ → ℕ → ℝ) : ℕ → ℕ → ℝ :=
  unflatten nFields nPts (solve (flatten nFields nPts inPts junk)) out0

/-- `non_lin_sys_evaluator_1D`, lines 178-192: the field views of a flattened array. -/
def views (nPts : ℕ) (flat : ℕ → ℝ) : ℕ → ℕ → ℝ := fun f i => flat (f * nPts + i)

/-- `non_lin_sys_evaluator`, lines 197-220, for the external operators `proj` (`DoProjection`) and `rhs`
(`DoOdeRhs`); `src` is `GetRefSourceVec()`. `Svtvp` computes `a*x + y`, `Vsub` is `x - y`. -/
def evaluator (nPts : ℕ) (proj rhs : (ℕ → ℕ → ℝ) → (ℕ → ℕ → ℝ)) (lambda : ℝ) (src : ℕ → ℝ)
    (inArr : ℕ → ℕ → ℝ) : ℕ → ℕ → ℝ :=
  let out := rhs (proj inArr)
  let out := fun f i => -lambda * out f i + inArr f i
  fun f i => out f i - src (f * nPts + i)

/-- `non_lin_sys_evaluator_1D`, lines 178-192: the result as a flattened array. The output views point
into the flattened output. -/
def evaluator1D (nPts : ℕ) (proj rhs : (ℕ → ℕ → ℝ) → (ℕ → ℕ → ℝ)) (lambda : ℝ) (src : ℕ → ℝ)
    (flat : ℕ → ℝ) : ℕ → ℝ :=
  fun k => evaluator nPts proj rhs lambda src (views nPts flat) (k / nPts) (k % nPts)

/-- `Vmath::Dot` of an array with itself. implicit_helper.hpp:147. -/
def dotSelf (n : ℕ) (x : ℕ → ℝ) : ℝ := ((List.range n).map fun i => x i * x i).sum

/-- `calc_ref_vals`, lines 139-156; `others f` is the contribution of the other ranks for field `f`. -/
def arrayNorm (nFields nPts : ℕ) (x : ℕ → ℝ) (others : ℕ → ℝ) : ℝ :=
  (List.range nFields).foldl (fun acc f => acc + (dotSelf nPts (fun i => x (f * nPts + i)) + others f)) 0

/-- The step `eps` in `matrix_multiply_MF`, lines 230-234. `others` is the sum over the other ranks. `none` when the
vector is zero on all ranks: the code divides by zero. -/
noncomputable def mfEps (jacobiFreeEps norm : ℝ) (n : ℕ) (v : ℕ → ℝ) (others : ℝ) : Option ℝ :=
  let magn := dotSelf n v + others
  if magn = 0 then none else some (jacobiFreeEps * √((√norm + 1) / magn))

/-- `matrix_multiply_MF`, lines 222-243. -/
noncomputable def matrixMultiplyMF (nFields nPts : ℕ) (proj rhs : (ℕ → ℕ → ℝ) → (ℕ → ℕ → ℝ)) (lambda : ℝ)
    (src refSln refRes : ℕ → ℝ) (jacobiFreeEps norm : ℝ) (v : ℕ → ℝ) (others : ℝ) : Option (ℕ → ℝ) :=
  (mfEps jacobiFreeEps norm (nFields * nPts) v others).map fun eps =>
    let solnPlus := fun i => eps * v i + refSln i
    let resPlus := evaluator1D nPts proj rhs lambda src solnPlus
    fun i => (1 / eps) * (resPlus i - refRes i)

end Verif.Model.ImplicitHelper
