import Mathlib.Analysis.SpecialFunctions.Log.Basic
import Mathlib.Analysis.SpecialFunctions.Pow.Real
import Mathlib.Analysis.SpecialFunctions.Sqrt

/-!
Model of the parameters of the Hasegawa-Wakatani systems: /repo/solvers/DriftReduced/EquationSystems/HW2DSystem.cpp and HW3DSystem.cpp, `load_params`.
A session is a partial map from names to real numbers; numbers are real (C++: `double`), `none` is the error of `LoadParameter` for a missing parameter.
-/

namespace Verif.Model.HWParams

/-- What `DefinesParameter` and `LoadParameter` see. HW3DSystem.cpp:150-157. -/
abbrev Session := String → Option ℝ

/-- `LoadParameter` with a default value. HW3DSystem.cpp:168. -/
def Session.orDefault (s : Session) (name : String) (d : ℝ) : ℝ := (s name).getD d

/-- The constants of HW3DSystem.cpp:147-148. -/
noncomputable def e : ℝ := 1.6e-19

/-- The proton mass. HW3DSystem.cpp:148. -/
noncomputable def mProton : ℝ := 1.67e-27

/-- `log_lambda`. HW3DSystem.cpp:176. -/
noncomputable def logLambda (n0 T0 : ℝ) : ℝ := 31 - 0.5 * Real.log n0 + Real.log T0

/-- `eta`. HW3DSystem.cpp:177. -/
noncomputable def eta (n0 T0 Z : ℝ) : ℝ := 5.2e-5 * Z * logLambda n0 T0 / T0 ^ (1.5 : ℝ)

/-- `w_ci`. HW3DSystem.cpp:178. -/
noncomputable def omegaCi (Bmag mi : ℝ) : ℝ := e * Bmag / mi

/-- `alpha` of the 3D system. HW3DSystem.cpp:150-180. -/
noncomputable def alpha3 (s : Session) (Bmag : ℝ) : Option ℝ :=
  match s "HW_alpha" with
  | some a => some a
  | none =>
    match s "HW_omega_ce", s "HW_nu_ei" with
    | some omegaCe, some nuEi => some (omegaCe / nuEi)
    | _, _ => do
      let mi := s.orDefault "mi" (2 * mProton)
      let n0 ← s "n0"
      let T0 ← s "T0"
      let Z ← s "Z"
      pure (T0 / n0 / e / eta n0 T0 Z / omegaCi Bmag mi)

/-- `kappa` of the 3D system. HW3DSystem.cpp:182-198. -/
noncomputable def kappa3 (s : Session) (Bmag : ℝ) : Option ℝ :=
  match s "HW_kappa" with
  | some k => some k
  | none => do
    let mi := s.orDefault "mi" (2 * 1.67e-27)
    let lambdaN ← s "lambda_n"
    let n0 ← s "n0"
    let T0 ← s "T0"
    let _ := n0
    let rhoS0 := Real.sqrt (mi * T0 / e / Bmag)
    pure (rhoS0 / lambdaN)

/-- `load_params` of the 3D system as a whole: alpha, then kappa. HW3DSystem.cpp:141-199. -/
noncomputable def load3 (s : Session) (Bmag : ℝ) : Option (ℝ × ℝ) := do
  let a ← alpha3 s Bmag
  let k ← kappa3 s Bmag
  pure (a, k)

/-- `load_params` of the 2D system. HW2DSystem.cpp:87-95. -/
def load2 (s : Session) : Option (ℝ × ℝ) := do
  let a ← s "HW_alpha"
  let k ← s "HW_kappa"
  pure (a, k)

end Verif.Model.HWParams
