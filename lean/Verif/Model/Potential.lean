import Verif.Model.PlaneFluid

/-!
Model of the solves for the electrostatic potential: `/repo/solvers/DriftReduced/EquationSystems/DriftReducedSystem.cpp` (`solve_phi`, the coefficients in `load_params`), `HWSystem.cpp`, `LAPDSystem.cpp`,
`RogersRicci2DSystem.cpp` (`get_phi_solve_rhs`) in the same directory, and `/repo/solvers/DriftPlane/EquationSystems/DriftPlaneSystem.cpp` (`solve_phi`).

`HelmSolve` followed by `BwdTrans` of Nektar++ is an argument, from the factors and the values of the right hand side at the points to the values of the solution. Exact arithmetic.
-/

namespace Verif.Model.Potential

/-- The map of factors given to `HelmSolve`, DriftReducedSystem.cpp:378-386, DriftPlaneSystem.cpp:186-187: `none` is a coefficient that is not in the map. -/
structure Factors where
  lambda : ℝ
  d00 : Option ℝ
  d11 : Option ℝ
  d22 : Option ℝ

/-- `LoadParameter("d00", this->d00, 1)` and the like, DriftReducedSystem.cpp:330-332. `params` are the parameters of the session. -/
noncomputable def loadCoefficient (params : String → Option ℝ) (name : String) : ℝ := (params name).getD 1

/-- The factors of `DriftReducedSystem::solve_phi`, DriftReducedSystem.cpp:330-332, 378-386. -/
noncomputable def reducedFactors (nDims : ℕ) (params : String → Option ℝ) : Factors where
  lambda := 0
  d00 := some (loadCoefficient params "d00")
  d11 := some (loadCoefficient params "d11")
  d22 := if nDims = 3 then some (loadCoefficient params "d22") else none

/-- The systems with their parameters for the right hand side: HWSystem.cpp:49-55, LAPDSystem.cpp:284-292, RogersRicci2DSystem.cpp:28-33. -/
inductive System where
  | hasegawaWakatani
  | lapd (Bmag nRef md : ℝ)
  | rogersRicci

/-- `get_phi_solve_rhs`, HWSystem.cpp:49-55, LAPDSystem.cpp:284-292, RogersRicci2DSystem.cpp:28-33. `w` are the values of the vorticity in `in_arr`. -/
noncomputable def phiRhs {N : ℕ} (s : System) (w : Fin N → ℝ) : Fin N → ℝ :=
  match s with
  | .hasegawaWakatani => w
  | .lapd Bmag nRef md => fun k => Bmag * Bmag / nRef / md * w k
  | .rogersRicci => fun k => 1 * w k

/-- `DriftReducedSystem::solve_phi`, DriftReducedSystem.cpp:366-394: the values of the potential. -/
noncomputable def solvePhi {N : ℕ} (helm : Factors → (Fin N → ℝ) → (Fin N → ℝ)) (nDims : ℕ) (params : String → Option ℝ) (s : System) (w : Fin N → ℝ) : Fin N → ℝ :=
  helm (reducedFactors nDims params) (phiRhs s w)

/-- `DriftPlaneSystem::solve_phi`, DriftPlaneSystem.cpp:149-194; the right hand side is `phiRhs` in Model/PlaneFluid.lean. `ph` are the values stored in the field of the ion pressure, if there is one. -/
def solvePlane {N : ℕ} (helm : Factors → (Fin N → ℝ) → (Fin N → ℝ)) (p : PlaneFluid.Params) (dx dy : (Fin N → ℝ) → (Fin N → ℝ)) (w : Fin N → ℝ) (ph : Option (Fin N → ℝ)) : Fin N → ℝ :=
  helm ⟨0, none, none, none⟩ (PlaneFluid.phiRhs p dx dy w ph)

end Verif.Model.Potential
