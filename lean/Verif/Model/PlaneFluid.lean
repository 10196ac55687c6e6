import Mathlib.Analysis.SpecialFunctions.Trigonometric.Basic
import Mathlib.Analysis.SpecialFunctions.Exp
import Mathlib.Algebra.BigOperators.Fin

/-!
Model of the right hand sides of two solvers.

DriftPlane: `/repo/solvers/DriftPlane/EquationSystems/DriftPlaneSystem.cpp`, `Blob2DSystem.cpp` in the same directory and
`/repo/solvers/DriftPlane/RiemannSolvers/DriftUpwindSolver.hpp`.
SimpleSOL: `/repo/solvers/SimpleSOL/EquationSystems/SOLSystem.cpp` and `/repo/solvers/SimpleSOL/Forcing/SourceTerms.cpp`.

Simplifications: `double` is the real numbers. What the program does at every quadrature or trace point is a function of the values at
the point. Derivatives, the potential solver, advection with the given fluxes and the equation of state of Nektar++ are arguments. Fields are
addressed by name; property C69 says for which sessions that is right.
-/

namespace Verif.Model.PlaneFluid

/-! ### DriftPlane -/

/-- Parameters, DriftPlaneSystem.cpp:140-144. -/
structure Params where
  B : ℝ
  Lpar : ℝ
  Te : ℝ
  Rxy : ℝ
  e : ℝ

/-- Defaults, DriftPlaneSystem.cpp:140-144. -/
noncomputable def defaults : Params := ⟨0.35, 1, 5, 1.5, -1⟩

/-- `calc_drift_velocity`, DriftPlaneSystem.cpp:37-42: the derivatives are stored in the order `y`, `x`, then the second component is negated. -/
def driftVel (gradX gradY : ℝ) : ℝ × ℝ := (gradY, -gradX)

/-- Density and vorticity at a point. DriftPlaneSystem.cpp:77-101. -/
structure Pt where
  n : ℝ
  w : ℝ

/-- The fluxes of density and vorticity at a point, `get_flux_vector`, DriftPlaneSystem.cpp:77-101. -/
noncomputable def bulkFlux (p : Params) (v : ℝ × ℝ) (u : Pt) : (ℝ × ℝ) × (ℝ × ℝ) :=
  ((u.n * v.1, u.n * v.2), (u.w * v.1, u.w * v.2 + p.e * p.Te / (p.Rxy * p.Rxy) * u.n))

/-- `get_normal_velocity` at a trace point, DriftPlaneSystem.cpp:109-129. -/
def normalVel (normal v : ℝ × ℝ) : ℝ :=
  let v0 := normal.1 * v.1 + 0
  normal.2 * v.2 + v0

/-- The constant of the Riemann solver, Blob2DSystem.cpp:26-28. -/
noncomputable def riemannC (p : Params) : ℝ := -p.e * p.Te / (p.Rxy * p.Rxy)

/-- `v_Solve` at a trace point, DriftUpwindSolver.hpp:29-53: fluxes of density and vorticity. -/
noncomputable def upwind (c vn ny : ℝ) (fwd bwd : Pt) : ℝ × ℝ :=
  let tmp := if vn ≥ 0 then fwd else bwd
  (vn * tmp.n, vn * tmp.w - c * ny * tmp.n)

/-- `calc_div_sheath_closure` at a point, DriftPlaneSystem.cpp:22-32. -/
noncomputable def divSheath (p : Params) (n phi : ℝ) : ℝ := 1 / p.Lpar * (n * phi)

/-- `explicit_time_int` of Blob2D at a point, Blob2DSystem.cpp:53-68; `advN`, `advW` are the results of `Advect`. -/
noncomputable def blobRhs (p : Params) (advN advW n phi : ℝ) : ℝ × ℝ :=
  let s := divSheath p n phi
  (1 / p.e * s + -1 / p.B * advN, -1 / p.B * advW + s)

/-- The right hand side of the potential solve, DriftPlaneSystem.cpp:149-181: `ph` is the pressure field if the session has one, `dx` and `dy` are the
derivatives. -/
def phiRhs {N : ℕ} (p : Params) (dx dy : (Fin N → ℝ) → (Fin N → ℝ)) (w : Fin N → ℝ) (ph : Option (Fin N → ℝ)) : Fin N → ℝ :=
  match ph with
  | none => fun k => p.B * p.B * w k
  | some q => fun k => p.B * p.B * w k - (dx (dx q) k + dy (dy q) k)

/-! ### SimpleSOL -/

/-- The conserved variables at a point: density, momentum densities, energy. SOLSystem.cpp:172-218. -/
structure SolPt (d : ℕ) where
  rho : ℝ
  mom : Fin d → ℝ
  E : ℝ

/-- The fluxes at a point. SOLSystem.cpp:172-218. -/
structure SolFlux (d : ℕ) where
  rho : Fin d → ℝ
  mom : Fin d → Fin d → ℝ
  E : Fin d → ℝ

/-- `get_flux_vector`, SOLSystem.cpp:172-218; `pressure` is the equation of state. -/
noncomputable def eulerFlux {d : ℕ} (pressure : SolPt d → ℝ) (u : SolPt d) : SolFlux d :=
  let oneOrho := 1 / u.rho
  let vel : Fin d → ℝ := fun i => u.mom i * oneOrho
  let p := pressure u
  { rho := fun i => u.mom i
    mom := fun i j => if i = j then vel j * u.mom i + p else vel j * u.mom i
    E := fun i => (u.E + p) * vel i }

/-- Parameters of the sources, SourceTerms.cpp:22-33. -/
structure SrcParams where
  smax : ℝ
  theta : ℝ
  sigma : ℝ
  mask : ℝ

/-- Defaults, SourceTerms.cpp:22-33. -/
noncomputable def srcDefaults : SrcParams := ⟨110, 0, 2, 1⟩

/-- The coordinate along the sources, SourceTerms.cpp:46-48. -/
noncomputable def srcCoord (p : SrcParams) (x y : ℝ) : ℝ := x * Real.cos p.theta + y * Real.sin p.theta

/-- `mu`, SourceTerms.cpp:55. -/
noncomputable def srcMu (p : SrcParams) : ℝ := p.smax / 2

/-- The prefactors of density, momentum and energy, SourceTerms.cpp:52, 58-62. -/
noncomputable def srcPrefac (p : SrcParams) : ℝ × ℝ × ℝ :=
  (p.mask * 3.989422804e-22 * 1e21 * 2 / p.sigma, p.mask * 7.296657414e-27 * (-1e26) * 2 / p.sigma,
    p.mask * 7.978845608e-5 * 30000 * 2 / p.sigma)

/-- `calc_gaussian`, SourceTerms.cpp:65-68. -/
noncomputable def gaussian (prefac mu sigma s : ℝ) : ℝ := prefac * Real.exp (-(mu - s) * (mu - s) / 2 / sigma / sigma)

/-- The analytic sources at a point with coordinate `s`, SourceTerms.cpp:83-109: density, two momentum components, energy. -/
noncomputable def sources (p : SrcParams) (s : ℝ) : ℝ × (ℝ × ℝ) × ℝ :=
  let (cr, cu, ce) := srcPrefac p
  (gaussian cr (srcMu p) p.sigma s,
    (Real.cos p.theta * (s / srcMu p - 1) * gaussian cu (srcMu p) p.sigma s,
      Real.sin p.theta * (s / srcMu p - 1) * gaussian cu (srcMu p) p.sigma s),
    gaussian ce (srcMu p) p.sigma s / 2)

/-- `explicit_time_int` for one field at a point, SOLSystem.cpp:131-140: the negated advection term plus the sources (analytic and from the
particles). -/
def solRhs (adv src partSrc : ℝ) : ℝ := -adv + src + partSrc

end Verif.Model.PlaneFluid
