import Mathlib.Analysis.SpecialFunctions.Trigonometric.Basic
import Mathlib.Algebra.BigOperators.Fin

/-!
Model of the Diffusion solver: `/repo/solvers/Diffusion/EquationSystems/DiffusionSystem.cpp`,
`CwipiDiffTensorSender.cpp` and `CwipiReceiveDiffTensorAndDiffuse.cpp` in the same directory.

Simplifications: `double` is the real numbers; the Helmholtz solver, the transform back to the quadrature points and the coupling library
are functions given by the caller (theorems state what they need of them).
-/

namespace Verif.Model.Diffusion

/-- Parameters as read from the session, with the defaults of DiffusionSystem.cpp:117-123 in `defaults`. -/
structure Params where
  epsilon : ℝ
  kPar : ℝ
  kPerp : ℝ
  n : ℝ
  thetaDeg : ℝ

/-- DiffusionSystem.cpp:117-122. -/
noncomputable def defaults : Params := ⟨1, 100, 1, 1e18, 0⟩

/-- `theta` after DiffusionSystem.cpp:123. -/
noncomputable def thetaRad (p : Params) : ℝ := p.thetaDeg * (-Real.pi / 180)

/-- The three entries of the diffusion tensor. DiffusionSystem.cpp:141-145. -/
structure Tensor where
  d00 : ℝ
  d01 : ℝ
  d11 : ℝ

/-- The entries, DiffusionSystem.cpp:138-144. -/
noncomputable def tensor (p : Params) : Tensor :=
  let ct := Real.cos (thetaRad p)
  let st := Real.sin (thetaRad p)
  { d00 := 2 / (3 * p.n) * ((p.kPar - p.kPerp) * ct * ct + p.kPerp)
    d01 := 2 / (3 * p.n) * ((p.kPar - p.kPerp) * ct * st)
    d11 := 2 / (3 * p.n) * ((p.kPar - p.kPerp) * st * st + p.kPerp) }

/-- `get_collection_type`, DiffusionSystem.cpp:83-105: `collections` is the element of that name, if it exists, with its `DEFAULT` attribute,
`names` the table of Nektar++, `noImp` its value `eNoImpType`. -/
def collectionType (names : List String) (noImp : ℕ) (collections : Option (Option String)) : ℕ :=
  match collections with
  | none => noImp
  | some dflt =>
    let str := dflt.getD "NoImplementationType"
    (names.findIdx? (· == str)).getD noImp

/-- The maps passed to the Helmholtz solver: constant coefficients or values at the `N` quadrature points. DiffusionSystem.cpp:153-169. -/
structure Coeffs (N : ℕ) where
  const : Option Tensor
  var : Option (Fin N → ℝ) × Option (Fin N → ℝ) × Option (Fin N → ℝ)

/-- Number of entries in the map of variable coefficients. DiffusionSystem.cpp:160-169. -/
def Coeffs.varSize {N : ℕ} (c : Coeffs N) : ℕ :=
  (if c.var.1.isSome then 1 else 0) + (if c.var.2.1.isSome then 1 else 0) + (if c.var.2.2.isSome then 1 else 0)

/-- `setup_helmsolve_coeffs`, DiffusionSystem.cpp:146-172. -/
noncomputable def setupCoeffs (N : ℕ) (matrixFree : Bool) (p : Params) : Coeffs N :=
  let t := tensor p
  if matrixFree then { const := some t, var := (none, none, none) }
  else { const := none, var := (some fun _ => t.d00, some fun _ => t.d01, some fun _ => t.d11) }

/-- The Helmholtz solver and the transform to the quadrature points: coefficients, `lambda`, right hand side. Called in DiffusionSystem.cpp:65-76. -/
abbrev Solver (N : ℕ) := Coeffs N → ℝ → (Fin N → ℝ) → (Fin N → ℝ)

/-- `do_implicit_solve` for one field, DiffusionSystem.cpp:52-78. -/
noncomputable def implicitSolve {N : ℕ} (helm : Solver N) (c : Coeffs N) (epsilon lambda : ℝ) (inArr : Fin N → ℝ) : Fin N → ℝ :=
  let fac := 1 / lambda / epsilon
  helm c fac fun k => -fac * inArr k

/-- Backward Euler: Nektar++ passes the step size as `lambda`. `s` steps. The calls of DiffusionSystem.cpp:50-76. -/
noncomputable def steps {N : ℕ} (helm : Solver N) (c : Coeffs N) (epsilon dt : ℝ) : ℕ → (Fin N → ℝ) → (Fin N → ℝ)
  | 0, u => u
  | s + 1, u => implicitSolve helm c epsilon dt (steps helm c epsilon dt s u)

/-- The array sent at the first step, CwipiDiffTensorSender.cpp:39-48: as many elements as the map of variable coefficients has entries, three are assigned
(indexing the map creates missing entries, with no values, but after the array has been made). `none` is an access beyond the end. -/
def sendArray {N : ℕ} (c : Coeffs N) : Option (List (Option (Fin N → ℝ))) :=
  let send : List (Option (Fin N → ℝ)) := List.replicate c.varSize none
  if 0 < send.length ∧ 1 < send.length ∧ 2 < send.length then
    some (((send.set 0 c.var.1).set 1 c.var.2.1).set 2 c.var.2.2)
  else none

/-- What the receiver does with the received arrays, CwipiReceiveDiffTensorAndDiffuse.cpp:42-62; `none` for an access beyond the end. -/
def receive {M : ℕ} (matrixFree : Bool) (rcv : Fin 3 → Fin M → ℝ) : Option (Coeffs M) :=
  if matrixFree then
    if h : 0 < M then
      some { const := some ⟨rcv 0 ⟨0, h⟩, rcv 1 ⟨0, h⟩, rcv 2 ⟨0, h⟩⟩, var := (none, none, none) }
    else none
  else some { const := none, var := (some (rcv 0), some (rcv 1), some (rcv 2)) }

/-- `v_PreIntegrate` of sender and receiver: `transfer` is the coupling library, which maps values on the mesh of the sender to values on
the mesh of the receiver; in other steps nothing happens, CwipiDiffTensorSender.cpp:37, CwipiReceiveDiffTensorAndDiffuse.cpp:35. -/
def couple {N M : ℕ} (transfer : (Fin N → ℝ) → (Fin M → ℝ)) (matrixFree : Bool) (sender : Coeffs N) (receiver : Coeffs M)
    (step : ℕ) : Option (Coeffs M) :=
  if step = 0 then
    match sendArray sender with
    | some [some a, some b, some c] => receive matrixFree (fun i => transfer (![a, b, c] i))
    | _ => none
  else some receiver

end Verif.Model.Diffusion
