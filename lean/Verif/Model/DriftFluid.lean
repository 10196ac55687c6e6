import Mathlib.Analysis.SpecialFunctions.Log.Basic
import Mathlib.Analysis.SpecialFunctions.Trigonometric.Basic
import Mathlib.Data.Real.Sqrt
import Mathlib.Algebra.BigOperators.Fin

/-!
Model of the right hand sides of the DriftReduced equation systems:
`/repo/solvers/DriftReduced/EquationSystems/DriftReducedSystem.cpp`, `HWSystem.cpp`, `HW2DSystem.cpp`,
`HW3DSystem.cpp`, `LAPDSystem.cpp`, `RogersRicci2DSystem.cpp` in that directory and
`/repo/solvers/DriftReduced/Diagnostics/GrowthRatesRecorder.hpp`.

Simplifications: `double` is the real numbers. A field is the function of its values at the quadrature points. Operators of
Nektar++ (derivatives, the Poisson solver, advection, diffusion) are arbitrary functions in `Ops`; theorems state what they
need of them. Fields are addressed by name; property C69 says for which sessions that is right.
-/

namespace Verif.Model.DriftFluid

/-- A field: values at the quadrature points. `Array<OneD, NekDouble>`, DriftReducedSystem.cpp:145-173. -/
abbrev Field (N : ℕ) := Fin N → ℝ

/-- Three components. DriftReducedSystem.cpp:323-327. -/
abbrev Vec := Fin 3 → ℝ

/-! ### Magnetic field and drift -/

/-- `load_params`, DriftReducedSystem.cpp:323-326: `Bvec` has `spaceDim` elements, element 2 is assigned; `none` is the access beyond its end. -/
def loadB (spaceDim : ℕ) (Bxy : ℝ) : Option (List ℝ) :=
  let Bvec := List.replicate spaceDim (0 : ℝ)
  if 2 < Bvec.length then some (Bvec.set 2 Bxy) else none

/-- The three components which the program reads. DriftReducedSystem.cpp:351-357. -/
def comps (l : List ℝ) : Vec := fun i => l.getD i 0

/-- `Bmag`, DriftReducedSystem.cpp:351-353. -/
noncomputable def bmag (B : Vec) : ℝ := Real.sqrt (B 0 * B 0 + B 1 * B 1 + B 2 * B 2)

/-- `b_unit`, DriftReducedSystem.cpp:354-357. -/
noncomputable def bUnit (B : Vec) : Vec := fun i => if bmag B > 0 then B i / bmag B else 0

/-- The E×B drift at one point, DriftReducedSystem.cpp:145-179; `dims` is the dimension of the mesh. On 2D meshes the third component of the
electric field and of the drift keep their initial value zero, DriftReducedSystem.cpp:449-458. `none` is a result that is not finite. -/
noncomputable def exbVel (dims : ℕ) (B E : Vec) : Option Vec :=
  if bmag B = 0 then none else
    let m := bmag B
    some fun i =>
      match i with
      | 0 => B 2 / m / m * E 1 + -(B 1) / m / m * E 2
      | 1 => B 0 / m / m * E 2 + -(B 2) / m / m * E 0
      | 2 => if dims = 3 then B 1 / m / m * E 0 + -(B 0) / m / m * E 1 else 0

/-- `E = -grad phi`, DriftReducedSystem.cpp:150-163. -/
def eField (dims : ℕ) (grad : Vec) : Vec := fun i =>
  match i with
  | 0 => -grad 0
  | 1 => -grad 1
  | 2 => if dims = 3 then -grad 2 else 0

/-- A parallel velocity, `G / max(ne, n_ref * n_floor_fac) / m`, LAPDSystem.cpp:165-179. -/
noncomputable def parVel (nRef floorFac mass ne G : ℝ) : ℝ := 1 / mass * (G / max ne (nRef * floorFac))

/-- Velocity of a species, LAPDSystem.cpp:189-194 (and HWSystem.cpp:37-40 with zero parallel velocity). -/
noncomputable def advVel (B : Vec) (vPar : ℝ) (vExB : Vec) : Vec := fun i => bUnit B i * vPar + vExB i

/-- The velocity of the polarisation drift term, LAPDSystem.cpp:186-187, 341: only component 2 is ever set. -/
def pdVel (vParElec vParIons : ℝ) : Vec := fun i => if i = 2 then vParElec - vParIons else 0

/-- `get_flux_vector`, DriftReducedSystem.cpp:262-276: flux of a field at one point. -/
def fluxVector (f : ℝ) (v : Vec) : Vec := fun j => f * v j

/-- `get_adv_vel_norm`, DriftReducedSystem.cpp:219-243: at one trace point; `normal` has `k` components. -/
def advVelNorm (k : ℕ) (normal vel : ℕ → ℝ) : ℝ := (List.range k).foldl (fun acc i => normal i * vel i + acc) 0

/-! ### Operators of Nektar++ -/

/-- Quadrature weights, partial derivatives, the solver for the potential (from the right hand side), advection (velocities at all
points, field) and the diffusion operator of HW3DSystem.cpp:47-48. -/
structure Ops (N : ℕ) where
  weight : Fin N → ℝ
  deriv : Fin 3 → Field N → Field N
  solve : Field N → Field N
  advect : (Fin N → Vec) → Field N → Field N
  diffuse : Field N → Field N

/-- `Integral`. GrowthRatesRecorder.hpp:138-159. -/
def Ops.integral {N : ℕ} (o : Ops N) (f : Field N) : ℝ := ∑ i, o.weight i * f i

/-- The right hand side for the two fields of the Hasegawa-Wakatani systems. HW2DSystem.cpp:25-80, HW3DSystem.cpp:63-111. -/
structure HWState (N : ℕ) where
  ne : Field N
  w : Field N

/-- Parameters. HW2DSystem.cpp:90-94, HW3DSystem.cpp:141-196. -/
structure HWParams where
  alpha : ℝ
  kappa : ℝ

/-- The velocity of the Hasegawa-Wakatani systems at all points: `velOf` is the drift of the gradient of the potential. HW2DSystem.cpp:44-60, HW3DSystem.cpp:80-95. -/
def driftOf {N : ℕ} (o : Ops N) (velOf : Vec → Vec) (phi : Field N) : Fin N → Vec :=
  fun k => velOf fun i => o.deriv i phi k

/-- `explicit_time_int` of the 2D system, HW2DSystem.cpp:25-81. `st` is `in_arr`, `fieldNe` the values stored in the density field of the
equation system (`m_fields[ne_idx]->GetPhys()`), which the time integration updates at the end of a step; `src` are the
values of the particle source field or zero. -/
def hw2Rhs {N : ℕ} (o : Ops N) (velOf : Vec → Vec) (p : HWParams) (fieldNe src : Field N) (st : HWState N) : HWState N :=
  let phi := o.solve st.w
  let v := driftOf o velOf phi
  let alphaTerm : Field N := fun k => p.alpha * (phi k - fieldNe k)
  let kappaTerm : Field N := fun k => p.kappa * o.deriv 1 phi k
  { ne := fun k => ((0 - o.advect v st.ne k) + alphaTerm k - kappaTerm k) + src k
    w := fun k => (0 - o.advect v st.w k) + alphaTerm k }

/-- `explicit_time_int` of the 3D system, HW3DSystem.cpp:35-52, 63-112. -/
def hw3Rhs {N : ℕ} (o : Ops N) (velOf : Vec → Vec) (p : HWParams) (src : Field N) (st : HWState N) : HWState N :=
  let phi := o.solve st.w
  let v := driftOf o velOf phi
  let diffIn : Field N := fun k => phi k - st.ne k
  let parDyn : Field N := fun k => p.alpha * o.diffuse diffIn k
  let kappaTerm : Field N := fun k => p.kappa * o.deriv 1 phi k
  { ne := fun k => ((0 - o.advect v st.ne k) - parDyn k - kappaTerm k) + src k
    w := fun k => (0 - o.advect v st.w k) - parDyn k }

/-! ### Growth rates -/

/-- `compute_energy`, GrowthRatesRecorder.hpp:101-121. -/
noncomputable def energy {N : ℕ} (o : Ops N) (probDims : ℕ) (n phi : Field N) : ℝ :=
  0.5 * o.integral fun k =>
    let i := n k * n k + o.deriv 0 phi k * o.deriv 0 phi k + o.deriv 1 phi k * o.deriv 1 phi k
    if probDims = 2 then i + o.deriv 2 phi k * o.deriv 2 phi k else i

/-- `compute_enstrophy`, GrowthRatesRecorder.hpp:126-134. -/
noncomputable def enstrophy {N : ℕ} (o : Ops N) (n w : Field N) : ℝ := 0.5 * o.integral fun k => (n k - w k) * (n k - w k)

/-- `compute_Gamma_a`, GrowthRatesRecorder.hpp:141-165, for the allowed dimensions 2 and 3. -/
def gammaA {N : ℕ} (o : Ops N) (probDims : ℕ) (p : HWParams) (n phi : Field N) : ℝ :=
  let d : Field N := fun k => n k - phi k
  p.alpha * o.integral (if probDims = 2 then fun k => d k * d k else fun k => o.deriv 2 d k * o.deriv 2 d k)

/-- `compute_Gamma_n`, GrowthRatesRecorder.hpp:170-178. -/
def gammaN {N : ℕ} (o : Ops N) (p : HWParams) (n phi : Field N) : ℝ :=
  -p.kappa * o.integral fun k => n k * o.deriv 1 phi k

/-- The values written for one step, GrowthRatesRecorder.hpp:190-199. -/
structure Record where
  E : ℝ
  W : ℝ
  dEdtExp : ℝ
  dWdtExp : ℝ

/-- `compute`, GrowthRatesRecorder.hpp:183-202, on rank 0: `none` is the division by zero of `step % 0`, `some none` a step without recording.
A negative recording step computes the values but does not write them. -/
noncomputable def record {N : ℕ} (o : Ops N) (probDims : ℕ) (p : HWParams) (recordingStep step : ℤ) (n w phi : Field N) :
    Option (Option Record) :=
  if recordingStep = 0 then none
  else if step.tmod recordingStep = 0 ∧ recordingStep > 0 then
    some (some ⟨energy o probDims n phi, enstrophy o n w, gammaN o p n phi - gammaA o probDims p n phi, gammaN o p n phi⟩)
  else some none

/-! ### LAPD -/

/-- The fields of the LAPD system. LAPDSystem.cpp:204-236. -/
structure LapdState (N : ℕ) where
  ne : Field N
  Ge : Field N
  Gd : Field N
  w : Field N

/-- Parameters, LAPDSystem.cpp:297-323. -/
structure LapdParams where
  B : Vec
  nRef : ℝ
  floorFac : ℝ
  nToSI : ℝ
  e : ℝ
  md : ℝ
  me : ℝ
  Te : ℝ
  Td : ℝ
  coulombLogConst : ℝ
  nuEiConst : ℝ

/-- `calc_collision_freqs` with `calc_coulomb_logarithm`, LAPDSystem.cpp:121-147, at one point. -/
noncomputable def collisionFreq (p : LapdParams) (ne : ℝ) : ℝ :=
  p.nuEiConst * ne * (p.coulombLogConst - 0.5 * Real.log (p.nToSI * ne))

/-- The collision term, LAPDSystem.cpp:39-45. -/
noncomputable def collisionTerm (p : LapdParams) (ne vPD : ℝ) : ℝ := p.me * collisionFreq p ne * (ne * vPD)

/-- `explicit_time_int` of the LAPD system, LAPDSystem.cpp:23-112, 155-238. `exb` is the drift at all points, `eZ` the parallel electric
field, `densSrc` the source of the configuration. The velocities of electrons and ions belong to their advection objects. -/
noncomputable def lapdRhs {N : ℕ} (o : Ops N) (p : LapdParams) (exb : Fin N → Vec) (eZ densSrc : Field N) (st : LapdState N) :
    LapdState N :=
  let vElec : Field N := fun k => parVel p.nRef p.floorFac p.me (st.ne k) (st.Ge k)
  let vIons : Field N := fun k => parVel p.nRef p.floorFac p.md (st.ne k) (st.Gd k)
  let pd : Fin N → Vec := fun k => pdVel (vElec k) (vIons k)
  let advElec : Fin N → Vec := fun k => advVel p.B (vElec k) (exb k)
  let advIons : Fin N → Vec := fun k => advVel p.B (vIons k) (exb k)
  let gradPe := o.deriv 2 fun k => p.Te * st.ne k
  let gradPd := o.deriv 2 fun k => p.Td * st.ne k
  let ePar : Field N := fun k => p.e * (st.ne k * eZ k)
  let coll : Field N := fun k => collisionTerm p (st.ne k) (pd k 2)
  { ne := fun k => (0 - o.advect advElec st.ne k) + densSrc k
    Ge := fun k => (((0 - o.advect advElec st.Ge k) - gradPe k) - ePar k) - coll k
    Gd := fun k => (((0 - o.advect advIons st.Gd k) - gradPd k) + ePar k) + coll k
    w := fun k => (0 - o.advect exb st.w k) - o.advect pd st.ne k }

/-! ### Rogers-Ricci -/

/-- Parameters, RogersRicci2DSystem.cpp:198-224. -/
structure RRParams where
  coulombLog : ℝ
  rhoS0 : ℝ
  lsBoost : ℝ
  rsNorm : ℝ
  tEps : ℝ

/-- The exponential term, RogersRicci2DSystem.cpp:163-164. -/
noncomputable def rrExp (p : RRParams) (phi Te : ℝ) : ℝ := Real.exp (p.coulombLog - phi / Real.sqrt (Te * Te + p.tEps))

/-- The source term, RogersRicci2DSystem.cpp:167-169 with the scale lengths RogersRicci2DSystem.cpp:222-223. -/
noncomputable def rrSource (p : RRParams) (r : ℝ) : ℝ :=
  0.03 * (1 - Real.tanh ((p.rhoS0 * r - p.rsNorm * p.rhoS0) / (0.5 * p.rhoS0 * p.lsBoost)))

/-- Distance from the axis, RogersRicci2DSystem.cpp:110-112. -/
noncomputable def rrRadius (x y : ℝ) : ℝ := Real.sqrt (x * x + y * y)

/-- The right hand sides at one point, RogersRicci2DSystem.cpp:172-179: advection terms, potential, fields. -/
noncomputable def rrRhs (p : RRParams) (r advN advT advW phi n Te : ℝ) : ℝ × ℝ × ℝ :=
  let x := rrExp p phi Te
  let s := rrSource p r
  (-40 * advN - 1 / 24 * x * n + s, -40 * advT - 1 / 36 * (1.71 * x - 0.71) * Te + s, -40 * advW + 1 / 24 * (1 - x))

end Verif.Model.DriftFluid
