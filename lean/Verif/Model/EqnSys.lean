import Verif.Model.Utilities
import Mathlib.Data.Real.Basic

/-!
Model of the set up of the equation systems: `/repo/include/nektar_interface/solver_base/eqnsys_base.hpp`,
`time_evolved_eqnsys_base.hpp` in the same directory,
`/repo/solvers/DriftReduced/EquationSystems/DriftReducedSystem.cpp`, `HWSystem.cpp`, `LAPDSystem.cpp`
and `RogersRicci2DSystem.cpp` beside it,
`/repo/solvers/DriftPlane/EquationSystems/DriftPlaneSystem.cpp` and `Blob2DSystem.cpp`,
`/repo/solvers/SimpleSOL/EquationSystems/SOLSystem.cpp`, `SOLWithParticlesSystem.cpp`.

A field is a variable of the session with its number of quadrature points. Checks of the projection type, of the time
integration type and of the mesh dimension are left out, as is everything the base classes of Nektar++ check.
-/

namespace Verif.Model.EqnSys
open Verif.Model.Utilities

/-! ### Particles -/

/-- What the constructor of `EqnSysBase` does about particles. eqnsys_base.hpp:38-79. -/
inductive Start where
  | fluidOnly
  | particles (name : String)
  | failed
deriving DecidableEq

/-- The constructor of `EqnSysBase`, eqnsys_base.hpp:38-79: `element` is the presence of the particles element, `parttype` the value of
the property PARTTYPE and `registered` the contents of the particle system factory. -/
def start (element : Bool) (parttype : Option String) (registered : String → Bool) : Start :=
  if element then
    match parttype with
    | some name => if registered name then .particles name else .failed
    | none => .failed
  else .fluidOnly

/-- The events at the end of a run. eqnsys_base.hpp:109-134. -/
inductive Event where
  | solve
  | freeParticles
  | postSolve
deriving DecidableEq

/-- `v_DoSolve`, eqnsys_base.hpp:158-164. -/
def doSolve (s : Start) : List Event :=
  [.solve] ++ (match s with
    | .particles _ => [.freeParticles]
    | _ => []) ++ [.postSolve]

/-! ### Fields -/

/-- Name and number of quadrature points of the variables of the session. eqnsys_base.hpp:81-103. -/
abbrev Fields := List (String × ℕ)

/-- `field_to_index`, eqnsys_base.hpp:40. -/
def indexMap (fs : Fields) : List (String × ℤ) := mkIndexMap (fs.map Prod.fst)

/-- `validate_fields`, eqnsys_base.hpp:121-137; `nPts` are the points of the first field. -/
def validateFields (fs : Fields) (nPts : ℕ) (required : List String) : Bool :=
  required.all fun name =>
    let idx := getIdx (indexMap fs) name
    decide (idx ≥ 0) && decide ((fs[idx.toNat]?).map Prod.snd = some nPts)

/-- `check_var_idx`, eqnsys_base.hpp:109-115. -/
def checkVarIdx (fs : Fields) (idx : ℕ) (name : String) : Bool := decide ((fs[idx]?).map Prod.fst = some name)

/-- `v_InitObject` of `TimeEvoEqnSysBase`, time_evolved_eqnsys_base.hpp:50-62, after that of `EqnSysBase`, eqnsys_base.hpp:172-183: the new
`m_intVariables`. `none` is a failed assertion; a session without fields fails in Nektar++. -/
def timeInit (fs : Fields) (required intNames : List String) : Option (List ℤ) :=
  match fs with
  | [] => none
  | f :: _ =>
    if validateFields fs f.2 required then
      intNames.mapM fun name =>
        let varIdx := getIdx (indexMap fs) name
        if varIdx ≥ 0 then some varIdx else none
    else none

/-- `v_InitObject` of `DriftReducedSystem`, DriftReducedSystem.cpp:427-452: the particles add a required field, the field "phi" is looked up. -/
def driftReducedInit (fs : Fields) (particles : Bool) (required intNames : List String) : Option (List ℤ) :=
  let required := if particles then required ++ ["ne_src"] else required
  (timeInit fs required intNames).bind fun ints => (indexAt (indexMap fs) "phi").map fun _ => ints

/-- The Hasegawa-Wakatani systems, HWSystem.cpp:12-13, 70-71. -/
def hwInit (fs : Fields) (particles : Bool) : Option (List ℤ) := driftReducedInit fs particles ["ne", "w", "phi"] ["ne", "w"]

/-- The LAPD system, LAPDSystem.cpp:14-15, 332. -/
def lapdInit (fs : Fields) (particles : Bool) : Option (List ℤ) :=
  driftReducedInit fs particles ["ne", "Ge", "Gd", "w", "phi"] ["ne", "Ge", "Gd", "w"]

/-- The Rogers-Ricci system, RogersRicci2DSystem.cpp:34-55: no required fields but four variables in a given order; `m_intVariables` is replaced. -/
def rogersRicciInit (fs : Fields) (particles : Bool) : Option (List ℤ) :=
  (driftReducedInit fs particles [] []).bind fun _ =>
    if fs.length = 4 ∧ checkVarIdx fs 0 "n" ∧ checkVarIdx fs 1 "T_e" ∧ checkVarIdx fs 2 "w" ∧ checkVarIdx fs 3 "phi"
    then some [0, 1, 2] else none

/-- The Blob2D system, Blob2DSystem.cpp:15-17, DriftPlaneSystem.cpp:220-227. -/
def blobInit (fs : Fields) : Option (List ℤ) :=
  (timeInit fs ["ne", "w", "phi"] ["ne", "w"]).bind fun ints =>
    if checkVarIdx fs 0 "ne" ∧ checkVarIdx fs 1 "w" ∧ checkVarIdx fs 2 "phi" then some ints else none

/-- The names which `SOLSystem` integrates in time, SOLSystem.cpp:21-27. -/
def solNames (spaceDim : ℕ) : List String := if spaceDim = 2 then ["rho", "rhou", "rhov", "E"] else ["rho", "rhou", "E"]

/-- The SimpleSOL system, SOLSystem.cpp:18-27, and with particles, SOLWithParticlesSystem.cpp:16-20. -/
def solInit (fs : Fields) (spaceDim : ℕ) (withParticles : Bool) : Option (List ℤ) :=
  if spaceDim = 1 ∨ spaceDim = 2 then
    timeInit fs (if withParticles then solNames spaceDim ++ ["E_src", "rho_src", "rhou_src", "rhov_src", "T"] else solNames spaceDim)
      (solNames spaceDim)
  else none

/-! ### Arrays of the time integration

`UnsteadySystem` of Nektar++ (external) integrates the variables `m_intVariables`: element `i` of the arrays handed to the
right hand side belongs to field `m_intVariables[i]`. -/

/-- The array `in_arr` for the values `vals` of the fields. DriftReducedSystem.cpp:261-271. -/
def inArr {V : Type*} (vals : ℤ → V) (intVars : List ℤ) : List V := intVars.map vals

/-- `in_arr[this->field_to_index[name]]`, as in HWSystem.cpp:52-53, LAPDSystem.cpp:29-31, RogersRicci2DSystem.cpp:31, DriftPlaneSystem.cpp:156; `none` if the name is not known
or the index is out of bounds. -/
def readByName {V : Type*} (fs : Fields) (arr : List V) (name : String) : Option V :=
  (indexAt (indexMap fs) name).bind fun idx => if idx ≥ 0 then arr[idx.toNat]? else none

/-! ### Particle sources -/

/-- `out_arr[i] += v`. DriftReducedSystem.cpp:34-51. -/
def addAt {N : ℕ} (out : List (Fin N → ℝ)) (i : ℕ) (v : Fin N → ℝ) : List (Fin N → ℝ) :=
  out.modify i fun o k => o k + v k

/-- One target of `add_particle_sources`, DriftReducedSystem.cpp:110-136. `none` is an exception (of `operator[]` of the index map, or of
`ASSERTL0`). -/
def addParticleSource {N : ℕ} (fs : Fields) (intNames : List String) (phys : ℤ → Fin N → ℝ) (out : List (Fin N → ℝ))
    (target : String) : Option (List (Fin N → ℝ)) :=
  (indexAt (indexMap fs) (target ++ "_src")).bind fun srcIdx =>
    if srcIdx ≥ 0 then
      (intNames.idxOf? target).map fun outIdx => addAt out outIdx (phys srcIdx)
    else some out

/-- `add_particle_sources`, DriftReducedSystem.cpp:110-138. -/
def addParticleSources {N : ℕ} (fs : Fields) (intNames : List String) (phys : ℤ → Fin N → ℝ) (targets : List String)
    (out : List (Fin N → ℝ)) : Option (List (Fin N → ℝ)) :=
  targets.foldlM (addParticleSource fs intNames phys) out

end Verif.Model.EqnSys
