import Verif.Model.BaryField

/-!
Model of the host side field functions of include/nektar_interface/utilities.hpp: `interpolate_onto_nektar_field_2d/3d` (lines 90-162),
`evaluate_scalar_2d/3d` (lines 202-240) and `evaluate_scalar_derivative_2d/3d/local_3d` (lines 252-350).

Real arithmetic is exact. An access outside of a container is the outcome `none`. What Nektar++ computes (`GetCoords`, the transforms, `GetExpIndex`, `GetLocCoords`,
`StdPhysEvaluate`, `PhysDeriv`) are parameters.
-/

namespace Verif.Model.HostField
open Verif.Model.FieldCoupling Verif.Model.BaryField

/-- What the functions read of a Nektar++ field: its expansions, `GetCoords`, `GetNcoeffs`, `FwdTrans`, `BwdTrans`, `GetExpIndex` (the index, -1 if there is none, and the
local coordinates that it stores), `GetLocCoords` of the geometry of an expansion, `StdPhysEvaluate` and `PhysDeriv` of an expansion. Called in utilities.hpp:91-431. -/
structure Ops (K : Type*) where
  exps : List Expansion
  qexps : List (QExpansion K)
  coords : List (K × K × K)
  ncoeffs : ℕ
  fwdTrans : List K → List K
  bwdTrans : List K → List K
  expIndex : K × K × K → ℤ × (K × K × K)
  locCoords : ℕ → K × K × K → K × K × K
  stdPhysEvaluate : ℕ → K × K × K → List K → K
  physDeriv : ℕ → ℕ → List K → List K

variable {K : Type*} [Field K] [LinearOrder K]

/-- `field->SetCoeff(cx, coeffs_f[cx])` for all `cx`, utilities.hpp:115-117 and 155-157. -/
def setCoeffs (n : ℕ) (new old : List K) : Option (List K) :=
  (List.range n).foldlM (fun c cx => (new[cx]?).bind fun v => if cx < c.length then some (c.set cx v) else none) old

/-- The functions from the evaluation at the quadrature points on, utilities.hpp:102-121 and 142-161. -/
def interpolate (o : Ops K) (func : K × K × K → K) (s : FieldState K) : Option (FieldState K) :=
  let f := o.coords.map func
  let coeffs := o.fwdTrans f
  (setCoeffs o.ncoeffs coeffs s.coeffs).map fun c => ⟨c, o.bwdTrans coeffs⟩

/-- `interpolate_onto_nektar_field_3d`, utilities.hpp:90-122. -/
def interpolate3d (o : Ops K) (func : K → K → K → K) (s : FieldState K) : Option (FieldState K) := interpolate o (fun x => func x.1 x.2.1 x.2.2) s

/-- `interpolate_onto_nektar_field_2d`, utilities.hpp:131-162. -/
def interpolate2d (o : Ops K) (func : K → K → K) (s : FieldState K) : Option (FieldState K) := interpolate o (fun x => func x.1 x.2.1) s

/-- `GetExp(elmtIdx)` with `elmtPhys = GetPhys() + GetPhys_Offset(elmtIdx)`, e.g. utilities.hpp:210-213: the index is not checked, so -1 is an access outside of the vectors of the
field. -/
def element (o : Ops K) (s : FieldState K) (elmtIdx : ℤ) : Option (ℕ × List K) :=
  if elmtIdx < 0 then none else (o.qexps[elmtIdx.toNat]?).map fun q => (elmtIdx.toNat, s.phys.drop q.physOffset)

/-- `evaluate_scalar_3d`, utilities.hpp:226-240. -/
def evaluateScalar3d (o : Ops K) (s : FieldState K) (x y z : K) : Option K :=
  let r := o.expIndex (x, y, z)
  (element o s r.1).map fun e => o.stdPhysEvaluate e.1 r.2 e.2

/-- `evaluate_scalar_2d`, utilities.hpp:202-215. -/
def evaluateScalar2d (o : Ops K) (s : FieldState K) (x y : K) : Option K :=
  let r := o.expIndex (x, y, 0)
  (element o s r.1).map fun e => o.stdPhysEvaluate e.1 r.2 e.2

/-- The end of the derivative functions, utilities.hpp:262-271, 305-314 and 340-349. -/
def derivativeAt (o : Ops K) (s : FieldState K) (elmtIdx : ℤ) (xi : K × K × K) (direction : ℕ) : Option K :=
  (element o s elmtIdx).map fun e => o.stdPhysEvaluate e.1 xi (o.physDeriv e.1 direction e.2)

/-- `evaluate_scalar_derivative_2d`, utilities.hpp:252-272. -/
def evaluateDerivative2d (o : Ops K) (s : FieldState K) (x y : K) (direction : ℕ) : Option K :=
  let r := o.expIndex (x, y, 0)
  derivativeAt o s r.1 r.2 direction

/-- `evaluate_scalar_derivative_3d`, utilities.hpp:286-315. A given element that does not exist is an access outside of the vector of the expansions. -/
def evaluateDerivative3d (o : Ops K) (s : FieldState K) (x y z : K) (direction : ℕ) (elementId : Option ℤ) : Option K :=
  match elementId with
  | none => let r := o.expIndex (x, y, z); derivativeAt o s r.1 r.2 direction
  | some i => derivativeAt o s i (o.locCoords i.toNat (x, y, z)) direction

/-- `evaluate_scalar_derivative_local_3d`, utilities.hpp:329-350. -/
def evaluateDerivativeLocal3d (o : Ops K) (s : FieldState K) (xi0 xi1 xi2 : K) (direction : ℕ) (elementId : ℤ) : Option K :=
  derivativeAt o s elementId (xi0, xi1, xi2) direction

end Verif.Model.HostField
