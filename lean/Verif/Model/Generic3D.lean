import Verif.Model.Bary
import Verif.Model.NewtonMemory
import Verif.Model.CoordinateMapping

/-!
Model of include/nektar_interface/particle_cell_mapping/newton_generic_3d.hpp: the Newton iteration for three-dimensional elements with curved sides. Doubles are `Dbl`
(`none`: not finite), the arithmetic is exact.
-/

namespace Verif.Model.Generic3D
open Verif.Model Verif.Model.Bary Verif.Model.JacobiCoeff Verif.Model.NewtonKernel Verif.Model.NewtonMemory Verif.Model.CoordMap Verif.Spec

variable {K : Type*} [Field K] [LinearOrder K]

/-- What `write_data_v` reads from a Nektar++ geometry: for each direction the quadrature points and barycentric weights of the base of `GetXmap()`, `GetTotPoints()`,
the results of `BwdTrans(GetCoeffs(d))`, the results of `PhysDeriv` of these (`deriv i j`: coordinate `i`, direction `j`), the shape and `scaling_dir`. newton_generic_3d.hpp:43-64. -/
structure Geom3 (K : Type*) where
  base : List (List K × List K)
  totPoints : ℕ
  phys : ℕ → List K
  deriv : ℕ → ℕ → List K
  shape : ℤ
  scaling : V3 K

/-- `DataDevice`, newton_generic_3d.hpp:18-32. The pointers are offsets into the buffer `d_zbw`. -/
structure Dev (K : Type*) where
  shape : ℤ
  scaling : V3 K
  n0 : ℕ
  n1 : ℕ
  n2 : ℕ
  buf : List K
  z0 : ℕ
  z1 : ℕ
  z2 : ℕ
  bw0 : ℕ
  bw1 : ℕ
  bw2 : ℕ
  physvals : ℕ
  physvalsDeriv : ℕ

/-- The loop of lines 98-102: the entries `3 * ix + d`. The arrays have `num_physvals` entries, so the reads are inside. -/
def interlace3 (n : ℕ) (v : ℕ → List K) : List K :=
  (List.range n).flatMap fun ix => [(v 0).getD ix 0, (v 1).getD ix 0, (v 2).getD ix 0]

/-- The loop of lines 123-133: the entries `9 * ix + k`. -/
def interlace9 (n : ℕ) (D : ℕ → ℕ → List K) : List K :=
  (List.range n).flatMap fun ix =>
    [(D 0 0).getD ix 0, (D 0 1).getD ix 0, (D 0 2).getD ix 0, (D 1 0).getD ix 0, (D 1 1).getD ix 0, (D 1 2).getD ix 0, (D 2 0).getD ix 0, (D 2 1).getD ix 0,
      (D 2 2).getD ix 0]

/-- `write_data_v`, lines 43-155: the device data and `data_size_local`. `none`: an assertion fails. -/
def writeData (g : Geom3 K) : Option (Dev K × ℕ) :=
  match g.base with
  | [b0, b1, b2] =>
    let num_phys0 := b0.1.length
    let num_phys1 := b1.1.length
    let num_phys2 := b2.1.length
    let num_phys_total := num_phys0 + num_phys1 + num_phys2
    let num_physvals := num_phys0 * num_phys1 * num_phys2
    let num_elements := 2 * num_phys_total + 12 * num_physvals
    if g.totPoints = num_physvals then
      let buf := b0.1 ++ b1.1 ++ b2.1 ++ b0.2 ++ b1.2 ++ b2.2 ++ interlace3 num_physvals g.phys ++ interlace9 num_physvals g.deriv
      let z0 := 0
      let z1 := z0 + num_phys0
      let z2 := z1 + num_phys1
      let bw0 := z2 + num_phys2
      let bw1 := bw0 + num_phys0
      let bw2 := bw1 + num_phys1
      let physvals := bw2 + num_phys2
      let physvalsDeriv := physvals + 3 * num_physvals
      if physvalsDeriv + 9 * num_physvals = num_elements then
        some (⟨g.shape, g.scaling, num_phys0, num_phys1, num_phys2, buf, z0, z1, z2, bw0, bw1, bw2, physvals, physvalsDeriv⟩,
          num_phys0 + num_phys1 + num_phys2)
      else none
    else none
  | _ => none

/-- `preprocess_weights`, bary_evaluation.hpp:24-49, for a coordinate that may not be finite: then no node is equal to it, and all weights are the product of a number and
`1 / 0`, or NaN. -/
def weightsD (n : ℕ) (coord : Dbl K) (z bw : List K) (off : ℕ) (mem : Arr K) : Option (Arr K) :=
  match coord with
  | some c => preprocessWeights n c z bw off 1 mem
  | none => forLoop n (fun ix a => a.write (off + ix * 1) none) mem

/-- Three finite values. No code: three values of newton_generic_3d.hpp:156-244. -/
def fin3 (v : V3 (Dbl K)) : Option (V3 K) :=
  v.x.bind fun x => v.y.bind fun y => v.z.map fun z => ⟨x, y, z⟩

/-- A map of coordinates that may not be finite; one coordinate that is not finite makes all of them not finite. (In the code some of them may be finite; the position and the
derivatives at the point are not finite in any case, since each term has a weight of each direction.) newton_generic_3d.hpp:156-244. -/
def lift3 (f : K → K → K → K × K × K) (v : V3 (Dbl K)) : V3 (Dbl K) :=
  match fin3 v with
  | some w => let r := f w.x w.y w.z; ⟨some r.1, some r.2.1, some r.2.2⟩
  | none => ⟨none, none, none⟩

/-- `X[0] - phys0`. newton_generic_3d.hpp:156-244. -/
def subD (a b : Dbl K) : Dbl K := a.bind fun x => b.map fun y => x - y

/-- `get_relative_error_3d`, newton_relative_exit_tolerances.hpp:34-41. (`sycl::fmax` ignores a NaN argument if the other is not NaN; here the three values are all finite or all
not finite if the particle position is finite.) -/
def relativeErrorD (s : V3 K) (f : V3 (Dbl K)) : Dbl K := (fin3 f).map fun f => relativeError3d s f.x f.y f.z

/-- `newton_residual_v`, lines 211-243. -/
def residualM (code : Shape3 → ℤ) (tol : K) (d : Dev K) (xi p : V3 (Dbl K)) (mem : Arr K) : Option ((Dbl K × V3 (Dbl K)) × Arr K) :=
  let eta := lift3 (dispatchTo3 code tol d.shape) xi
  let div_space0 := 0
  let div_space1 := div_space0 + d.n0
  let div_space2 := div_space1 + d.n1
  (weightsD d.n0 eta.x (d.buf.drop d.z0) (d.buf.drop d.bw0) div_space0 mem).bind fun mem =>
  (weightsD d.n1 eta.y (d.buf.drop d.z1) (d.buf.drop d.bw1) div_space1 mem).bind fun mem =>
  (weightsD d.n2 eta.z (d.buf.drop d.z2) (d.buf.drop d.bw2) div_space2 mem).bind fun mem =>
  (computeDir210InterlacedT 3 d.n0 d.n1 d.n2 (d.buf.drop d.physvals) mem div_space0 div_space1 div_space2 1 ⟨3, fun _ => none⟩).map fun X =>
  let f : V3 (Dbl K) := ⟨subD (X.val 0) p.x, subD (X.val 1) p.y, subD (X.val 2) p.z⟩
  ((relativeErrorD d.scaling f, f), mem)

/-- The arithmetic of lines 182-208 for finite values; `inverse_J` is not finite if the determinant is zero. -/
def cramerStep (J : ℕ → K) (xi f : V3 K) : Option (V3 K) :=
  let J0 := fun k => J k
  let J1 := fun k => J (3 + k)
  let J2 := fun k => J (6 + k)
  (Dbl.div 1 (J0 0 * (J1 1 * J2 2 - J1 2 * J2 1) - J0 1 * (J1 0 * J2 2 - J1 2 * J2 0) + J0 2 * (J1 0 * J2 1 - J1 1 * J2 0))).map fun inverse_J =>
  ⟨xi.x + ((J1 1 * J2 2 - J1 2 * J2 1) * (-f.x) - (J0 1 * J2 2 - J0 2 * J2 1) * (-f.y) + (J0 1 * J1 2 - J0 2 * J1 1) * (-f.z)) * inverse_J,
    xi.y - ((J1 0 * J2 2 - J1 2 * J2 0) * (-f.x) - (J0 0 * J2 2 - J0 2 * J2 0) * (-f.y) + (J0 0 * J1 2 - J0 2 * J1 0) * (-f.z)) * inverse_J,
    xi.z + ((J1 0 * J2 1 - J1 1 * J2 0) * (-f.x) - (J0 0 * J2 1 - J0 1 * J2 0) * (-f.y) + (J0 0 * J1 1 - J0 1 * J1 0) * (-f.z)) * inverse_J⟩

/-- Nine finite values. No code: the nine values of the Jacobian in newton_generic_3d.hpp:156-244. -/
def fin9 (v : ℕ → Dbl K) : Option (ℕ → K) :=
  if (List.range 9).all fun k => (v k).isSome then some fun k => (v k).getD 0 else none

/-- The components of a vector that is finite or not. No code: components of values of newton_generic_3d.hpp:156-244. -/
def ofFin (v : Option (V3 K)) : V3 (Dbl K) :=
  match v with
  | some w => ⟨some w.x, some w.y, some w.z⟩
  | none => ⟨none, none, none⟩

/-- `newton_step_v`, lines 162-209: the weights are those in the local memory. If `inverse_J`, an entry of `J`, a coordinate or a residual is not finite the result is not finite (in
the code a component that does not depend on it may be finite; the iteration ends in both cases since the next residual is not finite). -/
def stepM (d : Dev K) (xi : V3 (Dbl K)) (f : V3 (Dbl K)) (mem : Arr K) : Option (V3 (Dbl K)) :=
  let div_space0 := 0
  let div_space1 := div_space0 + d.n0
  let div_space2 := div_space1 + d.n1
  (computeDir210InterlacedT 9 d.n0 d.n1 d.n2 (d.buf.drop d.physvalsDeriv) mem div_space0 div_space1 div_space2 1 ⟨9, fun _ => none⟩).map fun J =>
  ofFin ((fin9 J.val).bind fun J => (fin3 xi).bind fun xi => (fin3 f).bind fun f => cramerStep J xi f)

/-- `MappingGeneric3D`, lines 41-288. -/
def generic3D (code : Shape3 → ℤ) (tol : K) (d : Dev K) : MImpl (Dbl K) (Arr K) where
  initial _ := ⟨some (-2 / 10), some (-2 / 10), some (-2 / 10)⟩
  residual xi p mem := residualM code tol d xi p mem
  step xi _ f mem := stepM d xi f mem
  toCollapsed xi := lift3 (dispatchTo3 code tol d.shape) xi
  fromCollapsed eta := lift3 (dispatchFrom3 code d.shape) eta

/-- The operations on doubles: comparisons with a value that is not finite are false (for infinities the code may give another result; the values compared here are then not used, or the
candidate is rejected in both cases). The operations of x_map_newton_kernel.hpp:71-126. -/
def dblOps (K : Type*) [Field K] [LinearOrder K] : Ops (Dbl K) where
  gt a b := match a, b with | some x, some y => decide (x > y) | _, _ => false
  le a b := match a, b with | some x, some y => decide (x ≤ y) | _, _ => false
  absGt15 a := match a with | some x => decide (|x| > 15) | none => false
  isfinite a := a.isSome
  kmin a b := match a, b with | some x, some y => some (min x y) | _, _ => none
  kmax a b := match a, b with | some x, some y => some (max x y) | _, _ => none

end Verif.Model.Generic3D
