import Verif.Model.FieldCoupling

/-!
Model of the constructor of `FieldProject` for several fields, include/nektar_interface/function_projection.hpp:99-168. A failed assertion or an access to a basis that the
expansion does not have is `none`.
-/

namespace Verif.Model.MultiField
open Verif.Model.FieldCoupling

/-- What the constructor reads of an expansion in addition: `GetCoordim()` and `GetBasis(dx)->GetBasisType()`. `GetBasisNumModes(dx)` is entry `dx` of `modes`. function_projection.hpp:143-163. -/
structure Exp extends Expansion where
  coordim : ℕ
  types : List ℕ

/-- What it reads of a field: `GetNcoeffs()`, `GetTotPoints()` and `GetExp()`. function_projection.hpp:132-140. -/
structure Field where
  ncoeffs : ℕ
  npoints : ℕ
  exps : List Exp

/-- The assertions for one dimension, lines 155-163. -/
def checkDim (test ref : Exp) (dx : ℕ) : Option Unit :=
  (test.modes[dx]?).bind fun a => (ref.modes[dx]?).bind fun b =>
  if a = b then (test.types[dx]?).bind fun s => (ref.types[dx]?).bind fun t => if s = t then some () else none else none

/-- The assertions for one expansion, lines 143-164. -/
def checkExp (test ref : List Exp) (ex : ℕ) : Option Unit :=
  (ref[0]?).bind fun r0 => (test[0]?).bind fun t0 =>
  if t0.coordim = r0.coordim then
    (test[ex]?).bind fun t => (ref[ex]?).bind fun r =>
    if t.gid = r.gid then (List.range r0.coordim).foldlM (fun _ dx => checkDim t r dx) () else none
  else none

/-- The assertions for one field, lines 132-165. -/
def checkField (ref test : Field) : Option Unit :=
  if test.ncoeffs = ref.ncoeffs ∧ test.npoints = ref.npoints ∧ test.exps.length = ref.exps.length then
    (List.range ref.exps.length).foldlM (fun _ ex => checkExp test.exps ref.exps ex) ()
  else none

/-- The constructor, lines 110-168: it fails without fields, builds the projection for the first field, and compares all fields with the first if there are several. -/
def construct (fields : List Field) (mapToNektar : List ℤ) : Option Base :=
  match fields with
  | [] => none
  | f0 :: rest =>
    (Base.build (f0.exps.map Exp.toExpansion) mapToNektar).bind fun base =>
    (buildGeomToExp (f0.exps.map Exp.toExpansion)).bind fun _ =>
    if rest.length + 1 > 1 then ((f0 :: rest).foldlM (fun _ f => checkField f0 f) ()).map fun _ => base else some base

end Verif.Model.MultiField
