import Verif.Model.MultiField

/-! Fields of Nektar++ on one mesh. -/

namespace Verif.Spec.MultiField
open Verif.Model.BasisReference Verif.Model.FieldCoupling Verif.Model.MultiField

/-- A field on a mesh in which the geometry with id `g` has the shape `shapeOf g`: expansions are numbered in order, the number of coefficients of an expansion is a function of
the shape and the numbers of modes, coefficients are stored one expansion after the other, and an expansion has a basis for each coordinate. -/
structure OnMesh (shapeOf : ℤ → Shape) (ncoeffsOf : Shape → List ℕ → ℕ) (f : Field) : Prop where
  ids : ∀ i (h : i < f.exps.length), (f.exps[i]).elmtId = i
  shape : ∀ e ∈ f.exps, e.shape = shapeOf e.gid
  ncoeffs : ∀ e ∈ f.exps, e.ncoeffs = ncoeffsOf e.shape e.modes
  offsets : ∀ i (h : i < f.exps.length), (f.exps[i]).offset = ((f.exps.take i).map fun e => e.ncoeffs).sum
  bases : ∃ dim, ∀ e ∈ f.exps, e.coordim = dim ∧ e.modes.length = dim ∧ e.types.length = dim

end Verif.Spec.MultiField
