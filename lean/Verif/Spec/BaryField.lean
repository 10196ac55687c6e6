import Verif.Model.BaryField
import Verif.Spec.Interp
import Verif.Props.C13_Evaluate

/-!
What a Nektar++ field looks like to the barycentric evaluation (assumptions about Nektar++), and the value of a function given by its values at the
quadrature points, for C80.
-/

namespace Verif.Spec.BaryField
open Verif.Spec Verif.Model Verif.Model.BasisReference Verif.Model.BaryField Verif.Props.C13

variable {K : Type*} [Field K]

/-- The number of quadrature points of an expansion. -/
def numPoints (e : QExpansion K) : ℕ := (e.base.map fun b => b.1.length).prod

/-- The field has one expansion for each geometry, numbered in order; each one has in each direction distinct nodes with their barycentric weights, and its quadrature points are a
block of the `P` quadrature points of the field. -/
structure FieldOk (exps : List (QExpansion K)) (ndim P : ℕ) : Prop where
  ids : exps.map (·.elmtId) = List.range exps.length
  gids : (exps.map (·.gid)).Nodup
  dim : ∀ e ∈ exps, FieldCoupling.dimOf e.shape = ndim
  base : ∀ e ∈ exps, e.base.length = ndim
  rule : ∀ e ∈ exps, ∀ b ∈ e.base, b.1.length = b.2.length ∧ BaryRule b.1.length b.1 b.2
  block : ∀ e ∈ exps, e.physOffset + numPoints e ≤ P

/-- Expansions of the same shape with the same numbers of nodes have the same nodes and weights. -/
def SameNodes (exps : List (QExpansion K)) : Prop :=
  ∀ e ∈ exps, ∀ e' ∈ exps, e.shape = e'.shape → e.base.map (fun b => b.1.length) = e'.base.map (fun b => b.1.length) → e.base = e'.base

/-- `v` is the value, at the point with collapsed coordinates `eta` in the element of `e`, of the function with the values `phys` at the quadrature points of the field: the polynomial in
the collapsed coordinates of degree below the number of nodes in each direction that has the values of the element's block at the element's nodes. -/
def IsValueAt (e : QExpansion K) (phys : List K) (eta : K × K × K) (v : K) : Prop :=
  match e.base with
  | [b0, b1] => ∃ a, NodalValues2 b0.1.length b1.1.length b0.1 b1.1 ((phys.drop e.physOffset).take (numPoints e)) (poly2 b0.1.length b1.1.length a) ∧
      v = poly2 b0.1.length b1.1.length a eta.1 eta.2.1
  | [b0, b1, b2] => ∃ a, NodalValues3 b0.1.length b1.1.length b2.1.length b0.1 b1.1 b2.1 ((phys.drop e.physOffset).take (numPoints e))
        (poly3 b0.1.length b1.1.length b2.1.length a) ∧
      v = poly3 b0.1.length b1.1.length b2.1.length a eta.1 eta.2.1 eta.2.2
  | _ => False

end Verif.Spec.BaryField
