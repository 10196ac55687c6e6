import Verif.Model.HostField
import Verif.Spec.FieldCoupling
import Verif.Spec.BaryField
import Verif.Spec.VertexModes

/-!
What Nektar++ guarantees for the functions of utilities.hpp (assumptions), for C92.
-/

namespace Verif.Spec.HostField
open Verif.Spec Verif.Model Verif.Model.BasisReference Verif.Model.FieldCoupling Verif.Model.BaryField Verif.Model.HostField
  Verif.Spec.FieldCoupling Verif.Spec.VertexModes Verif.Props.C13

/-- Enough nodes to represent the functions of an element with `n` modes in each direction: at least `n` in each direction, and `2 n - 3` in the third direction of a pyramid. -/
def EnoughNodes : Shape → ℕ → List ℕ → Prop
  | .tri, n, l | .quad, n, l => ∃ a b, l = [a, b] ∧ n ≤ a ∧ n ≤ b
  | .pyr, n, l => ∃ a b c, l = [a, b, c] ∧ n ≤ a ∧ n ≤ b ∧ n ≤ c ∧ 2 * n - 3 ≤ c
  | _, n, l => ∃ a b c, l = [a, b, c] ∧ n ≤ a ∧ n ≤ b ∧ n ≤ c

variable {K : Type*} [Field K] [LinearOrder K]

/-- The two views of the expansions of a field. -/
def Same (e : Expansion) (q : QExpansion K) : Prop := e.gid = q.gid ∧ e.elmtId = q.elmtId ∧ e.shape = q.shape

/-- The values `phys` at the quadrature points of the element are the values of the function with coefficients `c`. -/
def AgreesOn (e : Expansion) (q : QExpansion K) (c phys : List K) : Prop :=
  match q.base with
  | [b0, b1] => NodalValues2 b0.1.length b1.1.length b0.1 b1.1 ((phys.drop q.physOffset).take (BaryField.numPoints q)) fun x y => valueAt e (x, y, 0) c
  | [b0, b1, b2] => NodalValues3 b0.1.length b1.1.length b2.1.length b0.1 b1.1 b2.1 ((phys.drop q.physOffset).take (BaryField.numPoints q)) fun x y z => valueAt e (x, y, z) c
  | _ => False

/-- A field whose coefficients and values at the quadrature points are those of one function. -/
def Consistent (exps : List Expansion) (qexps : List (QExpansion K)) (s : FieldState K) : Prop :=
  ∀ (i : ℕ) e q, exps[i]? = some e → qexps[i]? = some q → AgreesOn e q s.coeffs s.phys

/-- The field has `N` coefficients and `P` quadrature points, its expansions are seen in the same order by both evaluators, every quadrature point belongs to an element, the backward transform gives the values at the
quadrature points, and the forward transform reproduces the functions of the space `V` (all coefficients, or those of continuous functions), into which it maps. -/
structure OpsOk (o : Ops K) (ndim N P : ℕ) (V : Set (List K)) : Prop where
  field : FieldCoupling.FieldOk o.exps ndim N
  qfield : BaryField.FieldOk o.qexps ndim P
  same : List.Forall₂ Same o.exps o.qexps
  ncoeffs : o.ncoeffs = N
  points : o.coords.length = P
  cover : ∀ k < P, ∃ q ∈ o.qexps, q.physOffset ≤ k ∧ k < q.physOffset + BaryField.numPoints q
  fwd_length : ∀ f, f.length = P → (o.fwdTrans f).length = N
  bwd_length : ∀ c, c.length = N → (o.bwdTrans c).length = P
  bwd : ∀ c, c.length = N → ∀ (i : ℕ) e q, o.exps[i]? = some e → o.qexps[i]? = some q → AgreesOn e q c (o.bwdTrans c)
  fwd_mem : ∀ f, f.length = P → o.fwdTrans f ∈ V
  fwd_bwd : ∀ c ∈ V, c.length = N → o.fwdTrans (o.bwdTrans c) = c

/-- `StdPhysEvaluate` interpolates the values at the quadrature points of the element, for points that are not at a collapsed end. -/
def EvaluateOk (o : Ops K) : Prop :=
  ∀ (i : ℕ) q, o.qexps[i]? = some q → ∀ xi eta vals, CollapsedOf q.shape xi eta → OffCollapsed q.shape eta.2.1 eta.2.2 → BaryField.numPoints q ≤ vals.length →
    BaryField.IsValueAt { q with physOffset := 0 } vals eta (o.stdPhysEvaluate i xi vals)

/-- `X i xi` is the point of element `i` with the reference position `xi`. `GetExpIndex` gives an element that has the point and the reference position, and -1 if there is none; `GetLocCoords` inverts the map of
the element. `inside i` is the set of reference positions of the element. -/
structure GeometryOk (o : Ops K) (X : ℕ → K × K × K → K × K × K) (inside : ℕ → Set (K × K × K)) : Prop where
  found : ∀ x, 0 ≤ (o.expIndex x).1 → (o.expIndex x).1.toNat < o.qexps.length ∧ (o.expIndex x).2 ∈ inside (o.expIndex x).1.toNat ∧ X (o.expIndex x).1.toNat (o.expIndex x).2 = x
  complete : ∀ x i xi, i < o.qexps.length → xi ∈ inside i → X i xi = x → 0 ≤ (o.expIndex x).1
  loc : ∀ i xi, i < o.qexps.length → xi ∈ inside i → o.locCoords i (X i xi) = xi

/-- The node `(i0, i1, i2)` of an element: its index in the block of the element and its collapsed coordinates. -/
def IsNode (q : QExpansion K) (k : ℕ) (eta : K × K × K) : Prop :=
  match q.base with
  | [b0, b1] => ∃ i0 < b0.1.length, ∃ i1 < b1.1.length, k = i1 * b0.1.length + i0 ∧ eta.1 = b0.1.getD i0 0 ∧ eta.2.1 = b1.1.getD i1 0
  | [b0, b1, b2] => ∃ i0 < b0.1.length, ∃ i1 < b1.1.length, ∃ i2 < b2.1.length, k = i2 * (b0.1.length * b1.1.length) + i1 * b0.1.length + i0 ∧
      eta = (b0.1.getD i0 0, b1.1.getD i1 0, b2.1.getD i2 0)
  | _ => False

/-- `GetCoords` gives the points of the mesh at the quadrature points, which are not at the apex of a pyramid. -/
def CoordsOk (o : Ops K) (X : ℕ → K × K × K → K × K × K) : Prop :=
  ∀ (i : ℕ) q, o.qexps[i]? = some q → ∀ k eta, IsNode q k eta → ∃ xi, CollapsedOf q.shape xi eta ∧ NotApex q.shape xi ∧ o.coords[q.physOffset + k]? = some (X i xi)

end Verif.Spec.HostField
