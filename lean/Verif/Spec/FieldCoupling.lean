import Verif.Model.FieldCoupling
import Verif.Props.C13_Evaluate

/-!
What a Nektar++ field looks like to the coupling (assumptions about Nektar++), and the values of its basis functions, for C78 and C79.
-/

namespace Verif.Spec.FieldCoupling
open Verif.Model Verif.Model.BasisReference Verif.Model.FieldCoupling Verif.Props.C13

/-- The number of modes of an expansion in each direction. -/
def order (e : Expansion) : ℕ := e.modes.headD 0

/-- The field has one expansion for each geometry, numbered in order; each one has the same number of modes, at least two, in all directions, and its
coefficients are a block of the `N` coefficients of the field. -/
structure FieldOk (exps : List Expansion) (ndim N : ℕ) : Prop where
  ids : exps.map (·.elmtId) = List.range exps.length
  gids : (exps.map (·.gid)).Nodup
  dim : ∀ e ∈ exps, dimOf e.shape = ndim
  modes : ∀ e ∈ exps, e.modes = List.replicate ndim (order e)
  two : ∀ e ∈ exps, 2 ≤ order e
  ncoeffs : ∀ e ∈ exps, e.ncoeffs = (totalNumModesShape e.shape (order e)).mode
  block : ∀ e ∈ exps, e.offset + e.ncoeffs ≤ N

variable {K : Type*} [Field K]

/-- The value of the global mode `i` of the field at the point with collapsed coordinates `eta` in the element of `e`: the modes of the block of the element
are its basis functions, all other modes are zero in the element. -/
def modeAt [DecidableEq K] (e : Expansion) (eta : K × K × K) (i : ℕ) : K :=
  if e.offset ≤ i then (basisAt e.shape (order e) eta.1 eta.2.1 eta.2.2).getD (i - e.offset) 0 else 0

/-- The value of the function with coefficients `c` at a point of the element of `e`. -/
def valueAt [DecidableEq K] (e : Expansion) (eta : K × K × K) (c : List K) : K :=
  ((List.range c.length).map fun i => c.getD i 0 * modeAt e eta i).sum

/-- The point of a reference position with `ndim` coordinates: missing coordinates are zero. -/
def refPoint (ndim : ℕ) (ref : List K) : K × K × K := (ref.getD 0 0, ref.getD 1 0, if ndim = 2 then 0 else ref.getD 2 0)

end Verif.Spec.FieldCoupling
