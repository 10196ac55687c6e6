import Mathlib.Algebra.Order.Field.Basic
import Mathlib.Algebra.BigOperators.Group.List.Basic

/-!
Model of `/repo/include/nektar_interface/bounding_box_intersection.hpp`.

Boxes are C arrays of `double`; here an array is a function `ℕ → K` into an arbitrary linearly ordered
field (`double` rounding is not modelled).  The Nektar++ format keeps the lower bounds
at `[0, stride)` and the upper bounds at `[stride, 2*stride)`; `stride` is 3 for the six element format.
All reads below are at indices `< 2*stride` when `ndim ≤ stride`.
-/

namespace Verif.Model.BoundingBox

variable {K : Type*} [Field K] [LinearOrder K]

/-- `lambda_interval_overlap`, bounding_box_intersection.hpp lines 35-47. -/
def intervalOverlap (la ua lb ub : K) : K :=
  if ua ≤ lb then 0
  else if la ≥ ub then 0
  else min ub ua - max lb la

/-- `bounding_box_intersection`, bounding_box_intersection.hpp lines 32-54: the loop
`area *= overlap` over `dimx = 0 .. ndim-1`, starting from `1.0`. -/
def boundingBoxIntersection (ndim : ℕ) (a b : ℕ → K) : K :=
  (List.range ndim).foldl
    (fun area d => area * intervalOverlap (a d) (a (d + 3)) (b d) (b (d + 3))) 1

/-- `reset_bounding_box`, lines 63-72. `big` stands for `numeric_limits<double>::max()`, and `-big`
for `lowest()`. -/
def resetBox (stride : ℕ) (big : K) : ℕ → K := fun i => if i < stride then big else -big

/-- `expand_bounding_box_array`, lines 85-98: component-wise min of the lower and max of the upper
bounds (`std::min(box, in)`, `std::max(box, in)`). -/
def expandBox (stride : ℕ) (inp box : ℕ → K) : ℕ → K :=
  fun i => if i < stride then min (box i) (inp i) else max (box i) (inp i)

/-- `interval_intersect`, lines 152-155. -/
def intervalIntersect (lhsA rhsA lhsB rhsB : K) : Bool :=
  decide (rhsA ≥ lhsB) && decide (lhsA ≤ rhsB)

/-- `bounding_box_intersect`, lines 165-180 (the loop `flag = flag && ...`). -/
def boxIntersect (stride ndim : ℕ) (a b : ℕ → K) : Bool :=
  (List.range ndim).foldl
    (fun flag d => flag && intervalIntersect (a d) (a (d + stride)) (b d) (b (d + stride))) true

/-- State of `MeshHierarchyBoundingBoxIntersection`, lines 186-192. -/
structure BoxSet (K : Type*) where
  ndim : ℕ
  boxes : List (ℕ → K)
  hull : ℕ → K

/-- Constructor of `MeshHierarchyBoundingBoxIntersection`, lines 201-220. The per cell boxes
(`get_bounding_box`, lines 123-141) are given as `boxes`. -/
def mkBoxSet (big : K) (ndim : ℕ) (boxes : List (ℕ → K)) : BoxSet K where
  ndim := ndim
  boxes := boxes
  hull := boxes.foldl (fun acc b => expandBox 3 b acc) (resetBox 3 big)

/-- `MeshHierarchyBoundingBoxIntersection::intersects`, lines 227-241. -/
def intersects (s : BoxSet K) (query : ℕ → K) : Bool :=
  if !(boxIntersect 3 s.ndim s.hull query) then false
  else s.boxes.any (fun box => boxIntersect 3 s.ndim box query)

/-- `get_bounding_box` of a fine MeshHierarchy cell, lines 123-141, with the `INT index[6]` tuple of
`linear_to_tuple_global` passed in as `index` (coarse parts first, then fine parts). Entries for unused
dimensions are left at the zero they were value-initialised with (line 213). -/
def mhCellBox (ndim : ℕ) (origin : ℕ → K) (wCoarse wFine : K) (index : ℕ → ℤ) : ℕ → K :=
  fun i =>
    let lhs := fun d => origin d + (index d : K) * wCoarse + (index (d + ndim) : K) * wFine
    if i < 3 then (if i < ndim then lhs i else 0)
    else if i - 3 < ndim then lhs (i - 3) + wFine else 0

end Verif.Model.BoundingBox
