import Verif.Model.NewtonKernel

/-!
Model of `XMapNewton::get_bounding_box` (include/nektar_interface/particle_cell_mapping/x_map_newton.hpp:294-419) and of
`BoundingBox::get_bounding_box` (src/nektar_interface/particle_cell_mapping/x_map_bounding_box.cpp). Exact arithmetic. The work items run in any
order: the atomic operations are a list of which any permutation may be executed. `get_next_multiple` and the local size are external: the number
of points per direction is an argument.
-/

namespace Verif.Model.XMapBox
open Verif.Model.NewtonKernel

variable {K : Type*} [Field K] [LinearOrder K]

/-- `kc`, lines 322-329. -/
def kc : List (K × K × K) := [(-1, 0, 0), (1, 0, 0), (0, -1, 0), (0, 1, 0), (0, 0, -1), (0, 0, 1)]

/-- `kcx`, lines 331-333. -/
def kcx : List (K × K × K) := [(0, 1, 0), (0, 1, 0), (0, 0, 1), (0, 0, 1), (1, 0, 0), (1, 0, 0)]

/-- `kcy`, lines 335-337. -/
def kcy : List (K × K × K) := [(0, 0, 1), (0, 0, 1), (1, 0, 0), (1, 0, 0), (0, 1, 0), (0, 1, 0)]

/-- The collapsed coordinates of a work item, lines 378-393; `n` is `grid_size`. -/
def faceEta (n facex gid : ℕ) : V3 K :=
  let k_width : K := 2 / ((n - 1 : ℕ) : K)
  let gx : K := -1 + ((gid % n : ℕ) : K) * k_width
  let gy : K := -1 + ((gid / n : ℕ) : K) * k_width
  let c := kc.getD facex (0, 0, 0)
  let cx := kcx.getD facex (0, 0, 0)
  let cy := kcy.getD facex (0, 0, 0)
  ⟨c.1 + cx.1 * gx + cy.1 * gy, c.2.1 + cx.2.1 * gx + cy.2.1 * gy, c.2.2 + cx.2.2 * gx + cy.2.2 * gy⟩

/-- The points of all work items, lines 363-396. -/
def samples (n : ℕ) : List (V3 K) := (List.range 6).flatMap fun facex => (List.range (n * n)).map fun gid => faceEta n facex gid

/-- An atomic operation: on entry `dimx + 3` the maximum, on entry `dimx` the minimum. x_map_newton.hpp:411-412. -/
structure Op (K : Type*) where
  slot : ℕ
  value : K

/-- Lines 410-413. -/
def opsOf (x : V3 K) : List (Op K) := [⟨3, x.x⟩, ⟨0, x.x⟩, ⟨4, x.y⟩, ⟨1, x.y⟩, ⟨5, x.z⟩, ⟨2, x.z⟩]

/-- `atomic_fetch_max` or `atomic_fetch_min`, lines 411-412. -/
def applyOp (buf : ℕ → K) (op : Op K) : ℕ → K :=
  Function.update buf op.slot (if 3 ≤ op.slot then max (buf op.slot) op.value else min (buf op.slot) op.value)

/-- `dh_fdata` after the operations in the given order, lines 358-362 and 420-425; `big` is `numeric_limits<REAL>::max()`. -/
def reduce (big : K) (ops : List (Op K)) : ℕ → K := ops.foldl applyOp fun i => if i < 3 then big else -big

/-- The padding, lines 427-432. -/
def padBox (ndim : ℕ) (padRel padAbs : K) (out : ℕ → K) : ℕ → K := fun i =>
  let d := i % 3
  if d < ndim then
    let width := out (d + 3) - out d
    let padding := padRel * width + padAbs
    if i < 3 then out i - padding else out i + padding
  else out i

/-- The operations of all work items: the map `F` of collapsed coordinates is the image of the local coordinate, lines 395-407. -/
def allOps (I : Impl K) (n : ℕ) : List (Op K) := (samples n).flatMap fun eta => opsOf (xMap I (I.fromCollapsed eta))

/-- The parameters used by `BoundingBox::get_bounding_box`: the values for `get_bounding_box/...`, if present. x_map_bounding_box.cpp:25-54. -/
structure Store (K : Type*) where
  linearPadRel : Option K
  linearPadAbs : Option K
  nonlinearPadRel : Option K
  nonlinearPadAbs : Option K
  gridSizeFactor : Option ℤ

/-- `grid_size`, `pad_rel` and `pad_abs`, x_map_bounding_box.cpp:25-54. `none` is a failed assertion. The conversion and the product are those of
`std::size_t`. -/
def boxSettings (isLinear : Bool) (maxNumModes : ℕ) (store : Option (Store K)) : Option (ℕ × K × K) :=
  let r : ℕ × K × K :=
    if isLinear then
      match store with
      | some s => (2, s.linearPadRel.getD 0, s.linearPadAbs.getD 0)
      | none => (2, 0, 0)
    else
      let size := fun f : ℤ => ((f % 2 ^ 64).toNat * maxNumModes) % 2 ^ 64
      match store with
      | some s => (size (s.gridSizeFactor.getD 4), s.nonlinearPadRel.getD (5 / 100), s.nonlinearPadAbs.getD 0)
      | none => (size 4, 0, 0)
  if r.1 ≥ 2 ∧ r.2.1 ≥ 0 ∧ r.2.2 ≥ 0 then some r else none

/-- `BoundingBox::get_bounding_box`, x_map_bounding_box.cpp:7-57. `nektarBox` is `geom->GetBoundingBox()`; `round` is the rounding of the grid size to
a multiple of the local size; `order n` is the order in which the atomic operations are executed for `n` points. -/
def getBoundingBox (big : K) (ndim : ℕ) (isLinear : Bool) (maxNumModes : ℕ) (store : Option (Store K)) (round : ℕ → ℕ) (order : ℕ → List (Op K))
    (nektarBox : ℕ → K) : Option (ℕ → K) :=
  if ndim < 3 then some nektarBox
  else (boxSettings isLinear maxNumModes store).map fun s => padBox 3 s.2.1 s.2.2 (reduce big (order (round s.1)))

end Verif.Model.XMapBox
