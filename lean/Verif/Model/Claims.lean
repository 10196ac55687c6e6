import Verif.Model.HaloCells

/-!
Model of the cell claims of `/repo/include/nektar_interface/particle_mesh_interface.hpp` (lines 31-278): `LocalClaim`, `overlap_1d`,
`bounding_box_map`, `bounding_box_claim`, and `claim_cells` (lines 615-623). Real arithmetic is exact.

A `std::map` is a total function (`operator[]` inserts the default value on the first use); `claim_cells`, a `std::set`, is a list without
duplicates.
-/

namespace Verif.Model.Claims
open Verif.Model Verif.Model.MeshHierarchy Verif.Model.HaloCells

variable {K : Type*} [Field K] [LinearOrder K]

/-- `LocalClaim`, lines 51-58; a `ClaimWeight` (lines 37-45) is a pair of `weight` and `weightf`. -/
structure LocalClaim (K : Type*) where
  weights : ℤ → ℤ × K
  cells : List ℤ

/-- The constructors, lines 45 and 60. -/
def LocalClaim.empty : LocalClaim K := ⟨fun _ => (0, 0), []⟩

/-- `LocalClaim::claim`, lines 69-79. -/
def LocalClaim.claim (c : LocalClaim K) (index weight : ℤ) (weightf : K) : LocalClaim K :=
  if weight > 0 then
    { cells := setInsert c.cells index
      weights := if weight > (c.weights index).1 then Function.update c.weights index (weight, weightf) else c.weights }
  else c

/-- A mesh hierarchy with its geometry: the members `origin`, `cell_width_fine` and `inverse_cell_width_fine`. Read in particle_mesh_interface.hpp:152-181. -/
structure MHGeom (K : Type*) extends MH where
  origin : ℕ → K
  width : K
  invWidth : K

/-- `overlap_1d`, lines 113-131. -/
def overlap1d (lhs rhs : K) (cell : ℤ) (w : K) : K :=
  let cellStart := (cell : K) * w
  let cellEnd := cellStart + w
  if rhs ≤ cellStart then 0
  else if lhs ≥ cellEnd then 0
  else
    let area := min cellEnd rhs - max cellStart lhs
    if area > 0 then area else 0

/-- `max_length`, lines 157-161. -/
def maxLength (ndim : ℕ) (lo hi : ℕ → K) : K := (List.range ndim).foldl (fun m d => max (hi d - lo d) m) 0

/-- The padding of the bounding box, lines 155-168: `(lower, upper)` in dimension `d`. -/
def padded (ndim : ℕ) (lo hi : ℕ → K) (pad : K) (d : ℕ) : K × K :=
  if pad > 0 ∧ d < ndim then (lo d - pad * maxLength ndim lo hi, hi d + pad * maxLength ndim lo hi) else (lo d, hi d)

variable [FloorRing K]

/-- `cell_starts`, lines 170-195; `lhs` is the lower bound relative to the origin. -/
def cellStart (m : MHGeom K) (lhs : ℕ → K) (d : ℕ) : ℤ :=
  if d < m.ndim then
    let c := truncZ (lhs d * m.invWidth)
    let c := if c < 0 then 0 else c
    if c ≥ m.ncf * m.dims d then m.ncf * m.dims d else c
  else 0

/-- `cell_ends`, lines 171-196. -/
def cellEnd (m : MHGeom K) (rhs : ℕ → K) (d : ℕ) : ℤ :=
  if d < m.ndim then
    let c := truncZ (rhs d * m.invWidth + 1)
    let c := if c < 0 then 0 else c
    if c > m.ncf * m.dims d then m.ncf * m.dims d else c
  else 1

/-- `area_x`, `area_y`, `area_z`, lines 211-228. -/
def area (m : MHGeom K) (lhs rhs : ℕ → K) (d : ℕ) (c : ℤ) : K :=
  if d = 0 ∨ d < m.ndim then overlap1d (lhs d) (rhs d) c m.width else 1

/-- `index_mesh`. particle_mesh_interface.hpp:93. -/
def tuple3 (c0 c1 c2 : ℤ) : ℕ → ℤ := fun d => if d = 0 then c0 else if d = 1 then c1 else c2

/-- The loops over the cells, lines 208-243. -/
def mapCells (m : MHGeom K) (lhs rhs : ℕ → K) : List (ℤ × K) :=
  (intRange (cellStart m lhs 2) (cellEnd m rhs 2)).flatMap fun cz =>
  (intRange (cellStart m lhs 1) (cellEnd m rhs 1)).flatMap fun cy =>
  (intRange (cellStart m lhs 0) (cellEnd m rhs 0)).filterMap fun cx =>
    let volume := area m lhs rhs 0 cx * area m lhs rhs 1 cy * area m lhs rhs 2 cz
    if volume > 0 then some (tupleToLinearGlobal m.toMH (meshTupleToMhTuple m.toMH (tuple3 cx cy cz)), volume) else none

/-- `bounding_box_map`, lines 144-244, of an element with the bounding box `lo`, `hi`. -/
def boundingBoxMap (m : MHGeom K) (lo hi : ℕ → K) (pad : K) : List (ℤ × K) :=
  mapCells m (fun d => (padded m.ndim lo hi pad d).1 - m.origin d) (fun d => (padded m.ndim lo hi pad d).2 - m.origin d)

/-- `MHGeomMap`, line 31. -/
abbrev GeomMap := ℤ → List ℤ

/-- `weight` of lines 268-271. -/
def claimWeight (m : MHGeom K) (volume : K) : ℤ :=
  let weight := truncZ (1000000 * (volume * (1 / m.width ^ m.ndim)))
  if volume > 0 ∧ weight = 0 then weight + 1 else weight

/-- The loop body of `bounding_box_claim`, lines 265-275. -/
def claimCell (m : MHGeom K) (elementId : ℤ) (st : LocalClaim K × GeomMap) (cv : ℤ × K) : LocalClaim K × GeomMap :=
  (st.1.claim cv.1 (claimWeight m cv.2) (cv.2 * (1 / m.width ^ m.ndim)), Function.update st.2 cv.1 (st.2 cv.1 ++ [elementId]))

/-- `bounding_box_claim`, lines 258-276. -/
def boundingBoxClaim (m : MHGeom K) (st : LocalClaim K × GeomMap) (elementId : ℤ) (lo hi : ℕ → K) : LocalClaim K × GeomMap :=
  (boundingBoxMap m lo hi 0).foldl (claimCell m elementId) st

/-- An element: its id and its bounding box. particle_mesh_interface.hpp:145-178. -/
structure Elem (K : Type*) where
  id : ℤ
  lo : ℕ → K
  hi : ℕ → K

/-- `ParticleMeshInterface::claim_cells`, lines 615-623. -/
def claimCells (m : MHGeom K) (st : LocalClaim K × GeomMap) (geoms : List (Elem K)) : LocalClaim K × GeomMap :=
  geoms.foldl (fun st e => boundingBoxClaim m st e.id e.lo e.hi) st

end Verif.Model.Claims
