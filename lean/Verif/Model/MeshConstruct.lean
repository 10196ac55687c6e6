import Verif.Model.BoundingBox
import Verif.Model.Claims
import Mathlib.Analysis.SpecialFunctions.Log.Basic

/-!
Model of the construction of the mesh hierarchy in the constructor of `ParticleMeshInterface`,
/repo/include/nektar_interface/particle_mesh_interface.hpp: `compute_bounding_box` (lines 495-528) and `create_mesh_hierarchy`
(lines 533-595), and of `get_point_in_subdomain` (lines 1027-1068).

`double` is ℝ (exact arithmetic), `big` stands for `numeric_limits<double>::max()`, conversions to `int` do not overflow. An element is its
bounding box in Nektar++'s six element format. `MPI_Allreduce` folds the operation over the values of the ranks.
-/

namespace Verif.Model.MeshConstruct
open Verif.Model.BoundingBox Verif.Model.Claims

/-- A six element box. particle_mesh_interface.hpp:505-527. -/
abbrev Box := ℕ → ℝ

/-- `bounding_box`, the box of the elements of one rank: `reset_bounding_box` and the loops over the elements, particle_mesh_interface.hpp:502-519
(`geoms_2d` or `geoms_3d` by the dimension of the mesh; the loop variable is the value of a `std::map`). -/
noncomputable def localBox (big : ℝ) (elements : List Box) : Box := elements.foldl (fun acc b => expandBox 3 b acc) (resetBox 3 big)

/-- `cell_count`, lines 504-520. -/
def cellCount (elements : List Box) : ℤ := elements.foldl (fun c _ => c + 1) 0

/-- `MPI_Allreduce` with `MPI_MIN`, `MPI_MAX` or `MPI_SUM`: the fold over the contributions of the ranks, rank 0 first. Called in particle_mesh_interface.hpp:530-594. -/
def allreduce {α : Type} (op : α → α → α) : List α → Option α
  | [] => none
  | x :: l => some (l.foldl op x)

/-- `global_bounding_box`, lines 522-527: `MPI_MIN` on the three lower and `MPI_MAX` on the three upper bounds. A communicator has at
least one rank (`none` otherwise). -/
noncomputable def globalBox (big : ℝ) (ranks : List (List Box)) : Option Box :=
  let locals := ranks.map (localBox big)
  allreduce (fun a b i => if i < 3 then min (a i) (b i) else max (a i) (b i)) locals

/-- `global_extents[dimx]`, lines 539-544. -/
def extent (box : Box) (d : ℕ) : ℝ := box (d + 3) - box d

/-- `min_extent`, lines 536-548. -/
noncomputable def minExtent (big : ℝ) (ndim : ℕ) (box : Box) : ℝ := (List.range ndim).foldl (fun m d => min m (extent box d)) big

/-- `max_extent`, lines 537-548. -/
noncomputable def maxExtent (big : ℝ) (ndim : ℕ) (box : Box) : ℝ := (List.range ndim).foldl (fun m d => max m (extent box d)) (-big)

/-- `coarse_cell_size`, lines 550-556. -/
noncomputable def coarseCellSize (minExt maxExt : ℝ) : ℝ := if maxExt / minExt ≥ 2 then minExt else maxExt

/-- `tmp_dim`, lines 564-566. -/
noncomputable def coarseDim (box : Box) (size : ℝ) (d : ℕ) : ℤ := ⌈extent box d / size⌉

/-- `hm_cell_count`, lines 561-568. -/
noncomputable def hmCellCount (ndim : ℕ) (box : Box) (size : ℝ) : ℤ := (List.range ndim).foldl (fun c d => c * coarseDim box size d) 1

/-- `matching_subdivision_order`, lines 579-583. `std::log` is the natural logarithm. -/
noncomputable def matchingOrder (ndim : ℕ) (numElements cells : ℤ) : ℤ :=
  ⌈(Real.log numElements - Real.log cells) * (1 / (ndim : ℝ))⌉

/-- `subdivision_order`, lines 586-587. -/
noncomputable def subdivisionOrder (ndim : ℕ) (numElements cells offset : ℤ) : ℤ := max 0 (matchingOrder ndim numElements cells + offset)

/-- The constructor of NESO-Particles' `MeshHierarchy` (contract): each coarse cell has `2^order` cells in each dimension. Called in particle_mesh_interface.hpp:580-594. -/
noncomputable def mkHierarchy (ndim : ℕ) (dims : ℕ → ℤ) (origin : ℕ → ℝ) (size : ℝ) (order : ℤ) : MHGeom ℝ where
  ndim := ndim
  dims := dims
  ncf := 2 ^ order.toNat
  origin := origin
  width := size / 2 ^ order.toNat
  invWidth := 1 / (size / 2 ^ order.toNat)

/-- `create_mesh_hierarchy`, lines 533-595; `none` is a failed assertion (line 549). -/
noncomputable def createHierarchy (big : ℝ) (ndim : ℕ) (offset : ℤ) (box : Box) (counts : List ℤ) : Option (MHGeom ℝ) :=
  let minExt := minExtent big ndim box
  let maxExt := maxExtent big ndim box
  if minExt > 0 then
    let size := coarseCellSize minExt maxExt
    (allreduce (· + ·) counts).map fun numElements =>
      mkHierarchy ndim (coarseDim box size) (fun d => box d) size (subdivisionOrder ndim numElements (hmCellCount ndim box size) offset)
  else none

/-- The hierarchy of the constructor, lines 881-891, for the elements of each of the ranks. The dimension is 2 or 3 (the assertions). -/
noncomputable def construct (big : ℝ) (ndim : ℕ) (offset : ℤ) (ranks : List (List Box)) : Option (MHGeom ℝ) :=
  if ndim = 2 ∨ ndim = 3 then
    (globalBox big ranks).bind fun box => createHierarchy big ndim offset box (ranks.map cellCount)
  else none

/-! ### `get_point_in_subdomain` -/

/-- What is read of a geometry object: its vertices (three coordinates), its number of coordinates, and Nektar++'s `ContainsPoint`. Read in particle_mesh_interface.hpp:505-575. -/
structure PointGeom where
  verts : List (ℕ → ℝ)
  coordim : ℕ
  contains : (ℕ → ℝ) → Bool

/-- The objects of a mesh graph by shape, each in the order of the ids. Read in particle_mesh_interface.hpp:813-861. -/
structure Graph where
  quads : List PointGeom := []
  tris : List PointGeom := []
  tets : List PointGeom := []
  pyrs : List PointGeom := []
  prisms : List PointGeom := []
  hexes : List PointGeom := []

/-- `get_element_2d`, geometry_transport_2d.cpp:32-43; `none` is the assertion. -/
def getElement2d (g : Graph) : Option PointGeom :=
  if g.quads.length > 0 then g.quads.head?
  else if g.tris.length > 0 then g.tris.head? else none

/-- `get_element_3d`, geometry_transport_3d.cpp:40-63. -/
def getElement3d (g : Graph) : Option PointGeom :=
  if g.tets.length > 0 then g.tets.head?
  else if g.pyrs.length > 0 then g.pyrs.head?
  else if g.prisms.length > 0 then g.prisms.head?
  else if g.hexes.length > 0 then g.hexes.head? else none

/-- `get_vertex_average`, composite_utility.cpp:85-106: the components below `coordim`; `none` is the assertion. -/
noncomputable def vertexAverage (g : PointGeom) : Option (List ℝ) :=
  if g.coordim < 4 then some ((List.range g.coordim).map fun d => (g.verts.foldl (fun s v => s + v d) 0) / (g.verts.length : ℝ)) else none

/-- `get_point_in_subdomain`, particle_mesh_interface.hpp:1027-1068: the components of `point`. A failed assertion or an out of range `at`
is `none`. -/
noncomputable def pointInSubdomain (ndim : ℕ) (graph : Graph) : Option (List ℝ) :=
  if ndim = 2 ∨ ndim = 3 then
    (if ndim = 2 then getElement2d graph else getElement3d graph).bind fun geom =>
    (vertexAverage geom).bind fun avg =>
    if avg.length < ndim then none else
    let coords : ℕ → ℝ := fun d => if d < ndim then avg.getD d 0 else 0
    if geom.contains coords then some ((List.range ndim).map coords)
    else geom.verts.head?.bind fun v0 => if geom.contains v0 then some ((List.range ndim).map v0) else none
  else none

end Verif.Model.MeshConstruct
