import Verif.Model.Bary
import Verif.Model.CellId
import Verif.Model.FieldCoupling
import Verif.Model.CoordinateMapping

/-!
Model of `BaryEvaluateBase`, include/nektar_interface/function_bary_evaluation.hpp, and of the derivative evaluation of `FieldEvaluate`,
include/nektar_interface/function_evaluation.hpp:100-128: functions given by their values at the quadrature points are evaluated at all particles of a mesh.

Real arithmetic is exact. A failed assertion, a thrown exception or an access outside of a buffer is the outcome `none`. The two and three
dimensional kernels for one particle and the kernel for a block of particles are in `Model/Bary.lean`.
-/

namespace Verif.Model.BaryField
open Verif.Model.JacobiCoeff Verif.Model.BasisReference Verif.Model.Bary Verif.Model.CellId

/-- What the code reads of a Nektar++ expansion: `GetGeom()->GetGlobalID()`, `GetElmtId()`, `GetGeom()->GetShapeType()`, `GetZ()` and `GetBaryWeights()` of
each element of `GetBase()`, and `GetPhys_Offset` of the field for it. Read in function_bary_evaluation.hpp:445-540. -/
structure QExpansion (K : Type*) where
  gid : ℤ
  elmtId : ℕ
  shape : Shape
  base : List (List K × List K)
  physOffset : ℕ

/-- `CellInfo` without `phys_offset`, function_bary_evaluation.hpp:36-42. The pointers `d_z`, `d_bw` are the lists they point to. -/
structure CellInfo (K : Type*) where
  shape : Shape
  numPhys : List ℕ
  z : List (List K)
  bw : List (List K)

/-- The state of the constructor: `map_cells_to_info` and `map_test_coeffs` (which have the same keys), `v_cell_info` (with `phys_offset`) and `max_num_phys`. function_bary_evaluation.hpp:445-447, 46-53. -/
structure State (K : Type*) where
  infos : Shape × List ℕ → Option (CellInfo K × List K)
  cells : List (CellInfo K × ℕ)
  maxPhys : ℕ

variable {K : Type*} [Field K] [LinearOrder K]

/-- The state before the loop over the cells, function_bary_evaluation.hpp:456-461. -/
def State.init : State K := ⟨fun _ => none, [], 0⟩

/-- `lambda_rel_err`, function_bary_evaluation.hpp:532-537. -/
def relErr (a b : K) : K :=
  let errAbs := |a - b|
  let absA := |a|
  let errRel := if absA > 0 then errAbs / absA else errAbs
  min errRel errAbs

/-- The order in which `z` and `bw` are pushed onto `map_test_coeffs` and `to_test`, function_bary_evaluation.hpp:499-507 and 519-529. -/
def coeffList (base : List (List K × List K)) : List K := base.flatMap fun b => b.1 ++ b.2

/-- The body of the loop over the cells, function_bary_evaluation.hpp:463-554, for the next cell. `geom_to_exp[nektar_geom_id]` gives `0` for an id that is
not in the map; reading a direction that the expansion does not have is an access outside of `GetBase()`. The assertion `z.size() == bw.size()` is in both
branches. -/
def State.addCell (exps : List (QExpansion K)) (g2e : IMap) (ndim : ℕ) (s : State K) (gid : ℤ) : Option (State K) :=
  (exps[((g2e.at? gid).getD 0).toNat]?).bind fun e =>
  if e.base.length < ndim then none else
  let base := e.base.take ndim
  let key := (e.shape, base.map fun b => b.1.length)
  if base.all (fun b => b.1.length == b.2.length) then
    match s.infos key with
    | none =>
      let info : CellInfo K := ⟨e.shape, key.2, base.map (·.1), base.map (·.2)⟩
      some ⟨Function.update s.infos key (some (info, coeffList base)), s.cells ++ [(info, e.physOffset)], key.2.foldl max s.maxPhys⟩
    | some (info, test) =>
      if (coeffList base).length = test.length ∧ ((coeffList base).zip test).all (fun x => relErr x.1 x.2 < 1 / 10 ^ 10) then
        some { s with cells := s.cells ++ [(info, e.physOffset)] }
      else none
  else none

/-- The constructor, function_bary_evaluation.hpp:443-558. `mapToNektar` is `cell_id_translation->map_to_nektar`. The assertion of `build_geom_to_expansion_map` is at
geom_to_expansion_builder.hpp:44. -/
def State.build (exps : List (QExpansion K)) (ndim : ℕ) (mapToNektar : List ℤ) : Option (State K) :=
  if exps.map (·.elmtId) = List.range exps.length then
    mapToNektar.foldlM (State.addCell exps (geomToExp (exps.map (·.gid))) ndim) State.init
  else none

/-- The values of all functions on the device, function_bary_evaluation.hpp:331-367: copied one after the other and, if there is more than one function, transposed
(`matrix_transpose` of NESO-Particles: entry `k * nf + f` of the result is entry `f * P + k`). `none`: no function (`at(0)` throws) or functions with different numbers of values. -/
def interlaced (vals : List (List K)) : Option (List K) :=
  match vals with
  | [] => none
  | v :: _ =>
    if vals.all (fun w => w.length == v.length) then
      let flat := vals.flatten
      if vals.length > 1 then
        some ((List.range v.length).flatMap fun k => (List.range vals.length).map fun f => flat.getD (f * v.length + k) 0)
      else some flat
    else none

/-- `shape_type_to_int` for the two dimensional shapes, geometry_transport/shape_mapping.hpp:13-16, with the values of Nektar++'s enum. -/
def code2 : Spec.Shape2 → ℤ
  | .tri => 3
  | .quad => 4

/-- `shape_type_to_int` for the three dimensional shapes. include/nektar_interface/geometry_transport/shape_mapping.hpp:13-16. -/
def code3 : Spec.Shape3 → ℤ
  | .tet => 5
  | .pyr => 6
  | .prism => 7
  | .hex => 8

/-- `shape_type_int` of a cell. function_bary_evaluation.hpp:36-37, 475. -/
def shapeCode : Shape → ℤ
  | .tri => 3
  | .quad => 4
  | .tet => 5
  | .pyr => 6
  | .prism => 7
  | .hex => 8

/-- The local memory of a work item with local index `lid` of a kernel with `LocalMemoryInterlaced<REAL>(n)` and `stride` work items in a work group: the buffer from
the element 0 of the work item on. function_bary_evaluation.hpp:65-76, 132-144, 118, 191. -/
def localMemory (n stride lid : ℕ) (content : ℕ → Dbl K) : Arr K := ⟨n * stride - lid, content⟩

/-- The reference positions of the particles: cell, layer, component. Read in function_bary_evaluation.hpp:80-86, 148-154, 255-281. -/
abbrev Positions (K : Type*) := ℕ → List (List K)

/-- The kernel of `dispatch_2d` for the particle in cell `c` and layer `l`, function_bary_evaluation.hpp:66-106: the values in `evaluations`. -/
def item2d (tol : K) (s : State K) (nf : ℕ) (physvals : List K) (ref : Positions K) (stride lid : ℕ) (content : ℕ → Dbl K) (c l : ℕ) :
    Option (List (Dbl K)) :=
  (s.cells[c]?).bind fun cell =>
  ((ref c)[l]?).bind fun xi =>
  (xi[0]?).bind fun xi0 => (xi[1]?).bind fun xi1 =>
  let eta := CoordMap.dispatchTo2 code2 tol (shapeCode cell.1.shape) xi0 xi1
  (cell.1.numPhys[0]?).bind fun n0 => (cell.1.numPhys[1]?).bind fun n1 =>
  (cell.1.z[0]?).bind fun z0 => (cell.1.z[1]?).bind fun z1 =>
  (cell.1.bw[0]?).bind fun bw0 => (cell.1.bw[1]?).bind fun bw1 =>
  dispatch2d eta.1 eta.2 nf s.maxPhys n0 n1 (physvals.drop (cell.2 * nf)) (localMemory (2 * s.maxPhys + nf) stride lid content)
    z0 z1 bw0 bw1 stride

/-- The kernel of `dispatch_3d` for the particle in cell `c` and layer `l`, function_bary_evaluation.hpp:132-180. -/
def item3d (tol : K) (s : State K) (nf : ℕ) (physvals : List K) (ref : Positions K) (stride lid : ℕ) (content : ℕ → Dbl K) (c l : ℕ) :
    Option (List (Dbl K)) :=
  (s.cells[c]?).bind fun cell =>
  ((ref c)[l]?).bind fun xi =>
  (xi[0]?).bind fun xi0 => (xi[1]?).bind fun xi1 => (xi[2]?).bind fun xi2 =>
  let eta := CoordMap.dispatchTo3 code3 tol (shapeCode cell.1.shape) xi0 xi1 xi2
  (cell.1.numPhys[0]?).bind fun n0 => (cell.1.numPhys[1]?).bind fun n1 => (cell.1.numPhys[2]?).bind fun n2 =>
  (cell.1.z[0]?).bind fun z0 => (cell.1.z[1]?).bind fun z1 => (cell.1.z[2]?).bind fun z2 =>
  (cell.1.bw[0]?).bind fun bw0 => (cell.1.bw[1]?).bind fun bw1 => (cell.1.bw[2]?).bind fun bw2 =>
  dispatch3d eta.1 eta.2.1 eta.2.2 nf s.maxPhys n0 n1 n2 (physvals.drop (cell.2 * nf))
    (localMemory (3 * s.maxPhys + nf) stride lid content) z0 z1 z2 bw0 bw1 bw2 stride

/-- `stride_local_index_bound(cell, block)` of NESO-Particles: the number of particles of the cell in the block. Read in function_bary_evaluation.hpp:237. -/
def localBound (N npart block : ℕ) : ℕ := min N (npart - block * N)

/-- The kernel of `dispatch_3d_cpu` for a block of `N` (`NESO_VECTOR_BLOCK_SIZE`) layers of cell `c`, function_bary_evaluation.hpp:230-306: for each layer of the
block that holds a particle the values of all functions. `garbage` are the values of the uninitialised local variables `xi0`, `xi1`, `xi2`; `content` is the content
of the part of the local memory of the work item, whose regions `evaluations`, `div_space0`, `div_space1`, `div_space2` follow each other. -/
def itemBlock (tol : K) (N : ℕ) (s : State K) (nf : ℕ) (physvals : List K) (ref : Positions K) (garbage : ℕ → K × K × K) (content : ℕ → Dbl K)
    (c block : ℕ) : Option (List (ℕ × List (Dbl K))) :=
  (s.cells[c]?).bind fun cell =>
  let start := block * N
  let bound := localBound N (ref c).length block
  ((List.range N).mapM fun b =>
    if b < bound then ((ref c)[start + b]?).bind fun xi =>
      (xi[0]?).bind fun xi0 => (xi[1]?).bind fun xi1 => (xi[2]?).map fun xi2 => (xi0, xi1, xi2)
    else some (garbage b)).bind fun xi =>
  let eta := xi.map fun x => CoordMap.dispatchTo3 code3 tol (shapeCode cell.1.shape) x.1 x.2.1 x.2.2
  (cell.1.numPhys[0]?).bind fun n0 => (cell.1.numPhys[1]?).bind fun n1 => (cell.1.numPhys[2]?).bind fun n2 =>
  (cell.1.z[0]?).bind fun z0 => (cell.1.z[1]?).bind fun z1 => (cell.1.z[2]?).bind fun z2 =>
  (cell.1.bw[0]?).bind fun bw0 => (cell.1.bw[1]?).bind fun bw1 => (cell.1.bw[2]?).bind fun bw2 =>
  let space := N * s.maxPhys
  (dispatch3dCpu N (eta.map (·.1)) (eta.map (·.2.1)) (eta.map (·.2.2)) nf n0 n1 n2 (physvals.drop (cell.2 * nf))
    ⟨space, fun i => content (N * nf + i)⟩ ⟨space, fun i => content (N * nf + space + i)⟩ ⟨space, fun i => content (N * nf + space + space + i)⟩
    z0 z1 z2 bw0 bw1 bw2 ⟨N * nf, content⟩).bind fun o =>
  (List.range bound).mapM fun b => ((List.range nf).mapM fun f => o.read (f * N + b)).map fun v => (start + b, v)

/-- The number of blocks of a cell. The second index of the launch, function_bary_evaluation.hpp:229-242. -/
def numBlocks (N npart : ℕ) : ℕ := (npart + N - 1) / N

/-- Where the values are stored: for each function the symbol and the component. The arguments of `evaluate`, function_bary_evaluation.hpp:311-330. -/
abbrev Targets := List (String × ℕ)

/-- A store: symbol, cell, layer, component, value. The stores of function_bary_evaluation.hpp:100-115, 170-188, 290-300. -/
structure Store (K : Type*) where
  sym : String
  cell : ℕ
  layer : ℕ
  comp : ℕ
  value : Dbl K

/-- `ptr[cell][component][layer] = evaluations[fx]` for all functions, function_bary_evaluation.hpp:102-106, 176-180 and 295-305. `ncomp` is the number of components of a dat;
`none`: there is no such dat or component. -/
def stores (ncomp : String → Option ℕ) (targets : Targets) (c l : ℕ) (vals : List (Dbl K)) : Option (List (Store K)) :=
  (targets.zip vals).mapM fun x => (ncomp x.1.1).bind fun n => if x.1.2 < n then some ⟨x.1.1, c, l, x.1.2, x.2⟩ else none

/-- All dats of the particles. The targets of these stores. function_bary_evaluation.hpp:56-130, 196-203. -/
abbrev Dats (K : Type*) := String → FieldCoupling.Dat K

/-- A store, function_bary_evaluation.hpp:100-115, 170-188, 290-300. -/
def Dats.store (d : Dats K) (x : Store K) : Dats K :=
  fun sym => if sym = x.sym then (d sym).store x.cell x.layer x.comp x.value else d sym

/-- What a launch leaves open: the work group size and local indices, the content of the local memory and of uninitialised variables for each work item. The launches of function_bary_evaluation.hpp:57-120, 124-193, 197-305. -/
structure Launch (K : Type*) where
  stride : ℕ
  lid : ℕ → ℕ → ℕ
  content : ℕ → ℕ → ℕ → Dbl K
  garbage : ℕ → ℕ → ℕ → K × K × K

/-- The stores of all work items, function_bary_evaluation.hpp:386-405: `dispatch_2d` in two dimensions; in three dimensions `dispatch_3d` on a GPU or for a sub group,
otherwise `dispatch_3d_cpu`, which visits all particles. -/
def allStores (tol : K) (N : ℕ) (s : State K) (ndim : ℕ) (gpu isSub : Bool) (ncomp : String → Option ℕ) (targets : Targets)
    (physvals : List K) (ref : Positions K) (ncells : ℕ) (layers : ℕ → List ℕ) (launch : Launch K) : Option (List (List (Store K))) :=
  let nf := targets.length
  if ndim = 2 then
    ((List.range ncells).flatMap fun c => (layers c).map fun l => (c, l)).mapM fun w =>
      (item2d tol s nf physvals ref launch.stride (launch.lid w.1 w.2) (launch.content w.1 w.2) w.1 w.2).bind (stores ncomp targets w.1 w.2)
  else if gpu || isSub then
    ((List.range ncells).flatMap fun c => (layers c).map fun l => (c, l)).mapM fun w =>
      (item3d tol s nf physvals ref launch.stride (launch.lid w.1 w.2) (launch.content w.1 w.2) w.1 w.2).bind (stores ncomp targets w.1 w.2)
  else
    ((List.range ncells).flatMap fun c => (List.range (numBlocks N (ref c).length)).map fun b => (c, b)).mapM fun w =>
      (itemBlock tol N s nf physvals ref (launch.garbage w.1 w.2) (launch.content w.1 w.2) w.1 w.2).bind fun vs =>
        (vs.mapM fun x => stores ncomp targets w.1 x.1 x.2).map List.flatten

/-- `BaryEvaluateBase::evaluate`, function_bary_evaluation.hpp:312-427 and 569-579: `after` is a possible result, with the work items in some order. -/
def EvaluatesTo (tol : K) (N : ℕ) (s : State K) (ndim : ℕ) (gpu isSub : Bool) (ncomp : String → Option ℕ) (syms : List String)
    (components : List ℕ) (vals : List (List K)) (ref : Positions K) (ncells : ℕ) (layers : ℕ → List ℕ) (launch : Launch K)
    (before after : Dats K) : Prop :=
  (ndim = 2 ∨ ndim = 3) ∧ syms.length = components.length ∧ vals.length = components.length ∧
  ∃ (pv : List K) (items sched : List (List (Store K))), interlaced vals = some pv ∧
    allStores tol N s ndim gpu isSub ncomp (syms.zip components) pv ref ncells layers launch = some items ∧
    sched.Perm items ∧ after = sched.flatten.foldl Dats.store before

/-- `FieldEvaluate::evaluate` with `derivative`, function_evaluation.hpp:103-127: the derivative in direction `dx` of the values of the field at the quadrature
points goes to component `dx` of the dat `sym`. `physDeriv` is `PhysDeriv` of the field; `ncompGroup` are the numbers of components in the group that the instance was made
with. -/
def DerivativeEvaluatesTo (tol : K) (N : ℕ) (s : State K) (ndim : ℕ) (gpu isSub : Bool) (ncompGroup ncomp : String → Option ℕ) (sym : String)
    (physDeriv : ℕ → List K → List K) (phys : List K) (ref : Positions K) (ncells : ℕ) (layers : ℕ → List ℕ) (launch : Launch K)
    (before after : Dats K) : Prop :=
  (∃ n, ncompGroup sym = some n ∧ ndim ≤ n) ∧
  EvaluatesTo tol N s ndim gpu isSub ncomp (List.replicate ndim sym) (List.range ndim) ((List.range ndim).map fun dx => physDeriv dx phys)
    ref ncells layers launch before after

end Verif.Model.BaryField
