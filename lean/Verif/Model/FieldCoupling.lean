import Verif.Model.ExpansionLooping
import Verif.Model.CellId

/-!
Model of the coupling between a whole mesh of particles and a field through basis functions:
include/nektar_interface/expansion_looping/basis_evaluate_base.hpp:140-275 (constructor, `get_loop_data`),
include/nektar_interface/function_basis_projection.hpp, include/nektar_interface/function_basis_evaluation.hpp,
include/nektar_interface/function_projection.hpp:189-362 and 386-500, include/nektar_interface/function_evaluation.hpp:95-132.

Real arithmetic is exact (`K` is a field); a value that is not finite is `none` in `Dbl K`. A failed assertion, a thrown exception or an
access outside of a buffer is the outcome `none`. The Nektar++ side of a field is a list of expansions, a solver of the mass matrix system and a
backward transform, which are parameters.
-/

namespace Verif.Model.FieldCoupling
open Verif.Model.JacobiCoeff Verif.Model.BasisReference Verif.Model.BasisEvaluation Verif.Model.BasisEvaluateBase
  Verif.Model.ExpansionLooping Verif.Model.CellId

/-- What the code reads of a Nektar++ expansion: `GetGeom()->GetGlobalID()`, `GetElmtId()`, `DetShapeType()`, `GetNumModes()` of each element of
`GetBase()`, `GetNcoeffs()`, and `GetCoeff_Offset` of the field for it. basis_evaluate_base.hpp:152-268. -/
structure Expansion where
  gid : ℤ
  elmtId : ℕ
  shape : Shape
  modes : List ℕ
  ncoeffs : ℕ
  offset : ℕ

/-- `build_geom_to_expansion_map`, geom_to_expansion_builder.hpp:31-48, with its assertion `ex == exp->GetElmtId()`. -/
def buildGeomToExp (exps : List Expansion) : Option IMap :=
  if exps.map (·.elmtId) = List.range exps.length then some (geomToExp (exps.map (·.gid))) else none

/-- The members of `BasisEvaluateBase` that the constructor fills: `dh_nummodes`, `dh_coeffs_offsets`, `map_shape_to_cells` (and its copies
`map_shape_to_dh_cells`, `map_shape_to_count`), `map_total_nummodes`, and `(max_n, max_alpha)`. basis_evaluate_base.hpp:88-134. -/
structure Base where
  nummodes : List ℕ
  offsets : List ℕ
  cells : Shape → List ℕ
  spaces : Shape → ℕ → ℕ
  dims : ℤ × ℤ

/-- The members before the loop over the cells, basis_evaluate_base.hpp:167-181. -/
def Base.init : Base where
  nummodes := []
  offsets := []
  cells := fun _ => []
  spaces := fun _ _ => 0
  dims := (1, 1)

/-- The body of the loop over the cells, basis_evaluate_base.hpp:183-226, for the next cell. `geom_to_exp[nektar_geom_id]` gives `0` for an id that is not in
the map. The entries of the two buffers are written in the order of the cells, which is modelled by appending. The loop over the directions
(lines 197-212) is done at once: it asserts that the numbers of modes are equal and takes the maxima of `GetTotNumModes()`, which is
`spaceSize` of the direction. -/
def Base.addCell (exps : List Expansion) (g2e : IMap) (s : Base) (gid : ℤ) : Option Base :=
  (exps[((g2e.at? gid).getD 0).toNat]?).bind fun e =>
  match e.modes with
  | [] => none
  | n :: rest =>
    if rest.all (fun m => m == n) then
      some {
        nummodes := s.nummodes ++ [n]
        offsets := s.offsets ++ [e.offset]
        cells := fun sh => if sh = e.shape then s.cells sh ++ [s.nummodes.length] else s.cells sh
        spaces := fun sh d => if sh = e.shape ∧ d < e.modes.length then max (s.spaces sh d) (spaceSize sh n d) else s.spaces sh d
        dims := BasisEvaluateBase.step s.dims (e.shape, n) }
    else none

/-- The six shapes, basis_evaluate_base.hpp:172-173. -/
def allShapes : List Shape := [.tri, .quad, .hex, .prism, .pyr, .tet]

/-- The constructor, basis_evaluate_base.hpp:149-273. `mapToNektar` is `cell_id_translation->map_to_nektar`, one entry for each NESO cell. The assertion on
the number of cells is at lines 248-249. -/
def Base.build (exps : List Expansion) (mapToNektar : List ℤ) : Option Base :=
  (buildGeomToExp exps).bind fun g2e =>
  (mapToNektar.foldlM (Base.addCell exps g2e) Base.init).bind fun s =>
  if (allShapes.map fun sh => (s.cells sh).length).sum = mapToNektar.length then some s else none

/-- The coefficient tables of the instance, basis_evaluate_base.hpp:251-265. -/
def Base.tables (K : Type*) [Field K] [DecidableEq K] (s : Base) : Tables K := JacobiCoeff.mk s.dims.1.toNat s.dims.2.toNat

/-- `get_ndim()` of the class of the shape. function_basis_projection.hpp:38-77. -/
def dimOf : Shape → ℕ
  | .tri | .quad => 2
  | _ => 3

/-- `extract_ref_positions_ptr` and `extract_ref_positions_dat`, basis_evaluate_base.hpp:28-50. -/
def extractRef {K : Type*} [Zero K] (ndim : ℕ) (ref : List K) : Option (K × K × K) :=
  let comp := fun d => if d < ndim then ref[d]? else some 0
  (comp 0).bind fun x => (comp 1).bind fun y => (comp 2).map fun z => (x, y, z)

/-- The three regions of the local memory of a work item, basis_evaluate_base.hpp:62-65 and 120-125. -/
def regions {α : Type*} (s : Base) (sh : Shape) (mem : List α) : List α × List α × List α :=
  (mem.take (s.spaces sh 0), (mem.drop (s.spaces sh 0)).take (s.spaces sh 1),
    (mem.drop (s.spaces sh 0 + s.spaces sh 1)).take (s.spaces sh 2))

/-- `sum_max_modes`, basis_evaluate_base.hpp:52-55. -/
def sumMaxModes (s : Base) (sh : Shape) : ℕ := s.spaces sh 0 + s.spaces sh 1 + s.spaces sh 2

/-- The shapes in the order in which their kernels are launched, function_basis_projection.hpp:233-249 and
function_basis_evaluation.hpp:226-241. -/
def launchShapes (ndim : ℕ) : List Shape := if ndim = 2 then [.quad, .tri] else [.hex, .pyr, .prism, .tet]

/-- A particle: the components of NESO_REFERENCE_POSITIONS and of the dat that is read or written. Read in function_basis_projection.hpp:78-114. -/
structure Particle (K : Type*) where
  ref : List K
  dat : List K

/-- The work items of all kernels of one call: the shape, the cell and the layer. For a particle group, the range of layers of the kernel is at least the number of
particles in the cell and layers beyond it do nothing (function_basis_projection.hpp:79-98); for a sub group, the particle loops over the cells visit
the members of the sub group (lines 151-180). `layers c` are the visited layers of cell `c`. -/
def workItems (s : Base) (ndim : ℕ) (layers : ℕ → List ℕ) : List (Shape × ℕ × ℕ) :=
  (launchShapes ndim).flatMap fun sh => (s.cells sh).flatMap fun c => (layers c).map fun l => (sh, c, l)

variable {K : Type*} [Field K] [LinearOrder K]

/-- The kernel of one work item of the projection, function_basis_projection.hpp:98-116 and 155-173: its atomic additions to `global_coeffs`. `parts c` are the particles
in cell `c`, `mem` the local memory of the work item. -/
def projectItem (tol : K) (s : Base) (parts : ℕ → List (Particle K)) (component : ℕ) (mem : List (Dbl K)) (w : Shape × ℕ × ℕ) :
    Option (List (ℕ × Dbl K)) :=
  (s.nummodes[w.2.1]?).bind fun n =>
  (s.offsets[w.2.1]?).bind fun off =>
  ((parts w.2.1)[w.2.2]?).bind fun p =>
  (extractRef (dimOf w.1) p.ref).bind fun xi =>
  (p.dat[component]?).bind fun value =>
  let r := regions s w.1 mem
  (projectParticle tol (s.tables K) w.1 n xi r.1 r.2.1 r.2.2 value).map fun adds => adds.map fun a => (off + a.1, a.2)

/-- `FunctionProjectBasis::project`, function_basis_projection.hpp:210-266: the buffer is zeroed and the kernels run. `rhs` is a possible result: the atomic
additions of all work items take effect in some order. -/
def ProjectsTo (tol : K) (s : Base) (ndim : ℕ) (parts : ℕ → List (Particle K)) (layers : ℕ → List ℕ) (component : ℕ)
    (mem : Shape × ℕ × ℕ → List (Dbl K)) (ncoeffs : ℕ) (rhs : List (Dbl K)) : Prop :=
  ∃ adds sched, (workItems s ndim layers).mapM (fun w => projectItem tol s parts component (mem w) w) = some adds ∧
    sched.Perm adds.flatten ∧ applyAdds (List.replicate ncoeffs (some 0)) sched = some rhs

/-- Is there an outcome other than a result: a work item or an addition outside of a buffer. No code: the outcomes of function_basis_projection.hpp:38-114. -/
def ProjectFails (tol : K) (s : Base) (ndim : ℕ) (parts : ℕ → List (Particle K)) (layers : ℕ → List ℕ) (component : ℕ)
    (mem : Shape × ℕ × ℕ → List (Dbl K)) (ncoeffs : ℕ) : Prop :=
  (workItems s ndim layers).mapM (fun w => projectItem tol s parts component (mem w) w) = none ∨
  ∃ adds sched, (workItems s ndim layers).mapM (fun w => projectItem tol s parts component (mem w) w) = some adds ∧
    sched.Perm adds.flatten ∧ applyAdds (List.replicate ncoeffs (some 0)) sched = none

/-- The kernel of one work item of the evaluation, function_basis_evaluation.hpp:97-120 and 155-178: the value that is stored in the component of its particle. -/
def evaluateItem (tol : K) (s : Base) (parts : ℕ → List (Particle K)) (coeffs : List K) (mem : List (Dbl K)) (w : Shape × ℕ × ℕ) :
    Option (Dbl K) :=
  (s.nummodes[w.2.1]?).bind fun n =>
  (s.offsets[w.2.1]?).bind fun off =>
  ((parts w.2.1)[w.2.2]?).bind fun p =>
  (extractRef (dimOf w.1) p.ref).bind fun xi =>
  let r := regions s w.1 mem
  evaluateParticle tol (s.tables K) w.1 n xi r.1 r.2.1 r.2.2 (coeffs.drop off)

/-- The values of a dat: cell, layer, component. Written in function_basis_evaluation.hpp:97-120. -/
abbrev Dat (K : Type*) := ℕ → ℕ → ℕ → Dbl K

/-- `k_output[cell][component][layer] = evaluation`, function_basis_evaluation.hpp:119. -/
def Dat.store (d : Dat K) (c l comp : ℕ) (v : Dbl K) : Dat K :=
  fun c' l' comp' => if c' = c ∧ l' = l ∧ comp' = comp then v else d c' l' comp'

/-- `FunctionEvaluateBasis::evaluate`, function_basis_evaluation.hpp:203-256: `after` is a possible result, with the stores of the work items in some order. -/
def EvaluatesTo (tol : K) (s : Base) (ndim : ℕ) (parts : ℕ → List (Particle K)) (layers : ℕ → List ℕ) (component : ℕ) (coeffs : List K)
    (mem : Shape × ℕ × ℕ → List (Dbl K)) (before after : Dat K) : Prop :=
  ∃ (vals sched : List (ℕ × ℕ × Dbl K)), (workItems s ndim layers).mapM
      (fun w => (evaluateItem tol s parts coeffs (mem w) w).map fun v => (w.2.1, w.2.2, v)) = some vals ∧
    sched.Perm vals ∧ after = sched.foldl (fun d (x : ℕ × ℕ × Dbl K) => d.store x.1 x.2.1 component x.2.2) before

/-- One particle of the host implementation, function_projection.hpp:318-347: `global_phi[offset + modex] += phi_j * quantity` for each mode. `collapsed` is
`LocCoordToLocCollapsed` of the Nektar++ expansion. -/
def hostParticle (collapsed : Shape → K × K × K → K × K × K) (e : Expansion) (numModes particleNdim component : ℕ) (phi : List K)
    (p : Particle K) : Option (List K) :=
  (extractRef particleNdim p.ref).bind fun xi =>
  (p.dat[component]?).bind fun quantity =>
  let eta := collapsed e.shape xi
  let evals := evalModes e.shape numModes eta.1 eta.2.1 eta.2.2
  forLoop e.ncoeffs (fun modex phi =>
    (evals[modex]?).bind fun phiJ =>
    (phi[e.offset + modex]?).bind fun old => Mem.write phi ((e.offset + modex : ℕ) : ℤ) (old + phiJ * quantity)) phi

/-- One cell of the host implementation, function_projection.hpp:268-348, with its assertions: the geometry has an expansion, the particles have at least as
many coordinates as the expansion, and the numbers of modes in the first `particle_ndim` directions are equal (a direction that the expansion does not
have is an access outside of `GetBasis`). -/
def hostCell (collapsed : Shape → K × K × K → K × K × K) (exps : List Expansion) (g2e : IMap) (particleNdim component : ℕ)
    (phi : List K) (cell : ℤ × List (Particle K)) : Option (List K) :=
  (g2e.at? cell.1).bind fun ex =>
  (exps[ex.toNat]?).bind fun e =>
  if dimOf e.shape ≤ particleNdim then
    (e.modes[0]?).bind fun numModes =>
    if (List.range particleNdim).all (fun d => e.modes[d]? == some numModes) then
      cell.2.foldlM (hostParticle collapsed e numModes particleNdim component) phi
    else none
  else none

/-- The right hand side of one field of `project_host`, function_projection.hpp:252-349. -/
def hostRhs (collapsed : Shape → K × K × K → K × K × K) (exps : List Expansion) (mapToNektar : List ℤ) (parts : ℕ → List (Particle K))
    (particleNdim component ncoeffs : ℕ) : Option (List K) :=
  (buildGeomToExp exps).bind fun g2e =>
  (mapToNektar.zipIdx.map fun x => (x.1, parts x.2)).foldlM (hostCell collapsed exps g2e particleNdim component) (List.replicate ncoeffs 0)

/-- The coefficients and the values at the quadrature points of a field. Written in function_projection.hpp:271-339. -/
structure FieldState (K : Type*) where
  coeffs : List K
  phys : List K

/-- Every value is finite, the assertions `std::isfinite`, function_projection.hpp:335 and 470. -/
def finite (l : List (Dbl K)) : Option (List K) := l.mapM id

/-- The end of `project` and of `project_host` for one field, function_projection.hpp:360-389 and 463-500: solve the mass matrix system, `SetCoeff`, `BwdTrans`,
`SetPhys`. -/
def finish (solve bwdTrans : List K → List K) (rhs : List (Dbl K)) : Option (FieldState K) :=
  (finite rhs).map fun b => ⟨solve b, bwdTrans (solve b)⟩

/-- A particle with all its dats. Read in function_projection.hpp:203-259. -/
structure FullParticle (K : Type*) where
  ref : List K
  dats : String → List K

/-- The particles as seen by a loop over the dat `sym`. function_projection.hpp:203-259. -/
def view (sym : String) (parts : ℕ → List (FullParticle K)) : ℕ → List (Particle K) :=
  fun c => (parts c).map fun p => ⟨p.ref, p.dats sym⟩

/-- The fields of a projection: for each one its solver of the mass matrix system and its backward transform. Used in function_projection.hpp:271-339. -/
structure FieldOps (K : Type*) where
  solve : List K → List K
  bwdTrans : List K → List K

/-- `FieldProject::project(group, syms, components)`, function_projection.hpp:386-500. `ncomp` is the number of components of the dat of a symbol in the group that the
instance was made with (`get_dat`, `none` if there is no such dat). `res` is a possible result for the fields. -/
def ProjectFieldsTo (tol : K) (s : Base) (ndim : ℕ) (fields : List (FieldOps K)) (ncomp : String → Option ℕ)
    (parts : ℕ → List (FullParticle K)) (layers : ℕ → List ℕ) (syms : List String) (components : List ℤ)
    (mem : Shape × ℕ × ℕ → List (Dbl K)) (ncoeffs : ℕ) (res : List (FieldState K)) : Prop :=
  syms.length = fields.length ∧ components.length = fields.length ∧
  (∀ x ∈ syms.zip components, ∃ n, ncomp x.1 = some n ∧ 0 ≤ x.2 ∧ x.2 < n) ∧
  ∃ rhss : List (List (Dbl K)),
    List.Forall₂ (fun (x : String × ℤ) rhs => ProjectsTo tol s ndim (view x.1 parts) layers x.2.toNat mem ncoeffs rhs)
      (syms.zip components) rhss ∧
    (fields.zip rhss).mapM (fun x => finish x.1.solve x.1.bwdTrans x.2) = some res

end Verif.Model.FieldCoupling
