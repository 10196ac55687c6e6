import Verif.Model.FieldCoupling

/-!
Model of the launches of kernels which NESO writes itself: the ranges of work items, the test that a work item has a particle, and the part of the
local memory each work item uses. Files: /repo/include/nektar_interface/utility_sycl.hpp, function_basis_projection.hpp, function_basis_evaluation.hpp,
function_bary_evaluation.hpp, /repo/src/nektar_interface/particle_cell_mapping/map_particles_3d_regular.cpp.

An `nd_range` of SYCL is a list of work items; those of one group share the local memory and run in any interleaving. `std::size_t` is ℕ.
-/

namespace Verif.Model.Launch
open Verif.Model Verif.Model.FieldCoupling Verif.Model.ExpansionLooping

/-! ### Sizes -/

/-- `get_global_size`, utility_sycl.hpp:23-31; `none` is the division by zero. -/
def globalSize (N L : ℕ) : Option ℕ :=
  if L = 0 then none else
  let quot := N / L
  let rem := N % L
  some ((quot + if rem = 0 then 0 else 1) * L)

/-- `NESO_VECTOR_LENGTH`, utility_sycl.hpp:51-57. -/
def vectorLength : ℕ := 4

/-- `NESO_VECTOR_BLOCK_SIZE`, utility_sycl.hpp:59-63. -/
def blockSize : ℕ := vectorLength * 8

/-- `pad_to_vector_length`, utility_sycl.hpp:72-79. -/
def padToVectorLength (L : ℕ) : ℕ :=
  let rem := L % vectorLength
  if rem = 0 then L else L + (vectorLength - rem)

/-! ### Work items -/

/-- A work item of a two dimensional range whose groups are `1 × local` (or `local × 1`): the index in the direction without groups, the group and the index in
the group. function_basis_evaluation.hpp:78-80, map_particles_3d_regular.cpp:160-161. -/
structure Item where
  row : ℕ
  group : ℕ
  localId : ℕ

/-- `get_global_id` in the direction with groups. function_basis_evaluation.hpp:95, map_particles_3d_regular.cpp:173. -/
def Item.globalId (L : ℕ) (w : Item) : ℕ := w.group * L + w.localId

/-- The work items of an `nd_range` with `rows` rows, `M` items in the direction with groups of `L`: SYCL requires that `L` divides `M`.
function_basis_evaluation.hpp:78-91, map_particles_3d_regular.cpp:159-171. -/
def items (rows M L : ℕ) : List Item :=
  (List.range rows).flatMap fun r => (List.range (M / L)).flatMap fun g => (List.range L).map fun l => ⟨r, g, l⟩

/-- The particles (cell, layer) for which the kernel of `evaluate_inner` and `project_inner` does something, in the order of the work items:
function_basis_evaluation.hpp:49-54, 75-102, function_basis_projection.hpp:47-52, 72-100. `cells` are the cells of the shape, `npart` the numbers of particles, `nrowMax` is `get_nrow_max()`. -/
def basisLaunch (cells : List ℕ) (npart : ℕ → ℕ) (nrowMax L : ℕ) : Option (List (ℕ × ℕ)) :=
  if cells.length = 0 then some [] else
  (globalSize nrowMax L).map fun M =>
    (items cells.length M L).filterMap fun w =>
      (cells[w.row]?).bind fun cellx =>
        let layerx := w.globalId L
        if layerx < npart cellx then some (cellx, layerx) else none

/-- The particles visited by `MapParticles3DRegular::map`, map_particles_3d_regular.cpp:145-175, with `map_cell = -1` for all cells. -/
def regularLaunch (mapCell : ℤ) (ncells : ℕ) (npart : ℕ → ℕ) (nrowMax L : ℕ) : Option (List (ℕ × ℕ)) :=
  let maxCellOccupancy := if mapCell > -1 then npart mapCell.toNat else nrowMax
  let cellOffset := if mapCell > -1 then mapCell.toNat else 0
  (globalSize maxCellOccupancy L).map fun M =>
    let cellCount := if mapCell > -1 then 1 else ncells
    (items cellCount M L).filterMap fun w =>
      let cellx := w.row + cellOffset
      let layerx := w.globalId L
      if layerx < npart cellx then some (cellx, layerx) else none

/-! ### Local memory -/

/-- The first element of the local memory of a work item: function_basis_evaluation.hpp:100-101 with the stride `max_total_nummodes_sum`, function_bary_evaluation.hpp:239-240
with the stride `local_mem_stride`. -/
def scratchStart (stride localId : ℕ) : ℕ := localId * stride

/-- The number of elements allocated for a group: function_basis_evaluation.hpp:74, 83-84, function_bary_evaluation.hpp:224-225. -/
def scratchSize (stride L : ℕ) : ℕ := stride * L

/-- `local_mem_stride` of the evaluation in blocks: function_bary_evaluation.hpp:212-213, 221-222. -/
def blockStride (ndim maxNumPhys numFunctions : ℕ) : ℕ := (ndim * maxNumPhys + numFunctions) * blockSize

/-- The regions (start and length) of the local memory of a work item of the evaluation in blocks, relative to its first element:
`evaluations`, then one `div_space` per dimension. function_bary_evaluation.hpp:239-246; the lengths are what `preprocess_weights_block` and
`compute_dir_210_interlaced_block` use at most. -/
def blockRegions (ndim maxNumPhys numFunctions : ℕ) : List (ℕ × ℕ) :=
  (0, blockSize * numFunctions) ::
    (List.range ndim).map fun d => (blockSize * numFunctions + d * (blockSize * maxNumPhys), blockSize * maxNumPhys)

/-! ### Execution of a group -/

/-- A step of a work item: it changes its registers `R` and the part of the local memory with its `S` elements. function_basis_evaluation.hpp:97-120. -/
abbrev Step (R α : Type) (S : ℕ) := R × (Fin S → α) → R × (Fin S → α)

/-- The state of a group: the registers of its work items and the shared local memory. function_basis_evaluation.hpp:82-101. -/
structure GroupState (R α : Type) where
  regs : ℕ → R
  mem : ℕ → α

/-- What work item `i` sees of the local memory. function_basis_evaluation.hpp:100-101. -/
def GroupState.slice {R α : Type} (S : ℕ) (s : GroupState R α) (i : ℕ) : Fin S → α := fun k => s.mem (scratchStart S i + k)

/-- One step of work item `i`. function_basis_evaluation.hpp:97-120. -/
def GroupState.step {R α : Type} {S : ℕ} (s : GroupState R α) (x : ℕ × Step R α S) : GroupState R α :=
  let out := x.2 (s.regs x.1, s.slice S x.1)
  { regs := fun j => if j = x.1 then out.1 else s.regs j
    mem := fun a => if h : scratchStart S x.1 ≤ a ∧ a - scratchStart S x.1 < S then out.2 ⟨a - scratchStart S x.1, h.2⟩ else s.mem a }

end Verif.Model.Launch
