import Verif.Model.CartesianMesh

/-!
The index arithmetic of NESO-Particles' `MeshHierarchy` (external code, modelled by its contract) and
`mesh_tuple_to_mh_tuple` of particle_mesh_interface.hpp.

A mesh hierarchy is a Cartesian grid of `dims` coarse cells, each divided into `ncells_dim_fine` cells per dimension. A cell is given by its
index per dimension, by the tuple (coarse_x, …, fine_x, …) or by its linear index.
-/

namespace Verif.Model.MeshHierarchy
open Verif.Model.CartesianMesh

/-- `MeshHierarchy` of NESO-Particles, read in particle_mesh_interface.hpp:88-181. -/
structure MH where
  ndim : ℕ
  dims : ℕ → ℤ
  /-- `ncells_dim_fine` -/
  ncf : ℤ

/-- `tuple_to_linear_global` (contract): coarse index times the number of fine cells, plus the fine index, both with x fastest. Called in particle_mesh_interface.hpp:215-225. -/
def tupleToLinearGlobal (m : MH) (t : ℕ → ℤ) : ℤ :=
  linearIndex m.ndim m.dims t * m.ncf ^ m.ndim + linearIndex m.ndim (fun _ => m.ncf) fun d => t (d + m.ndim)

/-- The digits of a linear index. No code (NESO-Particles). -/
def digits (counts : ℕ → ℤ) : ℤ → ℕ → ℤ
  | i, 0 => i % counts 0
  | i, d + 1 => digits (fun e => counts (e + 1)) (i / counts 0) d

/-- `linear_to_tuple_global` (contract). Called in halo_extension.cpp:55-65. -/
def linearToTupleGlobal (m : MH) (i : ℤ) : ℕ → ℤ := fun d =>
  if d < m.ndim then digits m.dims (i / m.ncf ^ m.ndim) d else digits (fun _ => m.ncf) (i % m.ncf ^ m.ndim) (d - m.ndim)

/-- `ncells_global` (contract). Called in particle_mesh_interface.hpp:580-621. -/
def ncellsGlobal (m : MH) : ℤ := cellCount m.ndim m.dims * m.ncf ^ m.ndim

/-- The number of cells in a dimension: `mesh_hierarchy->dims[dimx] * ncells_dim_fine`, halo_extension.cpp:40-43 and
particle_mesh_interface.hpp:183-184. -/
def cellCounts (m : MH) (d : ℕ) : ℤ := m.dims d * m.ncf

/-- `mesh_tuple_to_mh_tuple`, particle_mesh_interface.hpp:92-102. `std::div` truncates. -/
def meshTupleToMhTuple (m : MH) (index : ℕ → ℤ) : ℕ → ℤ := fun d =>
  if d < m.ndim then (index d).tdiv m.ncf else (index (d - m.ndim)).tmod m.ncf

end Verif.Model.MeshHierarchy
