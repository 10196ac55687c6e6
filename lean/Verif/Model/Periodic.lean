import Verif.Model.Trunc
import Mathlib.Algebra.Order.Ring.Abs

/-! Model of `NektarCartesianPeriodic`, src/nektar_interface/particle_boundary_conditions.cpp:5-76, in exact arithmetic. -/

namespace Verif.Model.Periodic
open Verif.Model

variable {K : Type*} [Field K] [LinearOrder K] [FloorRing K]

/-- `fmod(x, y)`: the remainder of the division truncated toward zero; it has the sign of `x`. Called in particle_boundary_conditions.cpp:68-69. -/
def fmod (x y : K) : K := x - truncZ (x / y) * y

/-- The kernel for one component, particle_boundary_conditions.cpp:62-70 (`INT` is a 64 bit integer; its overflow is not modelled). -/
def wrap (origin extent p : K) : K :=
  let pos := p - origin
  let n_extent_offset_real := |pos|
  let n_extent_offset_int := truncZ (n_extent_offset_real + 2)
  let pos_fmod := fmod (pos + n_extent_offset_int * extent) extent
  pos_fmod + origin

/-- The loop over the components, particle_boundary_conditions.cpp:60-72, of a particle position with any number of components. -/
def kernelLoop (origin extent : ℕ → K) : ℕ → (ℕ → K) → (ℕ → K)
  | 0, p => p
  | d + 1, p => let p := kernelLoop origin extent d p
    fun i => if i = d then wrap (origin d) (extent d) (p d) else p i

/-- A vertex: its coordinates, `GetCoords`. particle_boundary_conditions.cpp:10-38. -/
structure Vertex (K : Type*) where
  x : K
  y : K
  z : K

/-- `double a[3]`. particle_boundary_conditions.cpp:10-38. -/
structure Arr3 (K : Type*) where
  a0 : K
  a1 : K
  a2 : K

/-- The loop over the three components, particle_boundary_conditions.cpp:24-33. -/
def Arr3.map2 {K : Type*} (f : K → K → K) (a b : Arr3 K) : Arr3 K := ⟨f a.a0 b.a0, f a.a1 b.a1, f a.a2 b.a2⟩

/-- The loop over the vertices of one rank, particle_boundary_conditions.cpp:17-33. `dblMax` is `numeric_limits<double>::max()` and `dblMin` is
`numeric_limits<double>::min()`, the smallest positive normal number. -/
def localExtents (dblMax dblMin : K) (vs : List (Vertex K)) : Arr3 K × Arr3 K :=
  vs.foldl (fun s v =>
    (⟨min s.1.a0 v.x, min s.1.a1 v.y, min s.1.a2 v.z⟩, ⟨max s.2.a0 v.x, max s.2.a1 v.y, max s.2.a2 v.z⟩))
    (⟨dblMax, dblMax, dblMax⟩, ⟨dblMin, dblMin, dblMin⟩)

/-- `MPI_Allreduce` with an operation on the values of all ranks; there is at least one rank. particle_boundary_conditions.cpp:10-38. -/
def allreduce (f : K → K → K) (first : Arr3 K) (others : List (Arr3 K)) : Arr3 K := others.foldl (Arr3.map2 f) first

/-- The constructor up to the extents, particle_boundary_conditions.cpp:15-42: the members `global_origin` and `global_extent` on every rank, from the
vertices of the first rank and of the other ranks. -/
def globalExtents (dblMax dblMin : K) (first : List (Vertex K)) (others : List (List (Vertex K))) : Arr3 K × Arr3 K :=
  let global_origin := allreduce min (localExtents dblMax dblMin first).1 (others.map fun v => (localExtents dblMax dblMin v).1)
  let global_extent := allreduce max (localExtents dblMax dblMin first).2 (others.map fun v => (localExtents dblMax dblMin v).2)
  (global_origin, ⟨global_extent.a0 - global_origin.a0, global_extent.a1 - global_origin.a1, global_extent.a2 - global_origin.a2⟩)

end Verif.Model.Periodic
