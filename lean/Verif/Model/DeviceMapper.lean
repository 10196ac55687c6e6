import Verif.Model.MapChain

/-!
Model of the device mappers as objects: the constructors of `MapParticles2DRegular`, `MapParticles3DRegular` and `MapParticlesNewton`
(src/nektar_interface/particle_cell_mapping/map_particles_2d_regular.cpp, map_particles_3d_regular.cpp, include/.../map_particles_newton.hpp) create the lookup and fill the arrays of ids and ranks;
`map`, `map_initial` and `map_final` run the kernel with the test of the mapper.
-/

namespace Verif.Model.DeviceMapper
open Verif.Model.CoarseLookup Verif.Model.MapChain

variable {K : Type*} [Field K] [LinearOrder K] [FloorRing K]

/-- A geometry given to a mapper: global id, rank that owns it (for the local ones this rank) and `GetBoundingBox`. Read in map_particles_2d_regular.cpp:17-55, map_particles_newton.hpp:158-234. -/
structure Geom (K : Type*) where
  gid : ℤ
  rank : ℤ
  box : ℕ → K

/-- The members of a mapper. map_particles_2d_regular.cpp:17-55, map_particles_newton.hpp:53-100. -/
structure Mapper (K : Type*) where
  lookup : Lookup K
  cellIds : List (Option ℤ)
  ranks : List (Option ℤ)

/-- The constructors: map_particles_2d_regular.cpp:40-108, map_particles_3d_regular.cpp:40-101, map_particles_newton.hpp:150-225. `geoms` are the local, then the remote geometries. -/
def mkMapper (ndim : ℕ) (big : K) (scaling : K → ℤ) (geoms : List (Geom K)) : Option (Mapper K) :=
  (build ndim big scaling (geoms.map fun g => (g.gid, g.box))).bind fun L =>
    (mapperArrays L (geoms.map fun g => (g.gid, g.rank))).map fun a => ⟨L, a.1, a.2⟩

/-- The kernels; `test p k` is the test of the geometry with index `k` for the position `p`. map_particles_2d_regular.cpp:109-262, map_particles_newton.hpp:242-372. -/
def Mapper.stage (m : Mapper K) (test : (ℕ → K) → ℕ → Option (List K)) : Stage K := kernel m.lookup m.cellIds m.ranks test

end Verif.Model.DeviceMapper
