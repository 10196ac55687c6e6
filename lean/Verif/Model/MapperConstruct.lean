import Mathlib.Algebra.Field.Defs
import Mathlib.Order.Defs.LinearOrder
import Verif.Model.GeomContainer
import Verif.Model.ParameterStore

/-!
Model of the constructors of the particle to cell mappers: which elements each mapper is given, and the settings read from the configuration.
include/nektar_interface/particle_cell_mapping/map_particles_newton.hpp:120-236, src/nektar_interface/particle_cell_mapping/{map_particles_2d.cpp:5-57,
map_particles_2d_regular.cpp:6-45, map_particles_3d.cpp:5-118, map_particles_3d_regular.cpp:4-45, map_particles_host.cpp:12-20,
nektar_graph_local_mapper.cpp:15-33}, particle_cell_mapping_common.hpp:223-263.

What the mappers do with the elements is modelled in `Model/DeviceMapper.lean` and `Model/MapChain.lean`. `none` is a failed assertion or a thrown exception.
-/

namespace Verif.Model.MapperConstruct
open Verif.Model.GeomContainer Verif.Model.ParameterStore Verif.Model.RemoteGeom

variable {K : Type}

/-- map_particles_newton.hpp:136-146: the keys read. -/
def accessed {α : Type} : Outcome α → Option α
  | .ok v => some v
  | .badVariantAccess => none

/-- The settings of a `MapParticlesNewton`. map_particles_newton.hpp:60-66, 134-146. -/
structure NewtonSettings (K : Type) where
  tol : K
  maxIteration : ℤ
  containedTol : K
  gridSize : ℤ

/-- Lines 135-146 and 226-230 of map_particles_newton.hpp. `numModes` is the maximum of `EvalBasisNumModesMax` over the elements, `trunc` the conversion
to `int`. Both ends of the range of the grid size are read from the key "MapParticlesNewton/grid_size_min". -/
def newtonSettings [DivisionRing K] (trunc : K → ℤ) (config : Store K) (numModes : ℕ) : Option (NewtonSettings K) :=
  (accessed (getReal config "MapParticlesNewton/newton_tol" (1 / 10 ^ 8))).bind fun tol =>
  (accessed (getInt config "MapParticlesNewton/newton_max_iteration" 51)).bind fun maxIteration =>
  (accessed (getReal config "MapParticlesNewton/contained_tol" tol)).bind fun containedTol =>
  (accessed (getReal config "MapParticlesNewton/num_modes_factor" 1)).bind fun factor =>
  (accessed (getInt config "MapParticlesNewton/grid_size_min" 2)).bind fun gridSizeMin =>
  (accessed (getInt config "MapParticlesNewton/grid_size_min" 4)).map fun gridSizeMax =>
  ⟨tol, maxIteration, containedTol, min (max (trunc (numModes * factor)) gridSizeMin) gridSizeMax⟩

/-- A mapper: the elements of the rank, the elements of other ranks, and the settings. map_particles_newton.hpp:120-130. -/
structure Mapper (L R S : Type) where
  loc : List (ℤ × L)
  rem : List R
  settings : S

/-! ### Two dimensions -/

/-- map_particles_2d.cpp:28-57. -/
inductive Shape2 where
  | tri
  | quad
  deriving DecidableEq

/-- What is read of a `Geometry2D`. Read in map_particles_2d.cpp:13-57. -/
structure Geom2 where
  gtype : GType
  shape : Shape2
  numModes : ℕ
  tag : ℕ
  deriving DecidableEq

/-- `RemoteGeom2D`. remote_geom_2d.hpp:15-40. -/
structure Remote2 where
  rank : ℤ
  id : ℤ
  geom : Geom2
  deriving DecidableEq

/-- The 2D geometry maps of a `MeshGraph` and the elements of other ranks a rank knows. Read in map_particles_2d.cpp:13-57. -/
structure Mesh2 where
  tri : List (ℤ × Geom2)
  quad : List (ℤ × Geom2)
  remoteTri : List Remote2
  remoteQuad : List Remote2

/-- `get_all_elements_2d`, geometry_transport_2d.cpp:11-24. -/
def getAllElements2d (m : Mesh2) : List (ℤ × Geom2) :=
  m.quad.foldl (fun l e => mapAssign l e.1 e.2) (m.tri.foldl (fun l e => mapAssign l e.1 e.2) [])

/-- `count_geometry_types`, particle_cell_mapping_common.hpp:223-237 and 250-263. -/
def countTypes : List GType → ℕ × ℕ → Option (ℕ × ℕ)
  | [], c => some c
  | t :: l, c =>
    if t = .eRegular then countTypes l (c.1 + 1, c.2)
    else if t = .eDeformed then countTypes l (c.1, c.2 + 1)
    else none

/-- `MapParticles2D`: the counts, the mapper for deformed elements, and the mapper for regular elements with its tolerance. map_particles_2d.hpp:41-47. -/
structure Mappers2D (K : Type) where
  countRegular : ℕ
  countDeformed : ℕ
  newtonQuad : Option (Mapper Geom2 Remote2 (Option (NewtonSettings K)))
  regular : Mapper Geom2 Remote2 K

/-- The maximum of the numbers of modes. map_particles_newton.hpp:222-231. -/
def maxModes (l : List ℕ) : ℕ := l.foldl max 0

/-- The constructor of a `MapParticlesNewton` for elements with these numbers of modes. The configuration is read first; the grid size is only set if there is an element. map_particles_newton.hpp:120-234. -/
def newton [DivisionRing K] {L R : Type} (trunc : K → ℤ) (config : Store K) (modes : List ℕ) (loc : List (ℤ × L)) (rem : List R) :
    Option (Mapper L R (Option (NewtonSettings K))) :=
  (newtonSettings trunc config (maxModes modes)).map fun s => ⟨loc, rem, if loc.length + rem.length > 0 then some s else none⟩

/-- The constructor of `MapParticles2DRegular`, map_particles_2d_regular.cpp:12-40. -/
def regular2D [DivisionRing K] (config : Store K) (m : Mesh2) : Option (Mapper Geom2 Remote2 K) :=
  (accessed (getReal config "MapParticles2DRegular/tol" (1 / 10 ^ 12))).map fun tol =>
    ⟨(getAllElements2d m).filter (fun e => e.2.gtype = .eRegular), (m.remoteTri ++ m.remoteQuad).filter (fun r => r.geom.gtype = .eRegular), tol⟩

/-- The constructor of `MapParticles2D`, map_particles_2d.cpp:5-57. -/
def construct2D [DivisionRing K] (trunc : K → ℤ) (config : Store K) (m : Mesh2) : Option (Mappers2D K) :=
  let geomsLocal := getAllElements2d m
  (countTypes (geomsLocal.map fun e => e.2.gtype) (0, 0)).bind fun c =>
  (countTypes (m.remoteTri.map fun r => r.geom.gtype) c).bind fun c =>
  (countTypes (m.remoteQuad.map fun r => r.geom.gtype) c).bind fun c =>
  (if c.2 > 0 then
    let quadsLocal := geomsLocal.filter fun e => e.2.gtype = .eDeformed ∧ e.2.shape = .quad
    let quadsRemote := m.remoteQuad.filter fun r => r.geom.gtype = .eDeformed ∧ r.geom.shape = .quad
    (newton trunc config (quadsLocal.map (fun e => e.2.numModes) ++ quadsRemote.map (fun r => r.geom.numModes)) quadsLocal quadsRemote).map some
  else some none).bind fun n =>
  (regular2D config m).map fun r => ⟨c.1, c.2, n, r⟩

/-! ### Three dimensions -/

/-- `MapParticles3D`. map_particles_3d.hpp:34-72. -/
structure Mappers3D (K : Type) where
  regular : Option (Mapper Geom Remote K)
  tet : Option (Mapper Geom Remote (Option (NewtonSettings K)))
  prism : Option (Mapper Geom Remote (Option (NewtonSettings K)))
  hex : Option (Mapper Geom Remote (Option (NewtonSettings K)))
  pyr : Option (Mapper Geom Remote (Option (NewtonSettings K)))
  nonLinear : Option (Mapper Geom Remote (Option (NewtonSettings K)))
  hostTol : K

/-- `deformed_non_linear.push_back` for a list. map_particles_3d.cpp:36-47. -/
def pushTypes : List Push → Types → Option Types
  | [], t => some t
  | p :: l, t => (t.pushBack p).bind (pushTypes l)

/-- The container of map_particles_3d.cpp:23-49. -/
def container3D (allGeneric : Bool) (g : Graph) (remote : List Remote) : Option Container :=
  if !allGeneric then assemble g remote {}
  else (pushTypes ((getAllElements3d g).map fun e => .loc e.1 e.2) {}).bind fun t =>
    (pushTypes (remote.map .rem) t).map fun t => { deformedNonLinear := t }

/-- `MapParticles3DRegular`, map_particles_3d_regular.cpp:4-45. -/
def regular3D [DivisionRing K] (config : Store K) (g : Graph) (remote : List Remote) : Option (Mapper Geom Remote K) :=
  (accessed (getReal config "MapParticles3DRegular/tol" 0)).map fun tol =>
    ⟨(getAllElements3d g).filter (fun e => e.2.gtype = .eRegular), remote.filter (fun r => r.geom.gtype = .eRegular), tol⟩

/-- The numbers of modes of the elements of a member of the container: `EvalBasisNumModesMax`. map_particles_newton.hpp:222-231. -/
def modesOf (c : LocalRemote) : List ℕ := c.loc.map (fun e => maxModes e.2.numModes) ++ c.rem.map (fun r => maxModes r.geom.numModes)

/-- A Newton mapper that is only made if there are elements, map_particles_3d.cpp:57-86. -/
def newtonIf [DivisionRing K] (trunc : K → ℤ) (config : Store K) (c : LocalRemote) : Option (Option (Mapper Geom Remote (Option (NewtonSettings K)))) :=
  if c.size > 0 then (newton trunc config (modesOf c) c.loc c.rem).map some else some none

/-- `lambda_push` for the four shapes, map_particles_3d.cpp:97-108. -/
def merge (t : Types) : LocalRemote :=
  let push := fun (c : LocalRemote) (lr : LocalRemote) => (⟨lr.loc.foldl (fun m e => mapAssign m e.1 e.2) c.loc, c.rem ++ lr.rem⟩ : LocalRemote)
  push (push (push (push {} t.tet) t.pyr) t.prism) t.hex

/-- The constructor of `MapParticles3D`, map_particles_3d.cpp:5-118. -/
def construct3D [DivisionRing K] (trunc : K → ℤ) (config : Store K) (g : Graph) (remote : List Remote) : Option (Mappers3D K) :=
  (accessed (getInt config "MapParticles3D/all_generic_newton" 0)).bind fun allGeneric =>
  (container3D (decide (allGeneric ≠ 0)) g remote).bind fun c =>
  (if c.regular.size > 0 then (regular3D config g remote).map some else some none).bind fun regular =>
  (newtonIf trunc config c.deformedLinear.tet).bind fun tet =>
  (newtonIf trunc config c.deformedLinear.prism).bind fun prism =>
  (newtonIf trunc config c.deformedLinear.hex).bind fun hex =>
  (newtonIf trunc config c.deformedLinear.pyr).bind fun pyr =>
  (if c.deformedNonLinear.size > 0 then
    (newton trunc config (modesOf (merge c.deformedNonLinear)) (merge c.deformedNonLinear).loc (merge c.deformedNonLinear).rem).map some
   else some none).bind fun nonLinear =>
  (accessed (getReal config "MapParticlesHost/tol" 0)).map fun hostTol => ⟨regular, tet, prism, hex, pyr, nonLinear, hostTol⟩

/-- `NektarGraphLocalMapper`, nektar_graph_local_mapper.cpp:15-33. -/
def construct [DivisionRing K] (trunc : K → ℤ) (config : Store K) (ndim : ℕ) (m : Mesh2) (g : Graph) (remote : List Remote) : Option (Mappers2D K ⊕ Mappers3D K) :=
  if ndim = 2 then (construct2D trunc config m).map .inl
  else if ndim = 3 then (construct3D trunc config g remote).map .inr
  else none

end Verif.Model.MapperConstruct
