import Verif.Model.CoarseLookup

/-!
Model of `MapParticles2D::map` and `MapParticles3D::map` (src/nektar_interface/particle_cell_mapping/map_particles_2d.cpp, map_particles_3d.cpp), of
`MapParticlesCommon::check_map` (map_particles_common.cpp) and of `MapParticlesHost::map` (map_particles_host.cpp).
The particles of a group are given per cell. The loops of NESO-Particles apply a kernel to all particles, or to those of a cell.
-/

namespace Verif.Model.MapChain
open Verif.Model.CoarseLookup

variable {K : Type*}

/-- The particles of each cell. The particles read in map_particles_2d.cpp:59-85. -/
abbrev Cells (K : Type*) := List (List (Particle K))

/-- A kernel. `none` is undefined behaviour. map_particles_2d.cpp:63, 77, map_particles_3d.cpp:124-145. -/
abbrev Stage (K : Type*) := Particle K → Option (Particle K)

/-- Is the cell executed: `loop->execute(map_cell)` if `map_cell > -1`, else `loop->execute()`. map_particles_newton.hpp:365-372, map_particles_2d_regular.cpp:255-262. -/
def selected (mapCell : ℤ) (i : ℕ) : Bool := decide (mapCell < 0) || decide (mapCell = i)

/-- A particle loop. map_particles_newton.hpp:365-372, map_particles_2d_regular.cpp:255-262. -/
def runFrom (mapCell : ℤ) (f : Stage K) : ℕ → Cells K → Option (Cells K)
  | _, [] => some []
  | i, c :: g => (if selected mapCell i then c.mapM f else some c).bind fun c' => (runFrom mapCell f (i + 1) g).map fun g' => c' :: g'

/-- A particle loop over all cells, map_particles_newton.hpp:365-372. -/
def run (mapCell : ℤ) (f : Stage K) (g : Cells K) : Option (Cells K) := runFrom mapCell f 0 g

/-- A stage that may be absent (a null pointer or a count of zero). map_particles_2d.cpp:61, 67, map_particles_3d.cpp:122-145. -/
def runOpt (mapCell : ℤ) (f : Option (Stage K)) (g : Cells K) : Option (Cells K) :=
  match f with
  | none => some g
  | some f => run mapCell f g

/-- `check_map`, map_particles_common.cpp:10-33: true if there is a particle that is not binned. -/
def checkMap (mapCell : ℤ) (g : Cells K) : Bool :=
  (g.zipIdx).any fun c => selected mapCell c.2 && c.1.any fun q => !decide (q.rank > -1)

/-- `MapParticles2D::map`, map_particles_2d.cpp:59-104. `none` is a failed assertion or undefined behaviour. -/
def map2D (regular : Option (Stage K)) (deformed : Option (Stage K × Stage K)) (mapCell : ℤ) (g : Cells K) : Option (Cells K) :=
  (runOpt mapCell regular g).bind fun g =>
  (match deformed with
    | none => some g
    | some d => if checkMap mapCell g then (run mapCell d.1 g).bind fun g => run mapCell d.2 g else some g).bind fun g =>
  if mapCell > -1 then if checkMap mapCell g then none else some g else some g

/-- `MapParticles3D::map`, map_particles_3d.cpp:118-200. `newton` are the initial and final stages of the five Newton mappers. -/
def map3D (regular : Option (Stage K)) (newton : List (Option (Stage K × Stage K))) (host : Stage K) (mapCell : ℤ) (g : Cells K) : Option (Cells K) :=
  (runOpt mapCell regular g).bind fun g =>
  (newton.foldlM (fun g (s : Option (Stage K × Stage K)) => runOpt mapCell (s.map Prod.fst) g) g).bind fun g =>
  (newton.foldlM (fun g (s : Option (Stage K × Stage K)) => runOpt mapCell (s.map Prod.snd) g) g).bind fun g =>
  if mapCell > -1 then
    (if checkMap mapCell g then run (-1) host g else some g).bind fun g =>
    if checkMap (-1) g then none else some g
  else some g

/-- A geometry of the host mapper: its rank and id, and the reference position if it contains a point. map_particles_host.cpp:112-167. -/
structure HostGeom (K : Type*) where
  rank : ℤ
  id : ℤ
  contains : (ℕ → K) → Option (List K)

/-- The loops over geometries, map_particles_host.cpp:112-186: the first that contains the point is taken. -/
def hostSearch (q : Particle K) : List (HostGeom K) → Option (Particle K)
  | [] => none
  | h :: l => match h.contains q.pos with
    | some ref => some { q with rank := h.rank, cell := h.id, ref := ref }
    | none => hostSearch q l

/-- `MapParticlesHost::map` for a particle, lines 85-192: the local elements given by the graph for the point, with the rank of this process; then the
remote geometries (in 2D the triangles, then the quads). -/
def hostStage (localGeoms : (ℕ → K) → List (HostGeom K)) (remotes : List (List (HostGeom K))) : Stage K := fun q =>
  if q.rank < 0 then
    match hostSearch q (localGeoms q.pos) with
    | some q' => some q'
    | none => match remotes.findSome? (hostSearch q) with
      | some q' => some q'
      | none => some q
  else some q

end Verif.Model.MapChain
