import Verif.Model.WallRun
import Verif.Spec.Intersections
import Verif.Spec.Collections
import Verif.Spec.Reflection

/-! The walls of a mesh that is spread over ranks, and what is to be reported for the step of a particle. -/

namespace Verif.Spec.WallRun
open Verif.Model Verif.Model.MeshHierarchy Verif.Model.Claims Verif.Model.CompositeCollections Verif.Model.LinePlane
open Verif.Model.CompositeIntersection Verif.Model.WallRun Verif.Spec Verif.Spec.Reflection

variable {K : Type} [Field K] [LinearOrder K]

/-- The face `r` is a wall of the boundary group `label`: it is in the mesh of some rank, in a composite of the group. -/
def IsWall (groups : List (ℤ × List ℤ)) (meshes : List (RankMesh K)) (label : ℤ) (r : RG K) : Prop :=
  (∃ cs, (label, cs) ∈ groups ∧ r.composite ∈ cs) ∧ (∃ mesh ∈ meshes, ∃ gs, mesh.graph r.composite = some gs ∧ r.geom ∈ gs) ∧ r.id = r.geom.id

/-- The step from `pp` to `p` reaches the wall `r` at `i` from inside of the mesh: `i` is on the step, in the bounding box of the wall and in the
bounding box of an element of some rank, and an earlier point of the step is in the interior of this box. -/
def ReachedFromInside (ndim : ℕ) (meshes : List (RankMesh K)) (r : RG K) (pp p : ℕ → K) (i : V3 K) : Prop :=
  ∃ s, 0 ≤ s ∧ s ≤ 1 ∧ (∀ d < ndim, (coords ndim i)[d]? = some (along pp p s d)) ∧
    (∀ d < ndim, r.geom.lo d ≤ along pp p s d ∧ along pp p s d ≤ r.geom.hi d) ∧
    ∃ mesh ∈ meshes, ∃ e ∈ mesh.elems, (∀ d < ndim, e.lo d ≤ along pp p s d ∧ along pp p s d ≤ e.hi d) ∧
      ∃ s', 0 ≤ s' ∧ s' < s ∧ ∀ d < ndim, e.lo d < along pp p s' d ∧ along pp p s' d < e.hi d

/-- The grid, the mesh over all ranks, the boundary groups, and what the libraries do. -/
structure WorldOk [FloorRing K] (m : MHGeom K) (cart : ℕ → K → ℤ) (owner : ℤ → ℤ) (groups : List (ℤ × List ℤ)) (meshes : List (RankMesh K))
    (data : ℤ → List (RG K)) : Prop where
  grid : GridGeom m
  ndim : m.ndim = 2 ∨ m.ndim = 3
  cart : CartOk m cart
  /-- A cell has an owner if a rank claimed it. -/
  owned : ∀ c, owner c ≠ mask ↔ ∃ mesh ∈ meshes, c ∈ claimedBy m mesh
  /-- The container holds for a cell what the ranks gave for it. -/
  container : ∀ group given, setup m owner groups meshes = some (group, given) → ∀ c, (data c).Perm (given.flatMap fun f => f c)
  /-- A composite is listed once. -/
  once : (groups.flatMap Prod.snd).Nodup
  /-- The elements are in the grid. -/
  elems : ∀ mesh ∈ meshes, ∀ e ∈ mesh.elems, ∀ d < m.ndim, m.origin d ≤ e.lo d ∧ e.hi d ≤ m.origin d + ((m.dims d * m.ncf : ℤ) : K) * m.width
  /-- The walls have a boundary shape, a box that is not a point and a normal. -/
  walls : ∀ label r, IsWall groups meshes label r → BoundaryShape m.ndim r.geom.shape ∧ (∀ d < m.ndim, r.geom.lo d ≤ r.geom.hi d) ∧
    (∃ d < m.ndim, r.geom.lo d < r.geom.hi d) ∧ r.geom.normal.length = m.ndim
  /-- A global id is the id of one face in one composite. -/
  ids : ∀ l l' r r', IsWall groups meshes l r → IsWall groups meshes l' r' → r.id = r'.id → r = r'

/-- The particles of a rank in a call: in elements of the rank, with different local indices, the previous positions in the grid, and the cells of the
positions given by `int`s. -/
def ParticlesOk (m : MHGeom K) (cart : ℕ → K → ℤ) (mesh : RankMesh K) (x : RankIn K) : Prop :=
  (x.particles.map Particle.index).Nodup ∧ ∀ q ∈ x.particles, q.index < x.npart ∧ q.cell < mesh.elems.length ∧
    (InGrid m.toMH fun d => cart d (q.pp d)) ∧
    ∀ d < m.ndim, INT_MIN ≤ cart d (q.p d) ∧ cart d (q.p d) ≤ INT_MAX

/-- A call is made by all ranks, with particles that are in order. -/
def CallOk (m : MHGeom K) (cart : ℕ → K → ℤ) (meshes : List (RankMesh K)) (call : List (RankIn K)) : Prop :=
  call.length = meshes.length ∧ ∀ (i : ℕ) x mesh, call[i]? = some x → meshes[i]? = some mesh → RankInOk m.toMH cart mesh x ∧ ParticlesOk m cart mesh x

/-- What is to be reported for the particle `q` when the walls are those of all ranks: the face `r` of the group `label`, at `i`. No wall that is
reached from inside is nearer. -/
def ReportedHit (m : MHGeom K) (T : Tests K) (groups : List (ℤ × List ℤ)) (meshes : List (RankMesh K)) (q : Particle K) (label : ℤ) (r : RG K) (i : V3 K) : Prop :=
  IsWall groups meshes label r ∧ HitsGeom T r.geom (point m.ndim q.pp) (point m.ndim q.p) i ∧ sqDist (point m.ndim q.pp) i < T.realMax ∧
    ∀ l' r' i', IsWall groups meshes l' r' → HitsGeom T r'.geom (point m.ndim q.pp) (point m.ndim q.p) i' → ReachedFromInside m.ndim meshes r' q.pp q.p i' →
      sqDist (point m.ndim q.pp) i ≤ sqDist (point m.ndim q.pp) i'

/-- What a rank must get for its particles: a list for each boundary group; each entry is right; a particle that reaches a wall from inside is in one of
the lists; no particle is in two places. -/
def ReportOk (m : MHGeom K) (T : Tests K) (groups : List (ℤ × List ℤ)) (meshes : List (RankMesh K)) (particles : List (Particle K))
    (res : List (ℤ × List (Entry K))) : Prop :=
  res.map Prod.fst = groups.map Prod.fst ∧
  (∀ x ∈ res, ∀ e ∈ x.2, e.particle ∈ particles ∧ ∃ r i, ReportedHit m T groups meshes e.particle x.1 r i ∧
    e.metadata = (x.1, r.id) ∧ e.point = coords m.ndim i ∧ e.normal = r.geom.normal) ∧
  (∀ q ∈ particles, (∃ l r i, IsWall groups meshes l r ∧ HitsGeom T r.geom (point m.ndim q.pp) (point m.ndim q.p) i ∧
      ReachedFromInside m.ndim meshes r q.pp q.p i ∧ sqDist (point m.ndim q.pp) i < T.realMax) → ∃ x ∈ res, ∃ e ∈ x.2, e.particle = q) ∧
  (∀ x ∈ res, (x.2.map fun e => e.particle.index).Nodup) ∧
  ∀ x ∈ res, ∀ y ∈ res, ∀ e ∈ x.2, ∀ e' ∈ y.2, e.particle.index = e'.particle.index → x.1 = y.1

end Verif.Spec.WallRun
