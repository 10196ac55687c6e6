import Verif.Model.Reflection
import Verif.Spec.Intersections
import Verif.Spec.Collections

/-! Walls, and what is assumed of `BoundaryReflection`. -/

namespace Verif.Spec.Reflection
open Verif.Model Verif.Model.MeshHierarchy Verif.Model.Claims Verif.Model.CompositeCollections Verif.Model.LinePlane
open Verif.Model.CompositeIntersection Verif.Model.Reflection Verif.Spec

variable {K : Type} [Field K] [LinearOrder K]

/-- A point of the step of a particle. -/
def along (a b : ℕ → K) (s : K) (d : ℕ) : K := a d + s * (b d - a d)

/-- The scalar product. -/
def scalar (ndim : ℕ) (a b : ℕ → K) : K := ((List.range ndim).map fun d => a d * b d).sum

/-- A list as a vector. -/
def vec (l : List K) (d : ℕ) : K := l.getD d 0

/-- `BoundaryReflection` (contract), for a particle whose step passes the point `pt`: it puts the particle on the way from the previous position to the
point, before the point; it reflects the velocity at the plane with the normal `n`, and rewinds the time to the part `f` of the step that was made. -/
def ReflectOk (ndim : ℕ) (B : Reflect K) : Prop :=
  ∀ (q : RParticle K) (pt n : List K), (∃ s, 0 ≤ s ∧ s ≤ 1 ∧ ∀ d < ndim, vec pt d = along q.base.pp q.base.p s d) →
    let q' := B q pt n
    (q'.id = q.id ∧ q'.base.index = q.base.index ∧ q'.base.cell = q.base.cell ∧ q'.base.pp = q.base.pp) ∧
    (∃ s, 0 ≤ s ∧ s < 1 ∧ ∀ d < ndim, q'.base.p d = along q.base.pp (vec pt) s d) ∧
    (∀ d < ndim, q'.v d = q.v d - 2 * scalar ndim q.v (vec n) * vec n d) ∧
    ∃ f, 0 ≤ f ∧ f ≤ 1 ∧ (∀ d < ndim, q'.base.p d = along q.base.pp q.base.p f d) ∧ q'.last = f * q.last ∧ q'.total = q.total - q.last + q'.last

/-- A domain with walls: `inside` is the domain, and `surface r` are the points of the geometry `r` of a composite. -/
structure Walls (K : Type) where
  inside : (ℕ → K) → Prop
  geoms : List (RG K)
  surface : RG K → (ℕ → K) → Prop

/-- The walls close the domain, and the reflection is made for them. -/
structure WallsOk (g : MHGeom K) (E : Env K) (D : Walls K) : Prop where
  grid : GridGeom g
  ndim : g.ndim = 2 ∨ g.ndim = 3
  env : E.m = g.toMH
  cart : CartOk g E.cart
  /-- The domain is in the grid. -/
  inGrid : ∀ x, D.inside x → InGrid g.toMH fun d => E.cart d (x d)
  /-- The coordinates count. -/
  congr : ∀ x y, (∀ d < g.ndim, x d = y d) → D.inside x → D.inside y
  /-- The way out of the domain passes through a wall. -/
  closed : ∀ a b, D.inside a → ¬ D.inside b → ∃ r ∈ D.geoms, ∃ s, 0 ≤ s ∧ s ≤ 1 ∧ D.surface r (along a b s)
  /-- The walls are in the grid, and in the bounding boxes. -/
  wallGrid : ∀ r ∈ D.geoms, ∀ x, D.surface r x → ∀ d < g.ndim, g.origin d ≤ x d ∧ x d ≤ g.origin d + ((g.dims d * g.ncf : ℤ) : K) * g.width
  wallBox : ∀ r ∈ D.geoms, ∀ x, D.surface r x → ∀ d < g.ndim, r.geom.lo d ≤ x d ∧ x d ≤ r.geom.hi d
  /-- The walls are given for the cells their boxes, enlarged by 2%, meet (C29), and nothing else is given. -/
  given : ∀ r ∈ D.geoms, ∃ len, 0 < len ∧ ∀ c, BoxMeets g (fun d => r.geom.lo d - len / 50) (fun d => r.geom.hi d + len / 50) c → r ∈ E.data c
  only : ∀ c, ∀ r ∈ E.data c, r ∈ D.geoms
  good : ∀ r ∈ D.geoms, BoundaryShape g.ndim r.geom.shape ∧ r.composite ∈ E.composites ∧ r.geom.normal.length = g.ndim
  ids : ∀ r ∈ D.geoms, ∀ r' ∈ D.geoms, r.id = r'.id → r = r'
  /-- The tests of the kernels: what they find is on the step, and for a step that starts in the domain and meets the wall they find a point of the wall
  no further away. -/
  sound : ∀ r ∈ D.geoms, ∀ a b i, D.inside a → HitsGeom E.T r.geom (point g.ndim a) (point g.ndim b) i →
    ∃ s, 0 ≤ s ∧ s ≤ 1 ∧ i = point g.ndim (along a b s)
  complete : ∀ r ∈ D.geoms, ∀ a b s, D.inside a → 0 ≤ s → s ≤ 1 → D.surface r (along a b s) →
    ∃ i t, HitsGeom E.T r.geom (point g.ndim a) (point g.ndim b) i ∧ 0 ≤ t ∧ t ≤ s ∧ D.surface r (along a b t) ∧
      i = point g.ndim (along a b t)

/-- The state between the calls: each rank has collected the geometries of the cells it asked for; the particles have different local indices below
their number, and elements of the mesh. -/
def Good (E : Env K) (s : State K) : Prop :=
  s.ranks.length = s.parts.length ∧
  (∀ (i : ℕ) r, s.ranks[i]? = some r → ∃ asked, Collected E.m.ndim E.data (boundaryGroup E.composites) asked r) ∧
  ∀ l ∈ s.parts, (l.map fun q => q.base.index).Nodup ∧ ∀ q ∈ l, q.base.index < l.length ∧ q.base.cell < E.numCells

/-- The user's move keeps what identifies the particle and its previous position. -/
def AdvanceOk (adv : RParticle K → RParticle K) : Prop :=
  ∀ q, (adv q).id = q.id ∧ (adv q).base.index = q.base.index ∧ (adv q).base.cell = q.base.cell ∧ (adv q).base.pp = q.base.pp

/-- The steps are not too long: the indices of the cells are `int`s, and the squared length is below the greatest `REAL`. -/
def InRange (E : Env K) (parts : List (List (RParticle K))) : Prop :=
  ∀ l ∈ parts, ∀ q ∈ l, (∀ d < E.m.ndim, INT_MIN ≤ E.cart d (q.base.p d) ∧ E.cart d (q.base.p d) ≤ INT_MAX) ∧
    sqDist (point E.m.ndim q.base.pp) (point E.m.ndim q.base.p) < E.T.realMax

/-- What a call must do to a particle of the sub group (`q` is the particle after the user's move): it is left as it is, if its step meets no wall;
or it is reflected at a point where its step hits a wall, and no wall is met before this point. -/
def ReflectedAt (E : Env K) (D : Walls K) (B : Reflect K) (q q' : RParticle K) : Prop :=
  (q' = q ∧ ∀ r ∈ D.geoms, ∀ s, 0 ≤ s → s ≤ 1 → ¬ D.surface r (along q.base.pp q.base.p s)) ∨
  ∃ r ∈ D.geoms, ∃ i, q' = B q (coords E.m.ndim i) r.geom.normal ∧ HitsGeom E.T r.geom (point E.m.ndim q.base.pp) (point E.m.ndim q.base.p) i ∧
    ∀ r' ∈ D.geoms, ∀ s, 0 ≤ s → s ≤ 1 → D.surface r' (along q.base.pp q.base.p s) →
      sqDist (point E.m.ndim q.base.pp) i ≤ sqDist (point E.m.ndim q.base.pp) (point E.m.ndim (along q.base.pp q.base.p s))

end Verif.Spec.Reflection
