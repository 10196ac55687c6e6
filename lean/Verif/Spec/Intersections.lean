import Verif.Model.CompositeIntersection
import Verif.Spec.Cells
import Verif.Spec.CellOverlap

/-! Cells along the steps of particles. -/

namespace Verif.Spec
open Verif.Model Verif.Model.MeshHierarchy Verif.Model.HaloCells Verif.Model.Claims Verif.Model.CompositeIntersection

variable {K : Type}

/-- The index `t` is, in dimension `d`, between the indices of two positions or previous positions of particles in element `k`. -/
def Between (cart : ℕ → K → ℤ) (particles : List (Particle K)) (k d : ℕ) (t : ℤ) : Prop :=
  (∃ q ∈ particles, q.cell = k ∧ (cart d (q.p d) ≤ t ∨ cart d (q.pp d) ≤ t)) ∧
    ∃ q ∈ particles, q.cell = k ∧ (t ≤ cart d (q.p d) ∨ t ≤ cart d (q.pp d))

/-- `map_to_cart_tuple_no_trunc`: monotone, and the cell of a position in the grid. -/
structure CartOk [Field K] [LinearOrder K] (m : MHGeom K) (cart : ℕ → K → ℤ) : Prop where
  mono : ∀ d x y, x ≤ y → cart d x ≤ cart d y
  cell : ∀ d < m.ndim, ∀ x, m.origin d ≤ x → x < m.origin d + ((m.dims d * m.ncf : ℤ) : K) * m.width →
    m.origin d + (cart d x : K) * m.width ≤ x ∧ x < m.origin d + ((cart d x : K) + 1) * m.width

open Verif.Model.CompositeCollections Verif.Model.LinePlane

section hits
variable [Field K] [LinearOrder K]

/-- The step from `p0` to `p1` hits the geometry at `i`. -/
def HitsGeom (T : Tests K) (g : Geo K) (p0 p1 i : V3 K) : Prop :=
  match g.shape with
  | .seg => T.lli g p0 p1 = (true, i)
  | .tri => lineSegmentIntersection (T.plane g) p0 p1 = (true, i) ∧ pointNearToGeom (T.plane g) i = true ∧ T.triFound g i = true
  | .quad => lineSegmentIntersection (T.plane g) p0 p1 = (true, i) ∧ pointNearToGeom (T.plane g) i = true ∧
      ∃ g0 ≤ T.gridX, ∃ g1 ≤ T.gridY, T.quadFound g i g0 g1 = true
  | .other => False

/-- The step of the particle hits, at `i`, the geometry `r` of one of the cells. -/
def Hit (T : Tests K) (ndim : ℕ) (data : ℤ → List (RG K)) (cells : List ℤ) (q : Particle K) (r : RG K) (i : V3 K) : Prop :=
  (∃ c ∈ cells, r ∈ data c) ∧ HitsGeom T r.geom (point ndim q.pp) (point ndim q.p) i

/-- The squared distance of two points. -/
def sqDist (a b : V3 K) : K := (a.x - b.x) ^ 2 + (a.y - b.y) ^ 2 + (a.z - b.z) ^ 2

/-- A hit with the least distance from the start of the step. -/
def Nearest (T : Tests K) (ndim : ℕ) (data : ℤ → List (RG K)) (cells : List ℤ) (q : Particle K) (r : RG K) (i : V3 K) : Prop :=
  Hit T ndim data cells q r i ∧ ∀ r' i', Hit T ndim data cells q r' i' → sqDist (point ndim q.pp) i ≤ sqDist (point ndim q.pp) i'

/-- The particle is hit: closer than the greatest `REAL`. -/
def IsHit (T : Tests K) (ndim : ℕ) (data : ℤ → List (RG K)) (cells : List ℤ) (q : Particle K) : Prop :=
  ∃ r i, Hit T ndim data cells q r i ∧ sqDist (point ndim q.pp) i < T.realMax

/-- The coordinates of a point. -/
def coords (ndim : ℕ) (i : V3 K) : List K := if ndim = 3 then [i.x, i.y, i.z] else [i.x, i.y]

end hits

end Verif.Spec
