import Verif.Model.CompositeCollections

/-! What the collections of composites hold. -/

namespace Verif.Spec
open Verif.Model.CompositeCollections

variable {K : Type}

/-- The geometries of a shape, in order. -/
def ofShape (s : Shape) (l : List (RG K)) : List (RG K) := l.filter fun r => decide (r.geom.shape = s)

/-- The collection of a cell whose geometries are `l`: for quads, then triangles, and for segments, the arrays hold geometry by geometry the
intersection data, the global id, the composite and the boundary group. -/
def collectionOf (group : ℤ → Option ℤ) (l : List (RG K)) : CC K :=
  let quads := ofShape .quad l
  let tris := ofShape .tri l
  let segs := ofShape .seg l
  let groupOf := fun r : RG K => (group r.composite).getD 0
  { numQuads := quads.length
    numTris := tris.length
    numSegments := segs.length
    lpi := (quads ++ tris).map RG.geom
    bufQuads := quads.map RG.geom
    bufTris := tris.map RG.geom
    compositeIds := (quads ++ tris).map RG.composite
    geomIds := (quads ++ tris).map RG.id
    groupQuads := quads.map groupOf
    groupTris := tris.map groupOf
    lliSegments := segs.map RG.geom
    compositeIdsSegments := segs.map RG.composite
    geomIdsSegments := segs.map RG.id
    groupSegments := segs.map groupOf }

/-- The shapes of the boundary: segments in 2D, triangles and quads in 3D. -/
def BoundaryShape (ndim : ℕ) (s : Shape) : Prop := (ndim = 2 ∧ s = .seg) ∨ (ndim = 3 ∧ (s = .tri ∨ s = .quad))

/-- A geometry of the boundary: its shape has one dimension less than the mesh, its composite is in a boundary group, its normal has `ndim`
components. -/
def GoodGeom (ndim : ℕ) (group : ℤ → Option ℤ) (r : RG K) : Prop :=
  BoundaryShape ndim r.geom.shape ∧ (group r.composite).isSome ∧ r.geom.normal.length = ndim

/-- A map holds, for each key of `f` on the geometries `R`, a value of a geometry with this key, and nothing else. -/
def MapOf {α β : Type} (R : RG K → Prop) (key : RG K → α) (val : RG K → β → Prop) (m : α → Option β) : Prop :=
  (∀ r, R r → ∃ b, m (key r) = some b) ∧ ∀ a b, m a = some b → ∃ r, R r ∧ key r = a ∧ val r b

/-- The state of a rank that has asked for the cells `asked`, when the geometries of cell `c` are `data c`. -/
structure Collected (ndim : ℕ) (data : ℤ → List (RG K)) (group : ℤ → Option ℤ) (asked : List ℤ) (r : Rank K) : Prop where
  /-- The cells held and collected are those asked for, each once. -/
  held : ∀ c, c ∈ r.transport.held ↔ c ∈ asked
  nodup : r.coll.collected.Nodup
  collected : ∀ c, c ∈ r.coll.collected ↔ c ∈ asked
  /-- A cell asked for was gathered. -/
  gathered : ∀ c ∈ asked, c ∈ r.transport.gathered
  /-- The tree has the collection of exactly the cells asked for that have geometries. -/
  tree : ∀ c, r.coll.tree c = if c ∈ asked ∧ data c ≠ [] then some (collectionOf group (data c)) else none
  /-- One collection was made for each of these. -/
  stack : r.coll.stackCollections = (r.coll.collected.filter fun c => decide (data c ≠ [])).map fun c => collectionOf group (data c)
  /-- The normals: by global id, the `ndim` values at the pointer are the normal of the geometry. -/
  normals : MapOf (fun g => ∃ c ∈ asked, g ∈ data c) RG.id
    (fun g (p : NormalPtr K) => (p.data.drop p.offset).take ndim = g.geom.normal) r.coll.normals
  geoms : MapOf (fun g => ∃ c ∈ asked, g ∈ data c) RG.id (fun g b => b = g.geom) r.coll.geomIdToGeoms
  composites : MapOf (fun g => ∃ c ∈ asked, g ∈ data c) RG.id (fun g b => b = g.composite) r.coll.geomIdToComposite
  compositeGeoms : MapOf (fun g => ∃ c ∈ asked, g ∈ data c) (fun g => (g.composite, g.id)) (fun g b => b = g.geom)
    (fun p => r.coll.compositesToGeoms p.1 p.2)
  modes : (∀ c ∈ asked, ∀ g ∈ data c, g.geom.numModes ≤ r.coll.maxNumModes) ∧
    (r.coll.maxNumModes = 0 ∨ ∃ c ∈ asked, ∃ g ∈ data c, r.coll.maxNumModes = g.geom.numModes)

end Verif.Spec
