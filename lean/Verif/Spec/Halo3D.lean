import Verif.Model.HaloExchange3D
import Verif.Spec.CellOverlap
import Verif.Spec.Geometry2D
import Verif.Spec.Halo

/-! What the halos of a distributed 3D mesh are. -/

namespace Verif.Spec
open Verif.Model.Bytes Verif.Model.PackedGeom2D Verif.Model.RemoteGeom Verif.Model.GeomTransport3D Verif.Model.Claims Verif.Model.HaloExchange3D

variable {K : Type} [Field K] [LinearOrder K] {n : ℕ}

/-- The element with the id `e.1` of rank `s` as the other ranks know it. -/
def asRemote3 (s : Fin n) (e : ℤ × LGeom3 K) : Remote3 Geom := ⟨s.val, e.1, e.2.geom⟩

/-- `out` holds, each once (by rank and id), the elements of the other ranks whose bounding box meets a cell owned by `r`. -/
def IsHalo3 (m : MHGeom K) (owner : ℤ → ℤ) (els : Fin n → List (ℤ × LGeom3 K)) (r : Fin n) (out : List (Remote3 Geom)) : Prop :=
  (out.map fun x => (x.rank, x.id)).Nodup ∧
  ∀ x, x ∈ out ↔ ∃ s, s ≠ r ∧ ∃ e ∈ els s, x = asRemote3 s e ∧ ∃ c, owner c = r.val ∧ BoxMeets m e.2.lo e.2.hi c

/-- `out` holds, each once (by rank and id), the faces with the shape `sh` of the elements `geoms`. -/
def IsFaces (sh : FaceShape) (geoms : List (Remote3 Geom)) (out : List Remote) : Prop :=
  (out.map fun x => (x.rank, x.id)).Nodup ∧
  ∀ x, x ∈ out ↔ ∃ g ∈ geoms, ∃ f ∈ g.geom.faces, f.shape = sh ∧ x = ⟨BitVec.ofInt 32 g.rank, BitVec.ofInt 32 f.gid, f.data⟩

/-- The number of edges of a face. -/
def edgesOfFace : FaceShape → ℕ
  | .tri => 3
  | .quad => 4

/-- The element with the id `e.1` of rank `s` as the other ranks know it. -/
def remote3Of (s : Fin n) (e : ℤ × Geom3 Geom) : Remote3 Geom := ⟨s.val, e.1, e.2⟩

/-- `out` holds, each once, the elements `els` of the other ranks which meet a cell owned by `r` or a cell which is, for one of `calls`, within the
offset of a cell met by an element of `r`. -/
def IsExtendedHalo3 (m : MHGeom K) (owner : ℤ → ℤ) (box : Geom3 Geom → (ℕ → K) × (ℕ → K)) (calls : List (ℤ × Bool))
    (els : Fin n → List (ℤ × Geom3 Geom)) (r : Fin n) (out : List (Remote3 Geom)) : Prop :=
  (out.map fun x => (x.rank, x.id)).Nodup ∧
  ∀ x, x ∈ out ↔ ∃ s, s ≠ r ∧ ∃ e ∈ els s, x = remote3Of s e ∧ ∃ c, BoxMeets m (box e.2).1 (box e.2).2 c ∧
    (owner c = r.val ∨ ∃ call ∈ calls, 0 ≤ call.1 ∧ ∃ e' ∈ els r, ∃ b, BoxMeets m (box e'.2).1 (box e'.2).2 b ∧ NearCell m.toMH call.1 call.2 b c)

end Verif.Spec
